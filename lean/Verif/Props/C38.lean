import Verif.Lemmas.Dispatch
import Mathlib.Algebra.Order.Ring.Abs
import Mathlib.Algebra.Order.Ring.Rat
import Mathlib.Tactic.NormNum

/-!
# C38: perturbation attempts are bounded and failure is reported
-/
namespace Mcut.Dispatch
open Mcut.Hmesh Mcut.Preproc Mcut.Partition
variable {D : Type}

/-- Every kernel call of a dispatch: its perturbation count is the number of perturbations that the earlier answers asked for and at most the configured number of attempts;
the source mesh has the client's coordinates; the cut mesh has the client's coordinates moved by the perturbation vector; that vector is zero if nothing was
perturbed, and otherwise a random vector times the scale. -/
theorem C38_calls {c : Client} (hc : c.Sized) {env : LoadEnv} {enc : Enclosure} {its : List (Iter D)} (L : Possible c env its) {r : Step D} (h : preproc c env enc its = some r)
    (i : Nat) (k : Call) (hk : r.calls[i]? = some k) : CallOK c its (perturbations ((its.map Iter.answer).take i)) k := by
  have key : ∀ (pre : List (Iter D)) it post calls, its = pre ++ it :: post → CallsOK c (pre ++ [it]) calls → calls.length ≤ pre.length + 1 → calls[i]? = some k →
      CallOK c its (perturbations ((its.map Iter.answer).take i)) k := by
    intro pre it post calls e C hl hk
    have hi := (List.getElem?_eq_some_iff.1 hk).1
    have := C i k hk
    have e' : its = (pre ++ [it]) ++ post := by rw [e]; simp
    rw [e', List.map_append, List.take_append_of_le_length (by simp; omega)]
    exact this.mono (fun x hx => List.mem_append_left _ hx)
  rcases preproc_out hc L h with ⟨e, rfl⟩ | rfl | ⟨pre, it, post, e, o, -, n⟩
  · simp [Step.calls] at hk
  · simp [Step.calls] at hk
  · cases r with
    | again s => exact absurd rfl (n s)
    | ub => simp [Step.calls] at hk
    | err x l => exact key pre it post l e o.1 o.2.2 hk
    | ok s cs ty =>
      obtain ⟨-, C, -, hh⟩ := o
      refine key pre it post s.calls e C ?_ hk
      rcases hh with ⟨-, hl, -⟩ | ⟨hl, -⟩ <;> omega

/-- The perturbation is never larger than the scale, in any coordinate. -/
theorem C38_size {c : Client} (hc : c.Sized) (hd : c.DiagInvariant) {env : LoadEnv} {enc : Enclosure} {its : List (Iter D)} (L : Possible c env its)
    (hr : ∀ it ∈ its, |it.rnd.1| ≤ 1 ∧ |it.rnd.2.1| ≤ 1 ∧ |it.rnd.2.2| ≤ 1) {r : Step D} (h : preproc c env enc its = some r) (i : Nat) (k : Call) (hk : r.calls[i]? = some k) :
    |k.pert.1| ≤ |c.scale| ∧ |k.pert.2.1| ≤ |c.scale| ∧ |k.pert.2.2| ≤ |c.scale| := by
  have C := C38_calls hc L h i k hk
  rcases Nat.eq_zero_or_pos (perturbations ((its.map Iter.answer).take i)) with h0 | h0
  · rw [C.zero h0]; simp
  · obtain ⟨it, hit, e⟩ := C.scaled hd h0
    obtain ⟨h1, h2, h3⟩ := hr it hit
    rw [e]
    simp only [abs_mul]
    exact ⟨mul_le_of_le_one_left (abs_nonneg _) h1, mul_le_of_le_one_left (abs_nonneg _) h2, mul_le_of_le_one_left (abs_nonneg _) h3⟩

/-- A dispatch ends: after at most the configured number of attempts, plus one, plus the number of kernel runs that found floating polygons. -/
theorem C38_terminates {c : Client} (hc : c.Sized) (ha : c.attempts < 2 ^ 31) {env : LoadEnv} {enc : Enclosure} {its : List (Iter D)} (L : Possible c env its)
    (hlen : c.attempts + 1 + floatings (its.map Iter.answer) < its.length) : preproc c env enc its ≠ none := by
  intro h
  unfold preproc at h
  cases hs : (start c env : Step D) with
  | again s =>
    rw [hs] at h
    obtain ⟨s', E⟩ := (loop_out hc enc its [] (start_entry L.1 hs) L.2).2 h
    simp only [List.nil_append] at E
    have h1 := E.steps
    have h2 := E.status
    have hne : its ≠ [] := by rintro rfl; simp at hlen
    have h3 := (E.books hne).bound ha
    have h4 : perturbations (answers its) ≤ s'.count + 1 := by
      split at h2
      · omega
      · omega
      · exact absurd h2 hne
      · exact absurd h2 id
    have h5 : floatings (answers its) = floatings (its.map Iter.answer) := rfl
    omega
  | err e l => rw [hs] at h; cases h
  | ub => rw [hs] at h; cases h
  | ok s cs ty => rw [hs] at h; cases h

/-- Acceptable input meshes are read without error, for every schedule and perturbation. -/
theorem clean_of {c : Client} (hc : c.Sized) (hs : GoodMesh c.src) (hk : GoodMesh c.cut) : Clean c := by
  constructor
  · intro env L
    rcases C33_accepts_iff (0, 0, 0) c.src c.srcPts env hc.src hc.srcPts L with ⟨⟨m, hm⟩, -⟩ | ⟨-, h⟩
    · exact ⟨m, hm, (C34_accept _ _ _ _ hc.src hc.srcPts L m hm).2 ⟨hs.three, hs.conn⟩⟩
    · exact absurd hs.valid h
  · intro env t L
    have hl : (c.cutPts.map (fun p => Pt.add p t)).length = c.cut.numVertices := by rw [List.length_map]; exact hc.cutPts
    rcases C33_accepts_iff (0, 0, 0) c.cut (c.cutPts.map (fun p => Pt.add p t)) env hc.cut hl L with ⟨⟨m, hm⟩, -⟩ | ⟨-, h⟩
    · exact ⟨m, hm, (C34_accept _ _ _ _ hc.cut hl L m hm).2 ⟨hk.three, hk.conn⟩⟩
    · exact absurd hk.valid h

/-- Spec: agreement of the outcome with a verdict. -/
def Agrees : Option (Step D) → Option Verdict → Prop
  | none, none => True
  | some (.ok _ _ _), some .success => True
  | some (.err .invalidOperation _), some .fails => True
  | _, _ => False

theorem agrees_fails : ∀ {r : Option (Step D)}, Agrees r (some .fails) → ∃ calls, r = some (.err .invalidOperation calls)
  | none, h => h.elim
  | some (.ok _ _ _), h => h.elim
  | some (.again _), h => h.elim
  | some .ub, h => h.elim
  | some (.err .invalidOperation calls), _ => ⟨calls, rfl⟩
  | some (.err .invalidValue _), h => h.elim
  | some (.err .maxEnum _), h => h.elim

theorem traverse_call {c : Client} {its : List (Iter D)} {it : Iter D} {b : Bool} {s : St} (M : Mid c its it b s) (enc : Enclosure) (he : it.bvhEmpty = false) :
    ∃ s', Mid c its it b s' ∧ s'.rebuilt = false ∧ traverse c s b it enc = callKernel c s' it.answer enc := by
  unfold traverse
  by_cases hr : s.rebuilt = true
  · refine ⟨{ s with rebuilt := false, pairs := s.hier }, ⟨M.books.of rfl rfl rfl rfl rfl rfl, M.count, fun _ => rfl, M.len, M.calls, M.steps, M.plain⟩, rfl, ?_⟩
    rw [if_pos hr]
    simp only [he, Bool.false_eq_true, if_false]
  · exact ⟨s, M, by simpa using hr, by rw [if_neg hr]⟩

theorem loop_verdict {c : Client} (hc : c.Sized) (hcl : Clean c) (ha : c.attempts < 2 ^ 31) (enc : Enclosure) : ∀ (rest its : List (Iter D)) {s : St}, Entry c its s →
    (∀ it ∈ rest, LoadOk c.cut it.load ∧ it.bvhEmpty = false ∧ it.answer ≠ .throws ∧ ∀ l, it.answer ≠ .floating l) → floatings (answers its) = 0 →
    Agrees (loop c enc s rest) (if rest = [] then none else if Exhausted c s then some .fails else verdict (enforceOf c.flags) c.attempts (perturbations (answers its)) (rest.map Iter.answer))
  | [], its, s, E, _, _ => by simp [loop, Agrees]
  | it :: rest, its, s, E, H, hf => by
    obtain ⟨L, he, ht, hfl⟩ := H it (by simp)
    have H' : ∀ x ∈ rest, LoadOk c.cut x.load ∧ x.bvhEmpty = false ∧ x.answer ≠ .throws ∧ ∀ l, x.answer ≠ .floating l := fun x hx => H x (by simp [hx])
    have O := iterate_out hc E enc it L
    simp only [loop, List.cons_ne_nil, if_false]
    rcases iterate_cases hc E enc it L with ⟨e, hh, h⟩ | ⟨hh, h⟩ | ⟨s4, hex, M4, -, -, -, -, h⟩
    · rcases hh with ⟨h1, rfl⟩ | ⟨-, h2⟩
      · rw [h]; simp only [if_pos h1, Agrees]
      · exact absurd ⟨hf, hcl⟩ h2
    · exact absurd ⟨hf, hcl⟩ hh
    · rw [if_neg hex]
      obtain ⟨s5, M, hr, h5⟩ := traverse_call M4 enc he
      rw [h, h5] at O
      rw [h, h5]
      have hans : answers (its ++ [it]) = answers its ++ [it.answer] := by simp [answers]
      have henf : 0 < s5.enf ↔ 2 ≤ s5.count := by
        rcases Nat.eq_zero_or_pos s5.count with h | h
        · have := (M.books.zero h).2; omega
        · have := M.books.enf h; omega
      rw [← M.count]
      have next : ∀ s6, Entry c (its ++ [it]) s6 → s6.status = .gpv → s6.count = s5.count → perturbations (answers its ++ [it.answer]) = s5.count + 1 →
          floatings (answers its ++ [it.answer]) = 0 →
          Agrees (loop c enc s6 rest) (if rest.map Iter.answer = [] then none else if s5.count = c.attempts then some .fails
            else verdict (enforceOf c.flags) c.attempts (s5.count + 1) (rest.map Iter.answer)) := by
        intro s6 E6 hs hcnt hp hfs
        have := loop_verdict hc hcl ha enc rest (its ++ [it]) E6 H' (by rw [hans]; exact hfs)
        rw [hans, hp] at this
        have hx : Exhausted c s6 ↔ s5.count = c.attempts := by
          unfold Exhausted Client.limit
          rw [hs, hcnt, if_pos ha]
          simp only
          omega
        simp only [hx] at this
        simpa using this
      cases hb : it.answer with
      | throws => exact absurd hb ht
      | floating l => exact absurd hb (hfl l)
      | found k =>
        simp only [callKernel, answerStatus, finish, List.map_cons, verdict, Agrees, hb]
      | invalidSrc => simp only [callKernel, answerStatus, finish, List.map_cons, verdict, Agrees, hb]
      | invalidCut => simp only [callKernel, answerStatus, finish, List.map_cons, verdict, Agrees, hb]
      | invalidIntersection => simp only [callKernel, answerStatus, finish, List.map_cons, verdict, Agrees, hb]
      | gpv =>
        have hp := perturbations_snoc (answers its) (.gpv : Answer D Pt)
        have hfs := floatings_snoc (answers its) (.gpv : Answer D Pt)
        rw [hb] at O next
        by_cases hg : enforceOf c.flags = true
        · simp only [callKernel, answerStatus, finish, hg, if_true, List.map_cons, verdict, hb, Out] at O ⊢
          rw [hg] at next
          exact next _ O rfl rfl (by rw [hp, M.count]) (by rw [hfs, hf]; rfl)
        · have hg' : enforceOf c.flags = false := by simpa using hg
          simp only [callKernel, answerStatus, finish, hg', List.map_cons, verdict, hb, Bool.false_eq_true, if_false, Agrees]
      | noIntersection =>
        have hp := perturbations_snoc (answers its) (.noIntersection : Answer D Pt)
        have hfs := floatings_snoc (answers its) (.noIntersection : Answer D Pt)
        rw [hb] at O next
        by_cases hg : enforceOf c.flags = true ∧ 2 ≤ s5.count
        · have hg' : enforceOf c.flags = true ∧ 0 < s5.enf := ⟨hg.1, henf.2 hg.2⟩
          simp only [callKernel, answerStatus, finish, hg.1, hg'.2, hg.2, and_self, if_true, List.map_cons, verdict, hb, Out] at O ⊢
          rw [hg.1] at next
          exact next _ O rfl rfl (by rw [hp, ← M.count]; simp only [if_pos hg.2]) (by rw [hfs, hf]; rfl)
        · have hg' : ¬ (enforceOf c.flags = true ∧ 0 < s5.enf) := by rw [henf]; exact hg
          simp only [callKernel, answerStatus, if_neg hg', finish, List.map_cons, verdict, hb, if_neg hg, Agrees]

/-- The outcome of every dispatch of acceptable meshes, as long as no floating polygons are found, no exception is thrown in the kernel, and the bounding boxes of the
meshes overlap: success as soon as the kernel finds components; perturbation and another attempt for every violation of general position, if it is to be enforced;
MC_INVALID_OPERATION when it is not, when the attempts are used up, and for the other failures.
Missing: dispatches in which floating polygons are found or the kernel throws (for these only C38_calls, C38_size and C38_terminates). -/
theorem C38_outcome_partial {c : Client} (hc : c.Sized) (hs : GoodMesh c.src) (hk : GoodMesh c.cut) (ha : c.attempts < 2 ^ 31) {env : LoadEnv} (enc : Enclosure) {its : List (Iter D)}
    (L : Possible c env its) (hi : ∀ it ∈ its, it.bvhEmpty = false ∧ it.answer ≠ .throws ∧ ∀ l, it.answer ≠ .floating l) :
    Agrees (preproc c env enc its) (verdict (enforceOf c.flags) c.attempts 0 (its.map Iter.answer)) := by
  have hcl := clean_of hc hs hk
  obtain ⟨m, hm, hck⟩ := hcl.1 env L.1
  unfold preproc
  cases hst : (start c env : Step D) with
  | again s =>
    have E := start_entry L.1 hst
    have := loop_verdict hc hcl ha enc its [] E (fun it h => ⟨L.2 it h, hi it h⟩) rfl
    have hex : ¬ Exhausted c s := by
      obtain ⟨-, -, -, -, -, -, h, -⟩ := E.init rfl
      unfold Exhausted; rw [h]; exact id
    rw [if_neg hex] at this
    cases its with
    | nil => simpa [verdict] using this
    | cons x l => simpa [show perturbations (answers ([] : List (Iter D))) = 0 from rfl] using this
  | err e l => unfold start at hst; rw [hm] at hst; simp [hck] at hst
  | ub => unfold start at hst; rw [hm] at hst; simp [hck] at hst
  | ok s cs ty => unfold start at hst; rw [hm] at hst; simp [hck] at hst

/-- The successful runs among those of `C38_outcome_partial`. -/
theorem C38_success {c : Client} (hc : c.Sized) (hs : GoodMesh c.src) (hk : GoodMesh c.cut) (ha : c.attempts < 2 ^ 31) {env : LoadEnv} (enc : Enclosure) {its : List (Iter D)}
    (L : Possible c env its) (hi : ∀ it ∈ its, it.bvhEmpty = false ∧ it.answer ≠ .throws ∧ ∀ l, it.answer ≠ .floating l) :
    (∃ s cs ty, preproc c env enc its = some (.ok s cs ty)) ↔ verdict (enforceOf c.flags) c.attempts 0 (its.map Iter.answer) = some .success := by
  have h := C38_outcome_partial hc hs hk ha enc L hi
  generalize preproc c env enc its = r at h
  generalize verdict (enforceOf c.flags) c.attempts 0 (its.map Iter.answer) = v at h
  match r, v, h with
  | none, none, _ => simp
  | some (.ok s cs ty), some .success, _ => simp
  | some (.err .invalidOperation l), some .fails, _ => simp

theorem verdict_gpv (n a : Nat) : ∀ (k : Nat), n + k = a → ∀ l : List (Answer D Pt), l ≠ [] → verdict true a n (List.replicate (k + 1) .gpv ++ l) = some .fails
  | 0, h, l, hl => by
    have : n = a := h
    simp [List.replicate, verdict, hl, this]
  | k + 1, h, l, hl => by
    rw [List.replicate_succ, List.cons_append]
    have hne : List.replicate (k + 1) (Answer.gpv : Answer D Pt) ++ l ≠ [] := by simp [hl]
    simp only [verdict, if_true, if_neg hne]
    rw [if_neg (by omega)]
    exact verdict_gpv (n + 1) a k (by omega) l hl

/-- If general position is enforced and all kernel runs report a violation, the dispatch fails with MC_INVALID_OPERATION after exactly the configured number of perturbations. -/
theorem C38_exhausted {c : Client} (hc : c.Sized) (hs : GoodMesh c.src) (hk : GoodMesh c.cut) (ha : c.attempts < 2 ^ 31) (he : enforceOf c.flags = true)
    {env : LoadEnv} (enc : Enclosure) {its : List (Iter D)} (L : Possible c env its) (hi : ∀ it ∈ its, it.bvhEmpty = false ∧ it.answer = .gpv) (hlen : its.length = c.attempts + 2) :
    ∃ calls, preproc c env enc its = some (.err .invalidOperation calls) ∧ calls.length = c.attempts + 1 := by
  have hall : ∀ l : List (Iter D), (∀ it ∈ l, it ∈ its) → l.map Iter.answer = List.replicate l.length .gpv := by
    intro l hl
    rw [List.eq_replicate_iff]
    refine ⟨by simp, ?_⟩
    intro b hb
    obtain ⟨it, hit, rfl⟩ := List.mem_map.1 hb
    exact (hi it (hl it hit)).2
  have hout : ∀ l : List (Iter D), (∀ it ∈ l, it ∈ its) → Agrees (preproc c env enc l) (verdict (enforceOf c.flags) c.attempts 0 (l.map Iter.answer)) := fun l hl =>
    C38_outcome_partial hc hs hk ha enc ⟨L.1, fun it h => L.2 it (hl it h)⟩
      (fun it h => ⟨(hi it (hl it h)).1, by rw [(hi it (hl it h)).2]; simp, by intro l; rw [(hi it (hl it h)).2]; simp⟩)
  have h := hout its (fun _ h => h)
  rw [hall its (fun _ h => h), hlen, List.replicate_succ' (n := c.attempts + 1), he, verdict_gpv 0 c.attempts c.attempts (by omega) [.gpv] (by simp)] at h
  cases hr : preproc c env enc its with
  | none => rw [hr] at h; cases h
  | some r =>
    rw [hr] at h
    cases r with
    | again s => cases h
    | ok s cs ty => cases h
    | ub => cases h
    | err e calls =>
      cases e with
      | invalidValue => cases h
      | maxEnum => cases h
      | invalidOperation =>
        refine ⟨calls, rfl, ?_⟩
        have hcalls := C38_calls hc L hr
        have hup : calls.length ≤ c.attempts + 1 := by
          by_contra hcon
          have hlt : c.attempts + 1 < calls.length := by omega
          have := (hcalls (c.attempts + 1) calls[c.attempts + 1] (by simp [Step.calls, hlt])).bound ha
          rw [hall its (fun _ h => h), List.take_replicate, hlen] at this
          rw [show min (c.attempts + 1) (c.attempts + 2) = c.attempts + 1 by omega] at this
          have hp : ∀ n, perturbations (List.replicate n (Answer.gpv : Answer D Pt)) = n := by
            intro n
            induction n with
            | zero => rfl
            | succ n ih => rw [List.replicate_succ', perturbations_snoc, ih]
          rw [hp] at this
          omega
        rcases preproc_out hc L hr with ⟨e, h'⟩ | h' | ⟨pre, it, post, e, o, q, -⟩
        · exfalso
          cases h'
          obtain ⟨m, hm, hck⟩ := (clean_of hc hs hk).1 env L.1
          have h1 := hout [] (by simp)
          unfold preproc at h1 hr
          cases hst : (start c env : Step D) with
          | again s =>
            rw [hst] at hr
            obtain ⟨pre, it, post, e, o, -⟩ := (loop_out hc enc its [] (start_entry L.1 hst) L.2).1 _ hr
            have h2 := o.2.1
            have h3 : pre = [] := by simpa using h2
            subst h3
            have := (loop_out hc enc [it] [] (start_entry L.1 hst) (fun x hx => L.2 x (by rw [e]; simp at hx ⊢; exact .inl hx))).1
            have hx := hout [it] (by intro x hx; rw [e]; simp at hx ⊢; exact .inl hx)
            have hit := (hi it (by rw [e]; simp)).2
            obtain ⟨_, _, _, _, _, q, _⟩ := (loop_out hc enc its [] (start_entry L.1 hst) L.2).1 _ hr
            rename_i pre' it' post' e' o' _
            have hpre' : pre' = [] := by have := o'.2.1; simpa using this
            subst hpre'
            have : it' = it := by rw [e] at e'; simp at e'; exact e'.1.symm
            subst this
            unfold preproc at hx
            rw [hst] at hx
            simp only [List.nil_append] at q
            simp only [q, List.map_cons, List.map_nil, hit, he, verdict, if_true] at hx
            exact hx
          | err e l => unfold start at hst; rw [hm] at hst; simp [hck] at hst
          | ub => unfold start at hst; rw [hm] at hst; simp [hck] at hst
          | ok s cs ty => unfold start at hst; rw [hm] at hst; simp [hck] at hst
        · cases h'
        · have hsub : ∀ x ∈ pre ++ [it], x ∈ its := by rw [e]; simp; exact fun x hx => by rcases hx with h | h <;> simp [h]
          have hx := hout (pre ++ [it]) hsub
          rw [q, hall _ hsub, he] at hx
          by_contra hne
          have hlo := o.2.1
          have hplen : (pre ++ [it]).length ≤ c.attempts + 1 := by simp; omega
          have hnone : ∀ (n k : Nat), n + k ≤ c.attempts + 1 → verdict true c.attempts n (List.replicate k (Answer.gpv : Answer D Pt)) = none := by
            intro n k
            induction k generalizing n with
            | zero => intro _; rfl
            | succ k ih =>
              intro hk'
              rw [List.replicate_succ]
              simp only [verdict, if_true]
              cases k with
              | zero => rfl
              | succ k =>
                rw [if_neg (by simp), if_neg (by omega)]
                exact ih (n + 1) (by omega)
          rw [hnone 0 _ (by omega)] at hx
          exact hx

/-- Without enforcement the first violation makes the dispatch fail. -/
theorem C38_not_enforced {c : Client} (hc : c.Sized) (hs : GoodMesh c.src) (hk : GoodMesh c.cut) (ha : c.attempts < 2 ^ 31) (he : enforceOf c.flags = false)
    {env : LoadEnv} (enc : Enclosure) {it : Iter D} {rest : List (Iter D)} (L : Possible c env (it :: rest)) (hi : ∀ x ∈ it :: rest, x.bvhEmpty = false ∧ x.answer = .gpv) :
    ∃ calls, preproc c env enc (it :: rest) = some (.err .invalidOperation calls) := by
  have h := C38_outcome_partial hc hs hk ha enc L (fun it hit => ⟨(hi it hit).1, by rw [(hi it hit).2]; simp, by intro l; rw [(hi it hit).2]; simp⟩)
  simp only [he, List.map_cons, (hi it (by simp)).2, verdict, Bool.false_eq_true, if_false] at h
  exact agrees_fails h

/-- A successful dispatch reports, with every component, the perturbation of its last kernel call: the vector by which the stored cut mesh was moved. It is zero if the kernel never
asked for a perturbation. -/
theorem C38_reported {c : Client} (hc : c.Sized) {env : LoadEnv} {enc : Enclosure} {its : List (Iter D)} (L : Possible c env its) {s : St} {cs : List (Stored D)} {ty : Option IType}
    (h : preproc c env enc its = some (.ok s cs ty)) :
    ∀ x ∈ cs, (∃ k, s.calls.getLast? = some k ∧ x.pert = k.pert ∧ (k.count = 0 → x.pert = (0, 0, 0)) ∧ ∀ v p, c.cutPts[v]? = some p → k.cut.pos v = Pt.add p x.pert) := by
  intro x hx
  rcases preproc_out hc L h with ⟨e, h'⟩ | h' | ⟨pre, it, post, e, ⟨B, C, hcnt, hh⟩, -, -⟩
  · cases h'
  · cases h'
  · rcases hh with ⟨-, -, rfl, -⟩ | ⟨-, hlast, -, rfl, -, -⟩
    · cases hx
    · have hp : x.pert = s.pert := by
        unfold store at hx
        simp only [List.mem_reverse, List.mem_append, List.mem_map, List.mem_cons, List.not_mem_nil, or_false] at hx
        have seam : ∀ (b : Bool) (o : Option (D × Nat)) (f : D → Stored D), (∀ d, (f d).pert = s.pert) → x ∈ (match o with
            | some (d, n) => if 0 < n then [f d] else []
            | .none => []) → x.pert = s.pert := by
          intro b o f hf hx
          split at hx
          · split at hx
            · rw [List.mem_singleton.1 hx]; exact hf _
            · cases hx
          · cases hx
        rcases hx with (((((⟨y, -, rfl⟩ | ⟨y, -, rfl⟩) | ⟨y, -, rfl⟩) | ⟨y, -, rfl⟩) | hx) | hx) | (rfl | rfl)
        · rfl
        · rfl
        · rfl
        · rfl
        · exact seam true _ _ (fun _ => rfl) hx
        · exact seam false _ _ (fun _ => rfl) hx
        · rfl
        · rfl
      have ck := callOf_ok hc B
      refine ⟨_, hlast, hp, fun h0 => ?_, ?_⟩
      · rw [hp]; exact ck.zero h0
      · rw [hp]; exact ck.cut

/-- The claim that a dispatch never succeeds with a perturbed cut mesh that does not intersect the source mesh at all (the comment in kernel.cpp:3176-3185 says that it
perturbs again) is false, for all input meshes: the counter given to the kernel lags behind by one, so after the first perturbation such a result is accepted, and nothing but the
two input meshes is stored. -/
theorem C38_first_perturbation_fails {c : Client} (hc : c.Sized) (hs : GoodMesh c.src) (hk : GoodMesh c.cut) (ha : c.attempts < 2 ^ 31) (ha0 : 0 < c.attempts) (he : enforceOf c.flags = true)
    {env : LoadEnv} (enc : Enclosure) {i1 i2 : Iter D} (L : Possible c env [i1, i2]) (h1 : i1.answer = .gpv) (h2 : i2.answer = .noIntersection)
    (hb : i1.bvhEmpty = false ∧ i2.bvhEmpty = false) :
    ∃ s cs ty, preproc c env enc [i1, i2] = some (.ok s cs ty) ∧ s.count = 1 ∧ cs.length = 2 ∧ s.calls.length = 2 := by
  have hi : ∀ it ∈ [i1, i2], it.bvhEmpty = false ∧ it.answer ≠ .throws ∧ ∀ l, it.answer ≠ .floating l := by
    intro it h
    simp only [List.mem_cons, List.not_mem_nil, or_false] at h
    rcases h with rfl | rfl
    · exact ⟨hb.1, (by rw [h1]; simp), by intro l; rw [h1]; simp⟩
    · exact ⟨hb.2, (by rw [h2]; simp), by intro l; rw [h2]; simp⟩
  have h := C38_outcome_partial hc hs hk ha enc L hi
  have hv : verdict (enforceOf c.flags) c.attempts 0 ([i1, i2].map Iter.answer) = some .success := by
    have : ¬ (0 = c.attempts) := by omega
    simp [h1, h2, he, verdict, this]
  rw [hv] at h
  cases hr : preproc c env enc [i1, i2] with
  | none => rw [hr] at h; cases h
  | some r =>
    rw [hr] at h
    cases r with
    | again s => cases h
    | err e l => cases e <;> cases h
    | ub => cases h
    | ok s cs ty =>
      refine ⟨s, cs, ty, rfl, ?_⟩
      rcases preproc_out hc L hr with ⟨e, h'⟩ | h' | ⟨pre, it, post, e, ⟨B, C, hcnt, hh⟩, -, -⟩
      · cases h'
      · cases h'
      · have hans : it = i2 ∧ pre = [i1] := by
          match pre, e with
          | [], e =>
            exfalso
            simp only [List.nil_append, List.cons.injEq] at e
            obtain ⟨e1, -⟩ := e
            subst e1
            rcases hh with ⟨h3, -⟩ | ⟨-, -, -, -, h3, -⟩
            · rw [hb.1] at h3; cases h3
            · rw [h1] at h3; rcases h3 with ⟨k, h3⟩ | ⟨h3, -⟩ <;> cases h3
          | [x], e =>
            simp only [List.cons_append, List.nil_append, List.cons.injEq] at e
            obtain ⟨e1, e2, -⟩ := e
            exact ⟨e2.symm, by rw [e1]⟩
          | x :: y :: pre, e =>
            exfalso
            have := congrArg List.length e
            simp at this
        obtain ⟨rfl, rfl⟩ := hans
        have hcnt' : s.count = 1 := by rw [hcnt]; simp [answers, perturbations, h1]
        rcases hh with ⟨h3, -⟩ | ⟨hl, -, -, hcs, -, -⟩
        · rw [hb.2] at h3; cases h3
        · exact ⟨hcnt', by rw [hcs, h2]; simp [store, answerOut, KOut.none], by rw [hl]; rfl⟩

/-! ## Examples -/

/-- Two tetrahedra, general position enforced (flag `1 << 15`), all maps and the intersection type asked for. -/
def exClient : Client :=
  { src := exTetra, srcPts := [(0, 0, 0), (1, 0, 0), (0, 1, 0), (0, 0, 1)], cut := exTetra, cutPts := [(0, 0, 0), (1, 0, 0), (0, 1, 0), (0, 0, 1)],
    flags := 2 ^ 15 + 2 ^ 3 + 2 ^ 4 + 2 ^ 17, attempts := 3, constant := 1 / 100, diag := fun _ => 2 }

def exIter (a : Answer Unit Pt) : Iter Unit := { load := exEnv exTetra, rnd := (1, -1, 1 / 2), bvhEmpty := false, answer := a }

theorem exTetra_sized : exTetra.WellSized := ⟨by decide, (by intro l h; cases h), by decide, by decide⟩

theorem exTetra_good : GoodMesh exTetra := by
  have h : ∀ u, u < 4 → Relation.EqvGen (Side exTetra.faces) 0 u := by
    intro u hu
    have : u = 0 ∨ u = 1 ∨ u = 2 ∨ u = 3 := by omega
    rcases this with rfl | rfl | rfl | rfl
    · exact .refl _
    · exact .rel _ _ ⟨[0, 1, 2], by decide, by decide⟩
    · exact .rel _ _ ⟨[0, 2, 3], by decide, by decide⟩
    · exact .rel _ _ ⟨[0, 3, 1], by decide, by decide⟩
  exact ⟨by unfold ValidMesh GoodFace; decide, by decide, fun u v hu hv => ((h u hu).symm).trans _ _ _ (h v hv)⟩

theorem exClient_sized : exClient.Sized := ⟨exTetra_sized, exTetra_sized, rfl, rfl⟩

theorem ex_possible (as : List (Answer Unit Pt)) : Possible exClient (exEnv exTetra) (as.map exIter) := by
  refine ⟨exEnv_ok _ exTetra_sized, fun it h => ?_⟩
  obtain ⟨a, -, rfl⟩ := List.mem_map.1 h
  exact exEnv_ok _ exTetra_sized

example (enc : Enclosure) : ∃ calls, preproc exClient (exEnv exTetra) enc ((List.replicate 5 .gpv).map exIter) = some (.err .invalidOperation calls) ∧ calls.length = 4 := by
  refine C38_exhausted exClient_sized exTetra_good exTetra_good (by decide) (by decide) enc (ex_possible _) ?_ rfl
  intro it h
  obtain ⟨a, ha, rfl⟩ := List.mem_map.1 h
  exact ⟨rfl, List.eq_of_mem_replicate ha⟩

example (enc : Enclosure) : ∃ s cs ty, preproc exClient (exEnv exTetra) enc [exIter .gpv, exIter .noIntersection] = some (.ok s cs ty) ∧ s.count = 1 ∧ cs.length = 2 ∧ s.calls.length = 2 :=
  C38_first_perturbation_fails exClient_sized exTetra_good exTetra_good (by decide) (by decide) (by decide) enc (ex_possible [.gpv, .noIntersection]) rfl rfl ⟨rfl, rfl⟩

end Mcut.Dispatch
