import Verif.Lemmas.Book
import Verif.Spec.C38
import Verif.Props.C33
import Verif.Props.C34
import Mathlib.Tactic.Ring

/-! The loop of a dispatch. -/
namespace Mcut.Dispatch
open Mcut.Hmesh Mcut.Preproc Mcut.Partition
variable {D : Type}

/-- The answers of a list of iterations. -/
def answers (its : List (Iter D)) : List (Answer D Pt) := its.map Iter.answer

theorem perturbations_snoc (as : List (Answer D Pt)) (a : Answer D Pt) : perturbations (as ++ [a]) =
    match a with
    | .gpv => perturbations as + 1
    | .noIntersection => if 2 ≤ perturbations as then perturbations as + 1 else perturbations as
    | _ => perturbations as := by
  unfold perturbations
  rw [List.foldl_append]
  cases a <;> rfl

theorem floatings_snoc (as : List (Answer D Pt)) (a : Answer D Pt) : floatings (as ++ [a]) =
    floatings as + match a with
    | .floating _ => 1
    | _ => 0 := by
  unfold floatings
  rw [List.filter_append, List.length_append]
  cases a <;> rfl

theorem add_zero' (p : Pt) : Pt.add p (0, 0, 0) = p := by unfold Pt.add; simp

theorem map_add_zero (l : List Pt) : l.map (fun p => Pt.add p (0, 0, 0)) = l := by
  simp [add_zero']

/-- Common part of the invariants: meshes and their maps, and the recorded calls. -/
structure Books (c : Client) (its : List (Iter D)) (s : St) : Prop where
  src : ∃ env m H, LoadOk c.src env ∧ loadArrays (0, 0, 0) c.src c.srcPts env = .mesh m ∧ BookOK m s.src H
  cut : ∃ env m H, LoadOk c.cut env ∧ loadArrays (0, 0, 0) c.cut (c.cutPts.map (fun p => Pt.add p s.pert)) env = .mesh m ∧ BookOK m s.cut H
  rel : c.DiagInvariant → s.rel = c.scale
  zero : s.count = 0 → s.pert = (0, 0, 0) ∧ s.enf = 0
  enf : 0 < s.count → s.enf + 1 = s.count
  scaled : c.DiagInvariant → 0 < s.count → ∃ it ∈ its, s.pert = (it.rnd.1 * c.scale, it.rnd.2.1 * c.scale, it.rnd.2.2 * c.scale)
  bound : c.attempts < 2 ^ 31 → s.count ≤ c.attempts

/-- The recorded calls match the answers. -/
def CallsOK (c : Client) (its : List (Iter D)) (calls : List Call) : Prop :=
  ∀ (i : Nat) (k : Call), calls[i]? = some k → CallOK c its (perturbations ((answers its).take i)) k

/-- No mesh has been partitioned. -/
def Plain (c : Client) (s : St) : Prop :=
  (∃ env, LoadOk c.src env ∧ loadArrays (0, 0, 0) c.src c.srcPts env = .mesh s.src.mesh) ∧
  (∃ env t, LoadOk c.cut env ∧ loadArrays (0, 0, 0) c.cut (c.cutPts.map (fun p => Pt.add p t)) env = .mesh s.cut.mesh)

/-- Both input meshes are acceptable. -/
def Clean (c : Client) : Prop :=
  (∀ env, LoadOk c.src env → ∃ m, loadArrays (0, 0, 0) c.src c.srcPts env = .mesh m ∧ checkInputMesh m = true) ∧
  (∀ env t, LoadOk c.cut env → ∃ m, loadArrays (0, 0, 0) c.cut (c.cutPts.map (fun p => Pt.add p t)) env = .mesh m ∧ checkInputMesh m = true)

/-- The number of attempts as the code compares it (`int`). -/
def Client.limit (c : Client) : Int := if c.attempts < 2 ^ 31 then (c.attempts : Int) else (c.attempts : Int) - 2 ^ 32

/-- The perturbations are used up. -/
def Exhausted (c : Client) (s : St) : Prop :=
  match s.status with
  | .gpv => (s.count : Int) = c.limit
  | _ => False

instance (c : Client) (s : St) : Decidable (Exhausted c s) := by unfold Exhausted; split <;> infer_instance

/-- At the start of an iteration after those of `its`. -/
structure Entry (c : Client) (its : List (Iter D)) (s : St) : Prop where
  books : its ≠ [] → Books c its s
  init : its = [] → (∃ env m, LoadOk c.src env ∧ loadArrays (0, 0, 0) c.src c.srcPts env = .mesh m ∧ s.src = ⟨m, [], []⟩) ∧ s.cut.birth = [] ∧ s.cut.newV = [] ∧
    s.count = 0 ∧ s.pert = (0, 0, 0) ∧ s.enf = 0 ∧ s.status = .success ∧ s.calls = []
  rebuilt : its ≠ [] → s.rebuilt = false
  len : s.calls.length = its.length
  calls : CallsOK c its s.calls
  steps : its.length = perturbations (answers its) + floatings (answers its)
  plain : its ≠ [] → floatings (answers its) = 0 → Plain c s
  float : ∀ l, s.status = .floating l → floatings (answers its) ≠ 0
  status : match s.status with
    | .gpv => perturbations (answers its) = s.count + 1
    | .floating _ => perturbations (answers its) = s.count
    | .success => its = []
    | _ => False

/-- Before the traversal, in the iteration with `it` after those of `its`. -/
structure Mid (c : Client) (its : List (Iter D)) (it : Iter D) (gpv : Bool) (s : St) : Prop where
  books : Books c (its ++ [it]) s
  count : s.count = perturbations (answers its)
  rebuilt : gpv = true → s.rebuilt = false
  len : s.calls.length = its.length
  calls : CallsOK c its s.calls
  steps : its.length = perturbations (answers its) + floatings (answers its)
  plain : floatings (answers its) = 0 → Plain c s

theorem CallOK.mono {c : Client} {its its' : List (Iter D)} {n : Nat} {k : Call} (h : CallOK c its n k) (hs : ∀ x ∈ its, x ∈ its') : CallOK c its' n k :=
  { h with scaled := fun d p => let ⟨x, hx, e⟩ := h.scaled d p; ⟨x, hs x hx, e⟩ }

theorem CallsOK.snoc {c : Client} {its : List (Iter D)} {it : Iter D} {calls : List Call} {k : Call} (hl : calls.length = its.length) (h : CallsOK c its calls)
    (hk : CallOK c (its ++ [it]) (perturbations (answers its)) k) : CallsOK c (its ++ [it]) (calls ++ [k]) := by
  intro i x hx
  rcases Nat.lt_trichotomy i calls.length with hi | hi | hi
  · rw [List.getElem?_append_left hi] at hx
    have := h i x hx
    rw [answers, List.map_append, List.take_append_of_le_length (by simp; omega)]
    exact this.mono (fun y hy => List.mem_append_left _ hy)
  · subst hi
    rw [List.getElem?_append_right (Nat.le_refl _)] at hx
    simp only [Nat.sub_self, List.getElem?_cons_zero, Option.some.injEq] at hx
    subst hx
    have : (answers (its ++ [it])).take calls.length = answers its := by
      rw [answers, List.map_append, List.take_append_of_le_length (by simp [hl]), List.take_of_length_le (by simp [hl])]; rfl
    rw [this]; exact hk
  · rw [List.getElem?_eq_none (by simp; omega)] at hx; cases hx

theorem built_src {c : Client} (hc : c.Sized) {env : LoadEnv} {m : Mesh Pt} (L : LoadOk c.src env) (h : loadArrays (0, 0, 0) c.src c.srcPts env = .mesh m) :
    Built (0, 0, 0) c.srcPts c.src.faces m := C33_built _ _ _ _ hc.src hc.srcPts L m h

theorem built_cut {c : Client} (hc : c.Sized) {t : Pt} {env : LoadEnv} {m : Mesh Pt} (L : LoadOk c.cut env)
    (h : loadArrays (0, 0, 0) c.cut (c.cutPts.map (fun p => Pt.add p t)) env = .mesh m) :
    Built (0, 0, 0) (c.cutPts.map (fun p => Pt.add p t)) c.cut.faces m :=
  C33_built _ _ _ _ hc.cut (by rw [List.length_map]; exact hc.cutPts) L m h

theorem faces_length {a : Arrays} (w : a.WellSized) : a.faces.length = a.numFaces := by
  have h := w.length
  unfold Arrays.faces
  rw [← h]
  generalize a.sizesOf = l
  generalize a.indices = x
  induction l generalizing x with
  | nil => rfl
  | cons y l ih => simp [splitBy, ih]

/-- A call of the kernel in a good state is a good call. -/
theorem callOf_ok {c : Client} (hc : c.Sized) {its : List (Iter D)} {s : St} (B : Books c its s) : CallOK c its s.count (callOf s) where
  count := rfl
  bound := B.bound
  zero := fun h => (B.zero h).1
  cut := by
    intro v p hp
    obtain ⟨env, m, H, L, hm, K⟩ := B.cut
    have M := built_cut hc L hm
    have hlt : v < m.nV := by
      rw [M.nV, List.length_map]
      exact (List.getElem?_eq_some_iff.1 hp).1
    show s.cut.mesh.pos v = _
    rw [K.pos v hlt]
    exact M.pos v _ (by rw [List.getElem?_map, hp]; rfl)
  src := by
    intro v p hp
    obtain ⟨env, m, H, L, hm, K⟩ := B.src
    have M := built_src hc L hm
    have hlt : v < m.nV := by
      rw [M.nV]
      exact (List.getElem?_eq_some_iff.1 hp).1
    show s.src.mesh.pos v = _
    rw [K.pos v hlt]
    exact M.pos v _ hp
  scaled := B.scaled

/-- What reading the cut mesh leaves. -/
theorem readCut_ok {c : Client} {s s' : St} {env : LoadEnv} (hz : s.count = 0 → s.pert = (0, 0, 0)) (h : readCut c s env = .ok s') :
    ∃ m, loadArrays (0, 0, 0) c.cut (c.cutPts.map (fun p => Pt.add p s.pert)) env = .mesh m ∧
      s'.cut = { s.cut with mesh := m } ∧ s'.src = s.src ∧ s'.count = s.count ∧ s'.pert = s.pert ∧ s'.enf = s.enf ∧ s'.calls = s.calls ∧ s'.status = s.status ∧
      s'.rel = (if absoluteOf c.flags then 1 else c.diag (c.cutPts.map (fun p => Pt.add p s.pert))) * c.constant ∧
      (s.count ≠ 0 → s'.rebuilt = s.rebuilt ∧ s'.hier = s.hier) ∧ s'.first = s.first ∧ s'.tight = s.tight ∧ s'.prev = s.prev ∧ s'.pairs = s.pairs := by
  have hp : (if s.count = 0 then c.cutPts else c.cutPts.map (fun p => Pt.add p s.pert)) = c.cutPts.map (fun p => Pt.add p s.pert) := by
    split
    · next h0 => rw [hz h0, map_add_zero]
    · rfl
  unfold readCut at h
  dsimp only at h
  rw [hp] at h
  split at h
  · cases h
  · cases h
  · cases h
  · next m hm =>
    refine ⟨m, hm, ?_⟩
    by_cases h0 : s.count = 0
    · rw [if_pos h0] at h; cases h
      exact ⟨rfl, rfl, rfl, rfl, rfl, rfl, rfl, rfl, fun hh => absurd h0 hh, rfl, rfl, rfl, rfl⟩
    · rw [if_neg h0] at h; cases h
      exact ⟨rfl, rfl, rfl, rfl, rfl, rfl, rfl, rfl, fun _ => ⟨rfl, rfl⟩, rfl, rfl, rfl, rfl⟩

/-- The end of an iteration's preparation, once the meshes are as they should be. -/
theorem prepared {c : Client} {its : List (Iter D)} {it : Iter D} {enc : Enclosure} {s0 s : St} (b : Bool) (M : Mid c its it b s) (hcalls : s.calls = s0.calls) :
    (∃ e, ¬ (floatings (answers its) = 0 ∧ Clean c) ∧ (if checkInputMesh s.src.mesh = false then (.err .invalidValue s0.calls : Step D)
        else if checkInputMesh s.cut.mesh = false then .err .invalidValue s0.calls
        else traverse c { s with tight := if s.first then (s.src.mesh.isClosed, s.cut.mesh.isClosed) else s.tight, first := false, status := .success } b it enc) = .err e s0.calls) ∨
    ∃ s4, Mid c its it b s4 ∧ s4.status = .success ∧ s4.calls = s0.calls ∧ checkInputMesh s4.src.mesh = true ∧ checkInputMesh s4.cut.mesh = true ∧
      (if checkInputMesh s.src.mesh = false then (.err .invalidValue s0.calls : Step D)
        else if checkInputMesh s.cut.mesh = false then .err .invalidValue s0.calls
        else traverse c { s with tight := if s.first then (s.src.mesh.isClosed, s.cut.mesh.isClosed) else s.tight, first := false, status := .success } b it enc) = traverse c s4 b it enc := by
  by_cases h1 : checkInputMesh s.src.mesh = false
  · left
    refine ⟨.invalidValue, fun ⟨hf, hcl⟩ => ?_, by rw [if_pos h1]⟩
    obtain ⟨⟨env, L, h⟩, -⟩ := M.plain hf
    obtain ⟨m, hm, hck⟩ := hcl.1 env L
    rw [h] at hm; cases hm; rw [h1] at hck; cases hck
  · by_cases h2 : checkInputMesh s.cut.mesh = false
    · left
      refine ⟨.invalidValue, fun ⟨hf, hcl⟩ => ?_, by rw [if_neg h1, if_pos h2]⟩
      obtain ⟨-, ⟨env, t, L, h⟩⟩ := M.plain hf
      obtain ⟨m, hm, hck⟩ := hcl.2 env t L
      rw [h] at hm; cases hm; rw [h2] at hck; cases hck
    · right
      refine ⟨{ s with tight := if s.first then (s.src.mesh.isClosed, s.cut.mesh.isClosed) else s.tight, first := false, status := .success }, ?_, rfl, hcalls, ?_, ?_, ?_⟩
      · exact ⟨⟨M.books.src, M.books.cut, M.books.rel, M.books.zero, M.books.enf, M.books.scaled, M.books.bound⟩, M.count, M.rebuilt, M.len, M.calls, M.steps, M.plain⟩
      · simpa using h1
      · simpa using h2
      · rw [if_neg h1, if_neg h2]

theorem iterate_cases {c : Client} (hc : c.Sized) {its : List (Iter D)} {s : St} (E : Entry c its s) (enc : Enclosure) (it : Iter D) (L : LoadOk c.cut it.load) :
    (∃ e, ((Exhausted c s ∧ e = .invalidOperation) ∨ ¬ Exhausted c s ∧ ¬ (floatings (answers its) = 0 ∧ Clean c)) ∧ iterate c enc s it = .err e s.calls) ∨
    (¬ (floatings (answers its) = 0 ∧ Clean c) ∧ iterate c enc s it = .ub) ∨
    ∃ s4, ¬ Exhausted c s ∧ Mid c its it (match s.status with | .gpv => true | _ => false) s4 ∧ s4.status = .success ∧ s4.calls = s.calls ∧
      checkInputMesh s4.src.mesh = true ∧ checkInputMesh s4.cut.mesh = true ∧
      iterate c enc s it = traverse c s4 (match s.status with | .gpv => true | _ => false) it enc := by
  have hsub : ∀ x ∈ its, x ∈ its ++ [it] := fun x hx => List.mem_append_left _ hx
  have hload : ∀ {s1 : St} {x : Option Err}, (s1.count = 0 → s1.pert = (0, 0, 0)) → readCut c s1 it.load = .error x → ¬ (floatings (answers its) = 0 ∧ Clean c) := by
    rintro s1 x hz hr ⟨_, hcl⟩
    obtain ⟨m, hm, -⟩ := hcl.2 it.load s1.pert L
    have hp : (if s1.count = 0 then c.cutPts else c.cutPts.map (fun p => Pt.add p s1.pert)) = c.cutPts.map (fun p => Pt.add p s1.pert) := by
      split
      · next h0 => rw [hz h0, map_add_zero]
      · rfl
    unfold readCut at hr
    dsimp only at hr
    rw [hp, hm] at hr
    cases hr
  unfold iterate
  have hst := E.status
  cases hs : s.status with
  | success =>
    rw [hs] at hst
    subst hst
    obtain ⟨⟨env0, m0, L0, hm0, hsrc⟩, hb, hn, h0, hp, he, -, hcalls⟩ := E.init rfl
    have hex : ¬ Exhausted c s := by unfold Exhausted; rw [hs]; exact id
    have hper : perturb c s it.rnd = some s := by unfold perturb; rw [hs]
    simp only [hper, reload, h0]
    have hz : s.count = 0 → s.pert = (0, 0, 0) := fun _ => hp
    cases hr : readCut c s it.load with
    | error x => cases x with
      | none => exact .inr (.inl ⟨hload hz hr, rfl⟩)
      | some e => exact .inl ⟨e, .inr ⟨hex, hload hz hr⟩, rfl⟩
    | ok s2 =>
      obtain ⟨m, hm, hcut, hsr, hco, hpe, hen, hca, hss, hrel, -, -⟩ := readCut_ok hz hr
      have hpart : partition s2 = .ok s2 := by unfold partition; rw [hss, hs]
      simp only [beq_self_eq_true, if_true, hpart]
      have M := built_cut hc L hm
      have M0 := built_src hc L0 hm0
      have mid : Mid c [] it false s2 := by
        refine ⟨⟨⟨env0, m0, [], L0, hm0, ?_⟩, ⟨it.load, m, [], L, ?_, ?_⟩, ?_, ?_, ?_, ?_, ?_⟩, ?_, ?_, ?_, ?_, ?_, ?_⟩
        · rw [hsr, hsrc]; exact BookOK.init M0.vRem M0.fRem
        · rw [hpe]; exact hm
        · have : s2.cut = ⟨m, [], []⟩ := by rw [hcut, ← hb, ← hn]
          rw [this]; exact BookOK.init M.vRem M.fRem
        · intro d; rw [hrel, d]; rfl
        · intro _; rw [hpe, hen]; exact ⟨hp, he⟩
        · intro h; rw [hco, h0] at h; cases h
        · intro _ h; rw [hco, h0] at h; cases h
        · intro _; rw [hco, h0]; exact Nat.zero_le _
        · rw [hco, h0]; rfl
        · intro h; cases h
        · rw [hca]; exact E.len
        · rw [hca]; exact E.calls
        · exact E.steps
        · intro _; refine ⟨⟨env0, L0, ?_⟩, ⟨it.load, s.pert, L, ?_⟩⟩
          · rw [hsr, hsrc]; exact hm0
          · rw [hcut]; exact hm
      rcases prepared (enc := enc) false mid hca with h | h
      · obtain ⟨e, h1, h2⟩ := h; exact .inl ⟨e, .inr ⟨hex, h1⟩, h2⟩
      · obtain ⟨s4, h⟩ := h; exact .inr (.inr ⟨s4, hex, h⟩)
  | gpv =>
    rw [hs] at hst
    simp only at hst
    have hne : its ≠ [] := by intro h; subst h; simp [answers, perturbations] at hst
    have B := E.books hne
    cases hper : perturb c s it.rnd with
    | none =>
      refine .inl ⟨_, .inl ⟨?_, rfl⟩, rfl⟩
      unfold perturb at hper
      rw [hs] at hper
      unfold Exhausted
      rw [hs]
      simp only at hper ⊢
      by_contra hcon
      unfold Client.limit at hcon
      rw [if_neg hcon] at hper
      cases hper
    | some s1 =>
      unfold perturb at hper
      rw [hs] at hper
      simp only at hper
      by_cases hcnt : (s.count : Int) = (if c.attempts < 2 ^ 31 then (c.attempts : Int) else (c.attempts : Int) - 2 ^ 32)
      · rw [if_pos hcnt] at hper; cases hper
      have hex : ¬ Exhausted c s := by unfold Exhausted; rw [hs]; exact hcnt
      rw [if_neg hcnt] at hper
      have hs1 := (Option.some.inj hper).symm
      have f1 : s1.enf = s.count := by rw [hs1]
      have f2 : s1.pert = (it.rnd.1 * s.rel, it.rnd.2.1 * s.rel, it.rnd.2.2 * s.rel) := by rw [hs1]
      have f3 : s1.count = s.count + 1 := by rw [hs1]
      have f4 : s1.status = .gpv := by rw [hs1]
      have f5 : s1.src = s.src ∧ s1.cut = s.cut ∧ s1.rebuilt = s.rebuilt ∧ s1.calls = s.calls := by rw [hs1]; exact ⟨rfl, rfl, rfl, rfl⟩
      clear hper hs1
      simp only [reload, if_true]
      cases hr : readCut c s1 it.load with
      | error x => cases x with
        | none => exact .inr (.inl ⟨hload (fun h => by rw [f3] at h; cases h) hr, rfl⟩)
        | some e => exact .inl ⟨e, .inr ⟨hex, hload (fun h => by rw [f3] at h; cases h) hr⟩, rfl⟩
      | ok s2 =>
        obtain ⟨m, hm, hcut, hsr, hco, hpe, hen, hca, hss, hrel, hreb, -⟩ := readCut_ok (fun h => by rw [f3] at h; cases h) hr
        have hpart : partition s2 = .ok s2 := by unfold partition; rw [hss, f4]
        simp only [hpart]
        have M := built_cut hc L hm
        obtain ⟨env1, m1, H1, L1, hm1, K1⟩ := B.cut
        have M1 := built_cut hc L1 hm1
        have mid : Mid c its it true s2 := by
          refine ⟨⟨?_, ⟨it.load, m, [], L, ?_, ?_⟩, ?_, ?_, ?_, ?_, ?_⟩, ?_, ?_, ?_, ?_, ?_, ?_⟩
          · rw [hsr, f5.1]; exact B.src
          · rw [hpe]; exact hm
          · rw [hcut, f5.2.1]; exact K1.fresh M.vRem M.fRem (by rw [M.nV, M1.nV, List.length_map, List.length_map]) (by rw [M.nF, M1.nF])
          · intro d; rw [hrel, d]; rfl
          · intro h; rw [hco, f3] at h; cases h
          · intro h; rw [hco, hen, f1, f3]
          · intro d h; rw [hpe, f2]; exact ⟨it, by simp, by simp only [B.rel d]⟩
          · intro h; rw [hco, f3]; have := B.bound h; rw [if_pos h] at hcnt; omega
          · rw [hco, f3, hst]
          · intro _; rw [(hreb (by rw [f3]; simp)).1, f5.2.2.1]; exact E.rebuilt hne
          · rw [hca, f5.2.2.2]; exact E.len
          · rw [hca, f5.2.2.2]; exact E.calls
          · exact E.steps
          · intro h0; refine ⟨?_, ⟨it.load, s1.pert, L, ?_⟩⟩
            · rw [hsr, f5.1]; exact (E.plain hne h0).1
            · rw [hcut]; exact hm
        rcases prepared (enc := enc) true mid (hca.trans f5.2.2.2) with h | h
        · obtain ⟨e, h1, h2⟩ := h; exact .inl ⟨e, .inr ⟨hex, h1⟩, h2⟩
        · obtain ⟨s4, h⟩ := h; exact .inr (.inr ⟨s4, hex, h⟩)
  | floating l =>
    rw [hs] at hst
    simp only at hst
    have hne : its ≠ [] := by
      intro h; obtain ⟨-, -, -, -, -, -, h', -⟩ := E.init h; rw [hs] at h'; cases h'
    have B := E.books hne
    have hex : ¬ Exhausted c s := by unfold Exhausted; rw [hs]; exact id
    have hfl : ¬ (floatings (answers its) = 0 ∧ Clean c) := fun h => E.float l hs h.1
    have hper : perturb c s it.rnd = some s := by unfold perturb; rw [hs]
    simp only [hper, reload]
    cases hpa : partition s with
    | error x =>
      simp only [Bool.false_eq_true, if_false]
      cases x with
      | none => exact .inr (.inl ⟨hfl, by rw [hpa]⟩)
      | some e => exact .inl ⟨e, .inr ⟨hex, hfl⟩, by rw [hpa]⟩
    | ok s3 =>
      simp only [Bool.false_eq_true, if_false]
      rw [hpa]
      simp only
      unfold partition at hpa
      rw [hs] at hpa
      simp only at hpa
      obtain ⟨env0, m0, H0, L0, hm0, K0⟩ := B.src
      obtain ⟨env1, m1, H1, L1, hm1, K1⟩ := B.cut
      split at hpa
      · cases hpa
      · cases hpa
      · next src' cut' ms mc hres =>
        cases hpa
        obtain ⟨H', K', B0, B1⟩ := resolve_ok _ _ K0 K1 hres
        have mid : Mid c its it false { s with src := src', cut := cut', hier := (if ms then src'.mesh.numFaces else s.hier.1, if mc then cut'.mesh.numFaces else s.hier.2), rebuilt := ms || mc } := by
          refine ⟨⟨⟨env0, m0, H', L0, hm0, B0⟩, ⟨env1, m1, K', L1, hm1, B1⟩, B.rel, B.zero, B.enf, ?_, B.bound⟩, hst.symm, ?_, E.len, E.calls, E.steps, fun h => absurd h (E.float l hs)⟩
          · intro d h; obtain ⟨x, hx, e⟩ := B.scaled d h; exact ⟨x, hsub x hx, e⟩
          · intro h; cases h
        rcases prepared (enc := enc) false mid rfl with h | h
        · obtain ⟨e, h1, h2⟩ := h; exact .inl ⟨e, .inr ⟨hex, h1⟩, h2⟩
        · obtain ⟨s4, h⟩ := h; exact .inr (.inr ⟨s4, hex, h⟩)
  | invalidSrc => rw [hs] at hst; cases hst
  | invalidCut => rw [hs] at hst; cases hst
  | invalidIntersection => rw [hs] at hst; cases hst

theorem Books.of {c : Client} {its : List (Iter D)} {s s' : St} (B : Books c its s) (h1 : s'.src = s.src) (h2 : s'.cut = s.cut) (h3 : s'.pert = s.pert) (h4 : s'.rel = s.rel)
    (h5 : s'.count = s.count) (h6 : s'.enf = s.enf) : Books c its s' where
  src := by rw [h1]; exact B.src
  cut := by rw [h2, h3]; exact B.cut
  rel := by rw [h4]; exact B.rel
  zero := by rw [h3, h5, h6]; exact B.zero
  enf := by rw [h5, h6]; exact B.enf
  scaled := by rw [h3, h5]; exact B.scaled
  bound := by rw [h5]; exact B.bound

/-- What an iteration may result in. -/
def Out (c : Client) (enc : Enclosure) (its : List (Iter D)) (it : Iter D) : Step D → Prop
  | .again s => Entry c (its ++ [it]) s
  | .err _ calls => CallsOK c (its ++ [it]) calls ∧ its.length ≤ calls.length ∧ calls.length ≤ its.length + 1
  | .ub => True
  | .ok s cs ty => Books c (its ++ [it]) s ∧ CallsOK c (its ++ [it]) s.calls ∧ s.count = perturbations (answers its) ∧
      (it.bvhEmpty = true ∧ s.calls.length = its.length ∧ cs = [] ∧ ty = (if itypeOf c.flags then some (enclosureType s.tight.1 s.tight.2 enc) else .none) ∨
        s.calls.length = its.length + 1 ∧ s.calls.getLast? = some (callOf s) ∧ s.prev = s.src.mesh.numFaces ∧ cs = store c s (answerOut (keepOf c.flags) it.answer) ∧
        ((∃ k, it.answer = .found k) ∨ it.answer = .noIntersection ∧ ¬ (enforceOf c.flags = true ∧ 2 ≤ s.count)) ∧
        ty = (if itypeOf c.flags then some (if 2 < cs.length then .standard else enclosureType s.tight.1 s.tight.2 enc) else .none))

theorem CallsOK.mono {c : Client} {its : List (Iter D)} {it : Iter D} {calls : List Call} (hl : calls.length ≤ its.length) (h : CallsOK c its calls) :
    CallsOK c (its ++ [it]) calls := by
  intro i x hx
  have hi := (List.getElem?_eq_some_iff.1 hx).1
  have := h i x hx
  rw [answers, List.map_append, List.take_append_of_le_length (by simp; omega)]
  exact this.mono (fun y hy => List.mem_append_left _ hy)

theorem callKernel_out {c : Client} (hc : c.Sized) {its : List (Iter D)} {it : Iter D} {b : Bool} {s : St} (M : Mid c its it b s) (hr : s.rebuilt = false) (enc : Enclosure) :
    Out c enc its it (callKernel c s it.answer enc) := by
  have hcall : CallsOK c (its ++ [it]) (s.calls ++ [callOf s]) := by
    refine CallsOK.snoc M.len M.calls ?_
    rw [← M.count]; exact callOf_ok hc M.books
  have hans : answers (its ++ [it]) = answers its ++ [it.answer] := by simp [answers]
  have hlen : (s.calls ++ [callOf s]).length = (its ++ [it]).length := by simp [M.len]
  have henf : 0 < s.enf ↔ 2 ≤ s.count := by
    rcases Nat.eq_zero_or_pos s.count with h | h
    · have := (M.books.zero h).2; omega
    · have := M.books.enf h; omega
  unfold callKernel
  dsimp only
  cases ha : it.answer with
  | found k =>
    simp only [answerStatus, finish, Out]
    refine ⟨M.books.of rfl rfl rfl rfl rfl rfl, hcall, M.count, .inr ⟨by simp [M.len], by simp [callOf], trivial, by rw [ha], .inl ⟨k, ha⟩, trivial⟩⟩
  | noIntersection =>
    simp only [answerStatus]
    by_cases hg : enforceOf c.flags = true ∧ 0 < s.enf
    · rw [if_pos hg]
      simp only [finish, hg.1, if_true, Out]
      have hp := perturbations_snoc (answers its) (.noIntersection : Answer D Pt)
      have hf := floatings_snoc (answers its) (.noIntersection : Answer D Pt)
      have h2 : 2 ≤ perturbations (answers its) := by rw [← M.count]; exact henf.1 hg.2
      simp only [if_pos h2] at hp
      refine ⟨fun _ => M.books.of rfl rfl rfl rfl rfl rfl, fun h => by simp at h, fun _ => hr, hlen, hcall, ?_, ?_, ?_, ?_⟩
      · rw [hans, ha, hp, hf]; have := M.steps; simp; omega
      · intro _ h0; rw [hans, ha, hf] at h0; exact M.plain (by simpa using h0)
      · intro l h; cases h
      · simp only [hans, ha, hp, M.count]
    · rw [if_neg hg]
      simp only [finish, Out]
      refine ⟨M.books.of rfl rfl rfl rfl rfl rfl, hcall, M.count, .inr ⟨by simp [M.len], by simp [callOf], trivial, by rw [ha], .inr ⟨ha, ?_⟩, trivial⟩⟩
      rw [henf] at hg; exact hg
  | gpv =>
    simp only [answerStatus, finish]
    by_cases hg : enforceOf c.flags = true
    · rw [if_pos hg]
      have hp := perturbations_snoc (answers its) (.gpv : Answer D Pt)
      have hf := floatings_snoc (answers its) (.gpv : Answer D Pt)
      simp only at hp
      refine ⟨fun _ => M.books.of rfl rfl rfl rfl rfl rfl, fun h => by simp at h, fun _ => hr, hlen, hcall, ?_, ?_, ?_, ?_⟩
      · rw [hans, ha, hp, hf]; have := M.steps; simp; omega
      · intro _ h0; rw [hans, ha, hf] at h0; exact M.plain (by simpa using h0)
      · intro l h; cases h
      · simp only [hans, ha, hp, M.count]
    · rw [if_neg hg]; exact ⟨hcall, by simp [M.len], by simp [M.len]⟩
  | floating l =>
    simp only [answerStatus, finish]
    have hp := perturbations_snoc (answers its) (.floating l : Answer D Pt)
    have hf := floatings_snoc (answers its) (.floating l : Answer D Pt)
    simp only at hp
    refine ⟨fun _ => M.books.of rfl rfl rfl rfl rfl rfl, fun h => by simp at h, fun _ => hr, hlen, hcall, ?_, ?_, ?_, ?_⟩
    · rw [hans, ha, hp, hf]; have := M.steps; simp; omega
    · intro _ h0; rw [hans, ha, hf] at h0; simp at h0
    · intro l' _; rw [hans, ha, hf]; simp
    · simp only [hans, ha, hp, M.count]
  | invalidSrc => simp only [answerStatus, finish]; exact ⟨hcall, by simp [M.len], by simp [M.len]⟩
  | invalidCut => simp only [answerStatus, finish]; exact ⟨hcall, by simp [M.len], by simp [M.len]⟩
  | invalidIntersection => simp only [answerStatus, finish]; exact ⟨hcall, by simp [M.len], by simp [M.len]⟩
  | throws => simp only [answerStatus]; exact ⟨hcall, by simp [M.len], by simp [M.len]⟩

theorem traverse_out {c : Client} (hc : c.Sized) {its : List (Iter D)} {it : Iter D} {b : Bool} {s : St} (M : Mid c its it b s) (enc : Enclosure) :
    Out c enc its it (traverse c s b it enc) := by
  unfold traverse
  by_cases hr : s.rebuilt = true
  · rw [if_pos hr]
    have hb : b = false := by
      cases b with
      | false => rfl
      | true => rw [M.rebuilt rfl] at hr; cases hr
    subst hb
    have M' : Mid c its it false { s with rebuilt := false, pairs := s.hier } :=
      ⟨M.books.of rfl rfl rfl rfl rfl rfl, M.count, (fun h => by cases h), M.len, M.calls, M.steps, M.plain⟩
    dsimp only
    by_cases he : it.bvhEmpty = true
    · rw [if_pos he]
      simp only [Bool.false_and, Bool.false_eq_true, if_false, Out]
      exact ⟨M'.books, M.calls.mono (Nat.le_of_eq M.len), M.count, .inl ⟨he, M.len, trivial, trivial⟩⟩
    · rw [if_neg he]
      exact callKernel_out hc M' rfl enc
  · rw [if_neg hr]
    exact callKernel_out hc M (by simpa using hr) enc

theorem iterate_out {c : Client} (hc : c.Sized) {its : List (Iter D)} {s : St} (E : Entry c its s) (enc : Enclosure) (it : Iter D) (L : LoadOk c.cut it.load) :
    Out c enc its it (iterate c enc s it) := by
  rcases iterate_cases hc E enc it L with ⟨e, -, h⟩ | ⟨-, h⟩ | ⟨s4, -, M, -, -, -, -, h⟩
  · rw [h]; exact ⟨E.calls.mono (Nat.le_of_eq E.len), by rw [E.len], by rw [E.len]; omega⟩
  · rw [h]; trivial
  · rw [h]; exact traverse_out hc M enc

theorem start_entry {c : Client} {env : LoadEnv} (L : LoadOk c.src env) {s : St} (h : (start c env : Step D) = .again s) : Entry c ([] : List (Iter D)) s := by
  unfold start at h
  split at h
  · cases h
  · cases h
  · cases h
  · next m hm =>
    split at h
    · cases h
      exact {
        books := fun h => absurd rfl h
        init := fun _ => ⟨⟨env, m, L, hm, rfl⟩, rfl, rfl, rfl, rfl, rfl, rfl, rfl⟩
        rebuilt := fun h => absurd rfl h
        len := rfl
        calls := fun i k h => by simp at h
        steps := rfl
        plain := fun h => absurd rfl h
        float := fun l h => by cases h
        status := rfl }
    · cases h

/-- What a dispatch may result in. -/
theorem loop_out {c : Client} (hc : c.Sized) (enc : Enclosure) : ∀ (rest its : List (Iter D)) {s : St}, Entry c its s → (∀ it ∈ rest, LoadOk c.cut it.load) →
    (∀ r, loop c enc s rest = some r → ∃ pre it post, rest = pre ++ it :: post ∧ Out c enc (its ++ pre) it r ∧ loop c enc s (pre ++ [it]) = some r ∧ ∀ s', r ≠ .again s') ∧
    (loop c enc s rest = none → ∃ s', Entry c (its ++ rest) s')
  | [], its, s, E, _ => ⟨(fun r h => by cases h), fun _ => ⟨s, by simpa using E⟩⟩
  | it :: rest, its, s, E, L => by
    have O := iterate_out hc E enc it (L it (by simp))
    simp only [loop]
    cases hi : iterate c enc s it with
    | again s' =>
      rw [hi] at O
      obtain ⟨h1, h2⟩ := loop_out hc enc rest (its ++ [it]) (s := s') O (fun x hx => L x (by simp [hx]))
      constructor
      · intro r hr
        obtain ⟨pre, it', post, e, o, q, n⟩ := h1 r hr
        exact ⟨it :: pre, it', post, by simp [e], by simpa using o, by simp only [List.cons_append, loop, hi]; exact q, n⟩
      · intro hr
        obtain ⟨s'', h⟩ := h2 hr
        exact ⟨s'', by simpa using h⟩
    | ok s' cs ty =>
      rw [hi] at O
      exact ⟨fun r hr => by cases hr; exact ⟨[], it, rest, rfl, by simpa using O, by simp only [List.nil_append, loop, hi], fun s' h => by cases h⟩, fun h => by cases h⟩
    | err e l =>
      rw [hi] at O
      exact ⟨fun r hr => by cases hr; exact ⟨[], it, rest, rfl, by simpa using O, by simp only [List.nil_append, loop, hi], fun s' h => by cases h⟩, fun h => by cases h⟩
    | ub =>
      exact ⟨fun r hr => by cases hr; exact ⟨[], it, rest, rfl, by simp [Out], by simp only [List.nil_append, loop, hi], fun s' h => by cases h⟩, fun h => by cases h⟩

theorem preproc_out {c : Client} (hc : c.Sized) {env : LoadEnv} {enc : Enclosure} {its : List (Iter D)} (L : Possible c env its) {r : Step D} (h : preproc c env enc its = some r) :
    (∃ e, r = .err e []) ∨ r = .ub ∨ ∃ pre it post, its = pre ++ it :: post ∧ Out c enc pre it r ∧ preproc c env enc (pre ++ [it]) = some r ∧ ∀ s', r ≠ .again s' := by
  unfold preproc at h
  cases hs : (start c env : Step D) with
  | again s =>
    rw [hs] at h
    obtain ⟨pre, it, post, e, o, q, n⟩ := (loop_out hc enc its [] (start_entry L.1 hs) L.2).1 r h
    exact .inr (.inr ⟨pre, it, post, e, by simpa using o, by unfold preproc; rw [hs]; exact q, n⟩)
  | err e l =>
    rw [hs] at h
    simp only [Option.some.injEq] at h
    left
    unfold start at hs
    split at hs
    · cases hs
    · cases hs; exact ⟨_, h.symm⟩
    · cases hs; exact ⟨_, h.symm⟩
    · split at hs
      · cases hs
      · cases hs; exact ⟨_, h.symm⟩
  | ub => rw [hs] at h; simp only [Option.some.injEq] at h; exact .inr (.inl h.symm)
  | ok s cs ty =>
    exfalso
    unfold start at hs
    split at hs
    · cases hs
    · cases hs
    · cases hs
    · split at hs <;> cases hs

theorem loop_length {c : Client} (enc : Enclosure) : ∀ (rest : List (Iter D)) (s : St), loop c enc s rest = none → ∀ pre, pre <+: rest → loop c enc s pre = none
  | [], s, _, pre, hp => by have := List.prefix_nil.1 hp; subst this; rfl
  | it :: rest, s, h, pre, hp => by
    cases pre with
    | nil => rfl
    | cons x pre =>
      obtain ⟨rfl, hp'⟩ := List.cons_prefix_cons.1 hp
      simp only [loop] at h ⊢
      split at h
      · exact loop_length enc rest _ h pre hp'
      · cases h

end Mcut.Dispatch
