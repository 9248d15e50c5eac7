import Verif.Spec.C64
import Verif.Props.C62
import Verif.Props.C63

/-!
# C64: faces without area are found before the intersection tests
-/
namespace Mcut.FaceProps
open Mcut.Hmesh Mcut.Geom Mcut.Sched
variable {R : Type} {props : Nat → R} {zero : Nat → Bool}

theorem pass_spec (fs : List Nat) : ∀ (done : List Nat) (t : Table R), TableOf props done t →
    ((∃ u, pass props zero fs t = .ok u) ↔ ∀ f ∈ fs, zero f = false) ∧ (∀ u, pass props zero fs t = .ok u → TableOf props (done ++ fs) u) ∧
    ∀ f, pass props zero fs t = .error f → ∃ a b, fs = a ++ f :: b ∧ zero f = true ∧ ∀ g ∈ a, zero g = false := by
  induction fs with
  | nil =>
    intro done t h
    refine ⟨by simp [pass], ?_, by simp [pass]⟩
    intro u hu; simp only [pass, Except.ok.injEq] at hu; subst hu; simpa using h
  | cons f fs ih =>
    intro done t h
    rw [pass]
    cases hz : zero f with
    | true =>
      rw [if_pos rfl]
      refine ⟨by simp [hz], by simp, ?_⟩
      intro g hg
      simp only [Except.error.injEq] at hg
      subst hg
      exact ⟨[], fs, rfl, hz, by simp⟩
    | false =>
      rw [if_neg (by simp)]
      have ht : TableOf props (done ++ [f]) (upd t f (some (props f))) := by
        intro g
        by_cases hg : g = f
        · subst hg; simp [upd]
        · rw [upd_other _ _ _ _ hg, h g]; simp [hg]
      obtain ⟨h1, h2, h3⟩ := ih _ _ ht
      refine ⟨by rw [h1]; simp [hz], ?_, ?_⟩
      · intro u hu; simpa using h2 u hu
      · intro g hg
        obtain ⟨a, b, hab, hgz, hlt⟩ := h3 g hg
        refine ⟨f :: a, b, by rw [hab]; rfl, hgz, ?_⟩
        intro x hx
        rcases List.mem_cons.1 hx with rfl | hx
        · exact hz
        · exact hlt x hx

/-- **C64 (without the thread pool).** The stage succeeds exactly if no tested face has an area of zero, and then has the plane of exactly the tested faces; otherwise
it reports the first tested face without area. -/
theorem C64_sequential (faces : List Nat) :
    ((∃ t, sequential props zero faces = .ok t) ↔ ∀ f ∈ faces, zero f = false) ∧ (∀ t, sequential props zero faces = .ok t → TableOf props faces t) ∧
    ∀ f, sequential props zero faces = .error f → ∃ a b, faces = a ++ f :: b ∧ zero f = true ∧ ∀ g ∈ a, zero g = false := by
  have := pass_spec (props := props) (zero := zero) faces [] (fun _ => none) (fun f => by simp)
  simpa [sequential] using this

theorem foldl_table (w : List Nat) : ∀ (done : List Nat) (t : Table R), TableOf props done t →
    TableOf props (done ++ w) (w.foldl (fun t f => upd t f (some (props f))) t) := by
  induction w with
  | nil => intro done t h; simpa using h
  | cons f w ih =>
    intro done t h
    have ht : TableOf props (done ++ [f]) (upd t f (some (props f))) := by
      intro g
      by_cases hg : g = f
      · subst hg; simp [upd]
      · rw [upd_other _ _ _ _ hg, h g]; simp [hg]
    simpa using ih _ _ ht

theorem blockTable_spec (w : List Nat) : TableOf props w (blockTable props w) := by
  simpa [blockTable] using foldl_table (props := props) w [] (fun _ => none) (fun f => by simp)

theorem insertAll_spec {a b : List Nat} {t u : Table R} (h : TableOf props a t) (h' : TableOf props b u) : TableOf props (a ++ b) (insertAll t u) := by
  intro f
  unfold insertAll
  rw [h f, h' f]
  by_cases ha : f ∈ a <;> simp [ha]

/-- What holds in every state. -/
structure Inv (props : Nat → R) (zero : Nat → Bool) (M : List Nat) (W : List (List Nat)) (s : Par R) : Prop where
  bad : ∀ f, s.flag = some f → f ∈ M ++ W.flatten ∧ zero f = true
  good : s.flag = none → (∀ f ∈ M.take s.mpos, zero f = false) ∧ ∀ (i : Nat) w, W[i]? = some w → ∀ f ∈ w.take (s.pos i), zero f = false
  mlen : s.mpos ≤ M.length
  plen : ∀ (i : Nat) w, W[i]? = some w → s.pos i ≤ w.length
  mdone : s.mdone = true → s.mpos = M.length
  early : s.mdone = false → s.next = 0 ∧ s.stopped = false ∧ s.result = none
  next : s.next ≤ W.length
  fin : ∀ (i : Nat) w, W[i]? = some w → i < s.next → s.pos i = w.length
  acc : s.mdone = true → TableOf props (M ++ (W.take s.next).flatten) s.acc
  stop : s.stopped = true → s.flag.isSome
  left : ∀ r, s.result = some r → s.mdone = true ∧ (s.stopped = true ∨ s.next = W.length) ∧ (r.isSome ↔ s.flag.isSome) ∧
    ∀ f, r = some f → f ∈ M ++ W.flatten ∧ zero f = true

theorem take_succ_mem {w : List Nat} {n f : Nat} (hf : w[n]? = some f) {g : Nat} : g ∈ w.take (n + 1) ↔ g ∈ w.take n ∨ g = f := by
  rw [List.take_add_one, hf]; simp

theorem inv_reach {M : List Nat} {W : List (List Nat)} {s : Par R} (h : Reach props zero M W s) : Inv props zero M W s := by
  induction h with
  | init => exact ⟨by simp [Par.init], by simp [Par.init], by simp [Par.init], by simp [Par.init], by simp [Par.init], by simp [Par.init], by simp [Par.init],
      by simp [Par.init], by simp [Par.init], by simp [Par.init], by simp [Par.init]⟩
  | step hr hst I =>
    cases hst with
    | workerFace i w f hi hf =>
      rename_i s0
      have hlt : s0.pos i < w.length := (List.getElem?_eq_some_iff.1 hf).1
      have hmem : f ∈ M ++ W.flatten := List.mem_append_right _ (List.mem_flatten.2 ⟨w, List.mem_of_getElem? hi, List.mem_of_getElem? hf⟩)
      have hni : ¬ i < s0.next := fun hn => by have := I.fin i w hi hn; omega
      refine ⟨?_, ?_, I.mlen, ?_, I.mdone, I.early, I.next, ?_, I.acc, ?_, ?_⟩
      · intro g hg
        simp only at hg
        split at hg
        · rename_i hz; simp only [Option.some.injEq] at hg; subst hg; exact ⟨hmem, hz⟩
        · exact I.bad g hg
      · intro hfl
        simp only at hfl
        split at hfl
        · cases hfl
        rename_i hz
        obtain ⟨g1, g2⟩ := I.good hfl
        refine ⟨g1, fun j w' hj g hg => ?_⟩
        simp only at hg
        by_cases hji : j = i
        · subst hji
          rw [hi] at hj
          simp only [Option.some.injEq] at hj
          subst hj
          rw [upd_same, take_succ_mem hf] at hg
          rcases hg with hg | rfl
          · exact g2 j w hi g hg
          · simpa using hz
        · rw [upd_other _ _ _ _ hji] at hg; exact g2 j w' hj g hg
      · intro j w' hj
        simp only
        by_cases hji : j = i
        · subst hji
          rw [hi] at hj
          simp only [Option.some.injEq] at hj
          subst hj
          rw [upd_same]; exact hlt
        · rw [upd_other _ _ _ _ hji]; exact I.plen j w' hj
      · intro j w' hj hn
        simp only at hn ⊢
        by_cases hji : j = i
        · subst hji; exact absurd hn hni
        · rw [upd_other _ _ _ _ hji]; exact I.fin j w' hj hn
      · intro hs; have := I.stop hs; simp only; split <;> simp [this]
      · intro r hres
        simp only at hres ⊢
        obtain ⟨a, b, c, d⟩ := I.left r hres
        refine ⟨a, b, ?_, d⟩
        rcases b with b | b
        · have := I.stop b
          rw [c]; split <;> simp [this]
        · exact absurd (by rw [b]; exact (List.getElem?_eq_some_iff.1 hi).1) hni
    | masterFace f hf =>
      rename_i s0
      have hlt : s0.mpos < M.length := (List.getElem?_eq_some_iff.1 hf).1
      have hmem : f ∈ M ++ W.flatten := List.mem_append_left _ (List.mem_of_getElem? hf)
      have hmd : s0.mdone = false := by
        cases hm : s0.mdone with
        | false => rfl
        | true => have := I.mdone hm; omega
      refine ⟨?_, ?_, hlt, I.plen, ?_, I.early, I.next, I.fin, I.acc, ?_, ?_⟩
      · intro g hg
        simp only at hg
        split at hg
        · rename_i hz; simp only [Option.some.injEq] at hg; subst hg; exact ⟨hmem, hz⟩
        · exact I.bad g hg
      · intro hfl
        simp only at hfl
        split at hfl
        · cases hfl
        rename_i hz
        obtain ⟨g1, g2⟩ := I.good hfl
        refine ⟨fun g hg => ?_, g2⟩
        simp only at hg
        rw [take_succ_mem hf] at hg
        rcases hg with hg | rfl
        · exact g1 g hg
        · simpa using hz
      · intro hm; simp only at hm; rw [hmd] at hm; cases hm
      · intro hs; have := (I.early hmd).2.1; simp only at hs; rw [this] at hs; cases hs
      · intro r hres; have := (I.early hmd).2.2; simp only at hres; rw [this] at hres; cases hres
    | masterEnd hlen hm =>
      obtain ⟨e1, e2, e3⟩ := I.early hm
      refine ⟨I.bad, I.good, I.mlen, I.plen, fun _ => hlen, by simp, I.next, I.fin, ?_, I.stop, ?_⟩
      · intro _; simp only [e1, List.take_zero, List.flatten_nil, List.append_nil]; exact blockTable_spec M
      · intro r hres; simp only at hres; rw [e3] at hres; cases hres
    | await w hm hs hn hw hres =>
      rename_i s0
      have hlt : s0.next < W.length := (List.getElem?_eq_some_iff.1 hn).1
      by_cases hfl : s0.flag.isSome
      · rw [if_pos hfl]
        exact ⟨I.bad, I.good, I.mlen, I.plen, I.mdone, fun h => absurd hm (by simp only at h; rw [h]; simp), I.next, I.fin, I.acc, fun _ => hfl,
          fun r h => by simp only at h; rw [hres] at h; cases h⟩
      · rw [if_neg hfl]
        refine ⟨I.bad, I.good, I.mlen, I.plen, I.mdone, fun h => absurd hm (by simp only at h; rw [h]; simp), hlt, ?_, ?_, I.stop,
          fun r h => by simp only at h; rw [hres] at h; cases h⟩
        · intro i w' hi hin
          simp only at hin ⊢
          by_cases hh : i = s0.next
          · subst hh; rw [hn] at hi; simp only [Option.some.injEq] at hi; subst hi; exact hw
          · exact I.fin i w' hi (by omega)
        · intro _
          simp only
          have e : M ++ (W.take (s0.next + 1)).flatten = (M ++ (W.take s0.next).flatten) ++ w := by
            rw [List.take_add_one, hn]; simp
          rw [e]
          exact insertAll_spec (I.acc hm) (blockTable_spec w)
    | leave hm hs hres =>
      refine ⟨I.bad, I.good, I.mlen, I.plen, I.mdone, fun h => absurd hm (by simp only at h; rw [h]; simp), I.next, I.fin, I.acc, I.stop, ?_⟩
      intro r h
      simp only [Option.some.injEq] at h
      subst h
      exact ⟨hm, hs, Iff.rfl, I.bad⟩

/-- **C64 (with the thread pool).** In every execution, when the calling thread leaves the stage: it reports no face exactly if no tested face has an area of zero, and then
every job has returned and the planes of exactly the tested faces are in the tables; a face that it reports is a tested face without area. -/
theorem C64_parallel (M : List Nat) (W : List (List Nat)) (s : Par R) (h : Reach props zero M W s) (r : Option Nat) (hr : s.result = some r) :
    (r = none ↔ ∀ f ∈ M ++ W.flatten, zero f = false) ∧ (∀ f, r = some f → f ∈ M ++ W.flatten ∧ zero f = true) ∧
    (r = none → (∀ i, ¬ Running W s i) ∧ TableOf props (M ++ W.flatten) s.acc) := by
  have I := inv_reach h
  obtain ⟨a, b, c, d⟩ := I.left r hr
  have hnone : r = none → s.flag = none ∧ s.next = W.length := by
    intro hn
    have hf : s.flag = none := by
      cases hfl : s.flag with
      | none => rfl
      | some f => rw [hn, hfl] at c; simp at c
    refine ⟨hf, b.resolve_left (fun hs => ?_)⟩
    have := I.stop hs
    rw [hf] at this; simp at this
  have hall : ∀ (i : Nat) w, W[i]? = some w → r = none → s.pos i = w.length := by
    intro i w hi hn
    exact I.fin i w hi (by rw [(hnone hn).2]; exact (List.getElem?_eq_some_iff.1 hi).1)
  refine ⟨⟨fun hn f hf => ?_, fun hz => ?_⟩, d, fun hn => ⟨?_, ?_⟩⟩
  · obtain ⟨g1, g2⟩ := I.good (hnone hn).1
    rcases List.mem_append.1 hf with hf | hf
    · exact g1 f (by rw [I.mdone a, List.take_length]; exact hf)
    · obtain ⟨w, hw, hfw⟩ := List.mem_flatten.1 hf
      obtain ⟨i, hi⟩ := List.getElem?_of_mem hw
      exact g2 i w hi f (by rw [hall i w hi hn, List.take_length]; exact hfw)
  · cases r with
    | none => rfl
    | some f =>
      obtain ⟨h1, h2⟩ := d f rfl
      rw [hz f h1] at h2; cases h2
  · rintro i ⟨w, hi, hlt⟩
    have := hall i w hi hn
    omega
  · have := I.acc a
    rwa [(hnone hn).2, List.take_length] at this

/-- Remaining steps. -/
def measure (M : List Nat) (W : List (List Nat)) (s : Par R) : Nat :=
  ((List.range W.length).map (fun i => (W.getD i []).length - s.pos i)).sum + (M.length - s.mpos) + (if s.mdone then 0 else 1) + (W.length - s.next) +
    (if s.stopped then 0 else 1) + (if s.result.isSome then 0 else 1)

/-- **C64 (with the thread pool): the stage ends.** As long as the calling thread has not left the stage some thread can make a step, and every step reduces a measure. -/
theorem C64_terminates (M : List Nat) (W : List (List Nat)) (s : Par R) (h : Reach props zero M W s) :
    (s.result = none → ∃ s', Step props zero M W s s') ∧ ∀ s', Step props zero M W s s' → measure M W s' < measure M W s := by
  have I := inv_reach h
  constructor
  · intro hres
    rcases Nat.lt_or_ge s.mpos M.length with hm | hm
    · exact ⟨_, .masterFace s _ (List.getElem?_eq_getElem hm)⟩
    cases hmd : s.mdone with
    | false => exact ⟨_, .masterEnd s (by have := I.mlen; omega) hmd⟩
    | true =>
      cases hst : s.stopped with
      | true => exact ⟨_, .leave s hmd (.inl hst) hres⟩
      | false =>
        rcases Nat.lt_or_ge s.next W.length with hn | hn
        · have hw : W[s.next]? = some W[s.next] := List.getElem?_eq_getElem hn
          rcases Nat.lt_or_ge (s.pos s.next) W[s.next].length with hp | hp
          · exact ⟨_, .workerFace s s.next _ _ hw (List.getElem?_eq_getElem hp)⟩
          · exact ⟨_, .await s _ hmd hst hw (by have := I.plen _ _ hw; omega) hres⟩
        · exact ⟨_, .leave s hmd (.inr (by have := I.next; omega)) hres⟩
  · intro s' hst
    cases hst with
    | workerFace i w f hi hf =>
      have hlt : s.pos i < w.length := (List.getElem?_eq_some_iff.1 hf).1
      unfold measure
      simp only
      have hwi : (W.getD i []) = w := by rw [List.getD_eq_getElem?_getD, hi]; rfl
      have e : (fun j => (W.getD j []).length - upd s.pos i (s.pos i + 1) j) =
          upd (fun j => (W.getD j []).length - s.pos j) i ((W.getD i []).length - (s.pos i + 1)) := by
        funext j; by_cases hj : j = i
        · subst hj; simp [upd]
        · simp [upd, hj]
      rw [e]
      have := Registry.sum_upd (fun j => (W.getD j []).length - s.pos j) (List.range W.length) List.nodup_range i
        (List.mem_range.2 (List.getElem?_eq_some_iff.1 hi).1) ((W.getD i []).length - (s.pos i + 1)) (by rw [hwi]; omega)
      omega
    | masterFace f hf =>
      have hlt : s.mpos < M.length := (List.getElem?_eq_some_iff.1 hf).1
      unfold measure; simp only; omega
    | masterEnd hlen hm => unfold measure; simp only [hm]; simp
    | await w hm hs hn hw hres =>
      have hlt : s.next < W.length := (List.getElem?_eq_some_iff.1 hn).1
      split
      · unfold measure; simp only [hs]; simp
      · unfold measure; simp only; omega
    | leave hm hs hres => unfold measure; simp only [hres]; simp

/-- **C64 (message).** A face of the source mesh is reported as such; a face of the cut mesh other than its first one is reported as such, with its number. -/
theorem C64_blame_partial (smF f : Nat) (hne : f ≠ smF) : blame smF f = if f < smF then .source f else .cut (f - smF) := by
  unfold blame
  by_cases h : f < smF
  · rw [if_neg (by omega), if_pos h]
  · rw [if_pos (by omega), if_neg h]

/-- **C64** fails for the first face of the cut mesh: it is reported as a face of the source mesh, with a number that the source mesh does not have. -/
theorem C64_first_cut_face_fails (smF : Nat) : blame smF smF = .source smF := by unfold blame; rw [if_neg (by omega)]

theorem run_master {M : List Nat} {W : List (List Nat)} (s : Par R) (h : Reach props zero M W s) (h0 : s.mpos = 0) (hm : s.mdone = false)
    (hbad : ∃ f ∈ M, zero f = true) : ∃ s', Reach props zero M W s' ∧ s'.mdone = true ∧ s'.flag.isSome ∧ s'.pos = s.pos ∧ s'.next = s.next ∧ s'.stopped = s.stopped ∧
      s'.result = s.result := by
  have key : ∀ n, n ≤ M.length → ∃ s', Reach props zero M W s' ∧ s'.mpos = n ∧ s'.mdone = false ∧ ((∃ f ∈ M.take n, zero f = true) → s'.flag.isSome) ∧ s'.pos = s.pos ∧
      s'.next = s.next ∧ s'.stopped = s.stopped ∧ s'.result = s.result := by
    intro n
    induction n with
    | zero => intro _; exact ⟨s, h, h0, hm, by simp, rfl, rfl, rfl, rfl⟩
    | succ n ih =>
      intro hn
      obtain ⟨s', hr, h1, h2, h3, h4, h5, h6, h7⟩ := ih (by omega)
      have hf : M[s'.mpos]? = some M[n] := by rw [h1]; exact List.getElem?_eq_getElem (by omega)
      refine ⟨_, .step hr (.masterFace s' _ hf), by simp only [h1], h2, ?_, h4, h5, h6, h7⟩
      rintro ⟨f, hfm, hz⟩
      rw [take_succ_mem (List.getElem?_eq_getElem (by omega : n < M.length))] at hfm
      simp only
      rcases hfm with hfm | rfl
      · have := h3 ⟨f, hfm, hz⟩; split <;> simp [this]
      · rw [if_pos hz]; rfl
  obtain ⟨s', hr, h1, h2, h3, h4, h5, h6, h7⟩ := key M.length (Nat.le_refl _)
  exact ⟨_, .step hr (.masterEnd s' h1 h2), rfl, h3 (by simpa using hbad), h4, h5, h6, h7⟩

/-- **C64** fails (with the thread pool): when a face without area has been seen the calling thread does not wait for the remaining jobs. Whenever its own block contains
such a face and there is a second job, it can leave the stage — and the dispatch — while that job, which reads the meshes of the dispatch, has not even begun. -/
theorem C64_running_job_fails (M : List Nat) (w1 w2 : List Nat) (W : List (List Nat)) (hbad : ∃ f ∈ M, zero f = true) (hw : w2 ≠ []) :
    ∃ s : Par R, Reach props zero M (w1 :: w2 :: W) s ∧ s.result.isSome ∧ Running (w1 :: w2 :: W) s 1 ∧ s.pos 1 = 0 := by
  have key : ∀ n, n ≤ w1.length → ∃ s : Par R, Reach props zero M (w1 :: w2 :: W) s ∧ s.mpos = 0 ∧ s.mdone = false ∧ s.pos 0 = n ∧ s.pos 1 = 0 ∧ s.next = 0 ∧
      s.stopped = false ∧ s.result = none := by
    intro n
    induction n with
    | zero => intro _; exact ⟨.init, .init, rfl, rfl, rfl, rfl, rfl, rfl, rfl⟩
    | succ n ih =>
      intro hn
      obtain ⟨s, hr, h1, h2, h3, h4, h5, h6, h7⟩ := ih (by omega)
      refine ⟨_, .step hr (.workerFace s 0 w1 w1[n] rfl (by rw [h3]; exact List.getElem?_eq_getElem (by omega))), h1, h2, ?_, ?_, h5, h6, h7⟩
      · simp only [upd_same, h3]
      · simp only; rw [upd_other _ _ _ _ (by omega)]; exact h4
  obtain ⟨s, hr, h1, h2, h3, h4, h5, h6, h7⟩ := key w1.length (Nat.le_refl _)
  obtain ⟨t, ht, k1, k2, k3, k4, k5, k6⟩ := run_master s hr h1 h2 hbad
  have ha := Step.await (props := props) (zero := zero) (M := M) (W := w1 :: w2 :: W) t w1 k1 (by rw [k5, h6]) (by rw [k4, h5]; rfl) (by rw [k4, h5, k3]; exact h3)
    (by rw [k6, h7])
  rw [if_pos k2] at ha
  refine ⟨_, .step (.step ht ha) (.leave _ k1 (.inl rfl) (by simp only; rw [k6, h7])), rfl, ⟨w2, rfl, ?_⟩, ?_⟩
  · simp only; rw [k3, h4]; exact List.length_pos_iff.2 hw
  · simp only; rw [k3, h4]

section
variable {K : Type} [Field K] [LinearOrder K] [IsStrictOrderedRing K]

/-- **C64 (triangles, exact arithmetic).** A triangle is reported exactly if its vertices lie on a line. -/
theorem C64_triangle (ps : Mesh (V3 K)) (f : Nat) (a b c : V3 K) (h : (ps.verticesAroundFace f).map ps.pos = [a, b, c]) :
    zeroArea ps f = true ↔ ¬ NotCollinear3 a b c := by
  unfold zeroArea faceProps
  simp only [h, decide_eq_true_eq]
  rw [planeCoefficients_tri]
  constructor
  · intro hz hn
    refine triNormal_ne hn ?_
    unfold dot at hz
    have hx := mul_self_nonneg (triNormal a b c).x
    have hy := mul_self_nonneg (triNormal a b c).y
    have hzz := mul_self_nonneg (triNormal a b c).z
    have e1 : (triNormal a b c).x * (triNormal a b c).x = 0 := by linarith
    have e2 : (triNormal a b c).y * (triNormal a b c).y = 0 := by linarith
    have e3 : (triNormal a b c).z * (triNormal a b c).z = 0 := by linarith
    ext
    · exact mul_self_eq_zero.1 e1
    · exact mul_self_eq_zero.1 e2
    · exact mul_self_eq_zero.1 e3
  · intro hn
    unfold NotCollinear3 at hn
    by_cases hab : a = b
    · subst hab; unfold triNormal dot cross sub3; simp
    · have : OnLine3 a b c := by by_contra hc; exact hn ⟨hab, hc⟩
      obtain ⟨t, rfl⟩ := this
      unfold triNormal dot cross sub3 lerp3
      simp only
      ring

end

-- non-vacuity: three blocks, face 7 without area in the block of the calling thread
example : ∃ s : Par Nat, Reach (fun f => f) (fun f => f == 7) [6, 7] [[0, 1], [2, 3], [4, 5]] s ∧ s.result.isSome ∧ Running [[0, 1], [2, 3], [4, 5]] s 1 ∧ s.pos 1 = 0 :=
  C64_running_job_fails _ _ _ _ ⟨7, by simp, rfl⟩ (by simp)
-- three threads and 3 * 1024 faces give three blocks
example : (parallelForBlocks 3072 3 1024).toOption = some [(0, 1024), (1024, 2048), (2048, 3072)] := by decide +kernel
example : sequential (fun f => f) (fun f => f == 7) [1, 7, 9] = .error 7 := rfl
example : ∃ t, sequential (fun f => f) (fun f => f == 8) [1, 7, 9] = .ok t := ⟨_, rfl⟩

end Mcut.FaceProps
