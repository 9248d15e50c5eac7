import Verif.Spec.C40
import Verif.Props.C38
import Verif.Props.C39

/-! # C40: the components stored by a dispatch -/
namespace Mcut.Dispatch
open Mcut.Hmesh Mcut.Preproc Mcut.Partition
variable {D : Type}

/-- What `store` stores, apart from the two inputs. -/
def outMeshes (o : KOut D) : List (Kind × D) :=
  o.sealedFrags.map (fun x => (.sealedFragment x.1 x.2.1, x.2.2)) ++ o.unsealed.map (fun x => (.unsealedFragment x.1, x.2)) ++
  (o.inside.map (fun d => (.patch .inside, d)) ++ o.outside.map (fun d => (.patch .outside, d))) ++ seamMesh true o.seamSrc ++ seamMesh false o.seamCut

theorem seam_map (b : Bool) (f : D → Stored D) (hf : ∀ d, (f d).kind = .seam b ∧ (f d).data = .kernel d) (o : Option (D × Nat)) :
    (match o with
      | some (d, n) => if 0 < n then [f d] else []
      | .none => []).map (fun (x : Stored D) => (x.kind, x.data)) = (seamMesh b o).map (fun x => (x.1, Data.kernel x.2)) := by
  rcases o with _ | ⟨d, n⟩
  · rfl
  · unfold seamMesh
    dsimp only
    by_cases h : n = 0
    · subst h; rfl
    · rw [if_pos (by omega), if_neg h]
      simp [hf d]

theorem store_eq (c : Client) (s : St) (o : KOut D) : ∃ a b rest, store c s o = a :: b :: rest ∧ InputPair c.flags s.src.mesh s.cut.mesh a b ∧
    rest.map (fun x => (x.kind, x.data)) = ((outMeshes o).map (fun x => (x.1, .kernel x.2))).reverse := by
  have h3 : vmapOf c.flags = c.flags.testBit 3 := has_bit _ 3
  have h4 : fmapOf c.flags = c.flags.testBit 4 := has_bit _ 4
  unfold store
  dsimp only
  rw [List.reverse_append, List.reverse_cons, List.reverse_singleton, List.singleton_append, List.cons_append, List.cons_append, List.nil_append]
  refine ⟨_, _, _, rfl, ⟨rfl, rfl, ⟨_, _, rfl, ?_, ?_⟩, ⟨_, _, rfl, ?_, ?_⟩⟩, ?_⟩
  · intro h; rw [h3, h]; rfl
  · intro h; rw [h4, h]; rfl
  · intro h; rw [h3, h]
    refine ⟨by simp, fun i hi => ?_⟩
    simp only [if_true, List.getElem?_map, List.getElem?_range hi, Option.map_some]
    rw [Nat.add_comm]
  · intro h; rw [h4, h]
    refine ⟨by simp, fun i hi => ?_⟩
    simp only [if_true, List.getElem?_map, List.getElem?_range hi, Option.map_some]
    rw [Nat.add_comm]
  · rw [List.map_reverse]
    congr 1
    unfold outMeshes
    simp only [List.map_append, List.map_map, List.append_assoc]
    congr 1; congr 1; congr 1; congr 1; congr 1
    · exact seam_map true _ (fun _ => ⟨rfl, rfl⟩) _
    · exact seam_map false _ (fun _ => ⟨rfl, rfl⟩) _

open Classical in
theorem outMeshes_perm (flags : Nat) (k : Cand D) (hk : k.Sound) : (outMeshes (emit (keepOf flags) k)).Perm (k.meshes.filter (fun x => Keeps flags x.1)) := by
  have h1 := C39_sealed flags k hk
  have h2 := C39_unsealed_partial flags k
  obtain ⟨h3, h4⟩ := C39_patches flags k hk
  obtain ⟨h5, h6⟩ := C39_seams flags k
  have hseam : ∀ (b : Bool) (n : Nat) (hn : ∀ f, Keeps f (.seam b) ↔ Wants f n) (o : Option (D × Nat)),
      seamMesh b (if Wants flags n then o else none) = (seamMesh b o).filter (fun x => Keeps flags x.1) := by
    intro b n hn o
    by_cases h : Wants flags n
    · rw [if_pos h]
      rcases o with _ | ⟨d, m⟩
      · rfl
      · unfold seamMesh
        dsimp only
        split
        · rfl
        · simp [hn, h]
    · rw [if_neg h]
      rcases o with _ | ⟨d, m⟩
      · rfl
      · unfold seamMesh
        dsimp only
        split
        · rfl
        · simp [hn, h]
  unfold outMeshes Cand.meshes
  simp only [List.filter_append]
  refine List.Perm.append (List.Perm.append (List.Perm.append (List.Perm.append ?_ ?_) ?_) ?_) ?_
  · rw [List.filter_map]
    refine (h1.map _).trans (List.Perm.of_eq (congrArg _ (List.filter_congr fun x _ => ?_)))
    exact decide_eq_decide.2 Iff.rfl
  · rw [List.filter_map]
    refine (h2.map _).trans (List.Perm.of_eq (congrArg _ (List.filter_congr fun x _ => ?_)))
    exact decide_eq_decide.2 Iff.rfl
  · rw [h3, h4, List.filter_map]
    simp only [List.map_map]
    have hp : ∀ l : List (PatchLoc × D), (∀ x ∈ l, x.1 ≠ .undefined) → (List.filter (fun x => decide (x.1 = PatchLoc.inside)) l ++ List.filter (fun x => decide (x.1 = PatchLoc.outside)) l).Perm l := by
      intro l hl
      induction l with
      | nil => simp
      | cons x l ih =>
        have ih := ih (fun y hy => hl y (by simp [hy]))
        have hx := hl x (by simp)
        obtain ⟨p, d⟩ := x
        cases p with
        | inside => simpa using ih
        | outside => simp only [List.filter_cons, decide_eq_true_eq, reduceCtorEq, if_false, if_true]; exact (List.perm_middle).trans (List.Perm.cons _ ih)
        | undefined => exact absurd rfl hx
    have hm : ∀ (l : List (PatchLoc × D)) (p : PatchLoc), (∀ x ∈ l, x.1 = p) → l.map ((fun d => (Kind.patch p, d)) ∘ fun x => x.2) = l.map (fun x => (Kind.patch x.1, x.2)) := by
      intro l p hl
      apply List.map_congr_left
      intro x hx
      simp [hl x hx]
    rw [hm _ .inside (by intro x hx; simp only [List.mem_filter, decide_eq_true_eq] at hx; exact hx.1.2),
      hm _ .outside (by intro x hx; simp only [List.mem_filter, decide_eq_true_eq] at hx; exact hx.1.2), ← List.map_append, ← List.filter_append]
    refine List.Perm.map _ ?_
    exact (hp k.patches hk.patches).filter _
  · rw [h5]; exact List.Perm.of_eq (hseam true 13 (fun _ => Iff.rfl) _)
  · rw [h6]; exact List.Perm.of_eq (hseam false 14 (fun _ => Iff.rfl) _)

open Classical in
/-- **C40.** What a successful dispatch stores, for every kernel behaviour, all flags and all inputs: (1) nothing if the bounding volume hierarchies do not overlap; (2)
the two input meshes if the kernel finds no intersection of the surfaces; (3) otherwise the two input meshes and, for each mesh that the
kernel found and whose kind the flags ask for, exactly one component with its kind and mesh. The input meshes are those given to the last kernel call. The newest components come
first.
Missing: the input meshes are not stored if the bounding volume hierarchies do not overlap (C40_inputs_stored_fails). -/
theorem C40_components_partial {c : Client} (hc : c.Sized) {env : LoadEnv} {enc : Enclosure} {its : List (Iter D)} (L : Possible c env its) {s : St} {cs : List (Stored D)} {ty : Option IType}
    (h : preproc c env enc its = some (.ok s cs ty)) :
    ∃ it ∈ its, (it.bvhEmpty = true ∧ cs = []) ∨
      ∃ call a b rest, s.calls.getLast? = some call ∧ cs = a :: b :: rest ∧ InputPair c.flags call.src call.cut a b ∧
        (it.answer = .noIntersection ∧ rest = [] ∨
         ∃ k, it.answer = .found k ∧ (k.Sound → (rest.map (fun x => (x.kind, x.data))).Perm ((k.meshes.filter (fun x => Keeps c.flags x.1)).map (fun x => (x.1, .kernel x.2))))) := by
  rcases preproc_out hc L h with ⟨e, h'⟩ | h' | ⟨pre, it, post, e, ⟨B, C, hcnt, hh⟩, -, -⟩
  · cases h'
  · cases h'
  · refine ⟨it, by rw [e]; simp, ?_⟩
    rcases hh with ⟨he, -, h2, -⟩ | ⟨-, hlast, -, h2, hans, -⟩
    · exact .inl ⟨he, h2⟩
    · right
      obtain ⟨a, b, rest, hs, hp, hr⟩ := store_eq c s (answerOut (keepOf c.flags) it.answer)
      refine ⟨_, a, b, rest, hlast, by rw [h2, hs], hp, ?_⟩
      rcases hans with ⟨k, hk⟩ | ⟨hk, -⟩
      · refine .inr ⟨k, hk, fun hso => ?_⟩
        rw [hr, hk]
        exact (List.reverse_perm _).trans ((outMeshes_perm c.flags k hso).map _)
      · left
        refine ⟨hk, ?_⟩
        rw [hk] at hr
        have hl := congrArg List.length hr
        simpa [answerOut, KOut.none, outMeshes, seamMesh] using hl

/-- **C40**, intersection type: with MC_DISPATCH_INCLUDE_INTERSECTION_TYPE it is STANDARD exactly if there is a component besides the two inputs; without the flag the
context's value is left alone. -/
theorem C40_intersection_type {c : Client} (hc : c.Sized) {env : LoadEnv} {enc : Enclosure} {its : List (Iter D)} (L : Possible c env its) {s : St} {cs : List (Stored D)} {ty : Option IType}
    (h : preproc c env enc its = some (.ok s cs ty)) :
    (c.flags.testBit 17 = true → ∃ t, ty = some t ∧ (t = .standard ↔ ∃ x ∈ cs, ∀ b, x.kind ≠ .input b)) ∧ (c.flags.testBit 17 = false → ty = none) := by
  have hb : itypeOf c.flags = c.flags.testBit 17 := has_bit _ 17
  have hne : ∀ a b, enclosureType a b enc ≠ .standard := by
    intro a b; unfold enclosureType; split
    · simp
    · split
      · split
        · split <;> simp
        · split
          · split <;> simp
          · simp
      · split
        · split <;> simp
        · split <;> simp
  rcases preproc_out hc L h with ⟨e, h'⟩ | h' | ⟨pre, it, post, e, ⟨B, C, hcnt, hh⟩, -, -⟩
  · cases h'
  · cases h'
  · rcases hh with ⟨he, -, h2, h3⟩ | ⟨-, hlast, -, h2, hans, h3⟩
    · rw [h3, hb]
      refine ⟨fun h => ⟨_, by rw [h]; rfl, ?_⟩, fun h => by rw [h]; rfl⟩
      simp [hne, h2]
    · obtain ⟨a, b, rest, hs, hp, hr⟩ := store_eq c s (answerOut (keepOf c.flags) it.answer)
      rw [h3, hb]
      refine ⟨fun h => ⟨_, by rw [h]; rfl, ?_⟩, fun h => by rw [h]; rfl⟩
      have hrest : ∀ x ∈ rest, ∀ b, x.kind ≠ .input b := by
        intro x hx b hxb
        have : (x.kind, x.data) ∈ rest.map (fun x => (x.kind, x.data)) := List.mem_map_of_mem hx
        rw [hr, List.mem_reverse] at this
        obtain ⟨y, hy, e⟩ := List.mem_map.1 this
        simp only [Prod.mk.injEq] at e
        rw [hxb] at e
        unfold outMeshes at hy
        have hsm : ∀ b' (o : Option (D × Nat)), y ∈ seamMesh b' o → y.1 = .seam b' := by
          intro b' o h
          unfold seamMesh at h
          split at h
          · split at h
            · cases h
            · rw [List.mem_singleton.1 h]
          · cases h
        simp only [List.mem_append, List.mem_map] at hy
        rcases hy with (((⟨z, -, rfl⟩ | ⟨z, -, rfl⟩) | ⟨z, -, rfl⟩ | ⟨z, -, rfl⟩) | h) | h
        · cases e.1
        · cases e.1
        · cases e.1
        · cases e.1
        · rw [hsm _ _ h] at e; cases e.1
        · rw [hsm _ _ h] at e; cases e.1
      rw [h2, hs]
      constructor
      · intro ht
        split at ht
        · next hl =>
          match rest, hl with
          | x :: rest, _ => exact ⟨x, by simp, hrest x (by simp)⟩
        · exact absurd ht (hne _ _)
      · rintro ⟨x, hx, hk⟩
        rw [if_pos]
        simp only [List.mem_cons] at hx
        rcases hx with rfl | rfl | hx
        · exact absurd hp.srcKind (hk true)
        · exact absurd hp.cutKind (hk false)
        · have := List.length_pos_of_mem hx
          simp only [List.length_cons]; omega

/-- A dispatch that fails leaves the components and the intersection type of the context as they were; one that succeeds keeps all earlier components, in their order, behind the
new ones. -/
theorem C40_context {c : Client} {env : LoadEnv} {enc : Enclosure} {its : List (Iter D)} {r : Step D} (_h : preproc c env enc its = some r) (x x' : Ctx D) (hx : x.after r = some x') :
    (∃ s cs ty, r = .ok s cs ty ∧ x'.comps = cs ++ x.comps) ∨ x' = x := by
  cases r with
  | ok s cs ty => simp only [Ctx.after, Option.some.injEq] at hx; subst hx; exact .inl ⟨_, _, _, rfl, rfl⟩
  | err e l => simp only [Ctx.after, Option.some.injEq] at hx; exact .inr hx.symm
  | again s => cases hx
  | ub => cases hx

/-- The claim that the two input meshes are always among the components is false, for all input meshes: if their bounding volume hierarchies do not overlap, the dispatch
succeeds without storing any component. -/
theorem C40_inputs_stored_fails {c : Client} (hc : c.Sized) (hs : GoodMesh c.src) (hk : GoodMesh c.cut) {env : LoadEnv} (enc : Enclosure) {it : Iter D} {rest : List (Iter D)}
    (L : Possible c env (it :: rest)) (he : it.bvhEmpty = true) : ∃ s ty, preproc c env enc (it :: rest) = some (.ok s [] ty) := by
  have hcl := clean_of hc hs hk
  obtain ⟨m, hm, hck⟩ := hcl.1 env L.1
  obtain ⟨m', hm', hck'⟩ := hcl.2 it.load (0, 0, 0) (L.2 it (by simp))
  rw [map_add_zero] at hm'
  unfold preproc
  simp only [start, hm, hck, if_true, loop, iterate, perturb, reload, readCut, hm', partition, hck', beq_self_eq_true, Bool.true_eq_false, if_false, traverse, he,
    Bool.false_and, Bool.false_eq_true]
  exact ⟨_, _, rfl⟩

/-! ## Examples -/

/-- A sealed fragment, an unsealed one, two patches and a seam. -/
def exCandU : Cand Unit := ⟨some ((), 3), some ((), 0), [(.above, ())], true, [(.inside, ()), (.outside, ())], [(.below, .inside, ())]⟩

example : exCandU.Sound := ⟨by decide, by decide, by decide⟩

/-- A dispatch that stores five components and the two inputs. -/
example (enc : Enclosure) : ∃ s cs ty, preproc exClient (exEnv exTetra) enc [exIter .gpv, exIter (.found exCandU)] = some (.ok s cs ty) ∧ cs.length = 7 := by
  have hp := ex_possible [.gpv, .found exCandU]
  obtain ⟨s, cs, ty, hr⟩ := (C38_success exClient_sized exTetra_good exTetra_good (by decide) enc hp (by
    intro it h
    simp only [List.map_cons, List.map_nil, List.mem_cons, List.not_mem_nil, or_false] at h
    rcases h with rfl | rfl <;> simp [exIter])).2 rfl
  refine ⟨s, cs, ty, hr, ?_⟩
  obtain ⟨it, hit, hh⟩ := C40_components_partial exClient_sized hp hr
  simp only [List.map_cons, List.map_nil, List.mem_cons, List.not_mem_nil, or_false] at hit
  have hb : it.bvhEmpty = false := by rcases hit with rfl | rfl <;> rfl
  rcases hh with ⟨h1, -⟩ | ⟨call, a, b, rest, -, rfl, -, hk⟩
  · rw [hb] at h1; cases h1
  · rcases hk with ⟨h1, -⟩ | ⟨k, h1, h2⟩
    · rcases hit with rfl | rfl <;> cases h1
    · rcases hit with rfl | rfl
      · cases h1
      · cases h1
        have hl := (h2 ⟨by decide, by decide, by decide⟩).length_eq
        have hw : ∀ b, Wants exClient.flags b := by
          rintro b ⟨i, h1, h2, h3⟩
          have : i = 5 ∨ i = 6 ∨ i = 7 ∨ i = 8 ∨ i = 9 ∨ i = 10 ∨ i = 11 ∨ i = 12 ∨ i = 13 ∨ i = 14 := by omega
          rcases this with rfl | rfl | rfl | rfl | rfl | rfl | rfl | rfl | rfl | rfl <;> exact absurd h3 (by decide)
        simp [Cand.meshes, exCandU, Keeps, hw, seamMesh] at hl
        simp [hl]

example (enc : Enclosure) : ∃ s ty, preproc exClient (exEnv exTetra) enc [{ exIter .gpv with bvhEmpty := true }] = some (.ok s [] ty) :=
  C40_inputs_stored_fails exClient_sized exTetra_good exTetra_good enc ⟨exEnv_ok _ exTetra_sized, fun it h => by rw [List.mem_singleton.1 h]; exact exEnv_ok _ exTetra_sized⟩ rfl

end Mcut.Dispatch
