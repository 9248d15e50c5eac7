import Verif.Props.C40
import Verif.Props.C26
import Verif.Props.C27

/-! A dispatch with a partitioned face, evaluated. -/
namespace Mcut.Preproc
open Mcut.Hmesh
variable {P : Type}

/-- `bfs` with fuel, for evaluation by the kernel. -/
def bfsF (nb : Nat → List Nat) (n k : Nat) : Nat → (Nat → Option Nat) → (Nat → Bool) → List Nat → Option ((Nat → Option Nat) × (Nat → Bool))
  | 0, _, _, _ => none
  | _ + 1, vis, que, [] => some (vis, que)
  | fuel + 1, vis, que, v :: queue =>
    if v < n ∧ vis v = none then
      let vis' := upd vis v (some k)
      let push := (nb v).foldl (fun (s : List Nat × (Nat → Bool)) w =>
        if vis' w = none ∨ s.2 w = false then (s.1 ++ [w], upd s.2 w true) else s) (queue, que)
      bfsF nb n k fuel vis' push.2 push.1
    else bfsF nb n k fuel vis que queue

theorem bfsF_eq (nb : Nat → List Nat) (n k : Nat) : ∀ (fuel : Nat) (vis : Nat → Option Nat) (que : Nat → Bool) (queue : List Nat) (r), bfsF nb n k fuel vis que queue = some r →
    bfs nb n k vis que queue = r
  | 0, _, _, _, _, h => by cases h
  | fuel + 1, vis, que, [], r, h => by rw [bfs]; exact Option.some.inj h
  | fuel + 1, vis, que, v :: queue, r, h => by
    rw [bfs]
    rw [bfsF] at h
    by_cases hv : v < n ∧ vis v = none
    · rw [if_pos hv] at h; rw [dif_pos hv]; exact bfsF_eq nb n k fuel _ _ _ r h
    · rw [if_neg hv] at h; rw [dif_neg hv]; exact bfsF_eq nb n k fuel _ _ _ r h

def findF (fuel : Nat) (m : Mesh P) : List Nat → CCs → Option CCs
  | [], s => some s
  | u :: us, s =>
    if s.comp u = none then
      let vis := upd s.comp u (some s.num)
      let ns := neighbours m u
      let q := ns.foldl (fun q w => upd q w true) (upd s.queued u true)
      match bfsF (neighbours m) m.numVertices s.num fuel vis q ns with
      | none => none
      | some r => findF fuel m us ⟨r.1, r.2, s.num + 1⟩
    else findF fuel m us s

theorem findF_eq (fuel : Nat) (m : Mesh P) : ∀ (l : List Nat) (s r : CCs), findF fuel m l s = some r → l.foldl (fun s u =>
    if s.comp u = none then
      let vis := upd s.comp u (some s.num)
      let ns := neighbours m u
      let q := ns.foldl (fun q w => upd q w true) (upd s.queued u true)
      let r := bfs (neighbours m) m.numVertices s.num vis q ns
      ⟨r.1, r.2, s.num + 1⟩
    else s) s = r
  | [], s, r, h => Option.some.inj h
  | u :: us, s, r, h => by
    rw [List.foldl_cons]
    rw [findF] at h
    by_cases hu : s.comp u = none
    · rw [if_pos hu] at h ⊢
      dsimp only at h ⊢
      split at h
      · cases h
      · next x hx =>
        rw [bfsF_eq _ _ _ _ _ _ _ _ hx]
        exact findF_eq fuel m us _ r h
    · rw [if_neg hu] at h ⊢
      exact findF_eq fuel m us s r h

theorem check_of (fuel : Nat) (m : Mesh P)
    (h : (3 ≤ m.numVertices ∧ 1 ≤ m.numFaces) ∧ (findF fuel m (enumerateFrom m.vRem m.nV 0) ⟨fun _ => none, fun _ => false, 0⟩).map CCs.num = some 1) : checkInputMesh m = true := by
  unfold checkInputMesh
  rw [if_neg (by omega), if_neg (by omega), decide_eq_true_eq]
  cases hf : findF fuel m (enumerateFrom m.vRem m.nV 0) ⟨fun _ => none, fun _ => false, 0⟩ with
  | none => rw [hf] at h; cases h.2
  | some r =>
    unfold findComponents
    rw [findF_eq fuel m _ _ r hf]
    rw [hf] at h
    simpa using h.2

end Mcut.Preproc

namespace Mcut.Dispatch
open Mcut.Hmesh Mcut.Preproc Mcut.Partition
variable {D : Type}

/-- A run in which the kernel first reports a floating polygon on a source face. -/
theorem floating_run {c : Client} {env : LoadEnv} (enc : Enclosure) {i1 i2 : Iter D} {m m' : Mesh Pt} (h1 : loadArrays (0, 0, 0) c.src c.srcPts env = .mesh m) (c1 : checkInputMesh m = true)
    (h2 : loadArrays (0, 0, 0) c.cut c.cutPts i1.load = .mesh m') (c2 : checkInputMesh m' = true) (hb : i1.bvhEmpty = false ∧ i2.bvhEmpty = false)
    {sp : Split Pt} {k : Cand D} (a1 : i1.answer = .floating [(sp.face, [.split sp])]) (a2 : i2.answer = .found k) {r : SplitResult Pt} (hf : sp.face < m.numFaces)
    (hr : splitFace m sp = some r) (c3 : checkInputMesh r.mesh = true) :
    ∃ s cs ty, preproc c env enc [i1, i2] = some (.ok s cs ty) ∧ cs ≠ [] := by
  unfold preproc
  simp only [start, h1, c1, if_true, loop, iterate, perturb, reload, readCut, h2, partition, c2, beq_self_eq_true, Bool.true_eq_false, if_false, traverse, hb.1, hb.2,
    Bool.false_eq_true, callKernel, answerStatus, a1, a2, finish, resolve, resolveFace, resolveOne, List.lookup_nil, hf, hr, c3, Nat.not_le.2 hf, Bool.or_false]
  refine ⟨_, _, _, rfl, ?_⟩
  obtain ⟨a, b, rest, hs, -⟩ := store_eq c _ (answerOut (keepOf c.flags) (.found k))
  rw [hs]; simp

/-- A partition of face 1 of the tetrahedron. -/
def exSplit : Split Pt := ⟨1, 0, 1, (1 / 2, 1 / 2, 0), (1 / 4, 1 / 4, 1 / 4), false⟩

def loadedMesh : Loaded Pt → Mesh Pt
  | .mesh m => m
  | _ => Mesh.empty (0, 0, 0)

def exMesh : Mesh Pt := loadedMesh (loadArrays (0, 0, 0) exTetra exClient.srcPts (exEnv exTetra))

theorem exMesh_loaded : loadArrays (0, 0, 0) exTetra exClient.srcPts (exEnv exTetra) = .mesh exMesh := by
  rcases C33_accepts_iff (0, 0, 0) exTetra exClient.srcPts (exEnv exTetra) exTetra_sized rfl (exEnv_ok _ exTetra_sized) with ⟨⟨m, hm⟩, -⟩ | ⟨-, h⟩
  · unfold exMesh; rw [hm]; rfl
  · exact absurd exTetra_good.valid h

def exResult : Option (SplitResult Pt) := splitFace exMesh exSplit

theorem exResult_some : exResult.isSome = true := by decide +kernel

/-- A client, a thread schedule and kernel answers for which the theorems on maps talk about a partitioned face. -/
theorem ex_partition (enc : Enclosure) : ∃ s cs ty, preproc exClient (exEnv exTetra) enc [exIter (.floating [(1, [.split exSplit])]), exIter (.found exCandU)] = some (.ok s cs ty) ∧ cs ≠ [] := by
  have hc1 : checkInputMesh exMesh = true := check_of 100 _ (by decide +kernel)
  have hchk : checkInputMesh (exResult.get exResult_some).mesh = true := check_of 100 _ (by decide +kernel)
  refine floating_run enc (m := exMesh) (m' := exMesh) (sp := exSplit) (k := exCandU) (r := exResult.get exResult_some) exMesh_loaded hc1 exMesh_loaded hc1 ⟨rfl, rfl⟩ rfl rfl ?_ ?_ hchk
  · decide +kernel
  · exact (Option.some_get exResult_some).symm

/-- The maps in this case: a history with one partition of face 1, and the face map of every component takes faces 1 and 4 to 1. -/
example (enc : Enclosure) : ∃ s cs ty, preproc exClient (exEnv exTetra) enc [exIter (.floating [(1, [.split exSplit])]), exIter (.found exCandU)] = some (.ok s cs ty) ∧
    ∃ call e1 e2 ms mc Hs Hc, s.calls.getLast? = some call ∧ loadArrays (0, 0, 0) exClient.src exClient.srcPts e1 = .mesh ms ∧ Evolves ms Hs call.src ∧
      loadArrays (0, 0, 0) exClient.cut (exClient.cutPts.map (fun p => Pt.add p call.pert)) e2 = .mesh mc ∧ Evolves mc Hc call.cut ∧
      ∀ x ∈ cs, ∀ k : CC.Comp Nat Nat, Tagged x k → ∀ f, f < call.src.numFaces → CC.userFace k f = origin Hs f := by
  obtain ⟨s, cs, ty, h, hne⟩ := ex_partition enc
  obtain ⟨call, e1, e2, ms, mc, Hs, Hc, h1, h2, h3, h4, h5, h6⟩ := C27_face_map_partial (A := Nat) (B := Nat) exClient_sized (ex_possible [.floating [(1, [.split exSplit])], .found exCandU]) h hne
  exact ⟨s, cs, ty, h, call, e1, e2, ms, mc, Hs, Hc, h1, h2, h3, h4, h5, fun x hx k T f hf => ((h6 x hx k T).1 f hf).1⟩

end Mcut.Dispatch
