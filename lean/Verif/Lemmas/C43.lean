import Verif.Spec.C43
import Verif.Lemmas.C58
import Mathlib.Tactic.NormNum

namespace Mcut.Geom

section Paths
variable {α : Type*}

/-- Number of edges of a path with a property. -/
def pathCount (f : α → α → Bool) : List α → Nat
  | a :: b :: rest => (f a b).toNat + pathCount f (b :: rest)
  | _ => 0

/-- Number of edges of a closed path. -/
def cycCount (f : α → α → Bool) : List α → Nat
  | [] => 0
  | v :: rest => pathCount f (v :: rest) + (f ((v :: rest).getLastD v) v).toNat

theorem pathCount_cons2 (f : α → α → Bool) (a b : α) (l : List α) : pathCount f (a :: b :: l) = (f a b).toNat + pathCount f (b :: l) := rfl

theorem lastD_any (b : α) (l : List α) (d e : α) : (b :: l).getLastD d = (b :: l).getLastD e := by
  simp [List.getLastD_eq_getLast?, List.getLast?_eq_some_getLast]

theorem lastD_cons2 (a b : α) (l : List α) (d e : α) : (a :: b :: l).getLastD d = (b :: l).getLastD e := by
  rw [lastD_any b l e d]; simp [List.getLastD_eq_getLast?]

theorem pathCount_append (f : α → α → Bool) (b : α) (ys : List α) : ∀ (a : α) (xs : List α),
    pathCount f (a :: xs ++ b :: ys) = pathCount f (a :: xs) + (f ((a :: xs).getLastD a) b).toNat + pathCount f (b :: ys)
  | a, [] => by simp [pathCount]
  | a, c :: xs => by
    have := pathCount_append f b ys c xs
    simp only [List.cons_append, pathCount_cons2] at this ⊢
    rw [this]
    have hl : (a :: c :: xs).getLastD a = (c :: xs).getLastD c := lastD_cons2 _ _ _ _ _
    rw [hl]; omega

theorem pathCount_reverse (f : α → α → Bool) (hf : ∀ a b, f a b = f b a) : ∀ l : List α, pathCount f l.reverse = pathCount f l
  | [] => rfl
  | [a] => rfl
  | a :: b :: rest => by
    have ih := pathCount_reverse f hf (b :: rest)
    rw [List.reverse_cons]
    cases hr : (b :: rest).reverse with
    | nil => simp at hr
    | cons c ys =>
      have ih' : pathCount f (c :: ys) = pathCount f (b :: rest) := by rw [← hr, ih]
      rw [pathCount_append, ih', pathCount_cons2]
      have : (c :: ys).getLastD c = b := by
        have h1 : (c :: ys).getLastD c = ((b :: rest).reverse).getLastD c := by rw [hr]
        rw [h1]; simp
      rw [this, hf b a]; simp [pathCount]; omega

theorem cycCount_reverse (f : α → α → Bool) (hf : ∀ a b, f a b = f b a) (l : List α) : cycCount f l.reverse = cycCount f l := by
  cases l with
  | nil => rfl
  | cons v rest =>
    have hp := pathCount_reverse f hf (v :: rest)
    cases hr : (v :: rest).reverse with
    | nil => simp at hr
    | cons c ys =>
      rw [hr] at hp
      simp only [cycCount, hp]
      have h1 : (c :: ys).getLastD c = v := by
        have h1 : (c :: ys).getLastD c = ((v :: rest).reverse).getLastD c := by rw [hr]
        rw [h1]; simp
      have h2 : (v :: rest).getLastD v = c := by
        have : (v :: rest) = (c :: ys).reverse := by rw [← hr, List.reverse_reverse]
        rw [this]; simp
      rw [h1, h2, hf]

theorem getLastD_append {xs : List α} {c : α} {ys : List α} (d : α) : (xs ++ c :: ys).getLastD d = (c :: ys).getLastD c := by
  simp [List.getLastD_eq_getLast?, List.getLast?_append, List.getLast?_eq_some_getLast]

theorem cycCount_rotate (f : α → α → Bool) (xs ys : List α) : cycCount f (xs ++ ys) = cycCount f (ys ++ xs) := by
  cases xs with
  | nil => simp
  | cons a xs =>
    cases ys with
    | nil => simp
    | cons b ys =>
      have h1 := pathCount_append f b ys a xs
      have h2 := pathCount_append f a xs b ys
      simp only [List.cons_append] at h1 h2 ⊢
      simp only [cycCount, h1, h2]
      have e1 : (a :: (xs ++ b :: ys)).getLastD a = (b :: ys).getLastD b := getLastD_append (xs := a :: xs) a
      have e2 : (b :: (ys ++ a :: xs)).getLastD b = (a :: xs).getLastD a := getLastD_append (xs := b :: ys) b
      rw [e1, e2]; omega

theorem countP_zip_path (f : α → α → Bool) : ∀ l : List α, (l.zip l.tail).countP (fun e => f e.1 e.2) = pathCount f l
  | [] => rfl
  | [a] => rfl
  | a :: b :: rest => by
    have := countP_zip_path f (b :: rest)
    simp only [List.tail_cons] at this
    simp only [List.tail_cons, List.zip_cons_cons, List.countP_cons, pathCount_cons2, this]
    cases f a b <;> simp; omega

theorem zip_tail_append (v : α) : ∀ (u : α) (l : List α), (u :: l).zip (l ++ [v]) = (u :: l).zip l ++ [((u :: l).getLastD u, v)]
  | u, [] => by simp
  | u, a :: l => by
    have := zip_tail_append v a l
    simp only [List.cons_append, List.zip_cons_cons, this, List.getLastD_cons]

theorem countP_edges (f : α → α → Bool) (l : List α) : (edgesOf l).countP (fun e => f e.1 e.2) = cycCount f l := by
  cases l with
  | nil => rfl
  | cons v rest =>
    unfold edgesOf
    simp only [List.tail_cons, List.take_succ_cons, List.take_zero]
    rw [zip_tail_append, List.countP_append]
    have := countP_zip_path f (v :: rest)
    simp only [List.tail_cons] at this
    rw [this]
    simp only [cycCount, List.countP_cons, List.countP_nil, Nat.zero_add]
    cases f ((v :: rest).getLastD v) v <;> simp

theorem pathCount_map {β : Type*} (g : β → α) (f : α → α → Bool) : ∀ l : List β, pathCount f (l.map g) = pathCount (fun a b => f (g a) (g b)) l
  | [] => rfl
  | [a] => rfl
  | a :: b :: rest => by
    have := pathCount_map g f (b :: rest)
    simp only [List.map_cons, pathCount_cons2] at this ⊢
    rw [this]

theorem cycCount_map {β : Type*} (g : β → α) (f : α → α → Bool) (l : List β) : cycCount f (l.map g) = cycCount (fun a b => f (g a) (g b)) l := by
  cases l with
  | nil => rfl
  | cons v rest =>
    have := pathCount_map g f (v :: rest)
    simp only [List.map_cons] at this
    simp only [List.map_cons, cycCount, this]
    have : (g v :: rest.map g).getLastD (g v) = g ((v :: rest).getLastD v) := by
      rw [← List.map_cons, List.getLastD_eq_getLast?, List.getLastD_eq_getLast?, List.getLast?_map]
      cases h : (v :: rest).getLast? <;> simp
    rw [this]

theorem cycCount_congr {f g : α → α → Bool} {l : List α} (h : ∀ e ∈ edgesOf l, f e.1 e.2 = g e.1 e.2) : cycCount f l = cycCount g l := by
  rw [← countP_edges, ← countP_edges]
  exact List.countP_congr (fun e he => by rw [h e he])

/-- A coboundary has even total over a closed path. -/
theorem cycCount_coboundary (h : α → Bool) (l : List α) : cycCount (fun a b => h a != h b) l % 2 = 0 := by
  have hp : ∀ (a : α) (l : List α), (pathCount (fun a b => h a != h b) (a :: l) + (h a).toNat + (h ((a :: l).getLastD a)).toNat) % 2 = 0 := by
    intro a l
    induction l generalizing a with
    | nil => simp [pathCount]; cases h a <;> simp
    | cons b l ih =>
      have := ih b
      rw [pathCount_cons2]
      have hl : (a :: b :: l).getLastD a = (b :: l).getLastD b := lastD_cons2 _ _ _ _ _
      rw [hl]
      revert this
      generalize pathCount (fun a b => h a != h b) (b :: l) = n
      generalize h ((b :: l).getLastD b) = z
      cases h a <;> cases h b <;> cases z <;> simp <;> omega
  cases l with
  | nil => rfl
  | cons v rest =>
    have := hp v rest
    simp only [cycCount]
    revert this
    generalize pathCount (fun a b => h a != h b) (v :: rest) = n
    generalize h ((v :: rest).getLastD v) = z
    cases h v <;> cases z <;> simp <;> omega

/-- Totals add up modulo 2 when the summands do on every edge. -/
theorem cycCount_xor3 {f g k h : α → α → Bool} {l : List α} (hx : ∀ e ∈ edgesOf l, (f e.1 e.2 != (g e.1 e.2 != k e.1 e.2)) = h e.1 e.2) :
    (cycCount f l + cycCount g l + cycCount k l) % 2 = cycCount h l % 2 := by
  rw [← countP_edges, ← countP_edges, ← countP_edges, ← countP_edges]
  generalize edgesOf l = L at hx
  induction L with
  | nil => rfl
  | cons e es ih =>
    have ih := ih (fun e he => hx e (List.mem_cons_of_mem _ he))
    have h0 := hx e (by simp)
    simp only [List.countP_cons]
    revert h0
    cases f e.1 e.2 <;> cases g e.1 e.2 <;> cases k e.1 e.2 <;> cases h e.1 e.2 <;> simp <;> omega

/-- The fan: a closed path is, modulo 2, the sum of its triangles. -/
theorem cycCount_fan (f : α → α → Bool) (hf : ∀ a b, f a b = f b a) (v0 : α) (rest : List α) :
    (((fan (v0 :: rest)).map (fun t => cycCount f [t.1, t.2.1, t.2.2])).sum + cycCount f (v0 :: rest)) % 2 =
      (match rest with | [] => (f v0 v0).toNat | [_] => 0 | _ => 0) := by
  have hp : ∀ (a : α) (l : List α), (((a :: l).zip l).map (fun e => cycCount f [v0, e.1, e.2])).sum % 2 =
      (pathCount f (a :: l) + (f v0 a).toNat + (f v0 ((a :: l).getLastD a)).toNat) % 2 := by
    intro a l
    induction l generalizing a with
    | nil => simp [pathCount]; omega
    | cons b l ih =>
      have := ih b
      rw [List.zip_cons_cons, List.map_cons, List.sum_cons, pathCount_cons2]
      have hl : (a :: b :: l).getLastD a = (b :: l).getLastD b := lastD_cons2 _ _ _ _ _
      rw [hl]
      have hc : cycCount f [v0, a, b] = (f v0 a).toNat + (f a b).toNat + (f v0 b).toNat := by
        simp only [cycCount, pathCount, List.getLastD_cons, List.getLastD_nil]
        rw [hf b v0]; omega
      rw [hc]; omega
  unfold fan
  cases rest with
  | nil => simp [cycCount, pathCount]; cases f v0 v0 <;> simp
  | cons a l =>
    have := hp a l
    rw [List.map_map]
    simp only [List.tail_cons]
    have he : ((fun t : α × α × α => cycCount f [t.1, t.2.1, t.2.2]) ∘ fun e : α × α => (v0, e.1, e.2)) = fun e => cycCount f [v0, e.1, e.2] := rfl
    rw [he]
    have hcyc : cycCount f (v0 :: a :: l) = (f v0 a).toNat + pathCount f (a :: l) + (f v0 ((a :: l).getLastD a)).toNat := by
      simp only [cycCount, pathCount_cons2]
      rw [show (v0 :: a :: l).getLastD v0 = (a :: l).getLastD a from lastD_cons2 _ _ _ _ _, hf _ v0]
    rw [hcyc]
    generalize (((a :: l).zip l).map (fun e => cycCount f [v0, e.1, e.2])).sum = n at *
    generalize pathCount f (a :: l) = m at *
    cases l <;> simp only <;> omega

end Paths
end Mcut.Geom
