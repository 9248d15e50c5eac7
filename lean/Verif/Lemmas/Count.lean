import Verif.Model.Util
/-! Counting the indices below `n` that satisfy a Boolean predicate. -/
namespace Mcut

def cnt (p : Nat → Bool) : Nat → Nat
  | 0 => 0
  | n + 1 => cnt p n + (if p n then 1 else 0)

theorem cnt_congr (p q : Nat → Bool) (n : Nat) (h : ∀ j, j < n → q j = p j) : cnt q n = cnt p n := by
  induction n with
  | zero => rfl
  | succ n ih => simp only [cnt]; rw [ih (fun j hj => h j (by omega)), h n (by omega)]

theorem cnt_le (p : Nat → Bool) (n : Nat) : cnt p n ≤ n := by
  induction n with
  | zero => simp [cnt]
  | succ n ih => simp only [cnt]; split <;> omega

theorem cnt_drop (p q : Nat → Bool) (n i : Nat) (hi : i < n) (ho : ∀ j, j ≠ i → q j = p j) (hp : p i = true)
    (hq : q i = false) : cnt q n + 1 = cnt p n := by
  induction n with
  | zero => omega
  | succ n ih =>
    simp only [cnt]
    by_cases h : i = n
    · subst h
      rw [cnt_congr p q i (fun j hj => ho j (by omega)), hp, hq]; simp
    · have := ih (by omega)
      rw [ho n (fun e => h e.symm)]; omega

theorem cnt_all (p : Nat → Bool) (n : Nat) (h : ∀ j, j < n → p j = true) : cnt p n = n := by
  induction n with
  | zero => rfl
  | succ n ih => simp only [cnt]; rw [ih (fun j hj => h j (by omega)), h n (by omega)]; simp

theorem cnt_zero (p : Nat → Bool) (n : Nat) (h : cnt p n = 0) : ∀ j, j < n → p j = false := by
  induction n with
  | zero => intro j hj; omega
  | succ n ih =>
    simp only [cnt] at h
    intro j hj
    by_cases hj' : j = n
    · subst hj'
      cases hp : p j with
      | false => rfl
      | true => simp [hp] at h
    · exact ih (by omega) j (by omega)

theorem cnt_pos (p : Nat → Bool) (n : Nat) (h : 0 < cnt p n) : ∃ j, j < n ∧ p j = true := by
  induction n with
  | zero => simp [cnt] at h
  | succ n ih =>
    simp only [cnt] at h
    by_cases hp : p n = true
    · exact ⟨n, by omega, hp⟩
    · have : 0 < cnt p n := by simp [hp] at h; exact h
      obtain ⟨j, hj, hpj⟩ := ih this
      exact ⟨j, by omega, hpj⟩

theorem cnt_one (p : Nat → Bool) (n i : Nat) (h : cnt p n = 1) (hi : i < n) (hp : p i = true) :
    ∀ j, j < n → j ≠ i → p j = false := by
  have h1 := cnt_drop p (fun j => if j = i then false else p j) n i hi
    (fun j hj => by simp [hj]) hp (by simp)
  have h2 : cnt (fun j => if j = i then false else p j) n = 0 := by omega
  intro j hj hji
  have := cnt_zero _ n h2 j hj
  simpa [hji] using this

end Mcut
