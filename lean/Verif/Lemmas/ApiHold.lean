import Verif.Lemmas.ApiInv
/-! Ownership of event objects in the API model: who holds a `shared_ptr`, and when the destructor has run. -/
namespace Mcut.Api

/-- The event a manager holds. -/
def heldM : MPc → Option Nat
  | .block _ w _ => some w
  | .run k | .ran k _ | .fin1 k _ | .fin2 k _ | .fin3 k _ => some k.ev
  | _ => none

/-- The event a client holds. -/
def heldC : CPc → Option Nat
  | .submit _ h _ _ | .bblock _ h | .sig h _ | .sig1 h _ | .sig2 h _ | .sig3 h _ | .sig4 h _ | .sig5 h _ | .setcb h
  | .waitBlock _ h _ => some h
  | _ => none

/-- The event a thread holds. -/
def held (s : St) : Actor → Option Nat
  | .mg c t => heldM (s.mgr c t)
  | .cl i => heldC (s.cl i)

theorem dropEv_hold (s : St) (h : Nat) (a : Actor) (x : Nat) :
    ((dropEv s h a).ev x).hold = if x = h then (s.ev h).hold.erase a else (s.ev x).hold := by
  unfold dropEv reapEv destroyEv
  by_cases hx : x = h
  · subst hx; simp only; repeat' split
    all_goals simp_all [obsCb]
  · simp only; repeat' split
    all_goals simp_all [obsCb, upd_other _ _ _ _ hx]

theorem dropEv_dead (s : St) (h : Nat) (a : Actor) (x : Nat) :
    ((dropEv s h a).ev x).dead = ((s.ev x).dead || (decide (x = h) && decide ((s.ev h).hold.erase a = [] ∧ h ∉ s.evs))) := by
  unfold dropEv reapEv destroyEv
  by_cases hx : x = h
  · subst hx; simp only
    split
    · split
      · split <;> simp_all [obsCb]
      · simp_all
    · cases hd : (s.ev x).dead <;> simp_all
  · simp only; repeat' split
    all_goals simp_all [obsCb, upd_other _ _ _ _ hx]

theorem removeEv_hold (s : St) (h : Nat) (x : Nat) : ((removeEv s h).ev x).hold = (s.ev x).hold := by
  unfold removeEv reapEv destroyEv
  by_cases hx : x = h
  · subst hx; simp only; repeat' split
    all_goals simp_all [obsCb]
  · simp only; repeat' split
    all_goals simp_all [obsCb, upd_other _ _ _ _ hx]

theorem removeEv_dead (s : St) (h : Nat) (x : Nat) :
    ((removeEv s h).ev x).dead = ((s.ev x).dead || (decide (x = h) && decide ((s.ev h).hold = []))) := by
  unfold removeEv reapEv destroyEv
  by_cases hx : x = h
  · subst hx; simp only
    split
    · split
      · split <;> simp_all [obsCb]
      · simp_all
    · cases hd : (s.ev x).dead <;> simp_all
  · simp only; repeat' split
    all_goals simp_all [obsCb, upd_other _ _ _ _ hx]

/-- Ownership invariant. -/
structure HInv (s : St) : Prop where
  own : ∀ x a, a ∈ (s.ev x).hold ↔ held s a = some x
  nodup : ∀ x, (s.ev x).hold.Nodup
  deadOk : ∀ x, (s.ev x).dead = true ↔ ((s.ev x).hold = [] ∧ x ∉ s.evs ∧ s.loc x ≠ .unborn)
  fresh : ∀ x, s.loc x = .unborn → s.ev x = newEv false []

/-- What one step of thread `a` does to ownership. -/
inductive HEff (s s' : St) (a : Actor) : Prop
  | same (hhold : ∀ x, (s'.ev x).hold = (s.ev x).hold) (hdead : ∀ x, (s'.ev x).dead = (s.ev x).dead)
      (hevs : s'.evs = s.evs) (other : ∀ b, b ≠ a → held s' b = held s b) (mine : held s' a = held s a)
      (ev' : ∀ x, s.loc x = .unborn → s'.ev x = s.ev x)
      (hloc : ∀ x, s'.loc x = .unborn ↔ s.loc x = .unborn)
  | take (h : Nat) (hhold : ∀ x, (s'.ev x).hold = if x = h then a :: (s.ev h).hold else (s.ev x).hold)
      (hdead : ∀ x, (s'.ev x).dead = (s.ev x).dead) (hevs : s'.evs = s.evs)
      (other : ∀ b, b ≠ a → held s' b = held s b) (free : held s a = none) (mine : held s' a = some h)
      (alive : (s.ev h).dead = false)
      (ev' : ∀ x, s.loc x = .unborn → s'.ev x = s.ev x)
      (hloc : ∀ x, s'.loc x = .unborn ↔ s.loc x = .unborn)
  | drop (h : Nat) (hhold : ∀ x, (s'.ev x).hold = if x = h then (s.ev h).hold.erase a else (s.ev x).hold)
      (hdead : ∀ x, (s'.ev x).dead = ((s.ev x).dead || (decide (x = h) && decide ((s.ev h).hold.erase a = [] ∧ h ∉ s.evs))))
      (hevs : s'.evs = s.evs)
      (other : ∀ b, b ≠ a → held s' b = held s b) (mine : held s a = some h) (free : held s' a = none)
      (ev' : ∀ x, s.loc x = .unborn → s'.ev x = s.ev x)
      (hloc : ∀ x, s'.loc x = .unborn ↔ s.loc x = .unborn)
  | remove (h : Nat) (hhold : ∀ x, (s'.ev x).hold = (s.ev x).hold)
      (hdead : ∀ x, (s'.ev x).dead = ((s.ev x).dead || (decide (x = h) && decide ((s.ev h).hold = []))))
      (he : h ∈ s.evs) (hevs : s'.evs = s.evs.filter (· ≠ h)) (other : ∀ b, b ≠ a → held s' b = held s b)
      (mine : held s' a = held s a)
      (ev' : ∀ x, s.loc x = .unborn → s'.ev x = s.ev x)
      (hloc : ∀ x, s'.loc x = .unborn ↔ s.loc x = .unborn) (hb : s.loc h ≠ .unborn)
  | born (h : Nat) (l : List Actor) (hu : s.loc h = .unborn) (hu' : s'.loc h ≠ .unborn)
      (hev : ∀ x, x ≠ h → s'.ev x = s.ev x) (hl : (s'.ev h).hold = l)
      (hd : (s'.ev h).dead = false)
      (hevs : s'.evs = h :: s.evs) (other : ∀ b, b ≠ a → held s' b = held s b) (free : held s a = none)
      (mine : (l = [] ∧ held s' a = none) ∨ (l = [a] ∧ held s' a = some h))
      (hloc : ∀ x, x ≠ h → (s'.loc x = .unborn ↔ s.loc x = .unborn))

theorem HInv.bornOf {s : St} (i : HInv s) {a : Actor} {x : Nat} (h : held s a = some x) : s.loc x ≠ .unborn := by
  intro hu
  have := (i.own x a).2 h
  rw [i.fresh x hu] at this; simp [newEv] at this

theorem HInv.aliveOf {s : St} (i : HInv s) {a : Actor} {x : Nat} (h : held s a = some x) : (s.ev x).dead = false := by
  cases hd : (s.ev x).dead with
  | false => rfl
  | true => have := (i.own x a).2 h; rw [((i.deadOk x).1 hd).1] at this; simp at this

theorem HEff.inv {s s' : St} {a : Actor} (e : HEff s s' a) (i : HInv s) : HInv s' := by
  cases e with
  | same hhold hdead hevs other mine ev' hloc =>
    have hh : ∀ b, held s' b = held s b := by
      intro b; by_cases hb : b = a
      · subst hb; exact mine
      · exact other b hb
    refine ⟨?_, ?_, ?_, ?_⟩
    · intro x b; rw [hhold, hh]; exact i.own x b
    · intro x; rw [hhold]; exact i.nodup x
    · intro x; rw [hdead, hhold, hevs, i.deadOk x]; simp only [ne_eq, hloc x]
    · intro x hx; have hx := (hloc x).1 hx; rw [ev' x hx]; exact i.fresh x hx
  | take h hhold hdead hevs other free mine alive ev' hloc =>
    refine ⟨?_, ?_, ?_, ?_⟩
    · intro x b; rw [hhold]
      by_cases hb : b = a
      · subst hb; rw [mine]
        by_cases hx : x = h
        · subst hx; simp
        · rw [if_neg hx, i.own, free]; simp [Ne.symm hx]
      · rw [other b hb]
        by_cases hx : x = h
        · subst hx; simp [hb]; exact i.own x b
        · rw [if_neg hx]; exact i.own x b
    · intro x; rw [hhold]
      by_cases hx : x = h
      · subst hx; simp; exact ⟨by rw [i.own, free]; simp, i.nodup x⟩
      · rw [if_neg hx]; exact i.nodup x
    · intro x; rw [hdead, hhold, hevs]
      by_cases hx : x = h
      · subst hx; simp [alive]
      · rw [if_neg hx, i.deadOk x]
        simp only [ne_eq, hloc x]
    · intro x hx; have hx := (hloc x).1 hx; rw [ev' x hx]; exact i.fresh x hx
  | drop h hhold hdead hevs other mine free ev' hloc =>
    have hb := i.bornOf mine
    refine ⟨?_, ?_, ?_, ?_⟩
    · intro x b; rw [hhold]
      by_cases hba : b = a
      · subst hba; rw [free]
        by_cases hx : x = h
        · subst hx; simp only [if_true, (i.nodup x).mem_erase_iff]; simp
        · rw [if_neg hx, i.own, mine]; simp [Ne.symm hx]
      · rw [other b hba]
        by_cases hx : x = h
        · subst hx; simp only [if_true, (i.nodup x).mem_erase_iff]; simp only [ne_eq, hba, not_false_iff, true_and]; exact i.own x b
        · rw [if_neg hx]; exact i.own x b
    · intro x; rw [hhold]
      by_cases hx : x = h
      · subst hx; rw [if_pos rfl]; exact (i.nodup x).erase a
      · rw [if_neg hx]; exact i.nodup x
    · intro x; rw [hdead, hhold, hevs]
      by_cases hx : x = h
      · subst hx
        have hd := i.aliveOf mine
        simp only [hd, decide_true, Bool.true_and, Bool.false_or, decide_eq_true_eq, if_true]
        constructor
        · rintro ⟨p, q⟩; exact ⟨p, q, fun h => hb ((hloc x).1 h)⟩
        · rintro ⟨p, q, _⟩; exact ⟨p, q⟩
      · simp only [hx, decide_false, Bool.false_and, Bool.or_false, if_false]
        rw [i.deadOk x]; simp only [ne_eq, hloc x]
    · intro x hx; have hx := (hloc x).1 hx; rw [ev' x hx]; exact i.fresh x hx
  | remove h hhold hdead he hevs other mine ev' hloc hb =>
    have hh : ∀ b, held s' b = held s b := by
      intro b; by_cases hb : b = a
      · subst hb; exact mine
      · exact other b hb
    refine ⟨?_, ?_, ?_, ?_⟩
    · intro x b; rw [hhold, hh]; exact i.own x b
    · intro x; rw [hhold]; exact i.nodup x
    · intro x; rw [hdead, hhold, hevs]
      by_cases hx : x = h
      · subst hx
        have hd : (s.ev x).dead = false := by
          cases hd : (s.ev x).dead with
          | false => rfl
          | true => exact absurd he ((i.deadOk x).1 hd).2.1
        simp only [hd, decide_true, Bool.true_and, Bool.false_or, decide_eq_true_eq]
        constructor
        · intro p; exact ⟨p, by simp, fun h => hb ((hloc x).1 h)⟩
        · exact fun p => p.1
      · simp only [hx, decide_false, Bool.false_and, Bool.or_false]
        rw [i.deadOk x]; simp [hloc x, hx]
    · intro x hx; have hx := (hloc x).1 hx; rw [ev' x hx]; exact i.fresh x hx
  | born h l hu hu' hev hl hd hevs other free mine hloc =>
    have hcn : ∀ b, held s b ≠ some h := by
      intro b hb; exact i.bornOf hb hu
    refine ⟨?_, ?_, ?_, ?_⟩
    · intro x b
      by_cases hx : x = h
      · subst hx; rw [hl]
        by_cases hb : b = a
        · subst hb; rcases mine with ⟨p, q⟩ | ⟨p, q⟩ <;> rw [p, q] <;> simp
        · rw [other b hb]
          constructor
          · intro hm; rcases mine with ⟨p, q⟩ | ⟨p, q⟩ <;> rw [p] at hm <;> simp at hm; exact absurd hm hb
          · intro hm; exact absurd hm (hcn b)
      · rw [hev x hx]
        by_cases hb : b = a
        · subst hb; rw [i.own, free]
          rcases mine with ⟨_, q⟩ | ⟨_, q⟩ <;> rw [q] <;> simp [Ne.symm hx]
        · rw [other b hb]; exact i.own x b
    · intro x
      by_cases hx : x = h
      · subst hx; rw [hl]; rcases mine with ⟨p, _⟩ | ⟨p, _⟩ <;> rw [p] <;> simp
      · rw [hev x hx]; exact i.nodup x
    · intro x
      by_cases hx : x = h
      · subst hx; rw [hd, hevs]; simp
      · rw [hev x hx, i.deadOk x, hevs]; simp only [List.mem_cons, hx, false_or, ne_eq, hloc x hx]
    · intro x hx
      have hne : x ≠ h := by rintro rfl; exact hu' hx
      rw [hev x hne]; exact i.fresh x ((hloc x hne).1 hx)

end Mcut.Api
