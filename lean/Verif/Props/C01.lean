import Verif.Lemmas.C01

/-! C01: handles are unique, never null and never reused. -/
namespace Mcut.Api

/-- Every handle returned by a creating call is non-null and different from every other one ever returned, and as long as
fewer than 2^64 handles have been issued this is also true of their machine representation. -/
theorem C01_handles_unique (s : St) (hr : Reachable s) :
    (handedOut s).Nodup ∧ (∀ h ∈ handedOut s, h ≠ 0) ∧
      (s.counter ≤ 2 ^ 64 → ((handedOut s).map (· % 2 ^ 64)).Nodup ∧ ∀ h ∈ handedOut s, h % 2 ^ 64 ≠ 0) := by
  have k := kinv hr
  obtain ⟨i, i2, _⟩ := all_of hr
  rw [k.giv]
  have hb : ∀ h ∈ s.returned, 0xDECAF ≤ h ∧ h < s.counter := fun h hh => i2.iss h (i2.rt h hh).1
  refine ⟨k.rnd, ?_, ?_⟩
  · intro h hh; have := hb h hh; omega
  · intro hc
    refine ⟨?_, ?_⟩
    · have : s.returned.map (· % 2 ^ 64) = s.returned := by
        conv => rhs; rw [← List.map_id s.returned]
        apply List.map_congr_left
        intro h hh; have := hb h hh; exact Nat.mod_eq_of_lt (by omega)
      rw [this]; exact k.rnd
    · intro h hh; have := hb h hh; rw [Nat.mod_eq_of_lt (by omega)]; omega

/-- The handles of connected components are new as well: they differ from each other, across contexts, and from every
handle returned by a creating call. -/
theorem C01_component_handles_unique (s : St) (hr : Reachable s) :
    (∀ c, (s.ccs c).Nodup) ∧ (∀ c c' h, h ∈ s.ccs c → h ∈ s.ccs c' → c = c') ∧
      ∀ c, ∀ h ∈ s.ccs c, h ≠ 0 ∧ h ∉ handedOut s := by
  have k := kinv hr
  obtain ⟨i, i2, _⟩ := all_of hr
  refine ⟨k.ccNd, k.ccDj, ?_⟩
  intro c h hh
  refine ⟨?_, by rw [k.giv]; exact (k.ccU c h hh).2.1⟩
  have := i2.iss h (i2.ccIss c h hh); omega

/-- A lookup finds the object a handle was issued for or nothing: no handle denotes two live objects, of whatever kind. -/
theorem C01_lookup_unambiguous (s : St) (hr : Reachable s) (h : Nat) (k1 k2 : Option (Option Nat))
    (d1 : Denotes s h k1) (d2 : Denotes s h k2) : k1 = k2 ∧ s.ctxs.Nodup ∧ s.evs.Nodup := by
  have k := kinv hr
  obtain ⟨i, i2, _⟩ := all_of hr
  refine ⟨?_, k.cnd, k.end'⟩
  cases d1 with
  | context h1 => cases d2 with
    | context => rfl
    | event h2 => exact absurd (k.ctxU h h1) (i.evsLoc h h2)
    | component c h2 => exact absurd (i2.ctxIss h h1) (k.ccU c h h2).2.1
  | event h1 => cases d2 with
    | context h2 => exact absurd (k.ctxU h h2) (i.evsLoc h h1)
    | event => rfl
    | component c h2 => exact absurd (k.ccU c h h2).1 (i.evsLoc h h1)
  | component c h1 => cases d2 with
    | context h2 => exact absurd (i2.ctxIss h h2) (k.ccU c h h1).2.1
    | event h2 => exact absurd (k.ccU c h h1).1 (i.evsLoc h h2)
    | component c' h2 => rw [k.ccDj c c' h h1 h2]

/-- The handle of a released object never denotes an object again. -/
theorem C01_released_handles_stay_dead (s s' : St) (hr : Reachable s) (he : Reach step s s') (h : Nat)
    (hh : h ∈ handedOut s) (hd : h ∉ s.evs ∧ h ∉ s.ctxs) : h ∉ s'.evs ∧ h ∉ s'.ctxs := by
  have g : Gone s s' := by
    refine reach_rel (R := Gone) ?_ ?_ (fun _ _ => gone_step) hr he
    · intro s; exact ⟨Nat.le_refl _, fun _ _ h => h, fun _ _ h => h⟩
    · intro s t u _ _ h1 h2
      exact ⟨by have := h1.1; have := h2.1; omega,
        fun h hl hn => h2.2.1 h (by have := h1.1; omega) (h1.2.1 h hl hn),
        fun h hl hn => h2.2.2 h (by have := h1.1; omega) (h1.2.2 h hl hn)⟩
  rw [(kinv hr).giv] at hh
  obtain ⟨i, i2, _⟩ := all_of hr
  have := i2.iss h (i2.rt h hh).1
  exact ⟨g.2.1 h this.2 hd.1, g.2.2 h this.2 hd.2⟩

/-- The hypotheses are met: a context, a user event, two commands, one of them released. -/
example : ∃ s, runSched step init [.createCtx 0 true, .createUser 1 0xDECAF, .enqueue 0 0xDECAF [0xDECB0] false,
    .enqueue2 0 (fun _ => true), .enqueue 2 0xDECAF [] false, .enqueue2 2 (fun _ => false),
    .release 1 [0xDECB1], .release2 1, .release2 1] = some s ∧
    handedOut s = [0xDECB2, 0xDECB1, 0xDECB0, 0xDECAF] ∧ s.evs = [0xDECB2, 0xDECB0] := by
  obtain ⟨s, hs⟩ := Option.isSome_iff_exists.1 (show (runSched step init [.createCtx 0 true, .createUser 1 0xDECAF,
    .enqueue 0 0xDECAF [0xDECB0] false,
    .enqueue2 0 (fun _ => true), .enqueue 2 0xDECAF [] false, .enqueue2 2 (fun _ => false),
    .release 1 [0xDECB1], .release2 1, .release2 1]).isSome = true from by decide +kernel)
  have h2 : (runSched step init [.createCtx 0 true, .createUser 1 0xDECAF, .enqueue 0 0xDECAF [0xDECB0] false,
    .enqueue2 0 (fun _ => true), .enqueue 2 0xDECAF [] false, .enqueue2 2 (fun _ => false),
    .release 1 [0xDECB1], .release2 1, .release2 1]).map (fun s => (handedOut s, s.evs)) =
      some ([0xDECB2, 0xDECB1, 0xDECB0, 0xDECAF], [0xDECB2, 0xDECB0]) := by decide +kernel
  rw [hs] at h2
  simp only [Option.map_some, Option.some.injEq, Prod.mk.injEq] at h2
  exact ⟨s, hs, h2⟩

end Mcut.Api
