import Verif.Lemmas.ApiLog
import Verif.Spec.C13

/-! Helper lemmas for `Props/C13.lean`. -/
namespace Mcut.Api

/-- The success was recorded. -/
def isOver : Loc → Bool
  | .uOver _ => true
  | _ => false

/-- Is this a successful status call on `h`? -/
def isSet (h : Nat) (x : Nat × Call × Int) : Bool := match x with | (_, .setUserEventStatus h' _, r) => h' = h && r = 0 | _ => false

/-- Bookkeeping invariant. -/
def UInv (s : St) : Prop := ∀ h, (s.rets.filter (isSet h)).length = if isOver (s.loc h) then 1 else 0

theorem uinv_step {s s' : St} (st : Step s s') (k : UInv s) : UInv s' := by
  obtain ⟨⟨i, i2, hi⟩, al', hub, tr, ln, lu⟩ := id st
  have over : ∀ h, isOver (s.loc h) = true → isOver (s'.loc h) = true := by
    intro h ho
    rcases st.ln h with l | l
    · rw [l]; exact ho
    · generalize s'.loc h = l' at l; generalize s.loc h = l0 at l ho
      cases l <;> simp [isOver] at ho
  have keep : ∀ new, s'.rets = new ++ s.rets → (∀ h, new.filter (isSet h) = []) → (∀ h, isOver (s'.loc h) = isOver (s.loc h)) → UInv s' := by
    intro new hr hn hl h
    rw [hr, List.filter_append, hn h, List.nil_append, hl h]; exact k h
  have keep1 : ∀ x, s'.rets = x :: s.rets → (∀ h, isSet h x = false) → (∀ h, isOver (s'.loc h) = isOver (s.loc h)) → UInv s' := by
    intro x hr hn hl
    exact keep [x] hr (by intro h; simp [hn h]) hl
  have noOver : ∀ x l, s'.loc = upd s.loc x l → isOver l = false → isOver (s.loc x) = false → ∀ h, isOver (s'.loc h) = isOver (s.loc h) := by
    intro x l h1 h2 h3 h
    rw [h1]
    by_cases hx : h = x
    · subst hx; rw [upd_same, h2, h3]
    · rw [upd_other _ _ _ _ hx]
  cases tr with
  | sig5 j h r hp =>
    have hl := i.locC hp (h := h) rfl
    intro x
    simp only [ret, dropEv_rets, notifyCb_rets, dropEv_loc, notifyCb_loc]
    by_cases hx : x = h
    · subst hx
      rw [upd_same]
      have := k x
      rw [hl] at this
      simp [isOver] at this
      rw [List.filter_cons, if_pos (by simp [isSet])]
      simp only [List.length_cons, isOver, if_true]
      rw [k x, hl]; rfl
    · rw [upd_other _ _ _ _ hx]
      rw [List.filter_cons, if_neg (by simp [isSet, Ne.symm hx])]
      exact k x
  | createCtx j ooo hp => exact keep [(j, .createContext (base s), NO_ERROR)] (by simp [createCtx, ret]) (by simp [isSet]) (by intro h; rfl)
  | createUser j c hp hc =>
    refine keep [(j, .createUserEvent c s.counter, NO_ERROR)] (by simp [ret]) (by simp [isSet]) (noOver s.counter .uNew (by simp) rfl ?_)
    rw [i.fresh _ (Nat.le_refl _)]; rfl
  | enqueue j c ws blk hp hw hb hc =>
    refine keep [] (by simp) (by simp) (noOver s.counter (.alloc j) (by simp) rfl ?_)
    rw [i.fresh _ (Nat.le_refl _)]; rfl
  | enqueueBad j c ws blk hp hc =>
    exact keep [(j, (if blk = true then .blocking c 0 else .enqueue c 0 ws), INVALID_VALUE)] (by simp [ret]) (by intro h; cases blk <;> simp [isSet]) (by simp)
  | enqueueUnknown j c h ws blk hp hr =>
    have hl := i.locC hp (h := h) rfl
    exact keep [(j, (if blk = true then .blocking c 0 else .enqueue c 0 ws), INVALID_VALUE)] (by simp [ret]) (by intro h; cases blk <;> simp [isSet]) (noOver h .leaked (by simp) rfl (by rw [hl]; rfl))
  | enqueueBlk j c h ws t ot seen hp hr ht hlt =>
    have hl := i.locC hp (h := h) rfl
    exact keep [] (by simp) (by simp) (noOver h (.queued c t) (by simp) rfl (by rw [hl]; rfl))
  | enqueueRet j c h ws t ot seen hp hr ht hlt =>
    have hl := i.locC hp (h := h) rfl
    exact keep [(j, .enqueue c h ws, NO_ERROR)] (by simp [ret]) (by simp [isSet]) (noOver h (.queued c t) (by simp) rfl (by rw [hl]; rfl))
  | sig j h code hp hu hc =>
    refine keep [] (by simp) (by simp) (noOver h (.u1 j) (by simp) rfl ?_)
    have hf := i.fields h
    simp only [core] at hf
    cases hl : s.loc h <;> rw [hl] at hf <;> simp [expect, hc] at hf <;> rfl
  | sig2Bad j h code hp h4 hc =>
    have hl := i.locC hp (h := h) rfl
    exact keep [(j, .setUserEventStatus h code, INVALID_VALUE)] (by simp [ret]) (by simp [isSet]) (noOver h .uBad (by simp) rfl (by rw [hl]; rfl))
  | popDone c t q rest hn hp hq hd =>
    have hl := (i.q c t q (by rw [hq]; simp)).1
    exact keep [] (by simp [dropTask]) (by simp) (noOver q.ev (.skipped c t) (by simp [dropTask]) rfl (by rw [hl]; rfl))
  | pop c t q rest hn hp hq hd =>
    have hl := (i.q c t q (by rw [hq]; simp)).1
    exact keep [] (by simp) (by simp) (noOver q.ev (.pre c t) (by simp) rfl (by rw [hl]; rfl))
  | drain c t q rest hn hp hq =>
    have hl := (i.q c t q (by rw [hq]; simp)).1
    exact keep [] (by simp [dropTask]) (by simp) (noOver q.ev (.skipped c t) (by simp [dropTask]) rfl (by rw [hl]; rfl))
  | _ =>
    first
      | (refine keep [] ?_ ?_ ?_ <;> simp; done)
      | (refine keep [] ?_ ?_ ?_
         · simp; done
         · simp; done
         · apply noOver
           · simp; rfl
           · rfl
           · first
               | (rw [i.locM (by assumption) rfl]; rfl)
               | (rw [i.locC (by assumption) rfl]; rfl))
      | (apply keep1
         · simp only [ret, dropEv_rets, removeEv_rets, setCb_rets, dropCtx_rets]; exact rfl
         · simp [isSet]; done
         · simp; done)

theorem uinv {s : St} (h : Reachable s) : UInv s := reach_ind (by simp [UInv, init, isOver]) (fun _ _ st k => uinv_step st k) h

theorem successes_eq (s : St) (h : Nat) : successes s h = (s.rets.filter (isSet h)).length := rfl

/-- Running one client thread alone through a whole call. -/
def callSteps (i h : Nat) (code : Int) : List Act :=
  [.signal i h code, .signal2 i, .signal2 i, .signal2 i, .signal2 i, .signal2 i, .signal2 i]

theorem sig_run (s : St) (i h : Nat) (code : Int) (hub : s.ub = false) (hi : s.cl i = .idle) (ho : okArg s h) (he : h ∈ s.evs)
    (hu : (s.ev h).user = true) (hn : (s.ev h).called = false) (hs : Settable code) :
    ∃ s', runSched step s (callSteps i h code) = some s' ∧ (i, .setUserEventStatus h code, NO_ERROR) ∈ s'.rets := by
  rcases hs with rfl | rfl | rfl | rfl <;>
    simp [callSteps, runSched, step, hub, hi, ho, he, signalStep, setC, holdEv, setEv, hu, hn, ret]

end Mcut.Api
