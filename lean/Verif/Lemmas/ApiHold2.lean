import Verif.Lemmas.ApiHold
/-! Every step respects ownership of event objects. -/
namespace Mcut.Api

theorem heldOther_cl {s s' : St} {i : Nat} {p : CPc} (hm : s'.mgr = s.mgr) (hc : s'.cl = upd s.cl i p) :
    ∀ b, b ≠ Actor.cl i → held s' b = held s b := by
  intro b hb
  cases b with
  | mg c t => simp [held, hm]
  | cl j => simp only [held, hc]; rw [upd_other _ _ _ _ (by rintro rfl; exact hb rfl)]

theorem heldOther_mg {s s' : St} {c t : Nat} {p : MPc} (hc : s'.cl = s.cl) (hm : s'.mgr = upd2 s.mgr c t p) :
    ∀ b, b ≠ Actor.mg c t → held s' b = held s b := by
  intro b hb
  cases b with
  | mg c' t' => simp only [held, hm]; rw [upd2_other _ _ _ _ _ _ (by rintro ⟨rfl, rfl⟩; exact hb rfl)]
  | cl j => simp [held, hc]

theorem held_none {s s' : St} (hc : s'.cl = s.cl) (hm : s'.mgr = s.mgr) (b : Actor) : held s' b = held s b := by
  cases b <;> simp [held, hc, hm]

theorem setEv_hold (s : St) (h : Nat) (e : Ev) (l : Loc) (x : Nat) :
    ((setEv s h e l).ev x).hold = if x = h then e.hold else (s.ev x).hold := by
  unfold setEv upd; simp only; split <;> rfl

theorem setEv_dead (s : St) (h : Nat) (e : Ev) (l : Loc) (x : Nat) :
    ((setEv s h e l).ev x).dead = if x = h then e.dead else (s.ev x).dead := by
  unfold setEv upd; simp only; split <;> rfl

theorem holdEv_hold (s : St) (h : Nat) (a : Actor) (x : Nat) :
    ((holdEv s h a).ev x).hold = if x = h then a :: (s.ev h).hold else (s.ev x).hold := by
  unfold holdEv upd; simp only; split <;> rfl

theorem holdEv_dead (s : St) (h : Nat) (a : Actor) (x : Nat) :
    ((holdEv s h a).ev x).dead = (s.ev x).dead := by
  unfold holdEv upd; simp only; split
  · rename_i hx; subst hx; rfl
  · rfl

theorem destroyEv_evOther (s : St) (h x : Nat) (hx : x ≠ h) : (destroyEv s h).ev x = s.ev x := by
  unfold destroyEv; simp only; repeat' split
  all_goals simp_all [obsCb, upd_other _ _ _ _ hx]

theorem reapEv_evOther (s : St) (h x : Nat) (hx : x ≠ h) : (reapEv s h).ev x = s.ev x := by
  unfold reapEv; split
  · exact destroyEv_evOther s h x hx
  · rfl

theorem dropEv_evOther (s : St) (h : Nat) (a : Actor) (x : Nat) (hx : x ≠ h) : (dropEv s h a).ev x = s.ev x := by
  unfold dropEv; rw [reapEv_evOther _ _ _ hx]; simp only [upd_other _ _ _ _ hx]

theorem removeEv_evOther (s : St) (h x : Nat) (hx : x ≠ h) : (removeEv s h).ev x = s.ev x := by
  unfold removeEv; rw [reapEv_evOther _ _ _ hx]

theorem holdEv_evOther (s : St) (h : Nat) (a : Actor) (x : Nat) (hx : x ≠ h) : (holdEv s h a).ev x = s.ev x := by
  unfold holdEv; simp only [upd_other _ _ _ _ hx]

theorem notifyCb_evOther (s : St) (h : Nat) (l : Loc) (x : Nat) (hx : x ≠ h) : (notifyCb s h l).ev x = s.ev x := by
  unfold notifyCb; simp only; repeat' split
  all_goals simp_all [obsCb, setEv, upd_other _ _ _ _ hx]

theorem setCb_evOther (s : St) (h : Nat) (x : Nat) (hx : x ≠ h) : (setCb s h).ev x = s.ev x := by
  unfold setCb; simp only; repeat' split
  all_goals simp_all [obsCb, setEv, upd_other _ _ _ _ hx]

theorem pushed_hold (s : St) (i c h : Nat) (ws : List Nat) (t x : Nat) :
    ((pushed s i c h ws t).ev x).hold = if x = h then (s.ev h).hold.erase (.cl i) else (s.ev x).hold := by
  simp only [pushed, dropCtx_ev, dropEv_hold, obs_ev, setEv_hold, if_true]
  by_cases hx : x = h <;> simp [hx]

theorem pushed_dead (s : St) (i c h : Nat) (ws : List Nat) (t x : Nat) :
    ((pushed s i c h ws t).ev x).dead =
      ((s.ev x).dead || (decide (x = h) && decide ((s.ev h).hold.erase (.cl i) = [] ∧ h ∉ s.evs))) := by
  simp only [pushed, dropCtx_ev, dropEv_dead, obs_ev, setEv_dead, setEv_hold, if_true, obs_evs, setEv_evs]
  by_cases hx : x = h <;> simp [hx]

theorem pushed_evOther (s : St) (i c h : Nat) (ws : List Nat) (t x : Nat) (hx : x ≠ h) : (pushed s i c h ws t).ev x = s.ev x := by
  simp only [pushed, dropCtx_ev, dropEv_evOther _ _ _ _ hx, obs_ev, setEv_evOther _ _ _ _ _ hx]

theorem dropTask_hold (s : St) (c t : Nat) (k : Task) (x : Nat) : ((dropTask s c t k).ev x).hold = (s.ev x).hold := by
  simp only [dropTask, setWhy_ev, obs_ev, setEv_hold]; split
  · rename_i h; subst h; rfl
  · rfl

theorem dropTask_dead (s : St) (c t : Nat) (k : Task) (x : Nat) : ((dropTask s c t k).ev x).dead = (s.ev x).dead := by
  simp only [dropTask, setWhy_ev, obs_ev, setEv_dead]; split
  · rename_i h; subst h; rfl
  · rfl

theorem dropTask_evOther (s : St) (c t : Nat) (k : Task) (x : Nat) (hx : x ≠ k.ev) : (dropTask s c t k).ev x = s.ev x := by
  simp only [dropTask, setWhy_ev, obs_ev, setEv_evOther _ _ _ _ _ hx]

/-- Fields `hold` and `dead` through every operation. -/
macro "hsimp" : tactic => `(tactic| (
  intro x
  simp only [ret_ev, setC_ev, setM_ev, obs_ev, setWhy_ev, obsCb_ev, bad_ev, dropCtx_ev, holdCtx_ev,
    setEv_hold, setEv_dead, holdEv_hold, holdEv_dead, dropEv_hold, dropEv_dead, removeEv_hold, removeEv_dead, notifyCb_hold, notifyCb_dead,
    setCb_hold, setCb_dead, pushed_hold, pushed_dead, dropTask_hold, dropTask_dead, setEv_evs, obs_evs, notifyCb_evs, setCb_evs, if_true]
  try split
  all_goals try (rename_i hx; subst hx)
  all_goals try simp_all
  all_goals try rfl))

theorem neOf {f : Nat → Loc} {x h : Nat} (hh : f h ≠ .unborn) (hx : f x = .unborn) : x ≠ h := by
  rintro rfl; exact hh hx

/-- Events that a step does not name are unchanged. -/
macro "esimp" hl:term : tactic => `(tactic| (
  intro x hx
  have hne := neOf $hl hx
  simp only [ret_ev, setC_ev, setM_ev, obs_ev, setWhy_ev, obsCb_ev, bad_ev, dropCtx_ev, holdCtx_ev, dropEv_evOther _ _ _ _ hne, setEv_evOther _ _ _ _ _ hne, holdEv_evOther _ _ _ _ hne,
    removeEv_evOther _ _ _ hne, notifyCb_evOther _ _ _ _ hne, setCb_evOther _ _ _ hne, pushed_evOther _ _ _ _ _ _ _ hne]))

theorem tr_heff {s s' : St} (i : Inv s) (hi : HInv s)
    (ln : ∀ h, s'.loc h = s.loc h ∨ Next (s.loc h) (s'.loc h))
    (lu : s'.counter = s.counter → ∀ h, s.loc h = .unborn → s'.loc h = .unborn) (tr : Tr s s') : ∃ a, HEff s s' a := by
  have hl : s'.counter = s.counter → ∀ x, s'.loc x = .unborn ↔ s.loc x = .unborn := by
    intro hc x
    constructor
    · intro h
      rcases ln x with l | l
      · rw [← l]; exact h
      · exact absurd h l.ne_unborn
    · exact lu hc x
  have alive : ∀ {x}, x ∈ s.evs → (s.ev x).dead = false := by
    intro x h
    cases hd : (s.ev x).dead with
    | false => rfl
    | true => exact absurd h ((hi.deadOk x).1 hd).2.1
  cases tr with
  | createCtx j ooo hp =>
    exact ⟨.cl j, .same (by intro x; rfl) (by intro x; rfl) rfl (heldOther_cl (p := .idle) rfl rfl) (by simp [held, hp, heldC, createCtx]) (by intro x _; rfl) (by intro x; rfl)⟩
  | createUserBad j c hp hc =>
    exact ⟨.cl j, .same (by hsimp) (by hsimp) (by simp) (heldOther_cl (p := .idle) (by simp) (by simp)) (by simp [held, hp, heldC]) (by intro x _; rfl) (hl (by simp))⟩
  | createUser j c hp hc =>
    exact ⟨.cl j, .born s.counter [] (i.fresh _ (Nat.le_refl _)) (by simp) (by intro x hx; simp [setEv_evOther _ _ _ _ _ hx])
      (by simp [setEv, newEv]) (by simp [setEv, newEv]) (by simp) (heldOther_cl (p := .idle) (by simp) (by simp)) (by simp [held, hp, heldC])
      (Or.inl ⟨rfl, by simp [held, heldC]⟩) (by intro x hx; simp [upd_other _ _ _ _ hx])⟩
  | enqueueBad j c ws blk hp hc =>
    exact ⟨.cl j, .same (by hsimp) (by hsimp) (by simp) (heldOther_cl (p := .idle) (by simp) (by simp)) (by simp [held, hp, heldC]) (by intro x _; rfl) (hl (by simp))⟩
  | enqueue j c ws blk hp hw hb hc =>
    exact ⟨.cl j, .born s.counter [.cl j] (i.fresh _ (Nat.le_refl _)) (by simp) (by intro x hx; simp [setEv_evOther _ _ _ _ _ hx])
      (by simp [setEv, newEv]) (by simp [setEv, newEv]) (by simp) (heldOther_cl (p := .submit c s.counter ws blk) (by simp) (by simp)) (by simp [held, hp, heldC])
      (Or.inr ⟨rfl, by simp [held, heldC]⟩) (by intro x hx; simp [upd_other _ _ _ _ hx])⟩
  | enqueueUnknown j c h ws blk hp hr =>
    have hh : held s (.cl j) = some h := by simp [held, hp, heldC]
    exact ⟨.cl j, .drop h (by hsimp) (by hsimp) (by simp) (heldOther_cl (p := .idle) (by simp) (by simp)) hh (by simp [held, heldC]) (by esimp (hi.bornOf hh)) (hl (by simp))⟩
  | enqueueBlk j c h ws t ot seen hp hr ht hlt =>
    have hh : held s (.cl j) = some h := by simp [held, hp, heldC]
    exact ⟨.cl j, .drop h (by hsimp) (by hsimp) (by simp) (heldOther_cl (p := .bwait c h) (by simp) (by simp)) hh (by simp [held, heldC]) (by esimp (hi.bornOf hh)) (hl (by simp))⟩
  | enqueueRet j c h ws t ot seen hp hr ht hlt =>
    have hh : held s (.cl j) = some h := by simp [held, hp, heldC]
    exact ⟨.cl j, .drop h (by hsimp) (by hsimp) (by simp) (heldOther_cl (p := .idle) (by simp) (by simp)) hh (by simp [held, heldC]) (by esimp (hi.bornOf hh)) (hl (by simp))⟩
  | enqueueUb j c h ws t ot seen blk hp hr ht hlt =>
    exact ⟨.cl j, .same (by intro x; rfl) (by intro x; rfl) rfl (fun b _ => held_none rfl rfl b) rfl (by intro x _; rfl) (hl rfl)⟩
  | bwait j c h hp he =>
    exact ⟨.cl j, .take h (by hsimp) (by hsimp) (by simp) (heldOther_cl (p := .bblock c h) (by simp) (by simp)) (by simp [held, hp, heldC]) (by simp [held, heldC]) (alive he) (by esimp (i.evsLoc _ he)) (hl (by simp))⟩
  | bwaitUb j c h hp he =>
    exact ⟨.cl j, .same (by intro x; rfl) (by intro x; rfl) rfl (fun b _ => held_none rfl rfl b) rfl (by intro x _; rfl) (hl rfl)⟩
  | bblock j c h hp hr =>
    have hh : held s (.cl j) = some h := by simp [held, hp, heldC]
    exact ⟨.cl j, .drop h (by hsimp) (by hsimp) (by simp) (heldOther_cl (p := .brel c h (s.ev h).rt) (by simp) (by simp)) hh (by simp [held, heldC]) (by esimp (hi.bornOf hh)) (hl (by simp))⟩
  | brel j c h r hp he =>
    exact ⟨.cl j, .remove h (by hsimp) (by hsimp) he (by simp) (heldOther_cl (p := .idle) (by simp) (by simp)) (by simp [held, hp, heldC]) (by esimp (i.evsLoc _ he)) (hl (by simp)) (i.evsLoc _ he)⟩
  | brelUb j c h r hp he =>
    exact ⟨.cl j, .same (by intro x; rfl) (by intro x; rfl) rfl (fun b _ => held_none rfl rfl b) rfl (by intro x _; rfl) (hl rfl)⟩
  | signal j h code hp ho he =>
    exact ⟨.cl j, .take h (by hsimp) (by hsimp) (by simp) (heldOther_cl (p := .sig h code) (by simp) (by simp)) (by simp [held, hp, heldC]) (by simp [held, heldC]) (alive he) (by esimp (i.evsLoc _ he)) (hl (by simp))⟩
  | signalBad j h code hp ho he =>
    exact ⟨.cl j, .same (by hsimp) (by hsimp) (by simp) (heldOther_cl (p := .idle) (by simp) (by simp)) (by simp [held, hp, heldC]) (by intro x _; rfl) (hl (by simp))⟩
  | sigUb j h code hp hu =>
    exact ⟨.cl j, .same (by intro x; rfl) (by intro x; rfl) rfl (fun b _ => held_none rfl rfl b) rfl (by intro x _; rfl) (hl rfl)⟩
  | sigTwice j h code hp hu hc =>
    have hh : held s (.cl j) = some h := by simp [held, hp, heldC]
    exact ⟨.cl j, .drop h (by hsimp) (by hsimp) (by simp) (heldOther_cl (p := .idle) (by simp) (by simp)) hh (by simp [held, heldC]) (by esimp (hi.bornOf hh)) (hl (by simp))⟩
  | sig j h code hp hu hc =>
    have hh : held s (.cl j) = some h := by simp [held, hp, heldC]
    exact ⟨.cl j, .same (by hsimp) (by hsimp) (by simp) (heldOther_cl (p := .sig1 h code) (by simp) (by simp)) (by simp [held, hp, heldC]) (by esimp (hi.bornOf hh)) (hl (by simp))⟩
  | sig1 j h code hp =>
    have hh : held s (.cl j) = some h := by simp [held, hp, heldC]
    exact ⟨.cl j, .same (by hsimp) (by hsimp) (by simp) (heldOther_cl (p := .sig2 h code) (by simp) (by simp)) (by simp [held, hp, heldC]) (by esimp (hi.bornOf hh)) (hl (by simp))⟩
  | sig2Ok j h hp =>
    have hh : held s (.cl j) = some h := by simp [held, hp, heldC]
    exact ⟨.cl j, .same (by hsimp) (by hsimp) (by simp) (heldOther_cl (p := .sig3 h NO_ERROR) (by simp) (by simp)) (by simp [held, hp, heldC]) (by esimp (hi.bornOf hh)) (hl (by simp))⟩
  | sig2Err j h code hp hc =>
    have hh : held s (.cl j) = some h := by simp [held, hp, heldC]
    exact ⟨.cl j, .same (by hsimp) (by hsimp) (by simp) (heldOther_cl (p := .sig3 h code) (by simp) (by simp)) (by simp [held, hp, heldC]) (by esimp (hi.bornOf hh)) (hl (by simp))⟩
  | sig2Bad j h code hp h4 hc =>
    have hh : held s (.cl j) = some h := by simp [held, hp, heldC]
    exact ⟨.cl j, .drop h (by hsimp) (by hsimp) (by simp) (heldOther_cl (p := .idle) (by simp) (by simp)) hh (by simp [held, heldC]) (by esimp (hi.bornOf hh)) (hl (by simp))⟩
  | sig3 j h r hp =>
    have hh : held s (.cl j) = some h := by simp [held, hp, heldC]
    exact ⟨.cl j, .same (by hsimp) (by hsimp) (by simp) (heldOther_cl (p := .sig4 h r) (by simp) (by simp)) (by simp [held, hp, heldC]) (by esimp (hi.bornOf hh)) (hl (by simp))⟩
  | sig4 j h r hp =>
    have hh : held s (.cl j) = some h := by simp [held, hp, heldC]
    exact ⟨.cl j, .same (by hsimp) (by hsimp) (by simp) (heldOther_cl (p := .sig5 h r) (by simp) (by simp)) (by simp [held, hp, heldC]) (by esimp (hi.bornOf hh)) (hl (by simp))⟩
  | sig5 j h r hp =>
    have hh : held s (.cl j) = some h := by simp [held, hp, heldC]
    exact ⟨.cl j, .drop h (by hsimp) (by hsimp) (by simp) (heldOther_cl (p := .idle) (by simp) (by simp)) hh (by simp [held, heldC]) (by esimp (hi.bornOf hh)) (hl (by simp))⟩
  | setCb j h hp ho he =>
    exact ⟨.cl j, .take h (by hsimp) (by hsimp) (by simp) (heldOther_cl (p := .setcb h) (by simp) (by simp)) (by simp [held, hp, heldC]) (by simp [held, heldC]) (alive he) (by esimp (i.evsLoc _ he)) (hl (by simp))⟩
  | setCbBad j h hp ho he =>
    exact ⟨.cl j, .same (by hsimp) (by hsimp) (by simp) (heldOther_cl (p := .idle) (by simp) (by simp)) (by simp [held, hp, heldC]) (by intro x _; rfl) (hl (by simp))⟩
  | setCb2 j h hp =>
    have hh : held s (.cl j) = some h := by simp [held, hp, heldC]
    exact ⟨.cl j, .drop h (by hsimp) (by hsimp) (by simp) (heldOther_cl (p := .idle) (by simp) (by simp)) hh (by simp [held, heldC]) (by esimp (hi.bornOf hh)) (hl (by simp))⟩
  | wait j ws hp ho =>
    exact ⟨.cl j, .same (by hsimp) (by hsimp) (by simp) (heldOther_cl (p := .wait ws ws) (by simp) (by simp)) (by simp [held, hp, heldC]) (by intro x _; rfl) (hl (by simp))⟩
  | waitEnd j all hp =>
    exact ⟨.cl j, .same (by hsimp) (by hsimp) (by simp) (heldOther_cl (p := .idle) (by simp) (by simp)) (by simp [held, hp, heldC]) (by intro x _; rfl) (hl (by simp))⟩
  | waitFind j all w rest hp he =>
    exact ⟨.cl j, .take w (by hsimp) (by hsimp) (by simp) (heldOther_cl (p := .waitBlock all w rest) (by simp) (by simp)) (by simp [held, hp, heldC]) (by simp [held, heldC]) (alive he) (by esimp (i.evsLoc _ he)) (hl (by simp))⟩
  | waitMiss j all w rest hp he =>
    exact ⟨.cl j, .same (by hsimp) (by hsimp) (by simp) (heldOther_cl (p := .idle) (by simp) (by simp)) (by simp [held, hp, heldC]) (by intro x _; rfl) (hl (by simp))⟩
  | waitNext j all w rest hp hr h0 =>
    have hh : held s (.cl j) = some w := by simp [held, hp, heldC]
    exact ⟨.cl j, .drop w (by hsimp) (by hsimp) (by simp) (heldOther_cl (p := .wait all rest) (by simp) (by simp)) hh (by simp [held, heldC]) (by esimp (hi.bornOf hh)) (hl (by simp))⟩
  | waitFail j all w rest hp hr h0 =>
    have hh : held s (.cl j) = some w := by simp [held, hp, heldC]
    exact ⟨.cl j, .drop w (by hsimp) (by hsimp) (by simp) (heldOther_cl (p := .idle) (by simp) (by simp)) hh (by simp [held, heldC]) (by esimp (hi.bornOf hh)) (hl (by simp))⟩
  | release j hs hp ho =>
    exact ⟨.cl j, .same (by hsimp) (by hsimp) (by simp) (heldOther_cl (p := .rel hs) (by simp) (by simp)) (by simp [held, hp, heldC]) (by intro x _; rfl) (hl (by simp))⟩
  | relEnd j hp =>
    exact ⟨.cl j, .same (by hsimp) (by hsimp) (by simp) (heldOther_cl (p := .idle) (by simp) (by simp)) (by simp [held, hp, heldC]) (by intro x _; rfl) (hl (by simp))⟩
  | rel j h rest hp he =>
    exact ⟨.cl j, .remove h (by hsimp) (by hsimp) he (by simp) (heldOther_cl (p := .rel rest) (by simp) (by simp)) (by simp [held, hp, heldC]) (by esimp (i.evsLoc _ he)) (hl (by simp)) (i.evsLoc _ he)⟩
  | relBad j h rest hp he =>
    exact ⟨.cl j, .same (by hsimp) (by hsimp) (by simp) (heldOther_cl (p := .idle) (by simp) (by simp)) (by simp [held, hp, heldC]) (by intro x _; rfl) (hl (by simp))⟩
  | relCtx j c hp hc =>
    exact ⟨.cl j, .same (by hsimp) (by hsimp) (by simp) (heldOther_cl (p := .relCtx c) (by simp) (by simp)) (by simp [held, hp, heldC]) (by intro x _; rfl) (hl (by simp))⟩
  | relCtxBad j c hp hc =>
    exact ⟨.cl j, .same (by hsimp) (by hsimp) (by simp) (heldOther_cl (p := .idle) (by simp) (by simp)) (by simp [held, hp, heldC]) (by intro x _; rfl) (hl (by simp))⟩
  | relCtx2 j c hp =>
    exact ⟨.cl j, .same (by hsimp) (by hsimp) (by simp) (heldOther_cl (p := .idle) (by simp) (by simp)) (by simp [held, hp, heldC]) (by intro x _; simp) (hl (by simp))⟩
  | popDone c t k rest hn hp hq hd =>
    have hb : s.loc k.ev ≠ .unborn := by rw [(i.q c t k (by rw [hq]; simp)).1]; simp
    exact ⟨.mg c t, .same (by hsimp) (by hsimp) (by simp) (heldOther_mg (p := .exited) (by simp) (by simp)) (by simp [held, hp, heldM, upd2_same])
      (by intro x hx; rw [setM_ev, dropTask_evOther _ _ _ _ _ (by rintro rfl; exact hb hx)]) (hl (by simp))⟩
  | pop c t k rest hn hp hq hd =>
    have hb : s.loc k.ev ≠ .unborn := by rw [(i.q c t k (by rw [hq]; simp)).1]; simp
    exact ⟨.mg c t, .same (by hsimp) (by hsimp) (by simp) (heldOther_mg (p := .lookup k k.waits) (by simp) (by simp)) (by simp [held, hp, heldM, upd2_same]) (by esimp hb) (hl (by simp))⟩
  | exit c t hn hp hq hd =>
    exact ⟨.mg c t, .same (by hsimp) (by hsimp) (by simp) (heldOther_mg (p := .exited) (by simp) (by simp)) (by simp [held, hp, heldM, upd2_same]) (by intro x _; rfl) (hl (by simp))⟩
  | drain c t k rest hn hp hq =>
    have hb : s.loc k.ev ≠ .unborn := by rw [(i.q c t k (by rw [hq]; simp)).1]; simp
    exact ⟨.mg c t, .same (by hsimp) (by hsimp) (by simp) (fun b _ => held_none (by simp) (by simp) b) (held_none (by simp) (by simp) _)
      (by intro x hx; rw [dropTask_evOther _ _ _ _ _ (by rintro rfl; exact hb hx)]) (hl (by simp))⟩
  | depFind c t k w rest hn hp he =>
    have hb : s.loc w ≠ .unborn := by exact i.evsLoc _ he
    exact ⟨.mg c t, .take w (by hsimp) (by hsimp) (by simp) (heldOther_mg (p := .block k w rest) (by simp) (by simp)) (by simp [held, hp, heldM]) (by simp [held, heldM, upd2_same]) (alive he) (by esimp hb) (hl (by simp))⟩
  | depMiss c t k w rest hn hp he =>
    have hb : s.loc k.ev ≠ .unborn := by have := i.locM hp (h := k.ev) rfl; rw [this]; simp
    exact ⟨.mg c t, .same (by hsimp) (by hsimp) (by simp) (heldOther_mg (p := .skip k) (by simp) (by simp)) (by simp [held, hp, heldM, upd2_same]) (by esimp hb) (hl (by simp))⟩
  | depNext c t k w rest hn hp hr h0 =>
    have hh : held s (.mg c t) = some w := by simp [held, hp, heldM]
    exact ⟨.mg c t, .drop w (by hsimp) (by hsimp) (by simp) (heldOther_mg (p := .lookup k rest) (by simp) (by simp)) hh (by simp [held, heldM, upd2_same]) (by esimp (hi.bornOf hh)) (hl (by simp))⟩
  | depFail c t k w rest hn hp hr h0 =>
    have hh : held s (.mg c t) = some w := by simp [held, hp, heldM]
    have hs : setEv (dropEv s w (.mg c t)) k.ev ((dropEv s w (.mg c t)).ev k.ev) (.skipping c t)
        = { dropEv s w (.mg c t) with loc := upd s.loc k.ev (.skipping c t) } := by
      simp [setEv, upd_self]
    rw [hs] at hl ⊢
    exact ⟨.mg c t, .drop w (by intro x; simp [dropEv_hold]) (by intro x; simp [dropEv_dead]) (by simp) (heldOther_mg (p := .skip k) (by simp) (by simp)) hh (by simp [held, heldM, upd2_same])
      (by intro x hx; simp [dropEv_evOther _ _ _ _ (show x ≠ w by rintro rfl; exact hi.bornOf hh hx)]) (hl (by simp))⟩
  | startUb c t k hn hp hd =>
    exact ⟨.mg c t, .same (by intro x; rfl) (by intro x; rfl) rfl (fun b _ => held_none rfl rfl b) rfl (by intro x _; rfl) (hl rfl)⟩
  | start c t k hn hp hd ha =>
    have hb : s.loc k.ev ≠ .unborn := by have := i.locM hp (h := k.ev) rfl; rw [this]; simp
    exact ⟨.mg c t, .take k.ev (by hsimp) (by hsimp) (by simp) (heldOther_mg (p := .run k) (by simp) (by simp)) (by simp [held, hp, heldM]) (by simp [held, heldM, upd2_same]) hd (by esimp hb) (hl (by simp))⟩
  | startDead c t k hn hp hd ha =>
    have hb : s.loc k.ev ≠ .unborn := by have := i.locM hp (h := k.ev) rfl; rw [this]; simp
    exact ⟨.mg c t, .take k.ev (by hsimp) (by hsimp) (by simp) (heldOther_mg (p := .run k) (by simp) (by simp)) (by simp [held, hp, heldM]) (by simp [held, heldM, upd2_same]) hd (by esimp hb) (hl (by simp))⟩
  | skip c t k hn hp =>
    have hb : s.loc k.ev ≠ .unborn := by have := i.locM hp (h := k.ev) rfl; rw [this]; simp
    exact ⟨.mg c t, .same (by hsimp) (by hsimp) (by simp) (heldOther_mg (p := .idle) (by simp) (by simp)) (by simp [held, hp, heldM, upd2_same]) (by esimp hb) (hl (by simp))⟩
  | stop c t k r hn hp hh hr =>
    have hb : s.loc k.ev ≠ .unborn := by have := i.locM hp (h := k.ev) rfl; rw [this]; simp
    exact ⟨.mg c t, .same (by hsimp) (by hsimp) (by simp) (heldOther_mg (p := .ran k r) (by simp) (by simp)) (by simp [held, hp, heldM, upd2_same]) (by esimp hb) (hl (by simp))⟩
  | stopDead c t k r hn hp hh hr =>
    have hb : s.loc k.ev ≠ .unborn := by have := i.locM hp (h := k.ev) rfl; rw [this]; simp
    exact ⟨.mg c t, .same (by hsimp) (by hsimp) (by simp) (heldOther_mg (p := .ran k r) (by simp) (by simp)) (by simp [held, hp, heldM, upd2_same]) (by esimp hb) (hl (by simp))⟩
  | ran c t k r hn hp =>
    have hb : s.loc k.ev ≠ .unborn := by have := i.locM hp (h := k.ev) rfl; rw [this]; simp
    exact ⟨.mg c t, .same (by hsimp) (by hsimp) (by simp) (heldOther_mg (p := .fin1 k r) (by simp) (by simp)) (by simp [held, hp, heldM, upd2_same]) (by esimp hb) (hl (by simp))⟩
  | fin1 c t k r hn hp =>
    have hb : s.loc k.ev ≠ .unborn := by have := i.locM hp (h := k.ev) rfl; rw [this]; simp
    exact ⟨.mg c t, .same (by hsimp) (by hsimp) (by simp) (heldOther_mg (p := .fin2 k r) (by simp) (by simp)) (by simp [held, hp, heldM, upd2_same]) (by esimp hb) (hl (by simp))⟩
  | fin2 c t k r hn hp =>
    have hb : s.loc k.ev ≠ .unborn := by have := i.locM hp (h := k.ev) rfl; rw [this]; simp
    exact ⟨.mg c t, .same (by hsimp) (by hsimp) (by simp) (heldOther_mg (p := .fin3 k r) (by simp) (by simp)) (by simp [held, hp, heldM, upd2_same]) (by esimp hb) (hl (by simp))⟩
  | fin3 c t k r hn hp =>
    have hh : held s (.mg c t) = some k.ev := by simp [held, hp, heldM]
    exact ⟨.mg c t, .drop k.ev (by hsimp) (by hsimp) (by simp) (heldOther_mg (p := .fin4 k r) (by simp) (by simp)) hh (by simp [held, heldM, upd2_same]) (by esimp (hi.bornOf hh)) (hl (by simp))⟩
  | fin4 c t k r hn hp =>
    have hb : s.loc k.ev ≠ .unborn := by have := i.locM hp (h := k.ev) rfl; rw [this]; simp
    exact ⟨.mg c t, .same (by hsimp) (by hsimp) (by simp) (heldOther_mg (p := .idle) (by simp) (by simp)) (by simp [held, hp, heldM, upd2_same]) (by esimp hb) (hl (by simp))⟩
  | newCC c t k hn hp hh =>
    exact ⟨.mg c t, .same (by intro x; rfl) (by intro x; rfl) rfl (fun b _ => held_none rfl rfl b) rfl (by intro x _; rfl) (by intro x; rfl)⟩

theorem hinv_init : HInv init := by
  refine ⟨?_, ?_, ?_, ?_⟩
  · intro x a; cases a <;> simp [init, newEv, held, heldM, heldC]
  · intro x; simp [init, newEv]
  · intro x; simp [init, newEv]
  · intro x _; rfl

theorem reachable_hinv {s : St} (h : Reachable s) : Inv s ∧ Inv2 s ∧ HInv s := by
  refine Reach.inv (P := fun s => Inv s ∧ Inv2 s ∧ HInv s) ?_ ⟨inv_init, inv2_init, hinv_init⟩ h
  rintro s a s' ⟨i, i2, hi⟩ hs
  have hc : s.inited = true ∨ s.counter = 0 := by
    cases hi : s.inited with
    | true => exact Or.inl rfl
    | false => exact Or.inr (i2.ini hi).1
  obtain ⟨b, e⟩ := step_eff s s' a i i2.so hc hs
  have tr := step_tr s s' a hs
  obtain ⟨a', he⟩ := tr_heff i hi (e.locNext i) (e.locUnborn i) tr
  exact ⟨e.inv i, tr_inv2 i i2 (e.locNext i) (e.locUnborn i) tr, he.inv hi⟩

end Mcut.Api
