import Verif.Lemmas.ApiStep
/-! The steps of the API model, one constructor per outcome. -/
namespace Mcut.Api

/-- The state right after a task was pushed. -/
def pushed (s : St) (i c h : Nat) (ws : List Nat) (t : Nat) : St :=
  dropCtx (dropEv (obs (setEv { s with queue := upd2 s.queue c t (s.queue c t ++ [⟨h, ws⟩]) }
    h { s.ev h with tid := some t } (.queued c t)) (.submit c t h)) h (.cl i)) c (.cl i)

/-- All outcomes of one step. -/
inductive Tr (s : St) : St → Prop
  | createCtx (i ooo) (hp : s.cl i = .idle) : Tr s (createCtx s i ooo)
  | createUserBad (i c) (hp : s.cl i = .idle) (hc : c ∉ s.ctxs) : Tr s (ret s i (.createUserEvent c 0) INVALID_VALUE)
  | createUser (i c) (hp : s.cl i = .idle) (hc : c ∈ s.ctxs) :
      Tr s (ret (setEv { s with
        counter := s.counter + 1, evs := s.counter :: s.evs, issued := s.counter :: s.issued,
        returned := s.counter :: s.returned } s.counter (newEv true []) .uNew) i (.createUserEvent c s.counter) NO_ERROR)
  | enqueueBad (i c ws blk) (hp : s.cl i = .idle) (hc : c ∉ s.ctxs) :
      Tr s (ret s i (if blk = true then .blocking c 0 else .enqueue c 0 ws) INVALID_VALUE)
  | enqueue (i c ws) (blk : Bool) (hp : s.cl i = .idle) (hw : ∀ w ∈ ws, okArg s w) (hb : blk = true → ws = []) (hc : c ∈ s.ctxs) :
      Tr s (setC (setEv { holdCtx s c (.cl i) with
        counter := s.counter + 1, evs := s.counter :: s.evs, issued := s.counter :: s.issued,
        waits := upd s.waits s.counter ws } s.counter (newEv false [.cl i]) (.alloc i)) i (.submit c s.counter ws blk))
  | enqueueUnknown (i c h ws) (blk : Bool) (hp : s.cl i = .submit c h ws blk) (hr : resolve s ws = .error ()) :
      Tr s (ret (dropCtx (dropEv (setEv s h (s.ev h) .leaked) h (.cl i)) c (.cl i)) i
        (if blk = true then .blocking c 0 else .enqueue c 0 ws) INVALID_VALUE)
  | enqueueBlk (i c h ws t ot seen) (hp : s.cl i = .submit c h ws true) (hr : resolve s ws = .ok ot)
      (ht : t = ot.getD (pickQueue (s.nq c) seen)) (hlt : t < s.nq c) :
      Tr s (setC (pushed s i c h ws t) i (.bwait c h))
  | enqueueRet (i c h ws t ot seen) (hp : s.cl i = .submit c h ws false) (hr : resolve s ws = .ok ot)
      (ht : t = ot.getD (pickQueue (s.nq c) seen)) (hlt : t < s.nq c) :
      Tr s (ret { pushed s i c h ws t with returned := h :: (pushed s i c h ws t).returned } i (.enqueue c h ws) NO_ERROR)
  | enqueueUb (i c h ws t ot seen) (blk : Bool) (hp : s.cl i = .submit c h ws blk) (hr : resolve s ws = .ok ot)
      (ht : t = ot.getD (pickQueue (s.nq c) seen)) (hlt : ¬ t < s.nq c) : Tr s (bad s)
  | bwait (i c h) (hp : s.cl i = .bwait c h) (he : h ∈ s.evs) : Tr s (setC (holdEv s h (.cl i)) i (.bblock c h))
  | bwaitUb (i c h) (hp : s.cl i = .bwait c h) (he : h ∉ s.evs) : Tr s (bad s)
  | bblock (i c h) (hp : s.cl i = .bblock c h) (hr : (s.ev h).ready = true) :
      Tr s (setC (dropEv s h (.cl i)) i (.brel c h (s.ev h).rt))
  | brel (i c h r) (hp : s.cl i = .brel c h r) (he : h ∈ s.evs) : Tr s (ret (removeEv s h) i (.blocking c h) r)
  | brelUb (i c h r) (hp : s.cl i = .brel c h r) (he : h ∉ s.evs) : Tr s (bad s)
  | signal (i h code) (hp : s.cl i = .idle) (ho : okArg s h) (he : h ∈ s.evs) :
      Tr s (setC (holdEv s h (.cl i)) i (.sig h code))
  | signalBad (i h code) (hp : s.cl i = .idle) (ho : okArg s h) (he : h ∉ s.evs) :
      Tr s (ret s i (.setUserEventStatus h code) INVALID_VALUE)
  | sigUb (i h code) (hp : s.cl i = .sig h code) (hu : (s.ev h).user = false) : Tr s (bad s)
  | sigTwice (i h code) (hp : s.cl i = .sig h code) (hu : (s.ev h).user = true) (hc : (s.ev h).called = true) :
      Tr s (ret (dropEv s h (.cl i)) i (.setUserEventStatus h code) MAX_ENUM)
  | sig (i h code) (hp : s.cl i = .sig h code) (hu : (s.ev h).user = true) (hc : (s.ev h).called = false) :
      Tr s (setC (setEv s h { s.ev h with called := true, stat := .running } (.u1 i)) i (.sig1 h code))
  | sig1 (i h code) (hp : s.cl i = .sig1 h code) :
      Tr s (setC (setEv s h { s.ev h with ready := true } (.u2 i)) i (.sig2 h code))
  | sig2Ok (i h) (hp : s.cl i = .sig2 h 4) :
      Tr s (setC (setEv s h { s.ev h with stat := .complete } (.u3 i NO_ERROR)) i (.sig3 h NO_ERROR))
  | sig2Err (i h code) (hp : s.cl i = .sig2 h code)
      (hc : code = INVALID_OPERATION ∨ code = INVALID_VALUE ∨ code = OUT_OF_MEMORY) :
      Tr s (setC (setEv s h (s.ev h) (.u3 i code)) i (.sig3 h code))
  | sig2Bad (i h code) (hp : s.cl i = .sig2 h code) (h4 : code ≠ 4)
      (hc : ¬(code = INVALID_OPERATION ∨ code = INVALID_VALUE ∨ code = OUT_OF_MEMORY)) :
      Tr s (ret (dropEv (setEv s h (s.ev h) .uBad) h (.cl i)) i (.setUserEventStatus h code) INVALID_VALUE)
  | sig3 (i h r) (hp : s.cl i = .sig3 h r) :
      Tr s (setC (setEv s h { s.ev h with fin := true } (.u4 i r)) i (.sig4 h r))
  | sig4 (i h r) (hp : s.cl i = .sig4 h r) :
      Tr s (setC (setEv s h { s.ev h with rt := r } (.u5 i r)) i (.sig5 h r))
  | sig5 (i h r) (hp : s.cl i = .sig5 h r) :
      Tr s (ret (dropEv (notifyCb s h (.uOver r)) h (.cl i)) i (.setUserEventStatus h (if r = 0 then 4 else r)) NO_ERROR)
  | setCb (i h) (hp : s.cl i = .idle) (ho : okArg s h) (he : h ∈ s.evs) :
      Tr s (setC (holdEv s h (.cl i)) i (.setcb h))
  | setCbBad (i h) (hp : s.cl i = .idle) (ho : okArg s h) (he : h ∉ s.evs) :
      Tr s (ret s i (.setEventCallback h) INVALID_VALUE)
  | setCb2 (i h) (hp : s.cl i = .setcb h) : Tr s (ret (dropEv (setCb s h) h (.cl i)) i (.setEventCallback h) NO_ERROR)
  | wait (i ws) (hp : s.cl i = .idle) (ho : ∀ w ∈ ws, okArg s w) : Tr s (setC s i (.wait ws ws))
  | waitEnd (i all) (hp : s.cl i = .wait all []) : Tr s (ret s i (.waitForEvents all .ok) NO_ERROR)
  | waitFind (i all w rest) (hp : s.cl i = .wait all (w :: rest)) (he : w ∈ s.evs) :
      Tr s (setC (holdEv s w (.cl i)) i (.waitBlock all w rest))
  | waitMiss (i all w rest) (hp : s.cl i = .wait all (w :: rest)) (he : w ∉ s.evs) :
      Tr s (ret s i (.waitForEvents all (.unknown w)) INVALID_VALUE)
  | waitNext (i all w rest) (hp : s.cl i = .waitBlock all w rest) (hr : (s.ev w).ready = true)
      (h0 : (s.ev w).rt = NO_ERROR) : Tr s (setC (dropEv s w (.cl i)) i (.wait all rest))
  | waitFail (i all w rest) (hp : s.cl i = .waitBlock all w rest) (hr : (s.ev w).ready = true)
      (h0 : (s.ev w).rt ≠ NO_ERROR) :
      Tr s (ret (dropEv s w (.cl i)) i (.waitForEvents all (.failed w (s.ev w).rt)) INVALID_VALUE)
  | release (i hs) (hp : s.cl i = .idle) (ho : ∀ w ∈ hs, okArg s w) : Tr s (setC s i (.rel hs))
  | relEnd (i) (hp : s.cl i = .rel []) : Tr s (ret s i .releaseEvents NO_ERROR)
  | rel (i h rest) (hp : s.cl i = .rel (h :: rest)) (he : h ∈ s.evs) : Tr s (setC (removeEv s h) i (.rel rest))
  | relBad (i h rest) (hp : s.cl i = .rel (h :: rest)) (he : h ∉ s.evs) : Tr s (ret s i .releaseEvents INVALID_VALUE)
  | relCtx (i c) (hp : s.cl i = .idle) (hc : c ∈ s.ctxs) :
      Tr s (setC (holdCtx { s with ctxs := s.ctxs.filter (· ≠ c) } c (.cl i)) i (.relCtx c))
  | relCtxBad (i c) (hp : s.cl i = .idle) (hc : c ∉ s.ctxs) : Tr s (ret s i (.releaseContext c) INVALID_VALUE)
  | relCtx2 (i c) (hp : s.cl i = .relCtx c) : Tr s (ret (dropCtx s c (.cl i)) i (.releaseContext c) NO_ERROR)
  | popDone (c t k rest) (hn : t < s.nq c) (hp : s.mgr c t = .idle) (hq : s.queue c t = k :: rest) (hd : s.done c = true) :
      Tr s (setM (dropTask { s with queue := upd2 s.queue c t rest } c t k) c t .exited)
  | pop (c t k rest) (hn : t < s.nq c) (hp : s.mgr c t = .idle) (hq : s.queue c t = k :: rest) (hd : s.done c = false) :
      Tr s (setM (setEv { s with queue := upd2 s.queue c t rest } k.ev (s.ev k.ev) (.pre c t)) c t (.lookup k k.waits))
  | exit (c t) (hn : t < s.nq c) (hp : s.mgr c t = .idle) (hq : s.queue c t = []) (hd : s.done c = true) :
      Tr s (setM s c t .exited)
  | drain (c t k rest) (hn : t < s.nq c) (hp : s.mgr c t = .exited) (hq : s.queue c t = k :: rest) :
      Tr s (dropTask { s with queue := upd2 s.queue c t rest } c t k)
  | depFind (c t k w rest) (hn : t < s.nq c) (hp : s.mgr c t = .lookup k (w :: rest)) (he : w ∈ s.evs) :
      Tr s (setM (holdEv s w (.mg c t)) c t (.block k w rest))
  | depMiss (c t k w rest) (hn : t < s.nq c) (hp : s.mgr c t = .lookup k (w :: rest)) (he : w ∉ s.evs) :
      Tr s (setM (setWhy (obs (setEv s k.ev (s.ev k.ev) (.skipping c t)) (.skip c t k.ev)) k.ev (.depUnknown w))
        c t (.skip k))
  | depNext (c t k w rest) (hn : t < s.nq c) (hp : s.mgr c t = .block k w rest) (hr : (s.ev w).ready = true)
      (h0 : (s.ev w).rt = NO_ERROR) : Tr s (setM (dropEv s w (.mg c t)) c t (.lookup k rest))
  | depFail (c t k w rest) (hn : t < s.nq c) (hp : s.mgr c t = .block k w rest) (hr : (s.ev w).ready = true)
      (h0 : (s.ev w).rt ≠ NO_ERROR) :
      Tr s (setM (setWhy (obs (setEv (dropEv s w (.mg c t)) k.ev ((dropEv s w (.mg c t)).ev k.ev) (.skipping c t))
        (.skip c t k.ev)) k.ev (.depFailed w (s.ev w).rt)) c t (.skip k))
  | startUb (c t k) (hn : t < s.nq c) (hp : s.mgr c t = .lookup k []) (hd : (s.ev k.ev).dead = true) : Tr s (bad s)
  | start (c t k) (hn : t < s.nq c) (hp : s.mgr c t = .lookup k []) (hd : (s.ev k.ev).dead = false) (ha : ctxAlive s c) :
      Tr s (setM (holdCtx (obs (setEv (holdEv s k.ev (.mg c t)) k.ev
        { (holdEv s k.ev (.mg c t)).ev k.ev with stat := .running } (.running c t)) (.start c t k.ev)) c (.mg c t)) c t (.run k))
  | startDead (c t k) (hn : t < s.nq c) (hp : s.mgr c t = .lookup k []) (hd : (s.ev k.ev).dead = false) (ha : ¬ ctxAlive s c) :
      Tr s (setM (obs (setEv (holdEv s k.ev (.mg c t)) k.ev
        { (holdEv s k.ev (.mg c t)).ev k.ev with stat := .running } (.running c t)) (.start c t k.ev)) c t (.run k))
  | skip (c t k) (hn : t < s.nq c) (hp : s.mgr c t = .skip k) :
      Tr s (setM (setEv s k.ev { s.ev k.ev with ready := true } (.skipped c t)) c t .idle)
  | stop (c t k r) (hn : t < s.nq c) (hp : s.mgr c t = .run k) (hh : Actor.mg c t ∈ s.ctxHold c)
      (hr : r = NO_ERROR ∨ r = INVALID_OPERATION ∨ r = INVALID_VALUE ∨ r = MAX_ENUM) :
      Tr s (setM (obs (setEv (dropCtx s c (.mg c t)) k.ev (s.ev k.ev) (.ran c t r)) (.stop c t k.ev r)) c t (.ran k r))
  | stopDead (c t k r) (hn : t < s.nq c) (hp : s.mgr c t = .run k) (hh : Actor.mg c t ∉ s.ctxHold c)
      (hr : r = NO_ERROR ∨ r = INVALID_OPERATION ∨ r = INVALID_VALUE ∨ r = MAX_ENUM) :
      Tr s (setM (obs (setEv s k.ev (s.ev k.ev) (.ran c t r)) (.stop c t k.ev r)) c t (.ran k r))
  | ran (c t k r) (hn : t < s.nq c) (hp : s.mgr c t = .ran k r) :
      Tr s (setM (setEv s k.ev { s.ev k.ev with fin := true } (.fin1 c t r)) c t (.fin1 k r))
  | fin1 (c t k r) (hn : t < s.nq c) (hp : s.mgr c t = .fin1 k r) :
      Tr s (setM (setEv s k.ev { s.ev k.ev with rt := r } (.fin2 c t r)) c t (.fin2 k r))
  | fin2 (c t k r) (hn : t < s.nq c) (hp : s.mgr c t = .fin2 k r) :
      Tr s (setM (notifyCb s k.ev (.fin3 c t r)) c t (.fin3 k r))
  | fin3 (c t k r) (hn : t < s.nq c) (hp : s.mgr c t = .fin3 k r) :
      Tr s (setM (dropEv (setEv s k.ev { s.ev k.ev with stat := .complete } (.fin4 c t r)) k.ev (.mg c t)) c t (.fin4 k r))
  | fin4 (c t k r) (hn : t < s.nq c) (hp : s.mgr c t = .fin4 k r) :
      Tr s (setM (setEv s k.ev { s.ev k.ev with ready := true } (.over c t r)) c t .idle)
  | newCC (c t k) (hn : t < s.nq c) (hp : s.mgr c t = .run k) (hh : Actor.mg c t ∈ s.ctxHold c) :
      Tr s { s with counter := s.counter + 1, issued := s.counter :: s.issued, ccs := upd s.ccs c (s.counter :: s.ccs c) }

theorem step_tr (s s' : St) (a : Act) (hs : step s a = some s') : Tr s s' := by
  unfold step at hs
  split at hs
  · simp at hs
  cases a with
  | createCtx i ooo => simp only at hs; split at hs <;> simp at hs; subst hs; exact .createCtx i ooo (by assumption)
  | createUser i c =>
    simp only at hs; split at hs <;> simp at hs; subst hs
    unfold createUser
    split
    · exact .createUserBad i c (by assumption) (by assumption)
    · exact .createUser i c (by assumption) (by simp_all)
  | enqueue i c ws blk =>
    simp only at hs; split at hs <;> simp at hs; subst hs
    unfold beginEnqueue
    split
    · exact .enqueueBad i c ws blk (by simp_all) (by assumption)
    · exact .enqueue i c ws blk (by simp_all) (by simp_all) (by simp_all) (by simp_all)
  | enqueue2 i seen =>
    simp only [finishEnqueue] at hs
    split at hs
    · split at hs
      · simp at hs; subst hs; exact .enqueueUnknown i _ _ _ _ (by assumption) (by assumption)
      · split at hs
        · rename_i blk _ _ _ _ _
          cases blk <;> simp only [Option.some.injEq, Bool.false_eq_true, if_false, if_true] at hs <;> subst hs
          · exact .enqueueRet i _ _ _ _ _ seen (by assumption) (by assumption) rfl (by assumption)
          · exact .enqueueBlk i _ _ _ _ _ seen (by assumption) (by assumption) rfl (by assumption)
        · simp at hs; subst hs
          exact .enqueueUb i _ _ _ _ _ seen _ (by assumption) (by assumption) rfl (by assumption)
    · simp at hs
  | blocking i =>
    simp only [blockStep] at hs
    split at hs
    · split at hs <;> simp at hs <;> subst hs
      · exact .bwait i _ _ (by assumption) (by assumption)
      · exact .bwaitUb i _ _ (by assumption) (by assumption)
    · split at hs <;> simp at hs; subst hs; exact .bblock i _ _ (by assumption) (by assumption)
    · split at hs <;> simp at hs <;> subst hs
      · exact .brel i _ _ _ (by assumption) (by assumption)
      · exact .brelUb i _ _ _ (by assumption) (by assumption)
    · simp at hs
  | signal i h code =>
    simp only at hs; split at hs
    · split at hs <;> simp at hs <;> subst hs
      · exact .signal i h code (by simp_all) (by simp_all) (by assumption)
      · exact .signalBad i h code (by simp_all) (by simp_all) (by assumption)
    · simp at hs
  | signal2 i =>
    simp only [signalStep] at hs
    split at hs
    · split at hs
      · simp at hs; subst hs; exact .sigUb i _ _ (by assumption) (by assumption)
      · split at hs <;> simp at hs <;> subst hs
        · exact .sigTwice i _ _ (by assumption) (by simp_all) (by assumption)
        · exact .sig i _ _ (by assumption) (by simp_all) (by simp_all)
    · simp at hs; subst hs; exact .sig1 i _ _ (by assumption)
    · split at hs
      · rename_i h4; simp at hs; subst hs; subst h4; exact .sig2Ok i _ (by assumption)
      · split at hs <;> simp at hs <;> subst hs
        · exact .sig2Err i _ _ (by assumption) (by assumption)
        · exact .sig2Bad i _ _ (by assumption) (by assumption) (by assumption)
    · simp at hs; subst hs; exact .sig3 i _ _ (by assumption)
    · simp at hs; subst hs; exact .sig4 i _ _ (by assumption)
    · simp at hs; subst hs; exact .sig5 i _ _ (by assumption)
    · simp at hs
  | setCb i h =>
    simp only at hs; split at hs
    · split at hs <;> simp at hs <;> subst hs
      · exact .setCb i h (by simp_all) (by simp_all) (by assumption)
      · exact .setCbBad i h (by simp_all) (by simp_all) (by assumption)
    · simp at hs
  | setCb2 i =>
    simp only at hs; split at hs
    · simp at hs; subst hs; exact .setCb2 i _ (by assumption)
    · simp at hs
  | wait i ws =>
    simp only at hs; split at hs <;> simp at hs; subst hs; exact .wait i ws (by simp_all) (by simp_all)
  | wait2 i =>
    simp only [waitStep] at hs
    split at hs
    · simp at hs; subst hs; exact .waitEnd i _ (by assumption)
    · split at hs <;> simp at hs <;> subst hs
      · exact .waitFind i _ _ _ (by assumption) (by assumption)
      · exact .waitMiss i _ _ _ (by assumption) (by assumption)
    · split at hs
      · split at hs <;> simp at hs <;> subst hs
        · exact .waitNext i _ _ _ (by assumption) (by assumption) (by assumption)
        · exact .waitFail i _ _ _ (by assumption) (by assumption) (by assumption)
      · simp at hs
    · simp at hs
  | release i hs' =>
    simp only at hs; split at hs <;> simp at hs; subst hs; exact .release i hs' (by simp_all) (by simp_all)
  | release2 i =>
    simp only [relStep] at hs
    split at hs
    · simp at hs; subst hs; exact .relEnd i (by assumption)
    · split at hs <;> simp at hs <;> subst hs
      · exact .rel i _ _ (by assumption) (by assumption)
      · exact .relBad i _ _ (by assumption) (by assumption)
    · simp at hs
  | releaseCtx i c =>
    simp only at hs; split at hs
    · split at hs <;> simp at hs <;> subst hs
      · simpa using Tr.relCtx i c (by assumption) (by assumption)
      · exact .relCtxBad i c (by assumption) (by assumption)
    · simp at hs
  | releaseCtx2 i =>
    simp only at hs; split at hs
    · simp at hs; subst hs; exact .relCtx2 i _ (by assumption)
    · simp at hs
  | pop c t =>
    simp only at hs; split at hs <;> [skip; simp at hs]
    simp only [popStep] at hs
    split at hs
    · split at hs <;> simp at hs <;> subst hs
      · exact .popDone c t _ _ (by assumption) (by assumption) (by assumption) (by assumption)
      · exact .pop c t _ _ (by assumption) (by assumption) (by assumption) (by simp_all)
    · split at hs <;> simp at hs; subst hs; exact .exit c t (by assumption) (by assumption) (by assumption) (by assumption)
    · simp at hs; subst hs; exact .drain c t _ _ (by assumption) (by assumption) (by assumption)
    · simp at hs
  | dep c t =>
    simp only at hs; split at hs <;> [skip; simp at hs]
    simp only [depStep] at hs
    split at hs
    · split at hs <;> simp at hs <;> subst hs
      · exact .depFind c t _ _ _ (by assumption) (by assumption) (by assumption)
      · exact .depMiss c t _ _ _ (by assumption) (by assumption) (by assumption)
    · split at hs
      · split at hs <;> simp at hs <;> subst hs
        · exact .depNext c t _ _ _ (by assumption) (by assumption) (by assumption) (by assumption)
        · exact .depFail c t _ _ _ (by assumption) (by assumption) (by assumption) (by assumption)
      · simp at hs
    · split at hs
      · simp at hs; subst hs; exact .startUb c t _ (by assumption) (by assumption) (by assumption)
      · simp only [Option.some.injEq] at hs; subst hs
        split
        · exact .start c t _ (by assumption) (by assumption) (by simp_all) (by assumption)
        · exact .startDead c t _ (by assumption) (by assumption) (by simp_all) (by assumption)
    · simp at hs; subst hs; exact .skip c t _ (by assumption) (by assumption)
    · simp at hs
  | run c t r =>
    simp only at hs; split at hs <;> [skip; simp at hs]
    simp only [runStep] at hs
    split at hs
    · split at hs
      · simp only [Option.some.injEq] at hs; subst hs
        split
        · exact .stop c t _ r (by assumption) (by assumption) (by assumption) (by assumption)
        · exact .stopDead c t _ r (by assumption) (by assumption) (by assumption) (by assumption)
      · simp at hs
    · simp at hs; subst hs; exact .ran c t _ _ (by assumption) (by assumption)
    · simp at hs; subst hs; exact .fin1 c t _ _ (by assumption) (by assumption)
    · simp at hs; subst hs; exact .fin2 c t _ _ (by assumption) (by assumption)
    · simp at hs; subst hs; exact .fin3 c t _ _ (by assumption) (by assumption)
    · simp at hs; subst hs; exact .fin4 c t _ _ (by assumption) (by assumption)
    · simp at hs
  | newCC c t =>
    simp only at hs; split at hs <;> [skip; simp at hs]
    simp only [newCC] at hs
    split at hs
    · split at hs <;> simp at hs; subst hs; exact .newCC c t _ (by assumption) (by assumption) (by assumption)
    · simp at hs

@[simp] theorem pushed_loc (s : St) (i c h : Nat) (ws : List Nat) (t : Nat) :
    (pushed s i c h ws t).loc = upd s.loc h (.queued c t) := by simp [pushed]
@[simp] theorem pushed_queue (s : St) (i c h : Nat) (ws : List Nat) (t : Nat) :
    (pushed s i c h ws t).queue = upd2 s.queue c t (s.queue c t ++ [⟨h, ws⟩]) := by simp [pushed]
@[simp] theorem pushed_log (s : St) (i c h : Nat) (ws : List Nat) (t : Nat) :
    (pushed s i c h ws t).log = .submit c t h :: s.log := by simp [pushed]
@[simp] theorem pushed_waits (s : St) (i c h : Nat) (ws : List Nat) (t : Nat) :
    (pushed s i c h ws t).waits = s.waits := by simp [pushed]
@[simp] theorem pushed_counter (s : St) (i c h : Nat) (ws : List Nat) (t : Nat) :
    (pushed s i c h ws t).counter = s.counter := by simp [pushed]
@[simp] theorem pushed_evs (s : St) (i c h : Nat) (ws : List Nat) (t : Nat) :
    (pushed s i c h ws t).evs = s.evs := by simp [pushed]
@[simp] theorem pushed_mgr (s : St) (i c h : Nat) (ws : List Nat) (t : Nat) :
    (pushed s i c h ws t).mgr = s.mgr := by simp [pushed]
@[simp] theorem pushed_cl (s : St) (i c h : Nat) (ws : List Nat) (t : Nat) :
    (pushed s i c h ws t).cl = s.cl := by simp [pushed]
@[simp] theorem pushed_returned (s : St) (i c h : Nat) (ws : List Nat) (t : Nat) :
    (pushed s i c h ws t).returned = s.returned := by simp [pushed]
@[simp] theorem pushed_issued (s : St) (i c h : Nat) (ws : List Nat) (t : Nat) :
    (pushed s i c h ws t).issued = s.issued := by simp [pushed]
@[simp] theorem pushed_ccs (s : St) (i c h : Nat) (ws : List Nat) (t : Nat) :
    (pushed s i c h ws t).ccs = s.ccs := by simp [pushed]
@[simp] theorem pushed_nq (s : St) (i c h : Nat) (ws : List Nat) (t : Nat) :
    (pushed s i c h ws t).nq = s.nq := by simp [pushed]
@[simp] theorem pushed_ctxs (s : St) (i c h : Nat) (ws : List Nat) (t : Nat) :
    (pushed s i c h ws t).ctxs = s.ctxs := by simp [pushed]
@[simp] theorem pushed_inited (s : St) (i c h : Nat) (ws : List Nat) (t : Nat) :
    (pushed s i c h ws t).inited = s.inited := by simp [pushed]
@[simp] theorem pushed_regs (s : St) (i c h : Nat) (ws : List Nat) (t : Nat) :
    (pushed s i c h ws t).regs = s.regs := by simp [pushed]
@[simp] theorem pushed_rets (s : St) (i c h : Nat) (ws : List Nat) (t : Nat) :
    (pushed s i c h ws t).rets = s.rets := by simp [pushed]
@[simp] theorem pushed_why (s : St) (i c h : Nat) (ws : List Nat) (t : Nat) :
    (pushed s i c h ws t).why = s.why := by simp [pushed]
@[simp] theorem pushed_core (s : St) (i c h : Nat) (ws : List Nat) (t x : Nat) :
    core ((pushed s i c h ws t).ev x) = core (s.ev x) := by
  simp [pushed]; rintro rfl; rfl
@[simp] theorem dropTask_loc (s : St) (c t : Nat) (k : Task) : (dropTask s c t k).loc = upd s.loc k.ev (.skipped c t) := by simp [dropTask]
@[simp] theorem dropTask_log (s : St) (c t : Nat) (k : Task) : (dropTask s c t k).log = .skip c t k.ev :: s.log := by simp [dropTask]
@[simp] theorem dropTask_why (s : St) (c t : Nat) (k : Task) : (dropTask s c t k).why = upd s.why k.ev (some .dropped) := by simp [dropTask]
@[simp] theorem dropTask_queue (s : St) (c t : Nat) (k : Task) : (dropTask s c t k).queue = s.queue := by simp [dropTask]
@[simp] theorem dropTask_waits (s : St) (c t : Nat) (k : Task) : (dropTask s c t k).waits = s.waits := by simp [dropTask]
@[simp] theorem dropTask_counter (s : St) (c t : Nat) (k : Task) : (dropTask s c t k).counter = s.counter := by simp [dropTask]
@[simp] theorem dropTask_evs (s : St) (c t : Nat) (k : Task) : (dropTask s c t k).evs = s.evs := by simp [dropTask]
@[simp] theorem dropTask_mgr (s : St) (c t : Nat) (k : Task) : (dropTask s c t k).mgr = s.mgr := by simp [dropTask]
@[simp] theorem dropTask_cl (s : St) (c t : Nat) (k : Task) : (dropTask s c t k).cl = s.cl := by simp [dropTask]
@[simp] theorem dropTask_returned (s : St) (c t : Nat) (k : Task) : (dropTask s c t k).returned = s.returned := by simp [dropTask]
@[simp] theorem dropTask_issued (s : St) (c t : Nat) (k : Task) : (dropTask s c t k).issued = s.issued := by simp [dropTask]
@[simp] theorem dropTask_ccs (s : St) (c t : Nat) (k : Task) : (dropTask s c t k).ccs = s.ccs := by simp [dropTask]
@[simp] theorem dropTask_nq (s : St) (c t : Nat) (k : Task) : (dropTask s c t k).nq = s.nq := by simp [dropTask]
@[simp] theorem dropTask_ctxs (s : St) (c t : Nat) (k : Task) : (dropTask s c t k).ctxs = s.ctxs := by simp [dropTask]
@[simp] theorem dropTask_inited (s : St) (c t : Nat) (k : Task) : (dropTask s c t k).inited = s.inited := by simp [dropTask]
@[simp] theorem dropTask_regs (s : St) (c t : Nat) (k : Task) : (dropTask s c t k).regs = s.regs := by simp [dropTask]
@[simp] theorem dropTask_rets (s : St) (c t : Nat) (k : Task) : (dropTask s c t k).rets = s.rets := by simp [dropTask]
@[simp] theorem dropTask_cbs (s : St) (c t : Nat) (k : Task) : (dropTask s c t k).cbs = s.cbs := by simp [dropTask]
@[simp] theorem dropTask_done (s : St) (c t : Nat) (k : Task) : (dropTask s c t k).done = s.done := by simp [dropTask]
@[simp] theorem dropTask_ub (s : St) (c t : Nat) (k : Task) : (dropTask s c t k).ub = s.ub := by simp [dropTask]

end Mcut.Api
