import Verif.Lemmas.ApiFrame
/-! Every step of the API model moves at most one command to its next phase. -/
namespace Mcut.Api

theorem other_cl {s s' : St} {i : Nat} {p : CPc} (hm : s'.mgr = s.mgr) (hc : s'.cl = upd s.cl i p) :
    ∀ b, b ≠ Actor.cl i → expA s' b = expA s b := by
  intro b hb
  cases b with
  | mg c t => simp [expA, hm]
  | cl j =>
    have : j ≠ i := by intro h; exact hb (by rw [h])
    simp [expA, hc, upd_other _ _ _ _ this]

theorem mine_cl {s s' : St} {i : Nat} {p : CPc} (hc : s'.cl = upd s.cl i p) : expA s' (.cl i) = expC i p := by
  simp [expA, hc]

theorem other_mg {s s' : St} {c t : Nat} {p : MPc} (hc : s'.cl = s.cl) (hm : s'.mgr = upd2 s.mgr c t p) :
    ∀ b, b ≠ Actor.mg c t → expA s' b = expA s b := by
  intro b hb
  cases b with
  | mg c' t' =>
    have : ¬(c' = c ∧ t' = t) := by rintro ⟨rfl, rfl⟩; exact hb rfl
    simp [expA, hm, upd2_other _ _ _ _ _ _ this]
  | cl j => simp [expA, hc]

theorem mine_mg {s s' : St} {c t : Nat} {p : MPc} (hm : s'.mgr = upd2 s.mgr c t p) :
    expA s' (.mg c t) = expM c t p := by
  simp [expA, hm, upd2_same]

theorem expA_same {s s' : St} (hc : s'.cl = s.cl) (hm : s'.mgr = s.mgr) (b : Actor) : expA s' b = expA s b := by
  cases b <;> simp [expA, hc, hm]

/-- A client step that changes no phase. -/
theorem quietC {s s' : St} (i : Nat) (p : CPc) (loc : s'.loc = s.loc) (queue : s'.queue = s.queue)
    (waits : s'.waits = s.waits) (cnt : s.counter ≤ s'.counter) (evs : ∀ h ∈ s'.evs, h ∈ s.evs)
    (hcore : ∀ x, core (s'.ev x) = core (s.ev x)) (hm : s'.mgr = s.mgr) (hc : s'.cl = upd s.cl i p)
    (hp : expC i p = none) (hlog : s'.log = s.log) (hq : expC i (s.cl i) = none) : Eff s s' (.cl i) :=
  .quiet loc queue waits cnt evs hcore (other_cl hm hc) (by rw [mine_cl hc, hp]; exact hq.symm) hlog

/-- A manager step that changes no phase. -/
theorem quietM {s s' : St} (c t : Nat) (p : MPc) (loc : s'.loc = s.loc) (queue : s'.queue = s.queue)
    (waits : s'.waits = s.waits) (cnt : s.counter ≤ s'.counter) (evs : ∀ h ∈ s'.evs, h ∈ s.evs)
    (hcore : ∀ x, core (s'.ev x) = core (s.ev x)) (hc : s'.cl = s.cl) (hm : s'.mgr = upd2 s.mgr c t p)
    (hp : expM c t p = expA s (.mg c t)) (hlog : s'.log = s.log) : Eff s s' (.mg c t) :=
  .quiet loc queue waits cnt evs hcore (other_mg hc hm) (by rw [mine_mg hm]; exact hp) hlog

/-- A step that moves no thread and changes no phase. -/
theorem quiet0 {s s' : St} (a : Actor) (loc : s'.loc = s.loc) (queue : s'.queue = s.queue)
    (waits : s'.waits = s.waits) (cnt : s.counter ≤ s'.counter) (evs : ∀ h ∈ s'.evs, h ∈ s.evs)
    (hcore : ∀ x, core (s'.ev x) = core (s.ev x)) (hc : s'.cl = s.cl) (hm : s'.mgr = s.mgr)
    (hlog : s'.log = s.log) : Eff s s' a :=
  .quiet loc queue waits cnt evs hcore (fun b _ => expA_same hc hm b) (expA_same hc hm a) hlog

theorem badEff (s : St) (a : Actor) : Eff s (bad s) a := by
  refine quiet0 a ?_ ?_ ?_ ?_ ?_ ?_ ?_ ?_ ?_ <;> simp

theorem retEff (s : St) (i : Nat) (k : Call) (r : Int) (hq : expC i (s.cl i) = none) :
    Eff s (ret s i k r) (.cl i) := by
  refine quietC i .idle ?_ ?_ ?_ ?_ ?_ ?_ ?_ ?_ ?_ ?_ hq <;> simp [expC]

/-- A client step that moves the event `h` to phase `l`. -/
theorem moveC {s s' : St} (i : Nat) (p : CPc) (h : Nat) (l0 l : Loc) (hl : s.loc h = l0) (next : Next l0 l)
    (loc : s'.loc = upd s.loc h l) (queue : s'.queue = s.queue) (waits : s'.waits = s.waits)
    (cnt : s.counter = s'.counter) (evs : ∀ x ∈ s'.evs, x ∈ s.evs)
    (hcore : ∀ x, x ≠ h → core (s'.ev x) = core (s.ev x)) (coreh : core (s'.ev h) = expect l)
    (hm : s'.mgr = s.mgr) (hc : s'.cl = upd s.cl i p)
    (hp : expC i p = (owner l).map (fun _ => (h, l)))
    (own : expC i (s.cl i) = (owner l0).map (fun _ => (h, l0))) (nq : ∀ c t, l0 ≠ .queued c t)
    (nu : l0 ≠ .unborn) (hlog : s'.log = (note h l0 l).toList ++ s.log)
    (nql : ∀ c t, l ≠ .queued c t := by intro _ _; nofun) : Eff s s' (.cl i) :=
  .move h l loc queue waits cnt evs hcore coreh (other_cl hm hc) (by rw [mine_cl hc]; exact hp) (hl ▸ own) (hl ▸ nq) (hl ▸ nu) (hl ▸ next) (hl ▸ hlog) nql

/-- A manager step that moves the event `h` to phase `l`. -/
theorem moveM {s s' : St} (c t : Nat) (p : MPc) (h : Nat) (l0 l : Loc) (hl : s.loc h = l0) (next : Next l0 l)
    (loc : s'.loc = upd s.loc h l) (queue : s'.queue = s.queue) (waits : s'.waits = s.waits)
    (cnt : s.counter = s'.counter) (evs : ∀ x ∈ s'.evs, x ∈ s.evs)
    (hcore : ∀ x, x ≠ h → core (s'.ev x) = core (s.ev x)) (coreh : core (s'.ev h) = expect l)
    (hc : s'.cl = s.cl) (hm : s'.mgr = upd2 s.mgr c t p)
    (hp : expM c t p = (owner l).map (fun _ => (h, l)))
    (own : expM c t (s.mgr c t) = (owner l0).map (fun _ => (h, l0))) (nq : ∀ c t, l0 ≠ .queued c t)
    (nu : l0 ≠ .unborn) (hlog : s'.log = (note h l0 l).toList ++ s.log)
    (nql : ∀ c t, l ≠ .queued c t := by intro _ _; nofun) : Eff s s' (.mg c t) :=
  .move h l loc queue waits cnt evs hcore coreh (other_mg hc hm) (by rw [mine_mg hm]; exact hp) (hl ▸ own) (hl ▸ nq) (hl ▸ nu) (hl ▸ next) (hl ▸ hlog) nql

/-- The phase of the event a client works on. -/
theorem Inv.locC {s : St} (iv : Inv s) {i : Nat} {p : CPc} {h : Nat} {l : Loc} (hp : s.cl i = p)
    (e : expC i p = some (h, l)) : s.loc h = l := iv.pcs (.cl i) h l (by simp [expA, hp, e])

theorem Inv.locM {s : St} (iv : Inv s) {c t : Nat} {p : MPc} {h : Nat} {l : Loc} (hp : s.mgr c t = p)
    (e : expM c t p = some (h, l)) : s.loc h = l := iv.pcs (.mg c t) h l (by simp [expA, hp, e])

/-- The fields of an event whose phase is known. -/
theorem Inv.fieldsAt {s : St} (iv : Inv s) {h : Nat} {l : Loc} (hl : s.loc h = l) :
    ((s.ev h).user, (s.ev h).stat, (s.ev h).fin, (s.ev h).rt, (s.ev h).ready, (s.ev h).called) = expect l := by
  have := iv.fields h; rw [hl] at this; exact this

theorem createCtx_eff (s : St) (i : Nat) (ooo : Bool) (hi : s.cl i = .idle) (iv : s.inited = true ∨ s.counter = 0) :
    Eff s (createCtx s i ooo) (.cl i) := by
  refine quietC i .idle ?_ ?_ ?_ ?_ ?_ ?_ ?_ ?_ ?_ ?_ ?_ <;> simp [createCtx, expC, base, hi]
  rcases iv with h | h <;> simp [h]

theorem createUser_eff (s : St) (i c : Nat) (hi : s.cl i = .idle) : Eff s (createUser s i c) (.cl i) := by
  unfold createUser
  split
  · exact retEff _ _ _ _ (by simp [*, expC])
  · refine .born s.counter .uNew rfl ?_ ?_ ?_ ?_ ?_ ?_ ?_ (other_cl (p := .idle) ?_ ?_)
      (by rw [mine_cl (s := s) (p := .idle) (by simp)]; rfl) ?_ .uNew ?_
    all_goals simp (config := { contextual := true }) [expA, hi, expC]
    simp [core, newEv, expect]

theorem beginEnqueue_eff (s : St) (i c : Nat) (ws : List Nat) (blk : Bool) (hi : s.cl i = .idle) :
    Eff s (beginEnqueue s i c ws blk) (.cl i) := by
  unfold beginEnqueue
  split
  · exact retEff _ _ _ _ (by simp [*, expC])
  · refine .born s.counter (.alloc i) rfl ?_ ?_ ?_ ?_ ?_ ?_ ?_
      (other_cl (p := .submit c s.counter ws blk) ?_ ?_)
      (by rw [mine_cl (s := s) (p := .submit c s.counter ws blk) (by simp)]; rfl) ?_ (.alloc i) ?_
    all_goals simp (config := { contextual := true }) [upd_other, expA, hi, expC]
    simp [core, newEv, expect]

/-- The wait list kept with a submission in progress is the recorded one. -/
def SubmitOk (s : St) : Prop := ∀ i c h ws blk, s.cl i = .submit c h ws blk → s.waits h = ws

theorem finishEnqueue_eff (s s' : St) (i : Nat) (seen : Nat → Bool) (iv : Inv s) (so : SubmitOk s)
    (hs : finishEnqueue s i seen = some s') : Eff s s' (.cl i) := by
  unfold finishEnqueue at hs
  split at hs
  case h_2 => simp at hs
  rename_i c h ws blk hp
  have hl := iv.locC hp (h := h) rfl
  have hf := iv.fieldsAt hl
  split at hs
  · simp only [Option.some.injEq] at hs
    subst hs
    refine moveC i .idle h _ .leaked hl (.leak i) ?_ ?_ ?_ ?_ ?_ ?_ ?_ ?_ ?_ ?_ ?_ ?_ ?_ ?_
    all_goals simp (config := { contextual := true }) [*, expC, owner, note]
    simpa [core, expect] using hf
  · simp only at hs
    split at hs
    · simp only [Option.some.injEq] at hs
      rename_i t _ _
      set tt := Option.getD t (pickQueue (s.nq c) seen) with htt
      have hw := so i c h ws blk hp
      subst hs
      split
      · refine .push h c tt ?_ ?_ ?_ ?_ ?_ ?_ (other_cl (p := .bwait c h) ?_ ?_)
          (by rw [mine_cl (s := s) (p := .bwait c h) (by simp)]; rfl) ?_ ⟨i, hl⟩ ?_
        all_goals try simp [hw]
        · rfl
        · simp [expA, hp, expC, hl]
      · refine .push h c tt ?_ ?_ ?_ ?_ ?_ ?_ (other_cl (p := .idle) ?_ ?_)
          (by rw [mine_cl (s := s) (p := .idle) (by simp)]; rfl) ?_ ⟨i, hl⟩ ?_
        all_goals try simp [hw]
        · rfl
        · simp [expA, hp, expC, hl]
    · simp only [Option.some.injEq] at hs; subst hs; exact badEff _ _

theorem blockStep_eff (s s' : St) (i : Nat) (hs : blockStep s i = some s') : Eff s s' (.cl i) := by
  unfold blockStep at hs
  split at hs
  · rename_i c h _
    split at hs <;> simp only [Option.some.injEq] at hs <;> subst hs
    · refine quietC i (.bblock c h) ?_ ?_ ?_ ?_ ?_ ?_ ?_ ?_ ?_ ?_ ?_ <;> simp [*, expC]
    · exact badEff _ _
  · rename_i c h _
    split at hs
    · simp only [Option.some.injEq] at hs
      subst hs
      refine quietC i (.brel c h (s.ev h).rt) ?_ ?_ ?_ ?_ ?_ ?_ ?_ ?_ ?_ ?_ ?_ <;> simp [*, expC]
    · simp at hs
  · rename_i c h r _
    split at hs <;> simp only [Option.some.injEq] at hs <;> subst hs
    · refine quietC i .idle ?_ ?_ ?_ ?_ ?_ ?_ ?_ ?_ ?_ ?_ ?_ <;> simp (config := { contextual := true }) [*, expC]
    · exact badEff _ _
  · simp at hs

theorem signalStep_eff (s s' : St) (i : Nat) (iv : Inv s) (hs : signalStep s i = some s') : Eff s s' (.cl i) := by
  unfold signalStep at hs
  split at hs
  · rename_i h code hp
    simp only at hs
    split at hs
    · simp only [Option.some.injEq] at hs; subst hs; exact badEff _ _
    · split at hs
      · simp only [Option.some.injEq] at hs
        subst hs
        refine quietC i .idle ?_ ?_ ?_ ?_ ?_ ?_ ?_ ?_ ?_ ?_ ?_ <;> simp [*, expC]
      · rename_i hu hcd
        simp only [Option.some.injEq] at hs
        subst hs
        have hf := iv.fields h
        have hl : s.loc h = .uNew := by
          cases hloc : s.loc h <;> rw [hloc] at hf <;> simp [core, expect] at hf <;> simp_all
        have hf := iv.fieldsAt hl
        refine moveC i (.sig1 h code) h _ (.u1 i) hl (.u1 i) ?_ ?_ ?_ ?_ ?_ ?_ ?_ ?_ ?_ ?_ ?_ ?_ ?_ ?_
        all_goals simp (config := { contextual := true }) [*, expC, owner, note]
        simp [core, expect] at hf ⊢
        simp [hf]
  · rename_i h code hp
    simp only [Option.some.injEq] at hs
    subst hs
    have hl := iv.locC hp (h := h) rfl
    have hf := iv.fieldsAt hl
    refine moveC i (.sig2 h code) h _ (.u2 i) hl (.u2 i) ?_ ?_ ?_ ?_ ?_ ?_ ?_ ?_ ?_ ?_ ?_ ?_ ?_ ?_
    all_goals simp (config := { contextual := true }) [*, expC, owner, note]
    simp [core, expect] at hf ⊢
    simp [hf]
  · rename_i h code hp
    have hl := iv.locC hp (h := h) rfl
    have hf := iv.fieldsAt hl
    split at hs
    · simp only [Option.some.injEq] at hs
      subst hs
      refine moveC i (.sig3 h NO_ERROR) h _ (.u3 i NO_ERROR) hl (.u3 i _) ?_ ?_ ?_ ?_ ?_ ?_ ?_ ?_ ?_ ?_ ?_ ?_ ?_ ?_
      all_goals simp (config := { contextual := true }) [*, expC, owner, note]
      simp [core, expect] at hf ⊢
      simp [hf]
    · split at hs
      · rename_i hcode
        simp only [Option.some.injEq] at hs
        subst hs
        refine moveC i (.sig3 h code) h _ (.u3 i code) hl (.u3 i _) ?_ ?_ ?_ ?_ ?_ ?_ ?_ ?_ ?_ ?_ ?_ ?_ ?_ ?_
        all_goals simp (config := { contextual := true }) [*, expC, owner, note]
        have : code ≠ 0 := by rcases hcode with h | h | h <;> rw [h] <;> decide
        simp [core, expect, this] at hf ⊢
        simp [hf]
      · simp only [Option.some.injEq] at hs
        subst hs
        refine moveC i .idle h _ .uBad hl (.uBad i) ?_ ?_ ?_ ?_ ?_ ?_ ?_ ?_ ?_ ?_ ?_ ?_ ?_ ?_
        all_goals simp (config := { contextual := true }) [*, expC, owner, note]
        simp [core, expect] at hf ⊢
        simp [hf]
  · rename_i h r hp
    simp only [Option.some.injEq] at hs
    subst hs
    have hl := iv.locC hp (h := h) rfl
    have hf := iv.fieldsAt hl
    refine moveC i (.sig4 h r) h _ (.u4 i r) hl (.u4 i r) ?_ ?_ ?_ ?_ ?_ ?_ ?_ ?_ ?_ ?_ ?_ ?_ ?_ ?_
    all_goals simp (config := { contextual := true }) [*, expC, owner, note]
    simp [core, expect] at hf ⊢
    simp [hf]
  · rename_i h r hp
    simp only [Option.some.injEq] at hs
    subst hs
    have hl := iv.locC hp (h := h) rfl
    have hf := iv.fieldsAt hl
    refine moveC i (.sig5 h r) h _ (.u5 i r) hl (.u5 i r) ?_ ?_ ?_ ?_ ?_ ?_ ?_ ?_ ?_ ?_ ?_ ?_ ?_ ?_
    all_goals simp (config := { contextual := true }) [*, expC, owner, note]
    simp [core, expect] at hf ⊢
    simp [hf]
  · rename_i h r hp
    simp only [Option.some.injEq] at hs
    subst hs
    have hl := iv.locC hp (h := h) rfl
    have hf := iv.fieldsAt hl
    refine moveC i .idle h _ (.uOver r) hl (.uOver i r) ?_ ?_ ?_ ?_ ?_ ?_ ?_ ?_ ?_ ?_ ?_ ?_ ?_ ?_
    all_goals simp (config := { contextual := true }) [*, expC, owner, note]
    exact hf
  · simp at hs

theorem waitStep_eff (s s' : St) (i : Nat) (hs : waitStep s i = some s') : Eff s s' (.cl i) := by
  unfold waitStep at hs
  split at hs
  · simp only [Option.some.injEq] at hs; subst hs; exact retEff _ _ _ _ (by simp [*, expC])
  · rename_i all w rest _
    split at hs <;> simp only [Option.some.injEq] at hs <;> subst hs
    · refine quietC i (.waitBlock all w rest) ?_ ?_ ?_ ?_ ?_ ?_ ?_ ?_ ?_ ?_ ?_ <;> simp [*, expC]
    · exact retEff _ _ _ _ (by simp [*, expC])
  · rename_i all w rest _
    split at hs
    · split at hs <;> simp only [Option.some.injEq] at hs <;> subst hs
      · refine quietC i (.wait all rest) ?_ ?_ ?_ ?_ ?_ ?_ ?_ ?_ ?_ ?_ ?_ <;> simp [*, expC]
      · refine quietC i .idle ?_ ?_ ?_ ?_ ?_ ?_ ?_ ?_ ?_ ?_ ?_ <;> simp [*, expC]
    · simp at hs
  · simp at hs

theorem relStep_eff (s s' : St) (i : Nat) (hs : relStep s i = some s') : Eff s s' (.cl i) := by
  unfold relStep at hs
  split at hs
  · simp only [Option.some.injEq] at hs; subst hs; exact retEff _ _ _ _ (by simp [*, expC])
  · rename_i h rest _
    split at hs <;> simp only [Option.some.injEq] at hs <;> subst hs
    · refine quietC i (.rel rest) ?_ ?_ ?_ ?_ ?_ ?_ ?_ ?_ ?_ ?_ ?_ <;> simp (config := { contextual := true }) [*, expC]
    · exact retEff _ _ _ _ (by simp [*, expC])
  · simp at hs

theorem popStep_eff (s s' : St) (c t : Nat) (iv : Inv s) (hs : popStep s c t = some s') : Eff s s' (.mg c t) := by
  unfold popStep at hs
  split at hs
  · rename_i k rest hm hq
    have hk := (iv.q c t k (by rw [hq]; simp)).1
    have hf := iv.fieldsAt hk
    simp only at hs
    split at hs <;> simp only [Option.some.injEq] at hs <;> subst hs
    · refine .pop k (.skipped c t) c t rest hq ?_ ?_ ?_ ?_ ?_ ?_ ?_ (other_mg (p := .exited) ?_ ?_)
        (by rw [mine_mg (s := s) (p := .exited) (by simp [dropTask])]; rfl) (by simp [expA, hm, expM]) (.drop c t) ?_ rfl
      all_goals simp (config := { contextual := true }) [dropTask, note]
      simp [core, expect] at hf ⊢
      simp [hf]
    · refine .pop k (.pre c t) c t rest hq ?_ ?_ ?_ ?_ ?_ ?_ ?_ (other_mg (p := .lookup k k.waits) ?_ ?_)
        (by rw [mine_mg (s := s) (p := .lookup k k.waits) (by simp)]; rfl) (by simp [expA, hm, expM]) (.pop c t) ?_ rfl
      all_goals simp (config := { contextual := true }) [note]
      exact hf
  · split at hs
    · simp only [Option.some.injEq] at hs
      subst hs
      refine quietM c t .exited ?_ ?_ ?_ ?_ ?_ ?_ ?_ ?_ ?_ ?_ <;> simp [*, expM, expA]
    · simp at hs
  · rename_i k rest hm hq
    have hk := (iv.q c t k (by rw [hq]; simp)).1
    have hf := iv.fieldsAt hk
    simp only [Option.some.injEq] at hs
    subst hs
    refine .pop k (.skipped c t) c t rest hq ?_ ?_ ?_ ?_ ?_ ?_ ?_ (fun b _ => expA_same ?_ ?_ b)
        (by rw [expA_same (s := s) (by simp [dropTask]) (by simp [dropTask])]; simp [expA, hm, expM, owner])
        (by simp [expA, hm, expM]) (.drop c t) ?_ rfl
    all_goals simp (config := { contextual := true }) [dropTask, note]
    simp [core, expect] at hf ⊢
    simp [hf]
  · simp at hs

theorem ite_holdCtx (s : St) (P : Prop) [Decidable P] (c : Nat) (a : Actor) :
    (if P then holdCtx s c a else s).loc = s.loc ∧ (if P then holdCtx s c a else s).queue = s.queue ∧
    (if P then holdCtx s c a else s).waits = s.waits ∧ (if P then holdCtx s c a else s).counter = s.counter ∧
    (if P then holdCtx s c a else s).evs = s.evs ∧ (if P then holdCtx s c a else s).mgr = s.mgr ∧
    (if P then holdCtx s c a else s).cl = s.cl ∧ (if P then holdCtx s c a else s).ev = s.ev ∧
    (if P then holdCtx s c a else s).log = s.log ∧ (if P then holdCtx s c a else s).returned = s.returned ∧
    (if P then holdCtx s c a else s).regs = s.regs ∧ (if P then holdCtx s c a else s).nq = s.nq ∧
    (if P then holdCtx s c a else s).cbs = s.cbs ∧ (if P then holdCtx s c a else s).rets = s.rets ∧
    (if P then holdCtx s c a else s).why = s.why ∧ (if P then holdCtx s c a else s).issued = s.issued ∧
    (if P then holdCtx s c a else s).inited = s.inited ∧ (if P then holdCtx s c a else s).ctxs = s.ctxs := by
  split <;> simp

theorem ite_dropCtx (s : St) (P : Prop) [Decidable P] (c : Nat) (a : Actor) :
    (if P then dropCtx s c a else s).loc = s.loc ∧ (if P then dropCtx s c a else s).queue = s.queue ∧
    (if P then dropCtx s c a else s).waits = s.waits ∧ (if P then dropCtx s c a else s).counter = s.counter ∧
    (if P then dropCtx s c a else s).evs = s.evs ∧ (if P then dropCtx s c a else s).mgr = s.mgr ∧
    (if P then dropCtx s c a else s).cl = s.cl ∧ (if P then dropCtx s c a else s).ev = s.ev ∧
    (if P then dropCtx s c a else s).log = s.log ∧ (if P then dropCtx s c a else s).returned = s.returned ∧
    (if P then dropCtx s c a else s).regs = s.regs ∧ (if P then dropCtx s c a else s).nq = s.nq ∧
    (if P then dropCtx s c a else s).cbs = s.cbs ∧ (if P then dropCtx s c a else s).rets = s.rets ∧
    (if P then dropCtx s c a else s).why = s.why ∧ (if P then dropCtx s c a else s).issued = s.issued ∧
    (if P then dropCtx s c a else s).inited = s.inited ∧ (if P then dropCtx s c a else s).ctxs = s.ctxs := by
  split <;> simp

theorem depStep_eff (s s' : St) (c t : Nat) (iv : Inv s) (hs : depStep s c t = some s') : Eff s s' (.mg c t) := by
  unfold depStep at hs
  split at hs
  · rename_i k w rest hp
    have hl := iv.locM hp (h := k.ev) rfl
    have hf := iv.fieldsAt hl
    split at hs <;> simp only [Option.some.injEq] at hs <;> subst hs
    · refine quietM c t (.block k w rest) ?_ ?_ ?_ ?_ ?_ ?_ ?_ ?_ ?_ ?_ <;> simp [expM, expA, hp]
    · refine moveM c t (.skip k) k.ev _ (.skipping c t) hl (.skip c t) ?_ ?_ ?_ ?_ ?_ ?_ ?_ ?_ ?_ ?_ ?_ ?_ ?_ ?_
      all_goals simp (config := { contextual := true }) [*, expM, owner, note]
      exact hf
  · rename_i k w rest hp
    have hl := iv.locM hp (h := k.ev) rfl
    have hf := iv.fieldsAt hl
    split at hs
    · split at hs <;> simp only [Option.some.injEq] at hs <;> subst hs
      · refine quietM c t (.lookup k rest) ?_ ?_ ?_ ?_ ?_ ?_ ?_ ?_ ?_ ?_ <;> simp [expM, expA, hp]
      · refine moveM c t (.skip k) k.ev _ (.skipping c t) hl (.skip c t) ?_ ?_ ?_ ?_ ?_ ?_ ?_ ?_ ?_ ?_ ?_ ?_ ?_ ?_
        all_goals simp (config := { contextual := true }) [*, expM, owner, note]
        exact hf
    · simp at hs
  · rename_i k hp
    have hl := iv.locM hp (h := k.ev) rfl
    have hf := iv.fieldsAt hl
    split at hs
    · simp only [Option.some.injEq] at hs; subst hs; exact badEff _ _
    · simp only [Option.some.injEq] at hs
      subst hs
      refine moveM c t (.run k) k.ev _ (.running c t) hl (.start c t) ?_ ?_ ?_ ?_ ?_ ?_ ?_ ?_ ?_ ?_ ?_ ?_ ?_ ?_
      all_goals simp (config := { contextual := true }) [*, expM, owner, note, ite_holdCtx]
      simp [core, expect, holdEv] at hf ⊢
      simp [hf]
  · rename_i k hp
    simp only [Option.some.injEq] at hs
    subst hs
    have hl := iv.locM hp (h := k.ev) rfl
    have hf := iv.fieldsAt hl
    refine moveM c t .idle k.ev _ (.skipped c t) hl (.skipped c t) ?_ ?_ ?_ ?_ ?_ ?_ ?_ ?_ ?_ ?_ ?_ ?_ ?_ ?_
    all_goals simp (config := { contextual := true }) [*, expM, owner, note]
    simp [core, expect] at hf ⊢
    simp [hf]
  · simp at hs

theorem runStep_eff (s s' : St) (c t : Nat) (r : Int) (iv : Inv s) (hs : runStep s c t r = some s') :
    Eff s s' (.mg c t) := by
  unfold runStep at hs
  split at hs
  · rename_i k hp
    have hl := iv.locM hp (h := k.ev) rfl
    have hf := iv.fieldsAt hl
    split at hs
    · simp only [Option.some.injEq] at hs
      subst hs
      refine moveM c t (.ran k r) k.ev _ (.ran c t r) hl (.stop c t r) ?_ ?_ ?_ ?_ ?_ ?_ ?_ ?_ ?_ ?_ ?_ ?_ ?_ ?_
      all_goals simp (config := { contextual := true }) [*, expM, owner, note, ite_dropCtx]
      exact hf
    · simp at hs
  · rename_i k r hp
    simp only [Option.some.injEq] at hs
    subst hs
    have hl := iv.locM hp (h := k.ev) rfl
    have hf := iv.fieldsAt hl
    refine moveM c t (.fin1 k r) k.ev _ (.fin1 c t r) hl (.fin1 c t r) ?_ ?_ ?_ ?_ ?_ ?_ ?_ ?_ ?_ ?_ ?_ ?_ ?_ ?_
    all_goals simp (config := { contextual := true }) [*, expM, owner, note]
    simp [core, expect] at hf ⊢
    simp [hf]
  · rename_i k r hp
    simp only [Option.some.injEq] at hs
    subst hs
    have hl := iv.locM hp (h := k.ev) rfl
    have hf := iv.fieldsAt hl
    refine moveM c t (.fin2 k r) k.ev _ (.fin2 c t r) hl (.fin2 c t r) ?_ ?_ ?_ ?_ ?_ ?_ ?_ ?_ ?_ ?_ ?_ ?_ ?_ ?_
    all_goals simp (config := { contextual := true }) [*, expM, owner, note]
    simp [core, expect] at hf ⊢
    simp [hf]
  · rename_i k r hp
    simp only [Option.some.injEq] at hs
    subst hs
    have hl := iv.locM hp (h := k.ev) rfl
    have hf := iv.fieldsAt hl
    refine moveM c t (.fin3 k r) k.ev _ (.fin3 c t r) hl (.fin3 c t r) ?_ ?_ ?_ ?_ ?_ ?_ ?_ ?_ ?_ ?_ ?_ ?_ ?_ ?_
    all_goals simp (config := { contextual := true }) [*, expM, owner, note]
    exact hf
  · rename_i k r hp
    simp only [Option.some.injEq] at hs
    subst hs
    have hl := iv.locM hp (h := k.ev) rfl
    have hf := iv.fieldsAt hl
    refine moveM c t (.fin4 k r) k.ev _ (.fin4 c t r) hl (.fin4 c t r) ?_ ?_ ?_ ?_ ?_ ?_ ?_ ?_ ?_ ?_ ?_ ?_ ?_ ?_
    all_goals simp (config := { contextual := true }) [*, expM, owner, note]
    simp [core, expect] at hf ⊢
    simp [hf]
  · rename_i k r hp
    simp only [Option.some.injEq] at hs
    subst hs
    have hl := iv.locM hp (h := k.ev) rfl
    have hf := iv.fieldsAt hl
    refine moveM c t .idle k.ev _ (.over c t r) hl (.over c t r) ?_ ?_ ?_ ?_ ?_ ?_ ?_ ?_ ?_ ?_ ?_ ?_ ?_ ?_
    all_goals simp (config := { contextual := true }) [*, expM, owner, note]
    simp [core, expect] at hf ⊢
    simp [hf]
  · simp at hs

theorem newCC_eff (s s' : St) (c t : Nat) (hs : newCC s c t = some s') : Eff s s' (.mg c t) := by
  unfold newCC at hs
  split at hs
  · split at hs
    · simp only [Option.some.injEq] at hs
      subst hs
      refine quiet0 _ ?_ ?_ ?_ ?_ ?_ ?_ ?_ ?_ ?_ <;> simp
    · simp at hs
  · simp at hs

/-- Every step is one phase change of at most one command, made by one thread. -/
theorem step_eff (s s' : St) (a : Act) (iv : Inv s) (so : SubmitOk s) (ci : s.inited = true ∨ s.counter = 0)
    (hs : step s a = some s') : ∃ b, Eff s s' b := by
  unfold step at hs
  split at hs
  · simp at hs
  cases a with
  | createCtx i ooo =>
    simp only at hs; split at hs <;> simp at hs; subst hs; exact ⟨_, createCtx_eff s i ooo (by assumption) ci⟩
  | createUser i c =>
    simp only at hs; split at hs <;> simp at hs; subst hs; exact ⟨_, createUser_eff s i c (by assumption)⟩
  | enqueue i c ws blk =>
    simp only at hs; split at hs <;> simp at hs; subst hs; exact ⟨_, beginEnqueue_eff s i c ws blk (by tauto)⟩
  | enqueue2 i seen => exact ⟨_, finishEnqueue_eff s s' i seen iv so hs⟩
  | blocking i => exact ⟨_, blockStep_eff s s' i hs⟩
  | signal i h code =>
    simp only at hs; split at hs
    · split at hs <;> simp at hs <;> subst hs
      · refine ⟨_, quietC i (.sig h code) ?_ ?_ ?_ ?_ ?_ ?_ ?_ ?_ ?_ ?_ ?_⟩ <;> simp [*, expC]
      · exact ⟨_, retEff _ _ _ _ (by simp [*, expC])⟩
    · simp at hs
  | signal2 i => exact ⟨_, signalStep_eff s s' i iv hs⟩
  | setCb i h =>
    simp only at hs; split at hs
    · split at hs <;> simp at hs <;> subst hs
      · refine ⟨_, quietC i (.setcb h) ?_ ?_ ?_ ?_ ?_ ?_ ?_ ?_ ?_ ?_ ?_⟩ <;> simp [*, expC]
      · exact ⟨_, retEff _ _ _ _ (by simp [*, expC])⟩
    · simp at hs
  | setCb2 i =>
    simp only at hs; split at hs
    · simp at hs; subst hs
      refine ⟨_, quietC i .idle ?_ ?_ ?_ ?_ ?_ ?_ ?_ ?_ ?_ ?_ ?_⟩ <;> simp [*, expC]
    · simp at hs
  | wait i ws =>
    simp only at hs; split at hs <;> simp at hs; subst hs
    refine ⟨_, quietC i (.wait ws ws) ?_ ?_ ?_ ?_ ?_ ?_ ?_ ?_ ?_ ?_ ?_⟩ <;> simp [*, expC]
  | wait2 i => exact ⟨_, waitStep_eff s s' i hs⟩
  | release i hs' =>
    simp only at hs; split at hs <;> simp at hs; subst hs
    refine ⟨_, quietC i (.rel hs') ?_ ?_ ?_ ?_ ?_ ?_ ?_ ?_ ?_ ?_ ?_⟩ <;> simp [*, expC]
  | release2 i => exact ⟨_, relStep_eff s s' i hs⟩
  | releaseCtx i c =>
    simp only at hs; split at hs
    · split at hs <;> simp at hs <;> subst hs
      · refine ⟨_, quietC i (.relCtx c) ?_ ?_ ?_ ?_ ?_ ?_ ?_ ?_ ?_ ?_ ?_⟩ <;> simp [*, expC]
      · exact ⟨_, retEff _ _ _ _ (by simp [*, expC])⟩
    · simp at hs
  | releaseCtx2 i =>
    simp only at hs; split at hs
    · simp at hs; subst hs
      refine ⟨_, quietC i .idle ?_ ?_ ?_ ?_ ?_ ?_ ?_ ?_ ?_ ?_ ?_⟩ <;> simp [*, expC]
    · simp at hs
  | pop c t => simp only at hs; split at hs <;> [exact ⟨_, popStep_eff s s' c t iv hs⟩; simp at hs]
  | dep c t => simp only at hs; split at hs <;> [exact ⟨_, depStep_eff s s' c t iv hs⟩; simp at hs]
  | run c t r => simp only at hs; split at hs <;> [exact ⟨_, runStep_eff s s' c t r iv hs⟩; simp at hs]
  | newCC c t => simp only at hs; split at hs <;> [exact ⟨_, newCC_eff s s' c t hs⟩; simp at hs]

end Mcut.Api
