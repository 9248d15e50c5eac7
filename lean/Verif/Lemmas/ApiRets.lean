import Verif.Lemmas.ApiWait
/-! What the results of finished client calls say in the API model. -/
namespace Mcut.Api

/-- The command was pushed to a queue of context `c`. -/
def inCtx (c : Nat) : Loc → Bool
  | .queued c' _ | .pre c' _ | .skipping c' _ | .skipped c' _ | .running c' _ | .ran c' _ _ | .fin1 c' _ _ | .fin2 c' _ _
  | .fin3 c' _ _ | .fin4 c' _ _ | .over c' _ _ => c' = c
  | _ => false

/-- The command of context `c` is over with result `r`, or was skipped and `r` is 0. -/
def settled (c : Nat) (r : Int) : Loc → Bool
  | .over c' _ r' => c' = c && r' = r
  | .skipped c' _ => c' = c && r = 0
  | _ => false

/-- A user event. -/
def isUser : Loc → Bool
  | .uNew | .u1 _ | .u2 _ | .uBad | .u3 _ _ | .u4 _ _ | .u5 _ _ | .uOver _ => true
  | _ => false

/-- A user event whose status was set, or was tried to be set. -/
def touched : Loc → Bool
  | .u1 _ | .u2 _ | .uBad | .u3 _ _ | .u4 _ _ | .u5 _ _ | .uOver _ => true
  | _ => false

theorem inCtx_next {l l' : Loc} (c : Nat) (n : Next l l') (h : inCtx c l = true) : inCtx c l' = true := by
  cases n <;> simp [inCtx] at h ⊢ <;> exact h

theorem settled_next {l l' : Loc} (c : Nat) (r : Int) (n : Next l l') (h : settled c r l = true) : settled c r l' = true := by
  cases n <;> simp [settled] at h

theorem isUser_next {l l' : Loc} (n : Next l l') (h : isUser l = true) : isUser l' = true := by
  cases n <;> simp [isUser] at h ⊢

theorem touched_next {l l' : Loc} (n : Next l l') (h : touched l = true) : touched l' = true := by
  cases n <;> simp [touched] at h ⊢

theorem uOver_next {l' : Loc} (r : Int) (n : Next (.uOver r) l') : False := by cases n

/-- Codes that mcSetUserEventStatus accepts, as runtime results. -/
def okCode (r : Int) : Prop := r = 0 ∨ r = INVALID_OPERATION ∨ r = INVALID_VALUE ∨ r = OUT_OF_MEMORY

/-- What the result of a wait says. -/
def WaitOk (s : St) (ws : List Nat) (r : Int) : WaitOut → Prop
  | .ok => r = 0 ∧ ∀ w ∈ ws, passed (s.loc w) = true
  | .failed w q => r = INVALID_VALUE ∧ q ≠ 0 ∧
      ∃ p rest, ws = p ++ w :: rest ∧ (∀ x ∈ p, passed (s.loc x) = true) ∧ failedWith q (s.loc w) = true
  | .unknown w => r = INVALID_VALUE ∧ ∃ p rest, ws = p ++ w :: rest ∧ (∀ x ∈ p, passed (s.loc x) = true) ∧ w ∉ s.evs

/-- What a finished call says. -/
def RetOk (s : St) : Nat × Call × Int → Prop
  | (_, .setUserEventStatus h code, r) =>
    (r = 0 ∧ ∃ q, s.loc h = .uOver q ∧ okCode q ∧ code = if q = 0 then 4 else q) ∨ r = INVALID_VALUE ∨
      (r = MAX_ENUM ∧ touched (s.loc h) = true)
  | (_, .blocking c h, r) => (h = 0 ∧ r = INVALID_VALUE) ∨ (settled c r (s.loc h) = true ∧ h ∉ s.evs ∧ h < s.counter)
  | (_, .waitForEvents ws out, r) => (∀ w ∈ ws, okArg s w) ∧ WaitOk s ws r out
  | (_, .enqueue c h ws, r) => (r = 0 ∧ s.waits h = ws ∧ inCtx c (s.loc h) = true) ∨ (r = INVALID_VALUE ∧ h = 0)
  | (_, .createUserEvent _ h, r) => (r = 0 ∧ isUser (s.loc h) = true) ∨ (r = INVALID_VALUE ∧ h = 0)
  | _ => True

/-- The event of a blocking call in progress. -/
def cBlk : CPc → Option (Nat × Nat)
  | .bwait c h | .bblock c h | .brel c h _ => some (c, h)
  | _ => none

/-- The code being stored by a signalling client. -/
def cSig : CPc → Option Int
  | .sig3 _ r | .sig4 _ r | .sig5 _ r => some r
  | _ => none

/-- The handles still to be released by a releasing client. -/
def cRel : CPc → List Nat
  | .rel todo => todo
  | _ => []

/-- Invariant of the clients. -/
structure RInv (s : St) : Prop where
  todo : ∀ i all todo, cTodo (s.cl i) = some (all, todo) →
    (∀ w ∈ all, okArg s w) ∧ ∃ p, all = p ++ todo ∧ ∀ w ∈ p, passed (s.loc w) = true
  blk : ∀ i c h, cBlk (s.cl i) = some (c, h) → inCtx c (s.loc h) = true ∧ h ∈ s.evs ∧ h ∉ s.returned
  blkU : ∀ i j c c' h, cBlk (s.cl i) = some (c, h) → cBlk (s.cl j) = some (c', h) → i = j
  brel : ∀ i c h r, s.cl i = .brel c h r → settled c r (s.loc h) = true
  sig : ∀ i r, cSig (s.cl i) = some r → okCode r
  rel : ∀ i, ∀ w ∈ cRel (s.cl i), okArg s w
  sigU : ∀ i h code, s.cl i = .sig h code → okArg s h
  rets : ∀ x ∈ s.rets, RetOk s x

theorem Step.loc_of {s s' : St} (st : Step s s') {P : Loc → Prop} (hn : ∀ l l', Next l l' → P l → P l') {w : Nat} (h : P (s.loc w)) :
    P (s'.loc w) := by
  rcases st.ln w with l | l
  · rw [l]; exact h
  · exact hn _ _ l h

theorem Step.returned {s s' : St} (st : Step s s') : ∀ x ∈ s.returned, x ∈ s'.returned := by
  obtain ⟨⟨i, i2, hi⟩, al', hub, tr, ln, lu⟩ := id st
  cases tr <;> simp [createCtx] <;> tauto

theorem Step.okArg {s s' : St} (st : Step s s') {w : Nat} (h : okArg s w) : okArg s' w := by
  rcases h with h | h
  · exact Or.inl (st.returned w h)
  · exact Or.inr h

theorem okArg_lt {s : St} (al : All s) {w : Nat} (h : okArg s w) (hc : s.inited = true) : w < s.counter := by
  rcases h with h | h
  · exact (al.i2.iss w (al.i2.rt w h).1).2
  · have := al.i2.cnt hc; omega

theorem okArg_gone {s s' : St} (st : Step s s') {w : Nat} (h : okArg s w) (hn : w ∉ s.evs) : w ∉ s'.evs := by
  rcases h with h | h
  · exact (gone_step st).2.1 w (st.all.i2.iss w (st.all.i2.rt w h).1).2 hn
  · intro hm
    have hb := st.all'.i2.born w (st.all'.i.evsLoc w hm)
    have := st.all'.i2.iss w hb; omega

theorem retOk_mono {s s' : St} (st : Step s s') (x : Nat × Call × Int) (h : RetOk s x) : RetOk s' x := by
  obtain ⟨i, call, r⟩ := x
  cases call with
  | createContext c => trivial
  | createUserEvent c x =>
    rcases h with ⟨h1, h2⟩ | h
    · exact Or.inl ⟨h1, st.loc_of (P := fun l => isUser l = true) (fun _ _ n h => isUser_next n h) h2⟩
    · exact Or.inr h
  | enqueue c x ws =>
    rcases h with ⟨h1, h2, h3⟩ | h
    · refine Or.inl ⟨h1, ?_, st.loc_of (P := fun l => inCtx c l = true) (fun _ _ n h => inCtx_next c n h) h3⟩
      rw [step_waits st x (by intro hu; rw [hu] at h3; simp [inCtx] at h3)]; exact h2
    · exact Or.inr h
  | blocking c x =>
    rcases h with h | ⟨h1, h2, h3⟩
    · exact Or.inl h
    · have g := gone_step st
      exact Or.inr ⟨st.loc_of (P := fun l => settled c r l = true) (fun _ _ n h => settled_next c r n h) h1, g.2.1 x h3 h2, by have := g.1; omega⟩
  | setUserEventStatus x code =>
    rcases h with ⟨h1, q, h2, h3⟩ | h | ⟨h1, h2⟩
    · refine Or.inl ⟨h1, q, ?_, h3⟩
      rcases st.ln x with l | l
      · rw [l]; exact h2
      · rw [h2] at l; exact absurd l (fun l => uOver_next q l)
    · exact Or.inr (Or.inl h)
    · exact Or.inr (Or.inr ⟨h1, st.loc_of (P := fun l => touched l = true) (fun _ _ n h => touched_next n h) h2⟩)
  | setEventCallback x => trivial
  | waitForEvents ws out =>
    refine ⟨fun w hw => st.okArg (h.1 w hw), ?_⟩
    have hw := h.2
    cases out with
    | ok => exact ⟨hw.1, fun w hx => st.passed (hw.2 w hx)⟩
    | failed w q =>
      obtain ⟨h1, h2, p, rest, h3, h4, h5⟩ := hw
      exact ⟨h1, h2, p, rest, h3, fun x hx => st.passed (h4 x hx), st.failedWith h5⟩
    | unknown w =>
      obtain ⟨h1, p, rest, h3, h4, h5⟩ := hw
      exact ⟨h1, p, rest, h3, fun x hx => st.passed (h4 x hx), okArg_gone st (h.1 w (by rw [h3]; simp)) h5⟩
  | releaseEvents => trivial
  | releaseContext c => trivial

/-- Steps of client `i` (or of a manager, with `p` its unchanged program counter). -/
theorem RInv.keep {s s' : St} (m : RInv s) (st : Step s s') (i : Nat) (p : CPc) (new : List (Nat × Call × Int))
    (hcl : s'.cl = upd s.cl i p) (hr : s'.rets = new ++ s.rets)
    (h1 : ∀ all todo, cTodo p = some (all, todo) →
      (∀ w ∈ all, okArg s' w) ∧ ∃ q, all = q ++ todo ∧ ∀ w ∈ q, passed (s'.loc w) = true)
    (h2 : ∀ c h, cBlk p = some (c, h) → inCtx c (s'.loc h) = true ∧ h ∈ s'.evs ∧ h ∉ s'.returned)
    (h2k : ∀ j c h, j ≠ i → cBlk (s.cl j) = some (c, h) → h ∈ s'.evs ∧ h ∉ s'.returned ∧ ∀ c', cBlk p ≠ some (c', h))
    (h3 : ∀ c h r, p = .brel c h r → settled c r (s'.loc h) = true)
    (h4 : ∀ r, cSig p = some r → okCode r)
    (h5 : ∀ w ∈ cRel p, okArg s' w)
    (h6 : ∀ h code, p = .sig h code → okArg s' h)
    (h7 : ∀ x ∈ new, RetOk s' x) : RInv s' := by
  have oth : ∀ j, j ≠ i → s'.cl j = s.cl j := by intro j hj; rw [hcl, upd_other _ _ _ _ hj]
  have own : s'.cl i = p := by rw [hcl, upd_same]
  refine ⟨?_, ?_, ?_, ?_, ?_, ?_, ?_, ?_⟩
  · intro j all todo h
    by_cases hj : j = i
    · subst hj; rw [own] at h; exact h1 all todo h
    · rw [oth j hj] at h
      obtain ⟨a, q, b, c⟩ := m.todo j all todo h
      exact ⟨fun w hw => st.okArg (a w hw), q, b, fun w hw => st.passed (c w hw)⟩
  · intro j c h hb
    by_cases hj : j = i
    · subst hj; rw [own] at hb; exact h2 c h hb
    · rw [oth j hj] at hb
      have := h2k j c h hj hb
      exact ⟨st.loc_of (P := fun l => inCtx c l = true) (fun _ _ n h => inCtx_next c n h) (m.blk j c h hb).1, this.1, this.2.1⟩
  · intro j j' c c' h hb hb'
    by_cases hj : j = i <;> by_cases hj' : j' = i
    · rw [hj, hj']
    · subst hj; rw [own] at hb; rw [oth j' hj'] at hb'
      exact absurd hb ((h2k j' c' h hj' hb').2.2 c)
    · subst hj'; rw [own] at hb'; rw [oth j hj] at hb
      exact absurd hb' ((h2k j c h hj hb).2.2 c')
    · rw [oth j hj] at hb; rw [oth j' hj'] at hb'; exact m.blkU j j' c c' h hb hb'
  · intro j c h r hb
    by_cases hj : j = i
    · subst hj; rw [own] at hb; exact h3 c h r hb
    · rw [oth j hj] at hb
      exact st.loc_of (P := fun l => settled c r l = true) (fun _ _ n h => settled_next c r n h) (m.brel j c h r hb)
  · intro j r hb
    by_cases hj : j = i
    · subst hj; rw [own] at hb; exact h4 r hb
    · rw [oth j hj] at hb; exact m.sig j r hb
  · intro j w hw
    by_cases hj : j = i
    · subst hj; rw [own] at hw; exact h5 w hw
    · rw [oth j hj] at hw; exact st.okArg (m.rel j w hw)
  · intro j h code hb
    by_cases hj : j = i
    · subst hj; rw [own] at hb; exact h6 h code hb
    · rw [oth j hj] at hb; exact st.okArg (m.sigU j h code hb)
  · intro x hx
    rw [hr] at hx
    rcases List.mem_append.1 hx with hx | hx
    · exact h7 x hx
    · exact retOk_mono st x (m.rets x hx)

theorem rinv_init : RInv init := by
  refine ⟨?_, ?_, ?_, ?_, ?_, ?_, ?_, ?_⟩ <;> simp [init, cTodo, cBlk, cSig, cRel]

theorem RInv.keepM {s s' : St} (m : RInv s) (st : Step s s') (hcl : s'.cl = s.cl) (hr : s'.rets = s.rets)
    (he : s'.evs = s.evs) (hret : s'.returned = s.returned) : RInv s' := by
  have ev : ∀ w, okArg s w → okArg s' w := fun w => st.okArg
  refine m.keep st 0 (s.cl 0) [] (by rw [hcl, upd_self]) (by rw [hr]; rfl) ?_ ?_ ?_ ?_ ?_ ?_ ?_ ?_
  · intro all todo h
    obtain ⟨a, q, b, c⟩ := m.todo 0 all todo h
    exact ⟨fun w hw => st.okArg (a w hw), q, b, fun w hw => st.passed (c w hw)⟩
  · intro c h hb
    have := m.blk 0 c h hb
    rw [he, hret]
    exact ⟨st.loc_of (P := fun l => inCtx c l = true) (fun _ _ n h => inCtx_next c n h) this.1, this.2⟩
  · intro j c h hj hb
    rw [he, hret]
    have := m.blk j c h hb
    exact ⟨this.2.1, this.2.2, fun c' hc' => hj (m.blkU j 0 c c' h hb hc')⟩
  · intro c h r hb
    exact st.loc_of (P := fun l => settled c r l = true) (fun _ _ n h => settled_next c r n h) (m.brel 0 c h r hb)
  · intro r hb; exact m.sig 0 r hb
  · intro w hw; exact st.okArg (m.rel 0 w hw)
  · intro h code hb; exact st.okArg (m.sigU 0 h code hb)
  · simp

/-- Steps of client `i` that leave the tables alone. -/
theorem RInv.keepC {s s' : St} (m : RInv s) (st : Step s s') (i : Nat) (p : CPc) (new : List (Nat × Call × Int))
    (hcl : s'.cl = upd s.cl i p) (hr : s'.rets = new ++ s.rets)
    (h1 : ∀ all todo, cTodo p = some (all, todo) →
      (∀ w ∈ all, Api.okArg s' w) ∧ ∃ q, all = q ++ todo ∧ ∀ w ∈ q, Api.passed (s'.loc w) = true)
    (hb : cBlk p = none) (hs : cSig p = none) (h5 : ∀ w ∈ cRel p, Api.okArg s' w)
    (h6 : ∀ h code, p = .sig h code → Api.okArg s' h)
    (he : ∀ j c h, j ≠ i → cBlk (s.cl j) = some (c, h) → h ∈ s'.evs ∧ h ∉ s'.returned)
    (h7 : ∀ x ∈ new, RetOk s' x) : RInv s' := by
  refine m.keep st i p new hcl hr h1 (by rw [hb]; simp) ?_ ?_ (by rw [hs]; simp) h5 h6 h7
  · intro j c h hj hb'
    exact ⟨(he j c h hj hb').1, (he j c h hj hb').2, by rw [hb]; simp⟩
  · intro c h r hp; subst hp; simp [cBlk] at hb

theorem RInv.same {s s' : St} (m : RInv s) (i : Nat) (he : s'.evs = s.evs) (hret : s'.returned = s.returned) :
    ∀ j c h, j ≠ i → cBlk (s.cl j) = some (c, h) → h ∈ s'.evs ∧ h ∉ s'.returned := by
  intro j c h _ hb; rw [he, hret]; exact (m.blk j c h hb).2

theorem settled_of {s : St} (i : Inv s) {c w : Nat} (hr : (s.ev w).ready = true) (hc : inCtx c (s.loc w) = true) :
    settled c (s.ev w).rt (s.loc w) = true := by
  have := i.fields w
  simp only [core] at this
  cases hl : s.loc w <;> rw [hl] at this hc <;> simp [expect, hr, inCtx] at this hc <;> simp [settled, hc, this]

theorem touched_of {s : St} (i : Inv s) {w : Nat} (hr : (s.ev w).called = true) : touched (s.loc w) = true := by
  have := i.fields w
  simp only [core] at this
  cases hl : s.loc w <;> rw [hl] at this <;> simp [expect, hr] at this <;> simp [touched]

theorem evs_lt {s : St} (al : All s) {h : Nat} (hm : h ∈ s.evs) : h < s.counter :=
  (al.i2.iss h (al.i2.born h (al.i.evsLoc h hm))).2

theorem evs_ge {s : St} (al : All s) {h : Nat} (hm : h ∈ s.evs) : 0xDECAF ≤ h :=
  (al.i2.iss h (al.i2.born h (al.i.evsLoc h hm))).1

/-- An event being submitted is in the table. -/
def SInv (s : St) : Prop := ∀ i c h ws blk, s.cl i = .submit c h ws blk → h ∈ s.evs

theorem sinv_step {s s' : St} (st : Step s s') (m : RInv s) (k : SInv s) : SInv s' := by
  obtain ⟨⟨i, i2, hi⟩, al', hub, tr, ln, lu⟩ := id st
  have shrink : ∀ j p h0, s'.cl = upd s.cl j p → s'.evs = s.evs.filter (· ≠ h0) → (∀ c h ws blk, p ≠ .submit c h ws blk) →
      (∀ i, s.loc h0 ≠ .alloc i) → SInv s' := by
    intro j p h0 hcl hev hp hl i' c h ws blk hs
    rw [hcl] at hs
    rcases upd_cases hs with ⟨_, hs⟩ | ⟨_, hs⟩
    · exact absurd hs (hp c h ws blk)
    · rw [hev]; simp only [List.mem_filter, decide_eq_true_eq]
      refine ⟨k i' c h ws blk hs, ?_⟩
      rintro rfl
      exact hl i' (i.locC hs (h := h) rfl)
  have keep : ∀ j p, s'.cl = upd s.cl j p → (∀ h ∈ s.evs, h ∈ s'.evs) → (∀ c h ws blk, p = .submit c h ws blk → h ∈ s'.evs) → SInv s' := by
    intro j p hcl hev hp i' c h ws blk hs
    rw [hcl] at hs
    rcases upd_cases hs with ⟨_, hs⟩ | ⟨_, hs⟩
    · exact hp c h ws blk hs
    · exact hev h (k i' c h ws blk hs)
  have keepM : s'.cl = s.cl → s'.evs = s.evs → SInv s' := by
    intro hc he i' c h ws blk hs
    rw [hc] at hs; rw [he]; exact k i' c h ws blk hs
  cases tr with
  | brel j c h r hp he =>
    refine shrink j .idle h (by simp [ret]) (by simp) (by simp) ?_
    intro i' hl
    have := (m.blk j c h (by rw [hp]; rfl)).1
    rw [hl] at this; simp [inCtx] at this
  | rel j h rest hp he =>
    refine shrink j (.rel rest) h (by simp) (by simp) (by simp) ?_
    intro i' hl
    rcases m.rel j h (by rw [hp]; simp [cRel]) with h0 | h0
    · exact (i2.rt h h0).2.1 i' hl
    · have := evs_ge st.all he; omega
  | enqueue j c ws blk hp hw hb hc => exact keep j _ (by simp; rfl) (by simp; tauto) (by simp; tauto)
  | createCtx j ooo hp => exact keep j .idle (by simp [createCtx, ret]) (by simp [createCtx]) (by simp)
  | createUser j c hp hc => exact keep j .idle (by simp [ret]) (by simp; tauto) (by simp)
  | _ =>
    first
      | (refine keepM ?_ ?_ <;> simp; done)
      | (refine keep _ _ (by simp [ret]; rfl) (by simp) (by simp))

theorem rinv_step {s s' : St} (st : Step s s') (m : RInv s) (k : SInv s) : RInv s' := by
  obtain ⟨⟨i, i2, hi⟩, al', hub, tr, ln, lu⟩ := id st
  have blt : ∀ j c h, cBlk (s.cl j) = some (c, h) → h < s.counter := fun j c h hb => evs_lt st.all (m.blk j c h hb).2.1
  cases tr with
  | createCtx j ooo hp =>
    refine m.keepC st j .idle [(j, .createContext (base s), NO_ERROR)] (by simp [createCtx, ret]) (by simp [createCtx, ret]) (by simp [cTodo]) rfl rfl (by simp [cRel]) (by simp) ?_ (by simp [RetOk])
    intro j' c h hj hb
    have h1 := m.blk j' c h hb
    have h2 := blt _ _ _ hb
    simp [createCtx]
    refine ⟨h1.2.1, ?_, h1.2.2⟩
    unfold base
    split <;> rename_i hini
    · omega
    · have := (i2.ini (by simpa using hini)).1; omega
  | createUser j c hp hc =>
    refine m.keepC st j .idle [(j, .createUserEvent c s.counter, NO_ERROR)] (by simp [ret]) (by simp [ret]) (by simp [cTodo]) rfl rfl (by simp [cRel]) (by simp) ?_ ?_
    · intro j' c h hj hb
      have h1 := m.blk j' c h hb
      have h2 := blt _ _ _ hb
      simp
      exact ⟨Or.inr h1.2.1, by omega, h1.2.2⟩
    · simp [RetOk, isUser, upd_same]
  | enqueue j c ws blk hp hw hb hc =>
    refine m.keepC st j (.submit c s.counter ws blk) [] (by simp) (by simp) (by simp [cTodo]) rfl rfl (by simp [cRel]) (by simp) ?_ (by simp)
    intro j' c h hj hb
    have h1 := m.blk j' c h hb
    simp
    exact ⟨Or.inr h1.2.1, h1.2.2⟩
  | enqueueBlk j c h ws t ot seen hp hr ht hlt =>
    have hl := i.locC hp (h := h) rfl
    have hal : h ∈ s.evs := k j c h ws true hp
    refine m.keep st j (.bwait c h) [] (by simp) (by simp) (by simp [cTodo]) ?_ ?_ (by simp) (by simp [cSig]) (by simp [cRel]) (by simp) (by simp)
    · simp [cBlk, upd_same, inCtx]
      exact ⟨hal, fun h1 => (i2.rt h h1).2.1 j hl⟩
    · intro j' c' h' hj hb
      have h1 := m.blk j' c' h' hb
      simp [cBlk]
      refine ⟨h1.2.1, h1.2.2, ?_⟩
      rintro rfl
      rw [hl] at h1; simp [inCtx] at h1
  | enqueueRet j c h ws t ot seen hp hr ht hlt =>
    have hl := i.locC hp (h := h) rfl
    refine m.keepC st j .idle [(j, .enqueue c h ws, NO_ERROR)] (by simp [ret]) (by simp [ret]) (by simp [cTodo]) rfl rfl (by simp [cRel]) (by simp) ?_ ?_
    · intro j' c' h' hj hb
      have h1 := m.blk j' c' h' hb
      simp
      refine ⟨h1.2.1, ?_, h1.2.2⟩
      rintro rfl
      rw [hl] at h1; simp [inCtx] at h1
    · simp [RetOk, upd_same, inCtx]
      exact Or.inl (i2.so j c h ws false hp)
  | bwait j c h hp he =>
    have h0 := m.blk j c h (by rw [hp]; rfl)
    refine m.keep st j (.bblock c h) [] (by simp) (by simp) (by simp [cTodo]) ?_ ?_ (by simp) (by simp [cSig]) (by simp [cRel]) (by simp) (by simp)
    · simp [cBlk]; exact h0
    · intro j' c' h' hj hb
      have h1 := m.blk j' c' h' hb
      refine ⟨by simpa using h1.2.1, by simpa using h1.2.2, ?_⟩
      intro c'' h2; exact hj (m.blkU j' j c' c'' h' hb (by rw [hp]; exact h2))
  | bblock j c h hp hr =>
    have h0 := m.blk j c h (by rw [hp]; rfl)
    refine m.keep st j (.brel c h (s.ev h).rt) [] (by simp) (by simp) (by simp [cTodo]) ?_ ?_ ?_ (by simp [cSig]) (by simp [cRel]) (by simp) (by simp)
    · simp [cBlk]; exact h0
    · intro j' c' h' hj hb
      have h1 := m.blk j' c' h' hb
      refine ⟨by simpa using h1.2.1, by simpa using h1.2.2, ?_⟩
      intro c'' h2; exact hj (m.blkU j' j c' c'' h' hb (by rw [hp]; exact h2))
    · simp; exact settled_of i hr h0.1
  | brel j c h r hp he =>
    have h0 := m.blk j c h (by rw [hp]; rfl)
    refine m.keepC st j .idle [(j, .blocking c h, r)] (by simp [ret]) (by simp [ret]) (by simp [cTodo]) rfl rfl (by simp [cRel]) (by simp) ?_ ?_
    · intro j' c' h' hj hb
      have h1 := m.blk j' c' h' hb
      simp
      refine ⟨⟨h1.2.1, ?_⟩, h1.2.2⟩
      rintro rfl
      exact hj (m.blkU j' j c' c h' hb (by rw [hp]; rfl))
    · simp [RetOk]
      exact Or.inr ⟨m.brel j c h r hp, evs_lt st.all he⟩
  | rel j h rest hp he =>
    have h0 := m.rel j h (by rw [hp]; simp [cRel])
    refine m.keepC st j (.rel rest) [] (by simp) (by simp) (by simp [cTodo]) rfl rfl ?_ (by simp) ?_ (by simp)
    · intro w hw; exact st.okArg (m.rel j w (by rw [hp]; simp [cRel] at hw ⊢; exact Or.inr hw))
    · intro j' c' h' hj hb
      have h1 := m.blk j' c' h' hb
      simp
      refine ⟨⟨h1.2.1, ?_⟩, h1.2.2⟩
      rintro rfl
      rcases h0 with h0 | h0
      · exact h1.2.2 h0
      · have := evs_ge st.all he; omega
  | signal j h code hp ho he =>
    exact m.keepC st j (.sig h code) [] (by simp) (by simp) (by simp [cTodo]) rfl rfl (by simp [cRel]) (by simp; exact st.okArg ho) (m.same j (by simp) (by simp)) (by simp)
  | sigTwice j h code hp hu hc =>
    refine m.keepC st j .idle [(j, .setUserEventStatus h code, MAX_ENUM)] (by simp [ret]) (by simp [ret]) (by simp [cTodo]) rfl rfl (by simp [cRel]) (by simp) (m.same j (by simp) (by simp)) ?_
    simp [RetOk]; exact touched_of i hc
  | sig2Ok j h hp =>
    refine m.keep st j (.sig3 h NO_ERROR) [] (by simp) (by simp) (by simp [cTodo]) (by simp [cBlk]) ?_ (by simp) ?_ (by simp [cRel]) (by simp) (by simp)
    · intro j' c' h' hj hb; have := m.same j (s' := s) rfl rfl j' c' h' hj hb; exact ⟨by simpa using this.1, by simpa using this.2, by simp [cBlk]⟩
    · simp [cSig, okCode]
  | sig2Err j h code hp hc =>
    refine m.keep st j (.sig3 h code) [] (by simp) (by simp) (by simp [cTodo]) (by simp [cBlk]) ?_ (by simp) ?_ (by simp [cRel]) (by simp) (by simp)
    · intro j' c' h' hj hb; have := m.same j (s' := s) rfl rfl j' c' h' hj hb; exact ⟨by simpa using this.1, by simpa using this.2, by simp [cBlk]⟩
    · simp [cSig]; exact Or.inr hc
  | sig3 j h r hp =>
    refine m.keep st j (.sig4 h r) [] (by simp) (by simp) (by simp [cTodo]) (by simp [cBlk]) ?_ (by simp) ?_ (by simp [cRel]) (by simp) (by simp)
    · intro j' c' h' hj hb; have := m.same j (s' := s) rfl rfl j' c' h' hj hb; exact ⟨by simpa using this.1, by simpa using this.2, by simp [cBlk]⟩
    · simp [cSig]; exact m.sig j r (by rw [hp]; rfl)
  | sig4 j h r hp =>
    refine m.keep st j (.sig5 h r) [] (by simp) (by simp) (by simp [cTodo]) (by simp [cBlk]) ?_ (by simp) ?_ (by simp [cRel]) (by simp) (by simp)
    · intro j' c' h' hj hb; have := m.same j (s' := s) rfl rfl j' c' h' hj hb; exact ⟨by simpa using this.1, by simpa using this.2, by simp [cBlk]⟩
    · simp [cSig]; exact m.sig j r (by rw [hp]; rfl)
  | sig5 j h r hp =>
    refine m.keepC st j .idle [(j, .setUserEventStatus h (if r = 0 then 4 else r), NO_ERROR)] (by simp [ret]) (by simp [ret]) (by simp [cTodo]) rfl rfl (by simp [cRel]) (by simp) (m.same j (by simp) (by simp)) ?_
    simp [RetOk, upd_same]; exact Or.inl (m.sig j r (by rw [hp]; rfl))
  | wait j ws hp ho =>
    refine m.keepC st j (.wait ws ws) [] (by simp) (by simp) ?_ rfl rfl (by simp [cRel]) (by simp) (m.same j (by simp) (by simp)) (by simp)
    simp only [cTodo, Option.some.injEq, Prod.mk.injEq]
    rintro all todo ⟨rfl, rfl⟩
    exact ⟨fun w hw => st.okArg (ho w hw), [], rfl, by simp⟩
  | waitEnd j all hp =>
    obtain ⟨a, q, b, c⟩ := m.todo j all [] (by rw [hp]; rfl)
    refine m.keepC st j .idle [(j, .waitForEvents all .ok, NO_ERROR)] (by simp [ret]) (by simp [ret]) (by simp [cTodo]) rfl rfl (by simp [cRel]) (by simp) (m.same j (by simp) (by simp)) ?_
    simp only [List.mem_singleton, forall_eq]
    refine ⟨fun w hw => st.okArg (a w hw), rfl, fun w hw => st.passed (c w (by rw [b] at hw; simpa using hw))⟩
  | waitFind j all w rest hp he =>
    obtain ⟨a, q, b, c⟩ := m.todo j all (w :: rest) (by rw [hp]; rfl)
    refine m.keepC st j (.waitBlock all w rest) [] (by simp) (by simp) ?_ rfl rfl (by simp [cRel]) (by simp) (m.same j (by simp) (by simp)) (by simp)
    simp only [cTodo, Option.some.injEq, Prod.mk.injEq]
    rintro all' todo ⟨rfl, rfl⟩
    exact ⟨fun w hw => st.okArg (a w hw), q, b, fun w hw => st.passed (c w hw)⟩
  | waitMiss j all w rest hp he =>
    obtain ⟨a, q, b, c⟩ := m.todo j all (w :: rest) (by rw [hp]; rfl)
    refine m.keepC st j .idle [(j, .waitForEvents all (.unknown w), INVALID_VALUE)] (by simp [ret]) (by simp [ret]) (by simp [cTodo]) rfl rfl (by simp [cRel]) (by simp) (m.same j (by simp) (by simp)) ?_
    simp only [List.mem_singleton, forall_eq]
    exact ⟨fun w hw => st.okArg (a w hw), rfl, q, rest, b, fun w hw => st.passed (c w hw), by simpa using he⟩
  | waitNext j all w rest hp hr h0 =>
    obtain ⟨a, q, b, c⟩ := m.todo j all (w :: rest) (by rw [hp]; rfl)
    refine m.keepC st j (.wait all rest) [] (by simp) (by simp) ?_ rfl rfl (by simp [cRel]) (by simp) (m.same j (by simp) (by simp)) (by simp)
    simp only [cTodo, Option.some.injEq, Prod.mk.injEq]
    rintro all' todo ⟨rfl, rfl⟩
    refine ⟨fun w hw => st.okArg (a w hw), q ++ [w], by simpa using b, ?_⟩
    intro x hx
    simp only [List.mem_append, List.mem_singleton] at hx
    rcases hx with hx | rfl
    · exact st.passed (c x hx)
    · exact st.passed (passed_of i hr h0)
  | waitFail j all w rest hp hr h0 =>
    obtain ⟨a, q, b, c⟩ := m.todo j all (w :: rest) (by rw [hp]; rfl)
    refine m.keepC st j .idle [(j, .waitForEvents all (.failed w (s.ev w).rt), INVALID_VALUE)] (by simp [ret]) (by simp [ret]) (by simp [cTodo]) rfl rfl (by simp [cRel]) (by simp) (m.same j (by simp) (by simp)) ?_
    simp only [List.mem_singleton, forall_eq]
    exact ⟨fun w hw => st.okArg (a w hw), rfl, h0, q, rest, b, fun w hw => st.passed (c w hw), st.failedWith (failed_of i hr h0)⟩
  | release j hs hp ho =>
    exact m.keepC st j (.rel hs) [] (by simp) (by simp) (by simp [cTodo]) rfl rfl (by simp [cRel]; exact fun w hw => st.okArg (ho w hw)) (by simp) (m.same j (by simp) (by simp)) (by simp)
  | enqueueBad j c ws blk hp hc =>
    refine m.keepC st j .idle [(j, (if blk = true then .blocking c 0 else .enqueue c 0 ws), INVALID_VALUE)] (by simp [ret]) (by simp [ret]) (by simp [cTodo]) rfl rfl (by simp [cRel]) (by simp) (m.same j (by simp) (by simp)) ?_
    cases blk <;> simp [RetOk]
  | enqueueUnknown j c h ws blk hp hr =>
    refine m.keepC st j .idle [(j, (if blk = true then .blocking c 0 else .enqueue c 0 ws), INVALID_VALUE)] (by simp [ret]) (by simp [ret]) (by simp [cTodo]) rfl rfl (by simp [cRel]) (by simp) (m.same j (by simp) (by simp)) ?_
    cases blk <;> simp [RetOk]
  | _ =>
    first
      | (refine m.keepM st ?_ ?_ ?_ ?_ <;> simp; done)
      | (refine m.keepC st _ _ _ (by simp [ret]; rfl) (by simp [ret]; first | rfl | exact (List.nil_append _).symm | exact (List.singleton_append).symm) (by simp [cTodo]) rfl rfl (by simp [cRel]) (by simp) (m.same _ (by simp) (by simp)) ?_; simp [RetOk])

theorem rsinv {s : St} (h : Reachable s) : RInv s ∧ SInv s :=
  reach_ind (P := fun s => RInv s ∧ SInv s) ⟨rinv_init, by simp [SInv, init]⟩
    (fun _ _ st k => ⟨rinv_step st k.1 k.2, sinv_step st k.1 k.2⟩) h

theorem rinv {s : St} (h : Reachable s) : RInv s := (rsinv h).1

end Mcut.Api
