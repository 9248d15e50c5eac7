import Verif.Spec.C44
import Mathlib.Tactic.ByContra

namespace Mcut.Params
open Mcut.Release (Exc Body Reply code api NO_ERROR INVALID_VALUE INVALID_OPERATION MAX_ENUM)

variable {σ : Type}

/-- What follows once the arguments are accepted. -/
def accepted (L : Lib σ) (s : σ) (c : Call) : Reply σ :=
  match L.rest c s with
  | .ok s' => if ((waitOf c).map (·.event)).getD true then .ret s' NO_ERROR else .ub
  | .throws s' e => .ret s' (code e)
  | .ub => .ub

theorem bit_ne (w : Word) (i : Nat) (hi : i < 32) : (w &&& (1#32 <<< i) ≠ 0) ↔ has w i := by
  constructor
  · intro h
    by_contra hc
    apply h
    apply BitVec.eq_of_getLsbD_eq
    intro j hj
    simp only [has, Bool.not_eq_true] at hc
    by_cases hij : j = i
    · subst hij
      simp [BitVec.getLsbD_and, hc]
    · by_cases hlt : j < i
      · simp [BitVec.getLsbD_and, BitVec.getLsbD_shiftLeft, hlt]
      · have : decide (j - i = 0) = false := by simp; omega
        simp [BitVec.getLsbD_and, BitVec.getLsbD_shiftLeft, BitVec.getLsbD_one, this]
  · intro h hc
    have := congrArg (fun x => x.getLsbD i) hc
    simp only [BitVec.getLsbD_and, BitVec.getLsbD_shiftLeft, has] at this h
    rw [h] at this
    simp [hi] at this

theorem bit_eq (w : Word) (i : Nat) (hi : i < 32) : (w &&& (1#32 <<< i) = 0) ↔ ¬ has w i := by
  rw [← bit_ne w i hi]; simp

theorem api_bad {s : σ} {l : List Bool} {b : σ → Body σ} (h : l.any id = true) : api s l b = .ret s INVALID_VALUE := by simp [api, h]

theorem api_ctx_bad {L : Lib σ} {s : σ} {l : List Bool} {ctx : Nat} {k : σ → Body σ} {P : Prop}
    (hl : ctx = 0 ∨ P → l.any id = true) (h : NoCtx L s ctx ∨ P) : api s l (withCtx L ctx k) = .ret s INVALID_VALUE := by
  by_cases hb : l.any id = true
  · exact api_bad hb
  · rcases h with (h | h) | h
    · exact absurd (hl (Or.inl h)) hb
    · simp [api, hb, withCtx, h, code]
    · exact absurd (hl (Or.inr h)) hb

theorem api_ev_bad {L : Lib σ} {s : σ} {l : List Bool} {ev : Nat} {k : σ → Body σ} {P : Prop}
    (hl : ev = 0 ∨ P → l.any id = true) (h : NoEv L s ev ∨ P) : api s l (withEv L ev k) = .ret s INVALID_VALUE := by
  by_cases hb : l.any id = true
  · exact api_bad hb
  · rcases h with (h | h) | h
    · exact absurd (hl (Or.inl h)) hb
    · simp [api, hb, withEv, h, code]
    · exact absurd (hl (Or.inr h)) hb

theorem api_submit_bad {L : Lib σ} {s : σ} {l : List Bool} {ctx : Nat} {w : Wait} {k : σ → Body σ} {P : Prop}
    (hl : ctx = 0 ∨ P → l.any id = true) (h : NoCtx L s ctx ∨ P) : api s l (submit w (withCtx L ctx k)) = .ret s INVALID_VALUE := by
  by_cases hb : l.any id = true
  · exact api_bad hb
  · rcases h with (h | h) | h
    · exact absurd (hl (Or.inl h)) hb
    · simp [api, hb, submit, withCtx, h, code]
    · exact absurd (hl (Or.inr h)) hb

theorem wait_bad (w : Wait) : (waitChecks w).any id = true ↔ BadWait w := by
  obtain ⟨n, l, e⟩ := w
  simp only [waitChecks, BadWait, BadList, List.any_cons, List.any_nil, id]
  cases l <;> cases e <;> simp

theorem mesh_bad (m : MeshArgs) : (meshChecks m).any id = true ↔ BadMesh m := by
  obtain ⟨v, i, z, n, f⟩ := m
  simp only [meshChecks, BadMesh, List.any_cons, List.any_nil, id]
  cases v <;> cases i <;> simp

theorem flags_bad (f : Word) : (flagChecks f).any id = true ↔ BadFlags f := by
  simp only [flagChecks, BadFlags, List.any_cons, List.any_nil, id, Bool.or_false, Bool.or_eq_true, Bool.and_eq_true, decide_eq_true_eq, Bool.not_eq_true', Bool.or_eq_false_iff,
    decide_eq_false_iff_not, ne_eq, not_not]
  simp only [FLOAT, DOUBLE, THROUGH_CUTS, LOCATION_UNDEFINED,
    bit_eq f 2 (by decide), bit_eq f 7 (by decide), bit_eq f 0 (by decide), bit_eq f 1 (by decide), not_not]

theorem evinfo_bad (ev : Nat) (info : Word) (bytes : Nat) (mem : Bool) : (eventInfoChecks ev info bytes mem).any id = true ↔
    (ev = 0 ∨ (0 < bytes ∧ mem = false) ∨ (mem = true ∧ ∃ k, checkedWidth info = some k ∧ bytes ≠ k)) := by
  simp only [eventInfoChecks, checkedWidth, List.any_cons, List.any_nil, id, EV_RUNTIME, EV_STATUS, EV_SUBMIT, EV_START, EV_END,
    show (1#32 <<< 2 : BitVec 32) = 4#32 from rfl, show (1#32 <<< 3 : BitVec 32) = 8#32 from rfl, show (1#32 <<< 4 : BitVec 32) = 16#32 from rfl,
    show (1#32 <<< 5 : BitVec 32) = 32#32 from rfl, show (1#32 <<< 6 : BitVec 32) = 64#32 from rfl]
  by_cases h1 : info = 4#32
  · subst h1; cases mem <;> simp <;> omega
  by_cases h2 : info = 64#32
  · subst h2; cases mem <;> simp <;> omega
  by_cases h3 : info = 8#32
  · subst h3; cases mem <;> simp <;> omega
  by_cases h4 : info = 16#32
  · subst h4; cases mem <;> simp <;> omega
  by_cases h5 : info = 32#32
  · subst h5; cases mem <;> simp <;> omega
  simp only [h1, h2, h3, h4, h5]
  cases mem <;> simp <;> omega


theorem api_good {s : σ} {l : List Bool} {b : σ → Body σ} (h : ¬ l.any id = true) :
    api s l b = match b s with | .ok s' => .ret s' NO_ERROR | .throws s' e => .ret s' (code e) | .ub => .ub := by
  simp only [api, h, if_false]
  cases b s <;> rfl

theorem api_ctx_good {L : Lib σ} {s : σ} {l : List Bool} {ctx : Nat} {k : σ → Body σ} {P : Prop}
    (hl : l.any id = true → ctx = 0 ∨ P) (h : ¬ (NoCtx L s ctx ∨ P)) :
    api s l (withCtx L ctx k) = match k s with | .ok s' => .ret s' NO_ERROR | .throws s' e => .ret s' (code e) | .ub => .ub := by
  simp only [NoCtx, not_or, Bool.not_eq_false] at h
  rw [api_good (fun hb => (hl hb).elim h.1.1 h.2)]
  simp [withCtx, h.1.2]

theorem api_ev_good {L : Lib σ} {s : σ} {l : List Bool} {ev : Nat} {k : σ → Body σ} {P : Prop}
    (hl : l.any id = true → ev = 0 ∨ P) (h : ¬ (NoEv L s ev ∨ P)) :
    api s l (withEv L ev k) = match k s with | .ok s' => .ret s' NO_ERROR | .throws s' e => .ret s' (code e) | .ub => .ub := by
  simp only [NoEv, not_or, Bool.not_eq_false] at h
  rw [api_good (fun hb => (hl hb).elim h.1.1 h.2)]
  simp [withEv, h.1.2]

theorem api_submit_good {L : Lib σ} {s : σ} {l : List Bool} {ctx : Nat} {w : Wait} {k : σ → Body σ} {P : Prop}
    (hl : l.any id = true → ctx = 0 ∨ P) (h : ¬ (NoCtx L s ctx ∨ P)) :
    api s l (submit w (withCtx L ctx k)) =
      match k s with | .ok s' => if w.event then .ret s' NO_ERROR else .ub | .throws s' e => .ret s' (code e) | .ub => .ub := by
  simp only [NoCtx, not_or, Bool.not_eq_false] at h
  rw [api_good (fun hb => (hl hb).elim h.1.1 h.2)]
  simp only [submit, withCtx, h.1.2, if_true]
  cases k s with
  | ok s' => cases w.event <;> simp
  | throws s' e => rfl
  | ub => rfl

theorem control_bad (ctx : Nat) (source type severity : Word) :
    ([decide (ctx = 0),
      !(decide (source = Ctx.SOURCE_ALL) || decide (source = Ctx.SOURCE_KERNEL) || decide (source = Ctx.SOURCE_ALL)),
      !(decide (type = Ctx.TYPE_ALL) || decide (type = Ctx.TYPE_DEPRECATED) || decide (type = Ctx.TYPE_ERROR) || decide (type = Ctx.TYPE_OTHER)),
      !(decide (severity = Ctx.SEVERITY_HIGH) || decide (severity = Ctx.SEVERITY_MEDIUM) || decide (severity = Ctx.SEVERITY_LOW) ||
        decide (severity = Ctx.SEVERITY_NOTIFICATION) || decide (severity = Ctx.SEVERITY_ALL))] : List Bool).any id = true ↔
    (ctx = 0 ∨ source ∉ [0xFFFFFFFF#32, 2#32] ∨ type ∉ [0xFFFFFFFF#32, 1#32, 2#32, 4#32] ∨ severity ∉ [0xFFFFFFFF#32, 1#32, 2#32, 4#32, 8#32]) := by
  simp only [List.any_cons, List.any_nil, id, Bool.or_false, Bool.or_eq_true, decide_eq_true_eq, Bool.not_eq_true', Bool.or_eq_false_iff,
    decide_eq_false_iff_not, List.mem_cons, List.not_mem_nil, or_false, not_or]
  simp only [Ctx.SOURCE_ALL, Ctx.SOURCE_KERNEL, Ctx.TYPE_ALL, Ctx.TYPE_DEPRECATED, Ctx.TYPE_ERROR, Ctx.TYPE_OTHER, Ctx.SEVERITY_HIGH,
    Ctx.SEVERITY_MEDIUM, Ctx.SEVERITY_LOW, Ctx.SEVERITY_NOTIFICATION, Ctx.SEVERITY_ALL,
    show (1#32 <<< 0 : BitVec 32) = 1#32 from rfl, show (1#32 <<< 1 : BitVec 32) = 2#32 from rfl, show (1#32 <<< 2 : BitVec 32) = 4#32 from rfl,
    show (1#32 <<< 3 : BitVec 32) = 8#32 from rfl]
  constructor
  · rintro (h | h | h | h)
    · exact Or.inl h
    · exact Or.inr (Or.inl ⟨h.2, h.1.2⟩)
    · exact Or.inr (Or.inr (Or.inl ⟨h.1.1.1, h.1.2, h.1.1.2, h.2⟩))
    · exact Or.inr (Or.inr (Or.inr ⟨h.2, h.1.1.1.1, h.1.1.1.2, h.1.1.2, h.1.2⟩))
  · rintro (h | h | h | h)
    · exact Or.inl h
    · exact Or.inr (Or.inl ⟨⟨h.1, h.2⟩, h.1⟩)
    · exact Or.inr (Or.inr (Or.inl ⟨⟨⟨h.1, h.2.2.1⟩, h.2.1⟩, h.2.2.2⟩))
    · exact Or.inr (Or.inr (Or.inr ⟨⟨⟨⟨h.2.1, h.2.2.1⟩, h.2.2.2.1⟩, h.2.2.2.2⟩, h.1⟩))

theorem info_bad (ctx : Nat) (info : Word) (bytes : Nat) (mem : Bool) :
    ([decide (ctx = 0), decide (bytes ≠ 0) && !mem,
      !(decide (info &&& Ctx.CONTEXT_FLAGS ≠ 0) || decide (info &&& Ctx.MAX_DEBUG_MESSAGE_LENGTH ≠ 0) || decide (info &&& Ctx.GP_CONSTANT ≠ 0) ||
        decide (info &&& Ctx.GP_ATTEMPTS ≠ 0) || decide (info &&& Ctx.DISPATCH_INTERSECTION_TYPE ≠ 0)),
      decide (info &&& Ctx.CONTEXT_FLAGS ≠ 0) && (mem && decide (bytes ≠ 4))] : List Bool).any id = true ↔
    (ctx = 0 ∨ (0 < bytes ∧ mem = false) ∨
      (¬ has info 0 ∧ ¬ has info 9 ∧ ¬ has info 10 ∧ ¬ has info 11 ∧ ¬ has info 13) ∨ (has info 0 ∧ mem = true ∧ bytes ≠ 4)) := by
  simp only [List.any_cons, List.any_nil, id, Bool.or_false, Bool.or_eq_true, Bool.and_eq_true, decide_eq_true_eq, Bool.not_eq_true', Bool.or_eq_false_iff,
    decide_eq_false_iff_not, ne_eq, not_not]
  simp only [Ctx.CONTEXT_FLAGS, Ctx.MAX_DEBUG_MESSAGE_LENGTH, Ctx.GP_CONSTANT, Ctx.GP_ATTEMPTS, Ctx.DISPATCH_INTERSECTION_TYPE,
    bit_eq info 0 (by decide), bit_eq info 9 (by decide), bit_eq info 10 (by decide), bit_eq info 11 (by decide), bit_eq info 13 (by decide),
    not_not, and_assoc, Nat.pos_iff_ne_zero, ne_eq]

theorem bind_bad (ctx : Nat) (info : Word) (bytes : Nat) (mem : Bool) :
    ([decide (ctx = 0), decide (bytes = 0), !mem,
      !(decide (info &&& Ctx.GP_CONSTANT ≠ 0) || decide (info &&& Ctx.GP_ATTEMPTS ≠ 0) || decide (info &&& Ctx.WINDING_ORDER ≠ 0)),
      (decide (info &&& Ctx.GP_CONSTANT ≠ 0) && decide (bytes ≠ 8)) || (decide (info &&& Ctx.GP_ATTEMPTS ≠ 0) && decide (bytes ≠ 4)) ||
        (decide (info &&& Ctx.WINDING_ORDER ≠ 0) && decide (bytes ≠ 4))] : List Bool).any id = true ↔
    (ctx = 0 ∨ bytes = 0 ∨ mem = false ∨ (¬ has info 10 ∧ ¬ has info 11 ∧ ¬ has info 12) ∨
      (has info 10 ∧ bytes ≠ 8) ∨ (has info 11 ∧ bytes ≠ 4) ∨ (has info 12 ∧ bytes ≠ 4)) := by
  simp only [List.any_cons, List.any_nil, id, Bool.or_false, Bool.or_eq_true, Bool.and_eq_true, decide_eq_true_eq, Bool.not_eq_true', Bool.or_eq_false_iff,
    decide_eq_false_iff_not, ne_eq, not_not]
  simp only [Ctx.GP_CONSTANT, Ctx.GP_ATTEMPTS, Ctx.WINDING_ORDER,
    bit_eq info 10 (by decide), bit_eq info 11 (by decide), bit_eq info 12 (by decide), not_not, and_assoc, or_assoc, ne_eq]

theorem dispatch_bad (ctx : Nat) (flags : Word) (src cut : MeshArgs) (w : Wait) :
    ([decide (ctx = 0)] ++ flagChecks flags ++ meshChecks src ++ meshChecks cut ++ waitChecks w).any id = true ↔
    (ctx = 0 ∨ BadFlags flags ∨ BadMesh src ∨ BadMesh cut ∨ BadWait w) := by
  rw [← flags_bad, ← mesh_bad src, ← mesh_bad cut, ← wait_bad]
  simp only [List.any_append, List.any_cons, List.any_nil, id, Bool.or_eq_true, Bool.or_false, decide_eq_true_eq, or_assoc]

theorem planar_bad (ctx : Nat) (flags : Word) (src : MeshArgs) (normal : Option (Int × Int × Int)) (offset : Int) (w : Wait) :
    ([decide (ctx = 0)] ++ flagChecks flags ++ meshChecks src ++
      [normal.isNone, decide (normal = some (0, 0, 0)), decide (offset ≤ 0) && decide (offset ≥ 1000)] ++ waitChecks w).any id = true ↔
    (ctx = 0 ∨ BadFlags flags ∨ BadMesh src ∨ normal = none ∨ normal = some (0, 0, 0) ∨ BadWait w) := by
  rw [← flags_bad, ← mesh_bad src, ← wait_bad]
  have : ¬ (offset ≤ 0 ∧ offset ≥ 1000) := by omega
  simp only [List.any_append, List.any_cons, List.any_nil, id, Bool.or_eq_true, Bool.and_eq_true, Bool.or_false, decide_eq_true_eq, or_assoc,
    Option.isNone_iff_eq_none, this, false_or]

theorem comps_bad (ctx : Nat) (type : Word) (comps num : Bool) (w : Wait) :
    ([decide (ctx = 0), decide (type = 0), !num && !comps] ++ waitChecks w).any id = true ↔
    (ctx = 0 ∨ type = 0 ∨ (comps = false ∧ num = false) ∨ BadWait w) := by
  rw [← wait_bad]
  simp only [List.any_append, List.any_cons, List.any_nil, id, Bool.or_eq_true, Bool.and_eq_true, Bool.or_false, decide_eq_true_eq, or_assoc,
    Bool.not_eq_true', and_comm]

theorem data_bad (comp : Nat) (flags : Word) (bytes : Nat) (mem : Bool) (w : Wait) :
    ([decide (comp = 0), decide (flags = 0), decide (bytes ≠ 0) && !mem] ++ waitChecks w).any id = true ↔
    (comp = 0 ∨ flags = 0 ∨ (0 < bytes ∧ mem = false) ∨ BadWait w) := by
  rw [← wait_bad]
  simp only [List.any_append, List.any_cons, List.any_nil, id, Bool.or_eq_true, Bool.and_eq_true, Bool.or_false, decide_eq_true_eq, or_assoc,
    Bool.not_eq_true', Nat.pos_iff_ne_zero]

/-- Calls that do not block. -/
def nonblocking (c : Call) : Prop := enqueued c = none

theorem late_bad {s : σ} {f : Bool} {l : List Bool} {b : σ → Body σ} (h : l.any id = true ∨ b s = .throws s .invalidArgument) :
    apiLate s f l b = .ret s INVALID_VALUE := by
  have : api s l b = .ret s INVALID_VALUE := by
    rcases h with h | h
    · exact api_bad h
    · by_cases hb : l.any id = true
      · exact api_bad hb
      · rw [api_good hb, h]; rfl
  simp [apiLate, this, INVALID_VALUE, NO_ERROR]

theorem late_good {s : σ} {l : List Bool} {b : σ → Body σ} : apiLate s false l b = api s l b := by
  unfold apiLate; cases api s l b <;> simp

theorem exec1_bad (L : Lib σ) (h0c : ∀ s, L.hasCtx s 0 = false) (h0e : ∀ s, L.hasEv s 0 = false) (s : σ) (c : Call) (hn : nonblocking c)
    (h : Bad L s c) : exec1 L s c = .ret s INVALID_VALUE := by
  cases c with
  | createContext out => exact api_bad (by simp [Bad] at h; simp [h])
  | createContextWithHelpers out => exact api_bad (by simp [Bad] at h; simp [h])
  | debugMessageCallback ctx cb => exact api_ctx_bad (by simp) h
  | getDebugMessageLog ctx count bufSize numFetched => exact api_ctx_bad (by simp) h
  | debugMessageControl ctx source type severity => exact api_ctx_bad (control_bad _ _ _ _).2 h
  | getInfo ctx info bytes mem nb => exact api_ctx_bad (info_bad _ _ _ _).2 h
  | bindState ctx info bytes mem => exact api_ctx_bad (bind_bad _ _ _ _).2 h
  | createUserEvent out ctx =>
    refine api_ctx_bad (P := out = false) ?_ (Or.symm h)
    rintro (h | h) <;> simp [h]
  | setUserEventStatus ev st => exact api_ev_bad (P := False) (by simp) (Or.inl h)
  | getEventInfo ev info bytes mem nb => exact api_ev_bad (evinfo_bad _ _ _ _).2 h
  | waitForEvents count list =>
    refine api_bad ?_
    simp only [Bad, BadList] at h
    cases list <;> simp at h ⊢ <;> assumption
  | setEventCallback ev cb =>
    refine late_bad ?_
    rcases h with (h | h) | h
    · right; simp [withEv, h, h0e]
    · right; simp [withEv, h]
    · left; simp [h]
  | enqueueDispatch ctx flags src cut w => exact api_submit_bad (dispatch_bad _ _ _ _ _).2 h
  | dispatch => cases hn
  | enqueuePlanarSection ctx flags src normal offset w => exact api_submit_bad (planar_bad _ _ _ _ _ _).2 h
  | enqueueGetComponents ctx type n comps num w => exact api_submit_bad (comps_bad _ _ _ _ _).2 h
  | getComponents => cases hn
  | enqueueGetData ctx comp flags bytes mem nb w =>
    refine late_bad ?_
    rcases h with (h | h) | h
    · right; simp [submit, withCtx, h, h0c]
    · right; simp [submit, withCtx, h]
    · left; exact (data_bad _ _ _ _ _).2 h
  | getData => cases hn
  | releaseEvents count list =>
    refine api_bad ?_
    simp only [Bad, BadList] at h
    cases list <;> simp at h ⊢ <;> assumption
  | releaseComponents ctx count list =>
    refine api_ctx_bad (P := BadList count list) ?_ h
    simp only [BadList]
    cases list <;> simp
  | releaseContext ctx => exact api_ctx_bad (P := False) (by simp) (Or.inl h)

theorem exec1_good (L : Lib σ) (s : σ) (c : Call) (hn : nonblocking c) (h : ¬ Bad L s c) : exec1 L s c = accepted L s c := by
  cases c with
  | createContext out => exact api_good (by simp [Bad] at h; simp [h])
  | createContextWithHelpers out => exact api_good (by simp [Bad] at h; simp [h])
  | debugMessageCallback ctx cb => exact api_ctx_good (by simp) h
  | getDebugMessageLog ctx count bufSize numFetched => exact api_ctx_good (by simp) h
  | debugMessageControl ctx source type severity => exact api_ctx_good (control_bad _ _ _ _).1 h
  | getInfo ctx info bytes mem nb => exact api_ctx_good (info_bad _ _ _ _).1 h
  | bindState ctx info bytes mem => exact api_ctx_good (bind_bad _ _ _ _).1 h
  | createUserEvent out ctx =>
    refine api_ctx_good (P := out = false) ?_ (fun h' => h (Or.symm h'))
    cases out <;> simp
  | setUserEventStatus ev st => exact api_ev_good (P := False) (by simp) (fun h' => h (h'.elim id False.elim))
  | getEventInfo ev info bytes mem nb => exact api_ev_good (evinfo_bad _ _ _ _).1 h
  | waitForEvents count list =>
    refine api_good ?_
    simp only [Bad, BadList] at h
    cases list <;> simp at h ⊢ <;> assumption
  | setEventCallback ev cb =>
    have h' := h
    simp only [Bad, NoEv, not_or] at h'
    simp only [exec1, decide_eq_false h'.1.1, late_good]
    exact api_ev_good (P := cb = false) (by simp; exact Or.inr) h
  | enqueueDispatch ctx flags src cut w => exact api_submit_good (dispatch_bad _ _ _ _ _).1 h
  | dispatch => cases hn
  | enqueuePlanarSection ctx flags src normal offset w => exact api_submit_good (planar_bad _ _ _ _ _ _).1 h
  | enqueueGetComponents ctx type n comps num w => exact api_submit_good (comps_bad _ _ _ _ _).1 h
  | getComponents => cases hn
  | enqueueGetData ctx comp flags bytes mem nb w =>
    have h' := h
    simp only [Bad, NoCtx, not_or] at h'
    simp only [exec1, decide_eq_false h'.1.1, late_good]
    exact api_submit_good (fun hb => Or.inr ((data_bad _ _ _ _ _).1 hb)) h
  | getData => cases hn
  | releaseEvents count list =>
    refine api_good ?_
    simp only [Bad, BadList] at h
    cases list <;> simp at h ⊢ <;> assumption
  | releaseComponents ctx count list =>
    refine api_ctx_good (P := BadList count list) ?_ h
    simp only [BadList]
    cases list <;> simp
  | releaseContext ctx => exact api_ctx_good (P := False) (by simp) (fun h' => h (h'.elim id False.elim))

theorem exec_nonblocking (L : Lib σ) (s : σ) (c : Call) (hn : nonblocking c) : exec L s c = exec1 L s c := by
  cases c <;> first | rfl | cases hn

theorem exec_blocking (L : Lib σ) (s : σ) (c e : Call) (h : enqueued c = some e) :
    nonblocking e ∧ exec L s c = match exec1 L s e with
      | .ret s' r => if r = NO_ERROR then L.block c s' else .ret s' r
      | .ub => .ub := by
  cases c <;> first | (cases h; done) | (cases h; exact ⟨rfl, rfl⟩)

theorem bad_blocking (L : Lib σ) (s : σ) (c e : Call) (h : enqueued c = some e) : Bad L s c ↔ Bad L s e := by
  have hw : ¬ BadWait ⟨0, false, true⟩ := by simp [BadWait, BadList]
  cases c <;> first | (cases h; done) | (cases h; simp [Bad, hw])

/-- Null handles, handles of nothing, null required pointers, counts out of range and contradictory arguments: MC_INVALID_VALUE, and the library's
state is unchanged; for every entry point. The null handle is the handle of nothing (C01: handles are never 0).
Partial: documented conditions that the code does not check are not in `Bad`; see the theorems ending in `_fails`. -/
theorem C44_rejects_partial (L : Lib σ) (h0c : ∀ s, L.hasCtx s 0 = false) (h0e : ∀ s, L.hasEv s 0 = false) (s : σ) (c : Call) (h : Bad L s c) :
    exec L s c = .ret s (-4) := by
  cases he : enqueued c with
  | none => rw [exec_nonblocking L s c he]; exact exec1_bad L h0c h0e s c he h
  | some e =>
    obtain ⟨hn, heq⟩ := exec_blocking L s c e he
    rw [heq, exec1_bad L h0c h0e s e hn ((bad_blocking L s c e he).1 h)]
    simp [INVALID_VALUE, NO_ERROR]

/-- Nothing else is refused: with other arguments the call does its work. It then reports MC_NO_ERROR if the work succeeds (and there is a place for
the event), and an exception becomes one of the error codes MC_INVALID_VALUE, MC_INVALID_OPERATION or MC_RESULT_MAX_ENUM — never MC_NO_ERROR. -/
theorem C44_accepts (L : Lib σ) (s : σ) (c : Call) (hn : enqueued c = none) (h : ¬ Bad L s c) :
    (∀ s', L.rest c s = .ok s' → (∀ w, waitOf c = some w → w.event = true) → exec L s c = .ret s' 0) ∧
    (∀ s' e, L.rest c s = .throws s' e → ∃ r, exec L s c = .ret s' r ∧ r ≠ 0 ∧
      (e = .invalidArgument → r = -4) ∧ (e = .runtimeError → r = -2) ∧ (e = .logicError ∨ e = .other → r = -1)) := by
  rw [exec_nonblocking L s c hn, exec1_good L s c hn h]
  refine ⟨fun s' hs hw => ?_, fun s' e hs => ⟨code e, ?_, ?_, ?_⟩⟩
  · cases hwo : waitOf c with
    | none => simp [accepted, hs, hwo]
    | some w => simp [accepted, hs, hwo, hw w hwo]
  · simp [accepted, hs]
  · cases e <;> simp [code]
  · cases e <;> simp [code]

/-- MC_NO_ERROR from a non-blocking call: the arguments were fine and the work was done without an exception; the resulting state is
exactly that of the work. -/
theorem C44_no_error (L : Lib σ) (h0c : ∀ s, L.hasCtx s 0 = false) (h0e : ∀ s, L.hasEv s 0 = false) (s s' : σ) (c : Call)
    (hn : enqueued c = none) (h : exec L s c = .ret s' 0) : ¬ Bad L s c ∧ L.rest c s = .ok s' := by
  have hb : ¬ Bad L s c := by
    intro hb
    rw [C44_rejects_partial L h0c h0e s c hb] at h
    injection h with _ h2
    exact absurd h2 (by decide)
  refine ⟨hb, ?_⟩
  rw [exec_nonblocking L s c hn, exec1_good L s c hn hb] at h
  unfold accepted at h
  cases hr : L.rest c s with
  | ok t =>
    rw [hr] at h; simp only at h
    split at h
    · injection h with h1; rw [h1]
    · cases h
  | throws t e =>
    rw [hr] at h; simp only at h
    injection h with _ h2
    cases e <;> simp [code] at h2
  | ub => rw [hr] at h; cases h

/-- A blocking call starts waiting only if its command was accepted; otherwise it reports the error of the non-blocking call. -/
theorem C44_blocking (L : Lib σ) (h0c : ∀ s, L.hasCtx s 0 = false) (h0e : ∀ s, L.hasEv s 0 = false) (s s' : σ) (c e : Call)
    (he : enqueued c = some e) :
    (∀ r, r ≠ 0 → exec L s e = .ret s' r → exec L s c = .ret s' r) ∧
    (exec L s e = .ret s' 0 → exec L s c = L.block c s' ∧ ¬ Bad L s c ∧ L.rest e s = .ok s') := by
  obtain ⟨hn, heq⟩ := exec_blocking L s c e he
  rw [exec_nonblocking L s e hn, heq]
  refine ⟨fun r hr h => ?_, fun h => ?_⟩
  · rw [h]; simp [hr]
  · rw [h]
    refine ⟨by simp, ?_⟩
    have := C44_no_error L h0c h0e s s' e hn (by rw [exec_nonblocking L s e hn]; exact h)
    exact ⟨fun hb => this.1 ((bad_blocking L s c e he).1 hb), this.2⟩

/-- A library whose only state is the number of submitted commands; one context (handle 7). -/
def demo : Lib Nat where
  hasCtx _ c := c == 7
  hasEv _ e := e == 9
  rest _ n := .ok (n + 1)
  block _ n := .ret n 0

/-- A proper mesh argument. -/
def demoMesh : MeshArgs := ⟨true, true, true, 8, 6⟩

/-- The hypotheses are met: a good call, and one that is bad in one argument only. -/
theorem C44_demo : ¬ Bad demo 0 (.enqueueDispatch 7 2#32 demoMesh demoMesh ⟨0, false, true⟩) ∧
    exec demo 0 (.enqueueDispatch 7 2#32 demoMesh demoMesh ⟨0, false, true⟩) = .ret 1 0 ∧
    Bad demo 0 (.enqueueDispatch 7 2#32 demoMesh { demoMesh with numVertices := 2 } ⟨0, false, true⟩) := by
  refine ⟨?_, rfl, ?_⟩
  · simp [Bad, NoCtx, demo, BadFlags, BadMesh, BadWait, BadList, demoMesh, has]
  · simp [Bad, BadMesh]

/-- "pEvent can be NULL" (mcut.h): with a wait list the null pointer is accepted, the command is submitted and its handle stored through the null
pointer. -/
theorem C44_null_event_fails : ∃ (c : Call) (w : Wait), waitOf c = some w ∧ w.event = false ∧ ¬ Bad demo 0 c ∧ exec demo 0 c = .ub :=
  ⟨.enqueueGetComponents 7 1#32 0 false true ⟨1, true, false⟩, _, rfl, rfl,
    by simp [Bad, NoCtx, demo, BadWait, BadList], rfl⟩

/-- Without a wait list a null event pointer, which the documentation allows, is refused. -/
theorem C44_null_event_refused : ∀ (ctx : Nat) (type : Word) (n : Nat) (comps num : Bool),
    exec demo 0 (.enqueueGetComponents ctx type n comps num ⟨0, false, false⟩) = .ret 0 (-4) := by
  intro ctx type n comps num
  exact C44_rejects_partial demo (by simp [demo]) (by simp [demo]) 0 _ (Or.inr (Or.inr (Or.inr (Or.inr ⟨rfl, rfl, rfl⟩))))

/-- The section offset must lie strictly between 0 and 1; the test for it (`offset <= 0 && offset >= 1`) is never true: every offset is accepted. -/
theorem C44_offset_fails (offset : Int) :
    exec demo 0 (.enqueuePlanarSection 7 2#32 demoMesh (some (0, 0, 1)) offset ⟨0, false, true⟩) = .ret 1 0 := by
  refine (C44_accepts demo 0 _ rfl ?_).1 1 rfl ?_
  · simp [Bad, NoCtx, demo, BadFlags, BadMesh, BadWait, BadList, demoMesh, has]
  · rintro w hw
    cases hw; rfl

/-- A null face-size array is documented as invalid, but accepted (all faces are then triangles). -/
theorem C44_face_sizes_fails :
    exec demo 0 (.enqueueDispatch 7 2#32 { demoMesh with sizes := false } { demoMesh with sizes := false } ⟨0, false, true⟩) = .ret 1 0 := by
  refine (C44_accepts demo 0 _ rfl ?_).1 1 rfl ?_
  · simp [Bad, NoCtx, demo, BadFlags, BadMesh, BadWait, BadList, demoMesh, has]
  · rintro w hw
    cases hw; rfl

end Mcut.Params
