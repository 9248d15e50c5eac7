import Verif.Lemmas.C55Client
import Verif.Props.C54

/-! C55: commands whose awaited events are set complete. -/
namespace Mcut.Api

theorem first_pending {s : St} : ∀ (L : List Obs) (c t h : Nat), Obs.submit c t h ∈ L → (s.ev h).ready = false →
    ∃ A c t h B, L = A ++ Obs.submit c t h :: B ∧ (s.ev h).ready = false ∧ ∀ c' t' x, Obs.submit c' t' x ∈ B → (s.ev x).ready = true := by
  intro L
  induction L with
  | nil => intro c t h hm; simp at hm
  | cons o L ih =>
    intro c t h hm hn
    by_cases hex : ∃ c t h, Obs.submit c t h ∈ L ∧ (s.ev h).ready = false
    · obtain ⟨c', t', h', hm', hn'⟩ := hex
      obtain ⟨A, c1, t1, h1, B, e, h2, h3⟩ := ih c' t' h' hm' hn'
      exact ⟨o :: A, c1, t1, h1, B, by rw [e]; rfl, h2, h3⟩
    · rcases List.mem_cons.1 hm with rfl | hm
      · refine ⟨[], c, t, h, L, rfl, hn, fun c' t' x hx => ?_⟩
        by_contra hc
        exact hex ⟨c', t', x, hx, by simpa using hc⟩
      · exact absurd ⟨c, t, h, hm, hn⟩ hex

/-- No deadlock: as long as a submitted command is unfinished, and the user events that unfinished commands wait for are set, some manager thread is
not blocked. For every reachable state without undefined behaviour, so in particular for clients that follow the rules (C54). -/
theorem C55_no_deadlock {s : St} (hr : Reachable s) (hub : s.ub = false) {h : Nat} (hs : Submitted s h) (hn : ¬ Returns s h)
    (hU : ∀ x, Submitted s x → ¬ Returns s x → ∀ w ∈ s.waits x, (s.ev w).user = true → Returns s w) : ∃ c t, CanMove s c t := by
  obtain ⟨c, t, hm⟩ := hs
  obtain ⟨A, c1, t1, h1, B, e, h2, h3⟩ := first_pending (s := s) s.log c t h hm (by simpa [Returns] using hn)
  exact ⟨c1, t1, (focus_move hr hub e h2 h3 (hU h1 ⟨c1, t1, by rw [e]; simp⟩ (by simp [Returns, h2]))).2⟩

/-- The same for clients that follow the rules. -/
theorem C55_no_deadlock_disciplined {s : St} (hr : DReach s) {h : Nat} (hs : Submitted s h) (hn : ¬ Returns s h)
    (hU : ∀ x, Submitted s x → ¬ Returns s x → ∀ w ∈ s.waits x, (s.ev w).user = true → Returns s w) : ∃ c t, CanMove s c t :=
  C55_no_deadlock hr.reachable (C54_disciplined_clients_are_safe s hr) hs hn hU

namespace Exec
variable (e : Exec)

theorem dreach (n : Nat) : DReach (e.st n) := by
  induction n with
  | zero => rw [e.start]; exact .init
  | succ n ih =>
    have := e.next n
    split at this
    · rw [this]; exact ih
    · exact .step ih this.1 this.2

theorem reach (n : Nat) : Reachable (e.st n) := (e.dreach n).reachable

theorem ub (n : Nat) : (e.st n).ub = false := C54_disciplined_clients_are_safe _ (e.dreach n)

theorem oneStep (n : Nat) : e.st (n + 1) = e.st n ∨ Step (e.st n) (e.st (n + 1)) := by
  have := e.next n
  split at this
  · exact Or.inl this
  · exact Or.inr (step_of (all_of (e.reach n)) this.2)

theorem mono {P : St → Prop} (hp : ∀ s s', Step s s' → P s → P s') {n m : Nat} (h : n ≤ m) (hn : P (e.st n)) : P (e.st m) := by
  induction m with
  | zero => have : n = 0 := by omega
            subst this; exact hn
  | succ m ih =>
    by_cases hm : n = m + 1
    · subst hm; exact hn
    · rcases e.oneStep m with h1 | h1
      · rw [h1]; exact ih (by omega)
      · exact hp _ _ h1 (ih (by omega))

theorem ready_mono {n m h : Nat} (hm : n ≤ m) (hr : ((e.st n).ev h).ready = true) : ((e.st m).ev h).ready = true :=
  e.mono (P := fun s => (s.ev h).ready = true) (fun _ _ st hr => ready_step st hr) hm hr

theorem log_mono {n m : Nat} (hm : n ≤ m) : ∃ x, (e.st m).log = x ++ (e.st n).log := by
  refine e.mono (P := fun s => ∃ x, s.log = x ++ (e.st n).log) ?_ hm ⟨[], rfl⟩
  rintro s s' st ⟨x, hx⟩
  rcases step_log st with h | ⟨o, h⟩
  · exact ⟨x, by rw [h, hx]⟩
  · exact ⟨o :: x, by rw [h, hx]; rfl⟩

theorem waits_mono {n m h : Nat} (hm : n ≤ m) (hb : (e.st n).loc h ≠ .unborn) : (e.st m).waits h = (e.st n).waits h := by
  refine (e.mono (P := fun s => s.loc h ≠ .unborn ∧ s.waits h = (e.st n).waits h) ?_ hm ⟨hb, rfl⟩).2
  rintro s s' st ⟨h1, h2⟩
  refine ⟨?_, by rw [step_waits st h h1, h2]⟩
  rcases st.ln h with l | l
  · rw [l]; exact h1
  · exact l.ne_unborn

end Exec

theorem eventually_all {α : Type} {P : α → Nat → Prop} (hm : ∀ x n m, n ≤ m → P x n → P x m) : ∀ l : List α, (∀ x ∈ l, ∃ n, P x n) →
    ∃ n, ∀ x ∈ l, P x n
  | [], _ => ⟨0, by simp⟩
  | a :: l, h => by
    obtain ⟨n1, h1⟩ := h a (by simp)
    obtain ⟨n2, h2⟩ := eventually_all hm l (fun x hx => h x (List.mem_cons_of_mem _ hx))
    refine ⟨max n1 n2, fun x hx => ?_⟩
    rcases List.mem_cons.1 hx with rfl | hx
    · exact hm _ _ _ (Nat.le_max_left _ _) h1
    · exact hm _ _ _ (Nat.le_max_right _ _) (h2 x hx)

/-- Completion: in every fair execution of a client that follows the rules and sets the user events that are waited for, every submitted command is
finished at some time, in in-order and out-of-order contexts, with arbitrary wait lists. -/
theorem C55_completion (e : Exec) (hf : Fair e) (hU : UserEventsSet e) {n h : Nat} (hs : Submitted (e.st n) h) : ∃ m, n ≤ m ∧ Returns (e.st m) h := by
  have main : ∀ k n A c t h B, (e.st n).log = A ++ Obs.submit c t h :: B → B.length ≤ k → ∃ m, ((e.st m).ev h).ready = true := by
    intro k
    induction k using Nat.strongRecOn with
    | _ k ih =>
      intro n A c t h B hl hk
      by_contra hnever
      push Not at hnever
      have hnever : ∀ m, ((e.st m).ev h).ready = false := fun m => by simpa using hnever m
      have hsub : Obs.submit c t h ∈ (e.st n).log := by rw [hl]; simp
      have hb : (e.st n).loc h ≠ .unborn := by
        have := mem_obs (all_of (e.reach n)).i hsub
        intro h0
        simp [Obs.subj, h0, obsOf] at this
      -- the commands submitted before are finished at some time
      have hB : ∀ o ∈ B, ∃ m, ∀ c' t' x, o = Obs.submit c' t' x → ((e.st m).ev x).ready = true := by
        intro o ho
        cases o with
        | submit c' t' x =>
          obtain ⟨B1, B2, rfl⟩ := List.append_of_mem ho
          have hlt : B2.length < k := by simp at hk; omega
          obtain ⟨m, hm⟩ := ih B2.length hlt n (A ++ Obs.submit c t h :: B1) c' t' x B2 (by rw [hl]; simp) (Nat.le_refl _)
          exact ⟨m, fun _ _ _ he => by cases he; exact hm⟩
        | _ => exact ⟨0, fun _ _ _ he => by cases he⟩
      obtain ⟨N1, hN1⟩ := eventually_all (P := fun o m => ∀ c' t' x, o = Obs.submit c' t' x → ((e.st m).ev x).ready = true)
        (fun o a b hab h c' t' x he => e.ready_mono hab (h c' t' x he)) B hB
      -- the user events are set at some time
      have hW : ∀ w ∈ (e.st n).waits h, ∃ m, ((e.st m).ev w).ready = true ∨ ∀ j, n ≤ j → ((e.st j).ev w).user = false := by
        intro w hw
        by_cases hu : ∃ j, n ≤ j ∧ ((e.st j).ev w).user = true
        · obtain ⟨j, hj, hju⟩ := hu
          obtain ⟨m, hm⟩ := hU j h w (by rw [e.waits_mono hj hb]; exact hw) hju
          exact ⟨m, Or.inl hm⟩
        · push Not at hu
          exact ⟨0, Or.inr (fun j hj => by simpa using hu j hj)⟩
      obtain ⟨N2, hN2⟩ := eventually_all (P := fun w m => ((e.st m).ev w).ready = true ∨ ∀ j, n ≤ j → ((e.st j).ev w).user = false)
        (fun w a b hab h => h.imp (e.ready_mono hab) id) _ hW
      -- from then on the manager is never blocked
      have hN : ∀ m, max n (max N1 N2) ≤ m → Focus (e.st m) c t h ∧ CanMove (e.st m) c t := by
        intro m hm
        have hm0 : n ≤ m := Nat.le_trans (Nat.le_max_left _ _) hm
        have hm1 : N1 ≤ m := Nat.le_trans (Nat.le_trans (Nat.le_max_left _ _) (Nat.le_max_right _ _)) hm
        have hm2 : N2 ≤ m := Nat.le_trans (Nat.le_trans (Nat.le_max_right _ _) (Nat.le_max_right _ _)) hm
        obtain ⟨x, hx⟩ := e.log_mono hm0
        refine focus_move (e.reach m) (e.ub m) (A := x ++ A) (B := B) (by rw [hx, hl]; simp) (hnever m) ?_ ?_
        · intro c' t' y hy
          exact e.ready_mono hm1 (hN1 _ hy c' t' y rfl)
        · intro w hw hwu
          rw [e.waits_mono hm0 hb] at hw
          rcases hN2 w hw with h1 | h1
          · exact e.ready_mono hm2 h1
          · rw [h1 m hm0] at hwu; simp at hwu
      have hwl : ∀ m, n ≤ m → (e.st m).waits h = (e.st n).waits h := fun m hm => e.waits_mono hm hb
      -- every step of the manager brings the command nearer to its end
      have hle : ∀ m, max n (max N1 N2) ≤ m → rk ((e.st n).waits h).length ((e.st (m + 1)).mgr c t) ≤ rk ((e.st n).waits h).length ((e.st m).mgr c t) ∧
          ((∃ a, e.act m = some a ∧ ManagerAct c t a) →
            rk ((e.st n).waits h).length ((e.st (m + 1)).mgr c t) < rk ((e.st n).waits h).length ((e.st m).mgr c t)) := by
        intro m hm
        have hnx := e.next m
        cases ha : e.act m with
        | none => rw [ha] at hnx; simp only at hnx; rw [hnx]; exact ⟨Nat.le_refl _, by simp⟩
        | some a =>
          rw [ha] at hnx; simp only at hnx
          by_cases hma : ManagerAct c t a
          · have := rk_own hnx.2 hma (hN m hm).1 (e.ub (m + 1)) (hnever (m + 1))
            rw [hwl m (Nat.le_trans (Nat.le_max_left _ _) hm)] at this
            exact ⟨Nat.le_of_lt this, fun _ => this⟩
          · rw [mgr_other hnx.2 hma]
            exact ⟨Nat.le_refl _, fun ⟨a', h1, h2⟩ => absurd (by cases h1; exact h2) hma⟩
      have hle' : ∀ m m', max n (max N1 N2) ≤ m → m ≤ m' →
          rk ((e.st n).waits h).length ((e.st m').mgr c t) ≤ rk ((e.st n).waits h).length ((e.st m).mgr c t) := by
        intro m m' hm hmm
        induction m' with
        | zero => have : m = 0 := by omega
                  subst this; exact Nat.le_refl _
        | succ m' ihm =>
          by_cases he : m = m' + 1
          · subst he; exact Nat.le_refl _
          · exact Nat.le_trans (hle m' (by omega)).1 (ihm (by omega))
      have hdone : ∀ j m, max n (max N1 N2) ≤ m → rk ((e.st n).waits h).length ((e.st m).mgr c t) ≤ j → False := by
        intro j
        induction j with
        | zero =>
          intro m hm hj
          obtain ⟨m', a, h1, h2, h3⟩ := hf c t m (fun m' hm' => (hN m' (Nat.le_trans hm hm')).2)
          have h4 := (hle m' (Nat.le_trans hm h1)).2 ⟨a, h2, h3⟩
          have h5 := hle' m m' hm h1
          omega
        | succ j ihj =>
          intro m hm hj
          obtain ⟨m', a, h1, h2, h3⟩ := hf c t m (fun m' hm' => (hN m' (Nat.le_trans hm hm')).2)
          have h4 := (hle m' (Nat.le_trans hm h1)).2 ⟨a, h2, h3⟩
          have h5 := hle' m m' hm h1
          exact ihj (m' + 1) (by omega) (by omega)
      exact hdone _ _ (Nat.le_refl _) (Nat.le_refl _)
  obtain ⟨c, t, hm⟩ := hs
  obtain ⟨A, B, hl⟩ := List.append_of_mem hm
  obtain ⟨m, hr⟩ := main _ n A c t h B hl (Nat.le_refl _)
  exact ⟨max n m, Nat.le_max_left _ _, e.ready_mono (Nat.le_max_right _ _) hr⟩

/-- Every call returns: in such an execution a client thread that keeps taking steps leaves every call it is in, blocking ones included, provided the
events named in a call of mcWaitForEvents are events of submitted commands or are set at some time. -/
theorem C55_calls_return (e : Exec) (hf : Fair e) (hU : UserEventsSet e) {i n : Nat} (hc : ClientFair e i)
    (hw : ∀ w ∈ awaited ((e.st n).cl i), Submitted (e.st n) w ∨ ∃ m, Returns (e.st m) w) : ∃ m, n ≤ m ∧ ¬ InCall (e.st m) i := by
  by_contra hnever
  push Not at hnever
  have submono : ∀ {a b w}, a ≤ b → Submitted (e.st a) w → Submitted (e.st b) w := by
    rintro a b w hab ⟨c, t, hm⟩
    obtain ⟨x, hx⟩ := e.log_mono hab
    exact ⟨c, t, by rw [hx]; exact List.mem_append_right _ hm⟩
  -- what it waits for shrinks, and so does the number of steps left
  have hstep : ∀ m, n ≤ m → (∀ w ∈ awaited ((e.st (m + 1)).cl i), w ∈ awaited ((e.st m).cl i)) ∧ crk ((e.st (m + 1)).cl i) ≤ crk ((e.st m).cl i) ∧
      ((∃ a, e.act m = some a ∧ clientOf a = some i) → crk ((e.st (m + 1)).cl i) < crk ((e.st m).cl i)) := by
    intro m hm
    have hnx := e.next m
    cases ha : e.act m with
    | none => rw [ha] at hnx; simp only at hnx; rw [hnx]; exact ⟨fun _ h => h, Nat.le_refl _, by simp⟩
    | some a =>
      rw [ha] at hnx; simp only at hnx
      by_cases hma : clientOf a = some i
      · obtain ⟨h1, h2, -⟩ := crk_own hnx.2 hma (hnever m hm) (e.ub (m + 1))
        exact ⟨h2, Nat.le_of_lt h1, fun _ => h1⟩
      · rw [cl_other hnx.2 hma]
        exact ⟨fun _ h => h, Nat.le_refl _, fun ⟨a', h1, h2⟩ => absurd (by cases h1; exact h2) hma⟩
  have haw : ∀ m, n ≤ m → ∀ w ∈ awaited ((e.st m).cl i), w ∈ awaited ((e.st n).cl i) := by
    intro m
    induction m with
    | zero => intro hm w hx; have : n = 0 := by omega
              subst this; exact hx
    | succ m ih =>
      intro hm w hx
      by_cases he : n = m + 1
      · subst he; exact hx
      · exact ih (by omega) w ((hstep m (by omega)).1 w hx)
  have hmono : ∀ a b, n ≤ a → a ≤ b → crk ((e.st b).cl i) ≤ crk ((e.st a).cl i) := by
    intro a b ha
    induction b with
    | zero => intro hab; have : a = 0 := by omega
              subst this; exact Nat.le_refl _
    | succ b ih =>
      intro hab
      by_cases he : a = b + 1
      · subst he; exact Nat.le_refl _
      · exact Nat.le_trans (hstep b (by omega)).2.1 (ih (by omega))
  -- the awaited events are all set at some time
  obtain ⟨N, hN⟩ := eventually_all (P := fun w m => ((e.st m).ev w).ready = true) (fun w a b hab h => e.ready_mono hab h) (awaited ((e.st n).cl i))
    (fun w hwm => by
      rcases hw w hwm with h | h
      · obtain ⟨m, -, hm⟩ := C55_completion e hf hU h
        exact ⟨m, hm⟩
      · exact h)
  -- if it never moved again, it would be able to
  have hmove : ∀ k, n ≤ k → ∃ m a, k ≤ m ∧ e.act m = some a ∧ clientOf a = some i := by
    intro k hk
    by_contra hno
    push Not at hno
    have hstay : ∀ m, k ≤ m → (e.st m).cl i = (e.st k).cl i := by
      intro m
      induction m with
      | zero => intro hm; have : k = 0 := by omega
                subst this; rfl
      | succ m ih =>
        intro hm
        by_cases he : k = m + 1
        · subst he; rfl
        · rw [← ih (by omega)]
          have hnx := e.next m
          cases ha : e.act m with
          | none => rw [ha] at hnx; simp only at hnx; rw [hnx]
          | some a => rw [ha] at hnx; simp only at hnx; exact cl_other hnx.2 (hno m a (by omega) ha)
    have hbl : ∃ M, ∀ c h, (e.st k).cl i = .bblock c h → ((e.st M).ev h).ready = true := by
      by_cases hb : ∃ c h, (e.st k).cl i = .bblock c h
      · obtain ⟨c, h, hb⟩ := hb
        obtain ⟨M, -, hM⟩ := C55_completion e hf hU (blocking_submitted (e.reach k) (e.ub k) (Or.inr hb))
        exact ⟨M, fun c' h' he => by rw [hb] at he; cases he; exact hM⟩
      · exact ⟨0, fun c h he => absurd ⟨c, h, he⟩ hb⟩
    obtain ⟨M, hM⟩ := hbl
    obtain ⟨m, a, h1, h2, h3⟩ := hc (max k (max N M)) (fun m hm => by
      have hkm : k ≤ m := by omega
      refine ⟨hnever m (by omega), client_move (e.ub m) (hnever m (by omega)) ?_ ?_⟩
      · intro w hwm
        exact e.ready_mono (n := N) (by omega) (hN w (haw m (by omega) w hwm))
      · intro c h hb
        rw [hstay m hkm] at hb
        exact e.ready_mono (n := M) (by omega) (hM c h hb))
    exact hno m a (by omega) h2 h3
  have hdone : ∀ j m, n ≤ m → crk ((e.st m).cl i) ≤ j → False := by
    intro j
    induction j with
    | zero =>
      intro m hm hj
      obtain ⟨m', a, h1, h2, h3⟩ := hmove m hm
      have h4 := (hstep m' (by omega)).2.2 ⟨a, h2, h3⟩
      have h5 := hmono m m' hm h1
      omega
    | succ j ihj =>
      intro m hm hj
      obtain ⟨m', a, h1, h2, h3⟩ := hmove m hm
      have h4 := (hstep m' (by omega)).2.2 ⟨a, h2, h3⟩
      have h5 := hmono m m' hm h1
      exact ihj (m' + 1) (by omega) (by omega)
  exact hdone _ _ (Nat.le_refl _) (Nat.le_refl _)

/-- Every state that a client following the rules can reach lies on an execution (that stops there). -/
theorem exec_of {s : St} (h : DReach s) : ∃ (e : Exec) (n : Nat), ∀ m, n ≤ m → e.st m = s ∧ e.act m = none := by
  induction h with
  | init => exact ⟨⟨fun _ => init, fun _ => none, rfl, fun _ => rfl⟩, 0, fun m _ => ⟨rfl, rfl⟩⟩
  | @step s s' a h hd hs ih =>
    obtain ⟨e, n, he⟩ := ih
    refine ⟨⟨fun m => if m ≤ n then e.st m else s', fun m => if m < n then e.act m else if m = n then some a else none, by simp [e.start], ?_⟩, n + 1, ?_⟩
    · intro m
      by_cases h1 : m < n
      · have := e.next m
        simp only [h1, if_true, show m ≤ n by omega, show m + 1 ≤ n by omega]
        exact this
      · by_cases h2 : m = n
        · subst h2
          simp only [h1, if_false, if_true, Nat.le_refl, (he m (Nat.le_refl _)).1, show ¬ m + 1 ≤ m by omega]
          exact ⟨hd, hs⟩
        · simp [h1, h2, show ¬ m ≤ n by omega, show ¬ m + 1 ≤ n by omega]
    · intro m hm
      simp [show ¬ m ≤ n by omega, show ¬ m < n by omega, show m ≠ n by omega]

/-- Non-vacuity: an out-of-order context (two queues), a command that waits for a user event, a second one that waits for both, a blocking call; the
user event is set. The execution is fair and everything has finished at its end. -/
example : ∃ (e : Exec) (n : Nat), Fair e ∧ UserEventsSet e ∧ (∃ h1 h2 h3, h1 ≠ h2 ∧ h2 ≠ h3 ∧ h1 ≠ h3 ∧ Submitted (e.st n) h1 ∧ Submitted (e.st n) h2 ∧
    Submitted (e.st n) h3) ∧ ∃ h w, w ∈ (e.st n).waits h ∧ ((e.st n).ev w).user = true := by
  have log : ∀ {l : List Act} {s : St} {x : List Obs}, runSched step init l = some s → (runSched step init l).map St.log = some x → s.log = x := by
    intro l s x h h'; rw [h] at h'; simpa using h'
  have fld : ∀ {α : Type} (f : St → α) {l : List Act} {s : St} {x : α}, runSched step init l = some s → (runSched step init l).map f = some x → f s = x := by
    intro α f l s x h h'; rw [h] at h'; simpa using h'
  have h0 : ∃ s, DReach s ∧ runSched step init [] = some s := ⟨init, .init, rfl⟩
  have h1 := dseg [.createCtx 0 true, .createUser 0 0xDECAF] h0 (by intro a ha t; simp at ha; rcases ha with rfl | rfl <;> trivial) (by decide +kernel)
  have h2 := dact (.enqueue 0 0xDECAF [0xDECB0] false) h1 (by
    intro s e w _ c' t h; rw [log (x := []) e rfl] at h; simp at h) (by decide +kernel)
  have h3 := dseg [.enqueue2 0 (fun _ => true)] h2 (by intro a ha t; simp at ha; subst ha; trivial) (by decide +kernel)
  have h4 := dact (.enqueue 0 0xDECAF [0xDECB1, 0xDECB0] false) h3 (by
    intro s e w _ c' t h; rw [log (x := [.submit 0xDECAF 1 0xDECB1]) e (by decide +kernel)] at h; simp at h; exact h.1) (by decide +kernel)
  have h5 := dseg [.enqueue2 0 (fun _ => true)] h4 (by intro a ha t; simp at ha; subst ha; trivial) (by decide +kernel)
  have h5a := dact (.enqueue 1 0xDECAF [] true) h5 (by intro s e w hw; simp at hw) (by decide +kernel)
  have h5b := dseg [.enqueue2 1 (fun q => q == 0)] h5a (by intro a ha t; simp at ha; subst ha; trivial) (by decide +kernel)
  have h6 := dact (.signal 0 0xDECB0 4) h5b (by
    intro s e
    have := fld (fun s => decide ((0, Call.createUserEvent 0xDECAF 0xDECB0, NO_ERROR) ∈ s.rets)) (x := true) e (by decide +kernel)
    exact ⟨0, 0xDECAF, by simpa using this⟩) (by decide +kernel)
  have h7 := dseg (List.replicate 6 (.signal2 0) ++ [.pop 0xDECAF 1] ++ List.replicate 3 (.dep 0xDECAF 1) ++ List.replicate 6 (.run 0xDECAF 1 0)
    ++ [.pop 0xDECAF 1] ++ List.replicate 5 (.dep 0xDECAF 1) ++ List.replicate 6 (.run 0xDECAF 1 0)
    ++ [.pop 0xDECAF 0] ++ List.replicate 1 (.dep 0xDECAF 0) ++ List.replicate 6 (.run 0xDECAF 0 0) ++ List.replicate 3 (.blocking 1)) h6
    (by intro a ha t; simp [List.mem_replicate] at ha; rcases ha with rfl | rfl | rfl | rfl | rfl | rfl | rfl | rfl | rfl | rfl | rfl <;> trivial) (by decide +kernel)
  obtain ⟨s, hd, es⟩ := h7
  obtain ⟨e, n, he⟩ := exec_of hd
  have hlog := log (x := [.stop 0xDECAF 0 0xDECB3 0, .start 0xDECAF 0 0xDECB3, .stop 0xDECAF 1 0xDECB2 0, .start 0xDECAF 1 0xDECB2, .stop 0xDECAF 1 0xDECB1 0,
    .start 0xDECAF 1 0xDECB1, .submit 0xDECAF 0 0xDECB3, .submit 0xDECAF 1 0xDECB2, .submit 0xDECAF 1 0xDECB1]) es (by decide +kernel)
  have hnq := fld St.nq (x := upd (fun _ => 0) 0xDECAF 2) es (by rfl)
  have hq := fld (fun s => (s.mgr 0xDECAF 0, s.mgr 0xDECAF 1, s.queue 0xDECAF 0, s.queue 0xDECAF 1, s.done 0xDECAF))
    (x := (.idle, .idle, [], [], false)) es (by decide +kernel)
  have hv := fld (fun s => (s.issued, [(s.ev 0xDECB1).user, (s.ev 0xDECB2).user, (s.ev 0xDECB3).user, (s.ev 0xDECB0).user, (s.ev 0xDECB0).ready,
    (s.ev 0xDECAF).user], s.waits 0xDECB1))
    (x := ([0xDECB3, 0xDECB2, 0xDECB1, 0xDECB0, 0xDECAF], [false, false, false, true, true, false], [0xDECB0])) es (by decide +kernel)
  simp only [Prod.mk.injEq, List.cons.injEq, and_true] at hq hv
  obtain ⟨m0, m1, q0, q1, hdn⟩ := hq
  obtain ⟨hiss, ⟨u1, u2, u3, u0, r0, u4⟩, w1⟩ := hv
  have hst := he n (Nat.le_refl _)
  have hblk : ∀ c t, ¬ CanMove s c t := by
    rintro c t ⟨a, s', ha, hs⟩
    by_cases hc : c = 0xDECAF
    · subst hc
      have ht : t = 0 ∨ t = 1 ∨ ¬ t < s.nq 0xDECAF := by
        rw [hnq, upd_same]; omega
      rcases ha with rfl | rfl | ⟨r, rfl⟩ <;> rcases ht with rfl | rfl | ht <;>
        simp_all [step, popStep, depStep, runStep]
    · have ht : ¬ t < s.nq c := by rw [hnq, upd_other _ _ _ _ hc]; omega
      rcases ha with rfl | rfl | ⟨r, rfl⟩ <;> simp [step, ht] at hs
  refine ⟨e, n, ?_, ?_, ⟨0xDECB1, 0xDECB2, 0xDECB3, by decide, by decide, by decide, ?_, ?_, ?_⟩, 0xDECB1, 0xDECB0, ?_, ?_⟩
  · intro c t k hk
    exact absurd (by rw [← (he (max n k) (by omega)).1]; exact hk (max n k) (by omega)) (hblk c t)
  · intro k h w hw hu
    have hu2 : (s.ev w).user = true := by
      rw [← (he (max n k) (by omega)).1]
      refine e.mono (P := fun s => (s.ev w).user = true) ?_ (show k ≤ max n k by omega) hu
      intro s s' st h
      rw [user_loc st.all.i] at h
      rw [user_loc st.all'.i]
      rcases st.ln w with l | l
      · rw [l]; exact h
      · exact isUser_next l h
    have hw : w ∈ s.issued := (all_of hd.reachable).i2.born w (by
      intro h; rw [user_loc (all_of hd.reachable).i, h] at hu2; simp [isUser] at hu2)
    rw [hiss] at hw
    refine ⟨n, ?_⟩
    rw [hst.1]
    simp at hw
    rcases hw with rfl | rfl | rfl | rfl | rfl
    · rw [u3] at hu2; simp at hu2
    · rw [u2] at hu2; simp at hu2
    · rw [u1] at hu2; simp at hu2
    · exact r0
    · rw [u4] at hu2; simp at hu2
  · exact ⟨0xDECAF, 1, by rw [hst.1, hlog]; simp⟩
  · exact ⟨0xDECAF, 1, by rw [hst.1, hlog]; simp⟩
  · exact ⟨0xDECAF, 0, by rw [hst.1, hlog]; simp⟩
  · rw [hst.1, w1]; simp
  · rw [hst.1]; exact u0

end Mcut.Api
