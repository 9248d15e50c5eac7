/-! Shared odds and ends of the model (no code of /repo is modelled here). -/
deriving instance DecidableEq for Except

namespace Mcut

/-- Point update of a function (the model of writing one cell of a per-thread array). -/
def upd {α : Type _} (f : Nat → α) (i : Nat) (v : α) : Nat → α := fun j => if j = i then v else f j

@[simp] theorem upd_same {α : Type _} (f : Nat → α) (i : Nat) (v : α) : upd f i v i = v := by simp [upd]
theorem upd_other {α : Type _} (f : Nat → α) (i j : Nat) (v : α) (h : j ≠ i) : upd f i v j = f j := by
  simp [upd, h]

/-- Run a partial step function along a schedule (a list of labels). `none`: some step was not enabled. -/
def runSched {σ ι : Type _} (step : σ → ι → Option σ) : σ → List ι → Option σ
  | s, [] => some s
  | s, i :: is => (step s i).bind (fun s' => runSched step s' is)

/-- `s'` is reachable from `s` by some schedule. -/
def Reach {σ ι : Type _} (step : σ → ι → Option σ) (s s' : σ) : Prop := ∃ sched, runSched step s sched = some s'

theorem runSched_inv {σ ι : Type _} (step : σ → ι → Option σ) (P : σ → Prop)
    (hstep : ∀ s i s', P s → step s i = some s' → P s') :
    ∀ (sched : List ι) (s s' : σ), P s → runSched step s sched = some s' → P s' := by
  intro sched
  induction sched with
  | nil => intro s s' h hr; simp [runSched] at hr; exact hr ▸ h
  | cons i is ih =>
    intro s s' h hr
    simp only [runSched] at hr
    cases hs : step s i with
    | none => simp [hs] at hr
    | some s1 => simp [hs] at hr; exact ih s1 s' (hstep s i s1 h hs) hr

theorem Reach.inv {σ ι : Type _} {step : σ → ι → Option σ} {P : σ → Prop}
    (hstep : ∀ s i s', P s → step s i = some s' → P s') {s s' : σ} (h : P s) (hr : Reach step s s') : P s' := by
  obtain ⟨sched, hr⟩ := hr; exact runSched_inv step P hstep sched s s' h hr

theorem runSched_append {σ ι : Type _} (step : σ → ι → Option σ) (s : σ) (a b : List ι) :
    runSched step s (a ++ b) = (runSched step s a).bind (fun s' => runSched step s' b) := by
  induction a generalizing s with
  | nil => rfl
  | cons i is ih =>
    simp only [List.cons_append, runSched]
    cases step s i with
    | none => rfl
    | some s1 => simp [ih]

end Mcut
