import Verif.Model.Util
/-!
# The spinning barrier `barrier_t` (include/mcut/internal/tpool.h:393-416)

Every access to an atomic is one step. `spaces` and `generation` are natural numbers; the unsigned decrement of
`spaces` wraps explicitly (proved never to happen); `generation` does not wrap (it would need 2^32 rounds, and a thread
never lags more than one round behind, see the invariant).
-/
namespace Mcut.Barrier

inductive PC where
  | out               -- not inside `wait()`
  | read (g : Nat)    -- after `my_generation = generation` (407), before `--spaces` (408)
  | reset             -- was last: before `spaces = count` (409)
  | bump              -- before `++generation` (410)
  | spin (g : Nat)    -- in the `while` loop (412)
deriving DecidableEq, Repr

structure St where
  spaces : Nat
  gen : Nat
  pc : Nat → PC
  entered : Nat → Nat   -- history: number of `wait()` calls begun by thread i
  left : Nat → Nat      -- history: number of `wait()` calls finished by thread i

/-- Constructor — tpool.h:399-404. -/
def init (n : Nat) : St := ⟨n, 0, fun _ => .out, fun _ => 0, fun _ => 0⟩

/-- One atomic step of thread `i` — tpool.h:405-415. `none`: the thread spins (a failed loop test changes nothing). -/
def step (n : Nat) (s : St) (i : Nat) : Option St :=
  if i < n then
    match s.pc i with
    | .out => some { s with pc := upd s.pc i (.read s.gen), entered := upd s.entered i (s.entered i + 1) }
    | .read g =>
      let sp := if s.spaces = 0 then 2 ^ 32 - 1 else s.spaces - 1
      if sp = 0 then some { s with spaces := sp, pc := upd s.pc i .reset }
      else some { s with spaces := sp, pc := upd s.pc i (.spin g) }
    | .reset => some { s with spaces := n, pc := upd s.pc i .bump }
    | .bump => some { s with gen := s.gen + 1, pc := upd s.pc i .out, left := upd s.left i (s.left i + 1) }
    | .spin g =>
      if s.gen = g then none
      else some { s with pc := upd s.pc i .out, left := upd s.left i (s.left i + 1) }
  else none

/-- A step of a thread that is already inside `wait()` (no new call is begun). -/
def insideStep (n : Nat) (s : St) (i : Nat) : Option St := if s.pc i = .out then none else step n s i

end Mcut.Barrier
