import Verif.Model.Util

/-!
# Release calls (source/frontend.cpp:3712-3776, source/mcut.cpp:816-906)

One release call as the calling thread executes it; that each table operation is atomic with respect to other threads is C16, that handles are
unique (so that the first match is the only one) is C01. The tables are lists of handles; a context's components are found through
its handle.
-/
namespace Mcut.Release

/-- Exceptions that the library throws — include/mcut/internal/frontend.h:62-68. -/
inductive Exc | invalidArgument | runtimeError | logicError | other
deriving DecidableEq, Repr

/-- Return codes — include/mcut/mcut.h:202-208. -/
abbrev NO_ERROR : Int := 0
abbrev INVALID_OPERATION : Int := -2
abbrev INVALID_VALUE : Int := -4
abbrev MAX_ENUM : Int := -1

/-- `CATCH_POSSIBLE_EXCEPTIONS` — frontend.h:69-89. -/
def code : Exc → Int
  | .invalidArgument => INVALID_VALUE
  | .runtimeError => INVALID_OPERATION
  | .logicError => MAX_ENUM
  | .other => MAX_ENUM

/-- The body of an API call: it returns, throws (with the state it leaves) or has undefined behaviour. -/
inductive Body (σ : Type) where
  | ok (s : σ)
  | throws (s : σ) (e : Exc)
  | ub

/-- What the caller sees. -/
inductive Reply (σ : Type) where
  | ret (s : σ) (r : Int)
  | ub

/-- Shape of every function of mcut.cpp (for example 847-879): parameter checks in order (`true`: the check fails), the body inside
`try`, and a non-empty log string turns NO_ERROR into INVALID_VALUE. Every failing check and every exception sets a non-empty string. -/
def api {σ : Type} (s : σ) (checks : List Bool) (body : σ → Body σ) : Reply σ :=
  if checks.any id then .ret s INVALID_VALUE
  else
    match body s with
    | .ok s' => .ret s' NO_ERROR
    | .throws s' e => .ret s' (code e)
    | .ub => .ub

/-- The object tables: contexts, events, components of each context. -/
structure Tables where
  ctxs : List Nat
  evs : List Nat
  ccs : Nat → List Nat

/-- `release_event_impl` — frontend.cpp:3712-3724. -/
def releaseEvent (t : Tables) (h : Nat) : Body Tables :=
  if h ∈ t.evs then .ok { t with evs := t.evs.filter (fun x => x ≠ h) } else .throws t .invalidArgument

/-- Loop of `release_events_impl` — frontend.cpp:3726-3732: `p` is the client's array, `i` the loop variable, `r` the number of rounds left. -/
def releaseEventsLoop (p : Nat → Nat) (t : Tables) (i : Nat) : Nat → Body Tables
  | 0 => .ok t
  | r + 1 =>
    match releaseEvent t (p i) with
    | .ok t' => releaseEventsLoop p t' (i + 1) r
    | b => b

/-- `mcReleaseEvents` — mcut.cpp:816-845. A null pointer is `none`; reading it is undefined behaviour. -/
def mcReleaseEvents (t : Tables) (n : Nat) (p : Option (Nat → Nat)) : Reply Tables :=
  api t [decide (n > 0) && p.isNone, decide (n = 0) && p.isSome] (fun t =>
    match p with
    | some p => releaseEventsLoop p t 0 n
    | none => if n = 0 then .ok t else .ub)

/-- Body of the component loop — frontend.cpp:3748-3760. -/
def releaseComponent (t : Tables) (c h : Nat) : Body Tables :=
  if h ∈ t.ccs c then .ok { t with ccs := upd t.ccs c ((t.ccs c).filter (fun x => x ≠ h)) } else .throws t .invalidArgument

/-- The component loop — frontend.cpp:3748-3761. -/
def releaseComponentsLoop (c : Nat) (p : Nat → Nat) (t : Tables) (i : Nat) : Nat → Body Tables
  | 0 => .ok t
  | r + 1 =>
    match releaseComponent t c (p i) with
    | .ok t' => releaseComponentsLoop c p t' (i + 1) r
    | b => b

/-- `(int)n` as a number of loop rounds: values from 2^31 on are negative. -/
def rounds (n : Nat) : Nat := if n < 2 ^ 31 then n else 0

/-- `release_connected_components_impl` — frontend.cpp:3734-3763. -/
def releaseComponentsImpl (t : Tables) (c n : Nat) (p : Option (Nat → Nat)) : Body Tables :=
  if c ∈ t.ctxs then
    match p with
    | none => if n = 0 then .ok { t with ccs := upd t.ccs c [] } else if rounds n = 0 then .ok t else .ub
    | some p => releaseComponentsLoop c p t 0 (rounds n)
  else .throws t .invalidArgument

/-- `mcReleaseConnectedComponents` — mcut.cpp:847-879. Handle 0 is the null handle. -/
def mcReleaseConnectedComponents (t : Tables) (c n : Nat) (p : Option (Nat → Nat)) : Reply Tables :=
  api t [decide (c = 0), decide (n > 0) && p.isNone, decide (n = 0) && p.isSome] (fun t => releaseComponentsImpl t c n p)

/-- `mcReleaseContext` — mcut.cpp:881-906, frontend.cpp:3765-3776. The destructor of the context (joining its threads, see C54) also destroys its
components. -/
def mcReleaseContext (t : Tables) (c : Nat) : Reply Tables :=
  api t [decide (c = 0)] (fun t =>
    if c ∈ t.ctxs then .ok { t with ctxs := t.ctxs.filter (fun x => x ≠ c), ccs := upd t.ccs c [] } else .throws t .invalidArgument)

end Mcut.Release
