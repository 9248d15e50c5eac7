import Verif.Model.Util
/-!
# `threadsafe_list` (include/mcut/internal/tpool.h:873-969)

A singly linked list with a dummy head and one mutex per node, traversed hand over hand. Nodes carry a unique
identity (their address; never reused in the model). The list is kept in link order. Node 0 is the dummy head. One
`advance` step is: lock `next`, (test it,) unlock `current` or unlink `next`, move on — merged into one step because it
only touches the two nodes whose mutexes the thread then holds.
-/
namespace Mcut.OList

inductive Op (α : Type) where
  | find (p : α → Bool)       -- find_first_if (928-945)
  | forEach                   -- for_each (913-926)
  | remove (p : α → Bool)     -- remove_if (947-968)

structure Node (α : Type) where
  id : Nat
  val : α

/-- A call in progress: `cur` is the node whose mutex is held. `snap` (history) is the list when the call took the
head's mutex, `visited` (history) are the nodes passed so far, oldest first. -/
structure Call (α : Type) where
  op : Op α
  cur : Nat
  snap : List (Node α)
  visited : List (Node α)

/-- A finished call. -/
structure Res (α : Type) where
  op : Op α
  snap : List (Node α)
  visited : List (Node α)
  found : Option (Node α)
  final : List (Node α)       -- history: the list when the call finished

structure St (α : Type) where
  nodes : List (Node α)
  fresh : Nat
  lock : Nat → Option Nat     -- owner of the mutex of a node
  call : Nat → Option (Call α)
  results : List (Res α)
  added : List (Node α)       -- history: every node ever pushed

def init {α : Type} : St α := ⟨[], 1, fun _ => none, fun _ => none, [], []⟩

/-- The nodes after `cur` in link order. -/
def after {α : Type} (nodes : List (Node α)) (cur : Nat) : List (Node α) :=
  if cur = 0 then nodes else (nodes.dropWhile (fun x => x.id != cur)).tail

inductive Act (α : Type) where
  | push (v : α)
  | start (t : Nat) (op : Op α)
  | advance (t : Nat)

def step {α : Type} (s : St α) : Act α → Option (St α)
  | .push v =>                                     -- push_front, 905-911
    if s.lock 0 = none then
      some { s with
        nodes := ⟨s.fresh, v⟩ :: s.nodes, fresh := s.fresh + 1, added := s.added ++ [⟨s.fresh, v⟩] }
    else none
  | .start t op =>                                 -- 916-917, 931-932, 950-951
    if s.call t = none ∧ s.lock 0 = none then
      some { s with lock := upd s.lock 0 (some t), call := upd s.call t (some ⟨op, 0, s.nodes, []⟩) }
    else none
  | .advance t =>
    match s.call t with
    | none => none
    | some c =>
      match after s.nodes c.cur with
      | [] =>                                      -- loop ends; 944 / fall through; unlock
        some { s with
          lock := upd s.lock c.cur none, call := upd s.call t none
          results := s.results ++ [⟨c.op, c.snap, c.visited, none, s.nodes⟩] }
      | nx :: _ =>
        if s.lock nx.id ≠ none then none           -- blocked on next->m
        else match c.op with
        | .find p =>
          if p nx.val then                         -- 937-940
            some { s with
              lock := upd s.lock c.cur none, call := upd s.call t none
              results := s.results ++ [⟨c.op, c.snap, c.visited, some nx, s.nodes⟩] }
          else                                     -- 941-942
            some { s with
              lock := upd (upd s.lock c.cur none) nx.id (some t)
              call := upd s.call t (some { c with cur := nx.id, visited := c.visited ++ [nx] }) }
        | .forEach =>                              -- 920-924
          some { s with
              lock := upd (upd s.lock c.cur none) nx.id (some t)
              call := upd s.call t (some { c with cur := nx.id, visited := c.visited ++ [nx] }) }
        | .remove p =>
          if p nx.val then                         -- 957-959
            some { s with nodes := s.nodes.filter (fun x => x.id != nx.id) }
          else                                     -- 963-965
            some { s with
              lock := upd (upd s.lock c.cur none) nx.id (some t)
              call := upd s.call t (some { c with cur := nx.id, visited := c.visited ++ [nx] }) }

/-- The list operations without concurrency, as loops over the links. -/
def seqFind {α : Type} (p : α → Bool) : List α → Option α       -- 929-945
  | [] => none
  | x :: xs => if p x then some x else seqFind p xs
def seqRemove {α : Type} (p : α → Bool) : List α → List α       -- 948-968
  | [] => []
  | x :: xs => if p x then seqRemove p xs else x :: seqRemove p xs
def seqForEach {α σ : Type} (f : σ → α → σ) (s : σ) : List α → σ -- 914-926
  | [] => s
  | x :: xs => seqForEach f (f s x) xs
def seqPushFront {α : Type} (v : α) (l : List α) : List α := v :: l -- 905-911

end Mcut.OList
