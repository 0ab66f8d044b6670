import Verif.Engine.Trie

/-!
# Model of the Interest handler table of `/repo/pkg/engine/basic/default_engine.go`

A handler is a function value: `none` is `nil`, `some h` a function named by a number.
-/

namespace Ndn.Engine

abbrev Fib := Trie (Option Nat)

/-- the table of a new engine, default_engine.go:534-551 (`NewEngine`: `fib: NewNameTrie[fibEntry]()`) -/
def Fib.new : Fib := Trie.new none

/-- `AttachHandler`, default_engine.go:85-98; `true` is a nil error. -/
def Fib.attach (t : Fib) (pre : Name) (h : Option Nat) : Bool × Fib :=
  match t.firstSatisfyOrNew none (fun v => v.isSome) 0 (keys pre) with
  | (n, t1) =>
    if (t1.node n).val.isSome || t1.hasChildren n then (false, t1)
    else (true, t1.setValue n h)

/-- `DetachHandler`, default_engine.go:100-110. -/
def Fib.detach (t : Fib) (pre : Name) : Bool × Fib :=
  match t.exact 0 (keys pre) with
  | none => (false, t)
  | some n => (true, t.delete n)

/-- the handler `onInterest` picks, default_engine.go:210-225 -/
def Fib.handler (t : Fib) (name : Name) : Option Nat := (t.node (t.prefixMatch 0 (keys name))).val

/-- calls of the two methods (each holds `fibLock` throughout) -/
inductive FibOp where
  | attach (pre : Name) (h : Nat)
  | detach (pre : Name)

def FibOp.run (t : Fib) : FibOp → Bool × Fib
  | .attach p h => t.attach p (some h)
  | .detach p => t.detach p

/-- the table after a history, most recent call first -/
def fibAfter : List FibOp → Fib
  | [] => Fib.new
  | op :: ops => (op.run (fibAfter ops)).2

end Ndn.Engine
