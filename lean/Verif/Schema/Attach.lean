import Verif.Schema.Tree
import Verif.Go.Slice

/-!
# Model of attaching and detaching a schema tree, `/repo/pkg/schema/tree.go` and `base_node.go`

The shape of the tree is fixed (`STree`); what `Attach` and `Detach` change is kept by address.  `Tree.lock` makes `Attach`, `Detach` and the
handling of an Interest atomic; an Interest that the engine has handed to `intHandler` may still wait for the lock (`waiting`).  An
engine is a number; of its table only the attached prefixes count (C30: a prefix is refused if it is comparable with an attached one).
What the listeners of the attach event of a node answer is given (`Out`).  Not modelled: loggers.
-/

namespace Ndn.Schema

open Ndn.Go (Mem Slice)

/-- what a node's `OnAttach` does, base_node.go:353-370: nothing, an error from a listener, or a panic (as `RegisterPolicy` does when the
registration fails, basic_policies.go:27-37) -/
inductive Out where
  | fine
  | error
  | panic
deriving DecidableEq

/-- what `OnAttach` stores in a node, base_node.go:208-212 -/
structure NodeSt where
  engine : Option Nat := none
  dep : Nat := 0
  path : NamePattern := []
deriving DecidableEq

/-- the events fired -/
inductive Fired where
  | attach (a : Addr)
  | detach (a : Addr)
deriving DecidableEq

/-- the nodes, and the events fired so far -/
structure Nodes where
  st : Addr → NodeSt := fun _ => {}
  fired : List Fired := []

def Nodes.set (s : Nodes) (a : Addr) (n : NodeSt) : Nodes := { s with st := fun b => if b = a then n else s.st b }

def Nodes.fire (s : Nodes) (f : Fired) : Nodes := { s with fired := s.fired ++ [f] }

/-- what a call of `Node.OnAttach` gives: whether it panics, the memory and the nodes -/
abbrev AttachRes := Bool × Mem CompPat × Nodes

mutual
/-- `Node.OnAttach`, base_node.go:207-229.  The path is a slice of the caller's; its elements are copied.  The error that
`n.impl.OnAttach()` returns is dropped, so the method itself never returns one. -/
def onAttach (out : Addr → Out) (grow : Nat → Nat) (e : Nat) (a : Addr) (t : STree) (m : Mem CompPat) (path : Slice) (s : Nodes) : AttachRes :=
  match t with
  | .node chd =>
    let s := s.set a ⟨some e, path.len, m.read path⟩
    match onAttachAll out grow e a 0 chd m path s with
    | (true, m, s) => (true, m, s)
    | (false, m, s) => (out a == .panic, m, s.fire (.attach a))
/-- the loop of base_node.go:214-220; `grow` gives the spare room of a new array -/
def onAttachAll (out : Addr → Out) (grow : Nat → Nat) (e : Nat) (a : Addr) (i : Nat) (chd : List (CompPat × STree)) (m : Mem CompPat) (path : Slice)
    (s : Nodes) : AttachRes :=
  match chd with
  | [] => (false, m, s)
  | (c, t) :: rest =>
    let p := m.append (.comp ⟨0, []⟩) (grow m.length) path c
    match onAttach out grow e (a ++ [i]) t p.1 p.2 s with
    | (true, m, s) => (true, m, s)
    | (false, m, s) => onAttachAll out grow e a (i + 1) rest m path s
end

mutual
/-- `Node.OnDetach`, base_node.go:233-241 -/
def onDetach (a : Addr) (t : STree) (s : Nodes) : Nodes :=
  match t with
  | .node chd =>
    let s := onDetachAll a 0 chd (s.fire (.detach a))
    s.set a { s.st a with engine := none }
/-- the loop of base_node.go:237-239 -/
def onDetachAll (a : Addr) (i : Nat) (chd : List (CompPat × STree)) (s : Nodes) : Nodes :=
  match chd with
  | [] => s
  | (_, t) :: rest => onDetachAll a (i + 1) rest (onDetach (a ++ [i]) t s)
end

/-- an attached prefix of an engine, and whether the handler is the one of this tree -/
structure Route where
  pre : Name
  mine : Bool
deriving DecidableEq

/-- the tree (tree.go:15-20), the prefix kept in its root, the engines' tables, the Interests that wait for the tree's lock (first come
first), those delivered to a node, and whether the process has panicked -/
structure World where
  nodes : Nodes := {}
  engine : Option Nat := none
  pre : Name := []
  fib : Nat → List Route := fun _ => []
  waiting : List Name := []
  delivered : List (Name × Addr) := []
  dropped : List Name := []
  panicked : Bool := false

/-- `AttachHandler` of the engine, as proved in C30: refused if an attached prefix is comparable -/
def comparable (l : List Route) (p : Name) : Bool := l.any fun r => r.pre.isPrefix p || p.isPrefix r.pre

def World.setFib (w : World) (e : Nat) (l : List Route) : World := { w with fib := fun i => if i = e then l else w.fib i }

/-- `Tree.Attach`, tree.go:31-54; the flag: no error is returned.  (A tree without root is C66's concern.) -/
def World.attach (t : STree) (out : Addr → Out) (grow : Nat → Nat) (p : Name) (e : Nat) (w : World) : Bool × World :=
  let mk := Mem.make (CompPat.comp ⟨0, []⟩) [] (p.map CompPat.comp) p.length
  match onAttach out grow e [] t mk.1 mk.2 w.nodes with
  | (true, _, s) => (false, { w with pre := p, nodes := s, panicked := true })
  | (false, _, s) =>
    let w := { w with pre := p, nodes := s }
    if comparable (w.fib e) p then (false, w)
    else (true, { w.setFib e (⟨p, true⟩ :: w.fib e) with engine := some e })

/-- `Tree.Detach`, tree.go:57-67 -/
def World.detach (t : STree) (w : World) : World :=
  match w.engine with
  | none => w
  | some e => { w.setFib e ((w.fib e).filter fun r => r.pre ≠ w.pre) with nodes := onDetach [] t w.nodes }

/-- `Tree.intHandler` once it has the lock, tree.go:75-88; `Node.Match` panics if the root has no engine (base_node.go:89-91) -/
def World.handle (t : STree) (name : Name) (w : World) : World :=
  if (w.nodes.st []).engine = none then { w with panicked := true }
  else
    match matchName w.pre t name with
    | none => { w with dropped := w.dropped ++ [name] }
    | some (a, _) => { w with delivered := w.delivered ++ [(name, a)] }

/-- what may happen -/
inductive Happen where
  /-- the application calls `Attach` -/
  | attach (out : Addr → Out) (grow : Nat → Nat) (p : Name) (e : Nat)
  /-- the application calls `Detach` -/
  | detach
  /-- an Interest arrives at an engine, whose table names this tree's handler, or another's, or none -/
  | arrive (e : Nat) (name : Name)
  /-- the Interest that has waited longest gets the lock -/
  | run
  /-- another part of the program attaches a handler -/
  | other (e : Nat) (p : Name)

def World.step (t : STree) (w : World) : Happen → World
  | .attach out grow p e => (w.attach t out grow p e).2
  | .detach => w.detach t
  | .arrive e name => if (w.fib e).any (fun r => r.mine && r.pre.isPrefix name) then { w with waiting := w.waiting ++ [name] } else w
  | .run =>
    match w.waiting with
    | [] => w
    | n :: rest => World.handle t n { w with waiting := rest }
  | .other e p => if comparable (w.fib e) p then w else w.setFib e (⟨p, false⟩ :: w.fib e)

/-- a history, the first event first; nothing happens after a panic -/
def World.runAll (t : STree) : World → List Happen → World
  | w, [] => w
  | w, h :: hs => if w.panicked then w else World.runAll t (w.step t h) hs

end Ndn.Schema
