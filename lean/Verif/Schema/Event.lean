import Verif.Go.Basic

/-!
# Model of `EventTarget`, `/repo/pkg/schema/event.go`

A callback is a pointer (`Nat`), never nil.  What it does is given by `beh`: it may change the state `S` of the program, which includes the
event target itself (a callback may add and remove callbacks).  `range e.val` is evaluated once, and neither `Add` nor `Remove` changes the
elements of a slice that someone else holds.
-/

namespace Ndn.Schema

/-- a callback, as a pointer -/
abbrev Cb := Nat

/-- `EventTarget.Add`, event.go:66-69 -/
def etAdd (val : List Cb) (c : Cb) : List Cb := val ++ [c]

/-- `EventTarget.Remove`, event.go:71-81 -/
def etRemove (val : List Cb) (c : Cb) : List Cb := val.foldl (fun acc v => if v ≠ c then acc ++ [v] else acc) []

/-- The loop of `Dispatch` (`accept = none`), event.go:89-95, and of `DispatchUntil`, event.go:99-108.  Returns `ret`, the state, and the calls
with their answers. -/
def dispatchLoop {S A : Type} (beh : Cb → S → A × S) (accept : Option (A → Bool)) : List Cb → A → S → A × S × List (Cb × A)
  | [], ret, s => (ret, s, [])
  | v :: vs, _, s =>
    let (a, s1) := beh v s
    if (match accept with | some f => f a | none => false) then (a, s1, [(v, a)])
    else
      let (ret, s2, calls) := dispatchLoop beh accept vs a s1
      (ret, s2, (v, a) :: calls)

/-- `Dispatch` and `DispatchUntil`; `nil` is what they return if there is no callback -/
def dispatchUntil {S A : Type} (beh : Cb → S → A × S) (accept : Option (A → Bool)) (nil : A) (val : List Cb) (s : S) : A × S × List (Cb × A) :=
  dispatchLoop beh accept val nil s

/-- what happens to an event target -/
inductive EOp where
  | add (c : Cb)
  | remove (c : Cb)
  | dispatch
  deriving DecidableEq

/-- the callbacks after some operations -/
def etRun : List EOp → List Cb → List Cb
  | [], val => val
  | .add c :: ops, val => etRun ops (etAdd val c)
  | .remove c :: ops, val => etRun ops (etRemove val c)
  | .dispatch :: ops, val => etRun ops val

end Ndn.Schema
