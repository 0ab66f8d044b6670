import Verif.Go.Basic

/-!
# The deterministic timer (`pkg/engine/dummy/timer.go`)

Events carry a label instead of a Go closure.  What the closure of label `l` does when it is called is a list of timer operations
`cb l s`, which may depend on the state `s` in which it is called.  Times are nanoseconds, unbounded.  The lock is not modelled (one goroutine).
-/

namespace Ndn.Engine.Dummy

/-- `event`, timer.go:9-12: due time and callback (`none` = nil) -/
abbrev Ev := Int × Option Nat

inductive Op where
  /-- `Schedule(d, f)` where `f` has label `l` -/
  | schedule (l : Nat) (d : Int)
  /-- call the cancel function that the latest `schedule` of label `l` returned -/
  | cancel (l : Nat)
  /-- `MoveForward(d)` -/
  | move (d : Int)
deriving DecidableEq

/-- timer.go:14-21 `Timer`; `handles` are the variables `t`, `idx` captured by the cancel functions, `log` the calls of callbacks with the time of
the call, the latest first -/
structure Tm where
  now : Int := 0
  events : List Ev := []
  handles : List (Nat × (Int × Nat)) := []
  log : List (Nat × Int) := []
deriving DecidableEq

/-- timer.go:71-77: the first slot without callback, or the end -/
def freeSlot : List Ev → Nat
  | [] => 0
  | (_, none) :: _ => 0
  | (_, some _) :: es => freeSlot es + 1

/-- timer.go:66-88 -/
def Tm.schedule (s : Tm) (l : Nat) (d : Int) : Tm :=
  let t := s.now + d
  let idx := freeSlot s.events
  { s with
    events := if idx = s.events.length then s.events ++ [(t, some l)] else s.events.set idx (t, some l)
    handles := (l, (t, idx)) :: s.handles }

/-- the variables captured by the cancel function of `l` -/
def Tm.handle (s : Tm) (l : Nat) : Option (Int × Nat) := (s.handles.find? (fun h => h.1 == l)).map (·.2)

/-- timer.go:90-102: the cancel function (the returned error is not modelled) -/
def Tm.cancel (s : Tm) (l : Nat) : Tm :=
  match s.handle l with
  | none => s
  | some (t, idx) =>
    if t < s.now then s
    else match s.events[idx]? with
      | some (t', some _) => if t' = t then { s with events := s.events.set idx (t', none) } else s
      | _ => s

/-- a sequence of operations -/
def runOps (run : Tm → Op → Option Tm) : List Op → Tm → Option Tm
  | [], s => some s
  | op :: ops, s => match run s op with
    | none => none
    | some s' => runOps run ops s'

/-- timer.go:48-55: the loop over the copy of the events; gives the copy with the fired callbacks removed -/
def moveLoop (run : Tm → Op → Option Tm) (cb : Nat → Tm → List Op) : List Ev → Tm → Option (Tm × List Ev)
  | [], s => some (s, [])
  | (t, none) :: es, s => (moveLoop run cb es s).map (fun r => (r.1, (t, none) :: r.2))
  | (t, some l) :: es, s =>
    if t < s.now then
      match runOps run (cb l s) { s with log := (l, s.now) :: s.log } with
      | none => none
      | some s' => (moveLoop run cb es s').map (fun r => (r.1, (t, none) :: r.2))
    else (moveLoop run cb es s).map (fun r => (r.1, (t, some l) :: r.2))

/-- one operation; `none` when the fuel (depth of nested `MoveForward`) runs out.  `MoveForward` is timer.go:38-62. -/
def Tm.step (cb : Nat → Tm → List Op) : Nat → Tm → Op → Option Tm
  | _, s, .schedule l d => some (s.schedule l d)
  | _, s, .cancel l => some (s.cancel l)
  | 0, _, .move _ => none
  | fuel + 1, s, .move d =>
    match moveLoop (Tm.step cb fuel) cb s.events { s with now := s.now + d } with
    | none => none
    | some (s', events) => some { s' with events := events }

/-- operations, the first first -/
def run (cb : Nat → Tm → List Op) (fuel : Nat) (ops : List Op) (s : Tm) : Option Tm := runOps (Tm.step cb fuel) ops s

end Ndn.Engine.Dummy
