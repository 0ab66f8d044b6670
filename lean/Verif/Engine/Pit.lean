import Verif.Engine.Trie

/-!
# Model of the pending Interests of `/repo/pkg/engine/basic/default_engine.go`

The whole table is behind `pitLock`: `onData`, `onNack`, the insertion in `Express` and the timeout functions each run as one
step.  A timeout function runs in its own goroutine (`time.AfterFunc`, basic/timer.go:22-29): the runtime starts it when it is
due, from then on it can no longer be cancelled, and later it gets the lock.  Times are nanoseconds.  Callbacks are recorded
and do not call back into the engine (a callback that calls `Express` would block forever, because the lock is held).
SHA-256 is an arbitrary function `sha`.
-/

namespace Ndn.Engine

/-- `pendInt`, default_engine.go:36-44.  `id` names the call of `Express`, and with it `callback` and `timeoutCancel`;
`mustBeFresh` is never read. -/
structure Pend where
  id : Nat
  deadline : Nat
  canBePrefix : Bool
  impSha256 : Option Bytes
deriving DecidableEq

/-- the arguments of a callback (`ndn.ExpressCallbackArgs`) -/
inductive Outcome where
  | data (name : Name) (raw : Bytes)
  | nack (reason : Nat)
  | timeout
deriving DecidableEq

/-- a timer that has not fired: the call it belongs to, the node its function closes over, and when it is due -/
structure Timer where
  id : Nat
  node : Nat
  due : Nat
deriving DecidableEq

/-- a call of `Express`, for the record (the engine does not keep this) -/
structure Sent where
  id : Nat
  name : Name
  canBePrefix : Bool
  lifetime : Nat
  at_ : Nat
deriving DecidableEq

structure Pit where
  trie : Trie (List Pend)
  now : Nat
  next : Nat
  timers : List Timer
  /-- timeout functions that have started and wait for the lock -/
  started : List (Nat × Nat)
  /-- callbacks invoked, most recent first -/
  calls : List (Nat × Outcome)
  /-- calls of `Express`, most recent first -/
  sent : List Sent

def Pit.new : Pit := ⟨Trie.new [], 0, 0, [], [], [], []⟩

/-- `TimeoutMargin`, default_engine.go:22 -/
def timeoutMargin : Nat := 10000000

/-- `nodeName` and `impSha256`, default_engine.go:373-388 -/
def splitDigest (finalName : Name) : Name × Option Bytes :=
  match finalName.getLast? with
  | some c => if c.typ = 1 then (finalName.dropLast, some c.val) else (finalName, none)
  | none => (finalName, none)

/-- `Express`, default_engine.go:370-437.  `delay` is the time between the computation of the deadline (line 395) and the
insertion under the lock.  The result is `false` for an empty name (line 381); whether the face then sends the packet does
not change the table. -/
def Pit.express (s : Pit) (finalName : Name) (lifetime : Nat) (canBePrefix : Bool) (delay : Nat) : Bool × Pit :=
  if finalName.isEmpty then (false, s)
  else
    let (nodeName, imp) := splitDigest finalName
    match s.trie.matchAlways [] 0 (keys nodeName) with
    | (n, t1) =>
      let e : Pend := ⟨s.next, s.now - delay + lifetime, canBePrefix, imp⟩
      (true, { s with
        trie := t1.setValue n ((t1.node n).val ++ [e])
        next := s.next + 1
        timers := ⟨s.next, n, s.now + (lifetime + timeoutMargin)⟩ :: s.timers
        sent := ⟨s.next, finalName, canBePrefix, lifetime, s.now⟩ :: s.sent })

/-- `entry.timeoutCancel()`: stops the timer unless it has fired -/
def Pit.cancel (s : Pit) (ids : List Nat) : Pit :=
  { s with timers := s.timers.filter (fun t => !(ids.contains t.id)) }

/-- the two tests of `onData`, default_engine.go:282-298 -/
def Pend.satisfied (sha : Bytes → Bytes) (depth : Nat) (name : Name) (raw : Bytes) (e : Pend) : Bool :=
  !(decide (depth < name.length) && !e.canBePrefix) &&
  match e.impSha256 with
  | none => true
  | some d => d == sha raw

/-- one node of the loop in `onData`, default_engine.go:275-313 -/
def Pit.deliver (sha : Bytes → Bytes) (name : Name) (raw : Bytes) (s : Pit) (cur : Nat) : Pit :=
  let lst := (s.trie.node cur).val
  let sat := Pend.satisfied sha (s.trie.node cur).dep name raw
  let hit := lst.filter sat
  { s.cancel (hit.map (·.id)) with
    calls := (hit.map (fun e => (e.id, Outcome.data name raw))).reverse ++ s.calls
    trie := s.trie.setValue cur (lst.filter (fun e => !sat e)) }

/-- `onData`, default_engine.go:266-318 -/
def Pit.onData (sha : Bytes → Bytes) (s : Pit) (name : Name) (raw : Bytes) : Pit :=
  let n := s.trie.prefixMatch 0 (keys name)
  let s1 := (s.trie.ancestors n).foldl (Pit.deliver sha name raw) s
  { s1 with trie := Trie.deleteIf (fun l => l.isEmpty) s1.trie n }

/-- `onNack`, default_engine.go:320-340 -/
def Pit.onNack (s : Pit) (name : Name) (reason : Nat) : Pit :=
  match s.trie.exact 0 (keys name) with
  | none => s
  | some n =>
    let lst := (s.trie.node n).val
    { s.cancel (lst.map (·.id)) with
      calls := (lst.map (fun e => (e.id, Outcome.nack reason))).reverse ++ s.calls
      trie := s.trie.delete n }

/-- `timeoutFunc`, default_engine.go:403-427 -/
def Pit.timeoutFunc (s : Pit) (n : Nat) : Pit :=
  let lst := (s.trie.node n).val
  let late := lst.filter (fun e => !decide (s.now < e.deadline))
  let t1 := s.trie.setValue n (lst.filter (fun e => decide (s.now < e.deadline)))
  { s with
    calls := (late.map (fun e => (e.id, Outcome.timeout))).reverse ++ s.calls
    trie := Trie.deleteIf (fun l => l.isEmpty) t1 n }

inductive PitEvent where
  | express (finalName : Name) (lifetime : Nat) (canBePrefix : Bool) (delay : Nat)
  | data (name : Name) (raw : Bytes)
  | nack (name : Name) (reason : Nat)
  /-- a timer that is due fires: its function starts and waits for the lock -/
  | fire (t : Timer)
  /-- a started function gets the lock and runs -/
  | run (id : Nat) (node : Nat)
  | tick (d : Nat)

def Pit.step (sha : Bytes → Bytes) (s : Pit) : PitEvent → Pit
  | .express n l c d => (s.express n l c d).2
  | .data n raw => s.onData sha n raw
  | .nack n r => s.onNack n r
  | .fire t => if t ∈ s.timers ∧ t.due ≤ s.now then { s with timers := s.timers.erase t, started := (t.id, t.node) :: s.started } else s
  | .run id n => if (id, n) ∈ s.started then { s with started := s.started.erase (id, n) }.timeoutFunc n else s
  | .tick d => { s with now := s.now + d }

/-- the state after a schedule, most recent event first -/
def pitAfter (sha : Bytes → Bytes) : List PitEvent → Pit
  | [] => Pit.new
  | ev :: evs => (pitAfter sha evs).step sha ev

end Ndn.Engine
