import Verif.Go.Basic

/-!
# Model of opening and closing faces, `/repo/pkg/engine/basic/transports.go` and `default_engine.go`

`Start` and `Shutdown` of the engine are called by one goroutine, one after the other; `Send` is called by any goroutines (a goroutine is a number);
the loop `Run` is a goroutine of its own.  Every access to `f.conn`, `f.running` and the mutex is a step.  An event names the goroutine that takes a
step; a step that is not possible leaves the state unchanged.  Packets that arrive are numbers (their framing is the subject of C41); packets that are sent are lists of
buffers.  A connection is known by its number.  Once a connection is lost (`lose`) writing fails; reading fails when it is lost or closed, but what has arrived may be
read before (`bufio.Reader`).  With `ws` the face is a `WebSocketFace`: `Run` goes on after a failed read, `Send` writes one message and takes no
mutex.  `Close` of a connection is taken to return nil.  The callbacks are those of the engine: `onError` returns its argument (default_engine.go:342-346).
-/

namespace Ndn.Engine.Face

/-- a statement of `StreamFace.Run`, transports.go:27-74, or of `WebSocketFace.Run`, transports.go:154-170; the number is the connection of the reader -/
inductive RunPc where
  /-- `bufio.NewReader(f.conn)` -/
  | init
  /-- the condition of the loop -/
  | check (c : Nat)
  | reading (c : Nat)
  /-- a packet has been read; `f.onPkt` comes next -/
  | got (c p : Nat)
  /-- reading failed; `f.running.Load()` and `f.onError` come next -/
  | failed (c : Nat)
  /-- `f.running.Store(false)` -/
  | exit1
  /-- `f.conn = nil` -/
  | exit2
  deriving DecidableEq

/-- a statement of the goroutine that calls `Start` (default_engine.go:348-360, transports.go:76-91) and `Shutdown`
(default_engine.go:362-368, transports.go:93-101) -/
inductive MainPc where
  | idle
  /-- `f.conn != nil` in `Open` -/
  | start1
  /-- `net.Dial` and `f.conn = c` -/
  | start2
  /-- `f.running.Store(true)` -/
  | start3
  /-- `go f.Run()` -/
  | start4
  /-- `f.conn == nil` in `Close` -/
  | stop1
  /-- `f.running.Store(false)` -/
  | stop2
  /-- `f.conn.Close()` -/
  | stop3
  deriving DecidableEq

/-- a statement of `Send`, transports.go:103-116 and :172-177: nothing, before `Lock`, or in the loop with the buffers that are still to be written -/
inductive SendPc where
  | idle
  | checked (pkt : Wire)
  | writing (rest : Wire)
  deriving DecidableEq

/-- what a call returned: nil or an error -/
inductive Call where
  | start (ok : Bool)
  | stop (ok : Bool)
  | send (i : Nat) (ok : Bool)
  deriving DecidableEq

structure St where
  ws : Bool := false
  conn : Option Nat := none
  running : Bool := false
  /-- the number of connections that have been dialled -/
  next : Nat := 0
  closed : Nat → Bool := fun _ => false
  lost : Nat → Bool := fun _ => false
  /-- what has arrived and is not read yet -/
  inq : Nat → List Nat := fun _ => []
  runs : List RunPc := []
  main : MainPc := .idle
  senders : Nat → SendPc := fun _ => .idle
  /-- the holder of `sendMut` -/
  lock : Option Nat := none
  /-- what has been given to `onPkt`, with the connection it came from, oldest first -/
  delivered : List (Nat × Nat) := []
  /-- the buffers that were written to a connection, oldest first -/
  written : Nat → List Bytes := fun _ => []
  /-- calls that returned, most recent first -/
  returned : List Call := []
  /-- a nil pointer was dereferenced: the program has crashed -/
  panicked : Bool := false

inductive Ev where
  /-- a packet arrives at a connection -/
  | arrive (c p : Nat)
  | lose (c : Nat)
  | callStart
  | callStop
  /-- a step of the goroutine of `Start` and `Shutdown`; `ok`: does `Dial` succeed? -/
  | main (ok : Bool)
  | callSend (i : Nat) (pkt : Wire)
  | send (i : Nat)
  /-- a step of the `k`-th `Run`; `ok`: does reading succeed (if there is something to read), does `onPkt` return nil? -/
  | run (k : Nat) (ok : Bool)

def upd {A : Type} (f : Nat → A) (i : Nat) (a : A) : Nat → A := fun j => if j = i then a else f j

/-- a step of `Run`; the state of the goroutine afterwards, `none` if it has ended -/
def St.runStep (s : St) (ok : Bool) : RunPc → St × Option RunPc
  | .init => match s.conn with
    | none => ({ s with panicked := true }, none)
    | some c => (s, some (.check c))
  | .check c => if s.running then (s, some (.reading c)) else (s, some .exit1)
  | .reading c =>
    match ok, s.inq c with
    | true, p :: ps => ({ s with inq := upd s.inq c ps }, some (.got c p))
    | true, [] => (s, some (.reading c))
    | false, _ => if s.lost c || s.closed c then (s, some (.failed c)) else (s, some (.reading c))
  | .got c p =>
    let s := { s with delivered := s.delivered ++ [(c, p)] }
    if ok then (s, some (.check c)) else (s, some .exit1)
  | .failed c => if s.ws then (s, some (.check c)) else (s, some .exit1)
  | .exit1 => ({ s with running := false }, some .exit2)
  | .exit2 => ({ s with conn := none }, none)

/-- a step of `Start` or `Shutdown` -/
def St.mainStep (s : St) (ok : Bool) : St :=
  match s.main with
  | .idle => s
  | .start1 => if s.conn.isSome then { s with main := .idle, returned := .start false :: s.returned } else { s with main := .start2 }
  | .start2 =>
    if ok then { s with conn := some s.next, next := s.next + 1, main := .start3 }
    else { s with main := .idle, returned := .start false :: s.returned }
  | .start3 => { s with running := true, main := .start4 }
  | .start4 => { s with runs := s.runs ++ [.init], main := .idle, returned := .start true :: s.returned }
  | .stop1 => if s.conn.isNone then { s with main := .idle, returned := .stop false :: s.returned } else { s with main := .stop2 }
  | .stop2 => { s with running := false, main := .stop3 }
  | .stop3 =>
    match s.conn with
    | none => { s with panicked := true }
    | some c => { s with closed := upd s.closed c true, main := .idle, returned := .stop true :: s.returned }

/-- the end of `Send`: the mutex is unlocked -/
def St.sendDone (s : St) (i : Nat) (ok : Bool) : St :=
  { s with senders := upd s.senders i .idle, lock := if s.ws then s.lock else none, returned := .send i ok :: s.returned }

/-- a step of `Send` -/
def St.sendStep (s : St) (i : Nat) : St :=
  match s.senders i with
  | .idle => s
  | .checked pkt =>
    if s.ws then { s with senders := upd s.senders i (.writing [pkt.flatten]) }
    else match s.lock with
      | some _ => s
      | none => { s with senders := upd s.senders i (.writing pkt), lock := some i }
  | .writing [] => s.sendDone i true
  | .writing (b :: bs) =>
    match s.conn with
    | none => { s with panicked := true }
    | some c =>
      if s.lost c || s.closed c then s.sendDone i false
      else { s with senders := upd s.senders i (.writing bs), written := upd s.written c (s.written c ++ [b]) }

def St.step (s : St) (e : Ev) : St :=
  if s.panicked then s else
  match e with
  | .arrive c p => { s with inq := upd s.inq c (s.inq c ++ [p]) }
  | .lose c => { s with lost := upd s.lost c true }
  | .callStart =>
    match s.main with
    | .idle => if s.running then { s with returned := .start false :: s.returned } else { s with main := .start1 }
    | _ => s
  | .callStop =>
    match s.main with
    | .idle => if s.running then { s with main := .stop1 } else { s with returned := .stop false :: s.returned }
    | _ => s
  | .main ok => s.mainStep ok
  | .callSend i pkt =>
    match s.senders i with
    | .idle => if s.running then { s with senders := upd s.senders i (.checked pkt) } else { s with returned := .send i false :: s.returned }
    | _ => s
  | .send i => s.sendStep i
  | .run k ok =>
    match s.runs[k]? with
    | none => s
    | some pc =>
      match s.runStep ok pc with
      | (s', some pc') => { s' with runs := s'.runs.set k pc' }
      | (s', none) => { s' with runs := s'.runs.eraseIdx k }

/-- the state after some events, oldest first -/
def St.after (s : St) : List Ev → St
  | [] => s
  | e :: es => (s.step e).after es

end Ndn.Engine.Face
