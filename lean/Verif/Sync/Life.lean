/-!
# Starting and stopping SVS

`pkg/sync/svs.go`: the goroutines of one `SvSync` – the main loop, one goroutine for each Sync Interest, one for each Sync Interest to be
sent, and the callers of `Stop` – as a transition system.  A vector is any value; what the main loop does with it is `Sync/Svs`.
Here it counts only that it is handed to `onReceiveStateVector`, which holds the mutex while it runs and may call the application.

Simplified: the mutex is taken together with the vector (this makes a difference only with two main loops); when the ticker
ticks is a choice of the scheduler, even after `Stop`, because `enterSteadyState` starts a stopped ticker again (svs.go:360); `log` is left out; `UnregisterRoute` concerns the forwarder.
-/

namespace Ndn.Sync

/-- who has the handler at the group prefix in the engine -/
inductive Owner where
  | mine
  | other
deriving DecidableEq

/-- where a main loop is: `go s.main()` has been called; in `select`; in `onReceiveStateVector`; in a `Stop` that the application has called from there (the
caller's number follows); returned -/
inductive MainPc (V : Type) where
  | fresh
  | loop
  | busy (v : V)
  | inStop (v : V) (j : Nat)
  | done
deriving DecidableEq

/-- where a call of `Stop` is, svs.go:112-115: before sending on `stop`, before closing `stop`, before closing `recvSv`, returned -/
inductive StopPc where
  | waiting
  | closing1
  | closing2
  | done
deriving DecidableEq

/-- an `SvSync` with its goroutines, svs.go:18-39.  `handlers` are the goroutines in `s.recvSv <- …` (svs.go:331), `accepted` what they have sent,
`taken` what the main loop has received, `senders` the goroutines in `sendSyncInterest` -/
structure Life (V : Type) where
  fib : Option Owner := none
  running : Bool := false
  stopClosed : Bool := false
  recvClosed : Bool := false
  queue : List V := []
  handlers : List V := []
  arrived : List V := []
  accepted : List V := []
  taken : List V := []
  mains : List (MainPc V) := []
  stoppers : List StopPc := []
  senders : Nat := 0
  sent : Nat := 0
  panicked : Bool := false

/-- what may happen next; the numbers are those of a handler, a main loop or a caller of `Stop` -/
inductive Act (V : Type) where
  /-- the application calls `Start` -/
  | start
  /-- another part of the program attaches a handler at the group prefix -/
  | other
  /-- a Sync Interest with a vector comes from the network -/
  | arrive (v : V)
  /-- a handler sends its vector to the main loop -/
  | send (i : Nat)
  /-- a main loop begins -/
  | begin (i : Nat)
  /-- a tick; whether a Sync Interest is sent is `timerExpired`'s decision -/
  | tick (i : Nat) (b : Bool)
  | recv (i : Nat)
  | finish (i : Nat)
  /-- the application calls `Stop` from `onUpdate` -/
  | callStop (i : Nat)
  | resume (i : Nat)
  /-- a main loop sees that `stop` is closed -/
  | quit (i : Nat)
  /-- the application calls `Stop` -/
  | stop
  /-- a main loop receives from a caller of `Stop` -/
  | meet (i j : Nat)
  /-- a caller of `Stop` goes on -/
  | adv (j : Nat)
  /-- a goroutine in `sendSyncInterest` goes on -/
  | emit

/-- the capacity of `recvSv`, svs.go:72 -/
def recvCap : Nat := 128

/-- the mutex is held -/
def Life.held {V : Type} (w : Life V) : Bool := w.mains.any fun
  | .busy _ => true
  | .inStop _ _ => true
  | _ => false

/-- main loop `i` is about to begin -/
def Life.isFresh {V : Type} (w : Life V) (i : Nat) : Bool :=
  match w.mains[i]? with
  | some .fresh => true
  | _ => false

/-- main loop `i` is in its `select` -/
def Life.isLoop {V : Type} (w : Life V) (i : Nat) : Bool :=
  match w.mains[i]? with
  | some .loop => true
  | _ => false

/-- main loop `i` is in `onReceiveStateVector` -/
def Life.isBusy {V : Type} (w : Life V) (i : Nat) : Bool :=
  match w.mains[i]? with
  | some (.busy _) => true
  | _ => false

def Life.setMain {V : Type} (w : Life V) (i : Nat) (m : MainPc V) : Life V := { w with mains := w.mains.set i m }

def Life.setStop {V : Type} (w : Life V) (j : Nat) (s : StopPc) : Life V := { w with stoppers := w.stoppers.set j s }

/-- the first lines of `Stop`, svs.go:107-110: `DetachHandler` removes whatever handler is at the prefix -/
def Life.enterStop {V : Type} (w : Life V) : Life V := { w with fib := none, stoppers := w.stoppers ++ [.waiting] }

/-- one step; an action that is not possible changes nothing -/
def Life.step {V : Type} (w : Life V) : Act V → Life V
  -- `Start`, svs.go:76-88: an error if there is a handler already
  | .start => if w.fib = none then { w with fib := some .mine, mains := w.mains ++ [.fresh], senders := w.senders + 1 } else w
  | .other => if w.fib = none then { w with fib := some .other } else w
  -- the handler, svs.go:77-79, and `onSyncInterest` up to its last line, svs.go:314-329
  | .arrive v => if w.fib = some .mine then { w with handlers := w.handlers ++ [v], arrived := w.arrived ++ [v] } else w
  -- svs.go:331: a send on a closed channel panics, one on a full channel blocks
  | .send i =>
    match w.handlers[i]? with
    | none => w
    | some v =>
      if w.recvClosed then { w with panicked := true }
      else if w.queue.length < recvCap then
        { w with queue := w.queue ++ [v], accepted := w.accepted ++ [v], handlers := w.handlers.eraseIdx i }
      else w
  -- `main`, svs.go:90-104
  | .begin i => if w.isFresh i then { w.setMain i .loop with running := true } else w
  | .tick i b =>
    if w.isLoop i then
      if !w.held && b then { w with senders := w.senders + 1 } else w
    else w
  | .recv i =>
    if w.isLoop i then
      if w.held then w
      else
        match w.queue with
        | v :: q => { w.setMain i (.busy v) with queue := q, taken := w.taken ++ [v] }
        -- a closed channel gives nil, and `sv.Entries` (svs.go:174) panics
        | [] => if w.recvClosed then { w with panicked := true } else w
    else w
  | .finish i => if w.isBusy i then w.setMain i .loop else w
  | .callStop i =>
    match w.mains[i]? with
    | some (.busy v) => w.enterStop.setMain i (.inStop v w.stoppers.length)
    | _ => w
  | .resume i =>
    match w.mains[i]? with
    | some (.inStop v j) => if w.stoppers[j]? = some .done then w.setMain i (.busy v) else w
    | _ => w
  | .quit i => if w.isLoop i && w.stopClosed then { w.setMain i .done with running := false } else w
  -- `Stop`, svs.go:106-115
  | .stop => w.enterStop
  | .meet i j =>
    if w.isLoop i && w.stoppers[j]? = some .waiting && !w.stopClosed then
      { (w.setMain i .done).setStop j .closing1 with running := false }
    else w
  | .adv j =>
    match w.stoppers[j]? with
    -- a send on a closed channel panics; an open one blocks until somebody receives
    | some .waiting => if w.stopClosed then { w with panicked := true } else w
    | some .closing1 => if w.stopClosed then { w with panicked := true } else { w.setStop j .closing2 with stopClosed := true }
    | some .closing2 => if w.recvClosed then { w with panicked := true } else { w.setStop j .done with recvClosed := true }
    | _ => w
  -- `sendSyncInterest`, svs.go:274-312
  | .emit =>
    if w.senders = 0 then w
    else if !w.running then { w with senders := w.senders - 1 }
    else if w.held then w
    else { w with senders := w.senders - 1, sent := w.sent + 1 }

/-- a history, the first action first; nothing happens after a panic -/
def Life.run {V : Type} : Life V → List (Act V) → Life V
  | w, [] => w
  | w, a :: as => if w.panicked then w else (w.step a).run as

end Ndn.Sync
