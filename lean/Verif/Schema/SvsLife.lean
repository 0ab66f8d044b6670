import Verif.Schema.SvsNode

/-!
# The goroutines around the sync node of a schema tree

`/repo/pkg/schema/svs/sync.go` with its lock, its channel `missChan` and its timer: what Schema/SvsNode has one after the other happens here in
goroutines that wait for each other.  The state starts where `Tree.Attach` has returned.

Simplifications.
* Sending on `missChan` and the change of `localSv` that goes with it are one step.
* The timer is that of `/repo/pkg/engine/basic/timer.go`: a function that is scheduled may start at any time, in a goroutine of its own, and
  cancelling does not stop it once it has started.
* The values of the Interests and packets that are sent are those of Schema/SvsNode; sending does not wait.
* `Detach` and `Attach` of the tree are reduced to what they do to the sync node: `Node.OnAttach` and `Node.OnDetach`
  (`/repo/pkg/schema/base_node.go` 207-241) set the field `engine` of the node and its children before `onAttach` and after `onDetach`.
-/

namespace Ndn.Schema.Svs

/-- What the goroutines do: `recv`: receive from `MissingDataChannel()` (sync.go 205-208); `newData`: call `NewData`, with `Provide` successful or not;
`sync`: the goroutine of a Sync Interest (`onSyncInt`), with the parsed vector; `timer`: the goroutine of the expired timer; `detach`, `attach`: those of the tree. -/
inductive Call where
  | recv
  | newData (provided : Bool)
  | sync (remote : Option SVec)
  | timer
  | detach
  | attach
  deriving DecidableEq

/-- Where a goroutine is: between two calls, at `dataLock.Lock()`, in the first loop of `onSyncInt` (whole vector, entries to come, `needNotif`), after the
lock was taken in the other functions, at the deferred `Unlock` (`leave`: of `onDetach`), after `onDetach`. -/
inductive Pc where
  | idle
  | want (c : Call)
  | loop (remote rest : SVec) (notif : Bool)
  | inside (c : Call)
  | unlock (leave : Bool)
  | leaving
  deriving DecidableEq

/-- A goroutine and the calls that it will still make. -/
structure Thr where
  pc : Pc
  rest : List Call
  deriving DecidableEq

/-- How the process ends. -/
inductive Death where
  /-- `remoteSv` is nil (sync.go 115-126) -/
  | nilVector
  /-- send on a closed channel -/
  | closedSend
  /-- close of a closed channel -/
  | closedClose
  /-- `Node.Apply` or `Node.Match` "before attaching to an engine" (base_node.go 90, 149), or a nil engine in `Provide` (leaf_node.go 38) -/
  | detached
  /-- unlock of an unlocked mutex -/
  | unlocked
  /-- `callbackRoutine`: "TODO: TO BE DONE" (sync.go 342-344) -/
  | todo
  deriving DecidableEq

/-- The node and its goroutines.  `node.missing`: all that was sent on the present channel, of which `got` have been received; `live`: the timers that are
scheduled; `tok`: the timer that `cancelSyncTimer` cancels; `next`: the number of the next timer; `listener`: there are listeners of OnMissingData;
`log`: the functions that have run, latest first (not in the code). -/
structure Life where
  attached : Bool
  locked : Bool
  node : SvsN
  cap : Nat
  got : Nat
  closed : Bool
  listener : Bool
  live : List Nat
  tok : Nat
  next : Nat
  threads : List Thr
  dead : Option Death
  log : List SvsNEvent

/-- The state when `Attach` has returned (sync.go 293-330), with the goroutines that there will be. -/
def Life.start (self : Bytes) (cap : Nat) (threads : List Thr) : Life :=
  { attached := true, locked := false, node := SvsN.attach self, cap := cap, got := 0, closed := false, listener := false, live := [0], tok := 0, next := 1,
    threads := threads, dead := none, log := [] }

/-- `n.cancelSyncTimer()` -/
def Life.cancel (s : Life) : Life := { s with live := s.live.erase s.tok }

/-- `n.cancelSyncTimer = n.timer.Schedule(...)` -/
def Life.schedule (s : Life) : Life := { s with live := s.next :: s.live, tok := s.next, next := s.next + 1 }

/-- goroutine `i` goes on -/
def Life.put (s : Life) (i : Nat) (t : Thr) : Life := { s with threads := s.threads.set i t }

/-- the process ends -/
def Life.die (s : Life) (d : Death) : Life := { s with dead := some d }

/-- `onSyncInt` after its first loop, sync.go 153-200 (`needNotif` as left by the first loop) -/
def Life.finish (s : Life) (remote : SVec) (notif : Bool) : Life :=
  let needNotif := notif || s.node.sv.any (fun cur => (remote.get cur.1).isNone)
  if needNotif || s.node.suppress then
    if s.node.suppress = false then ({ s with node := { s.node with suppress := true, agg := remote } } : Life).cancel.schedule
    else { s with node := { s.node with agg := remote.foldl aggEntry s.node.agg } }
  else s.cancel.schedule

/-- does `onSyncTimer` send, sync.go 232-245 -/
def needsExpress (n : SvsN) : Bool :=
  !(n.suppress && n.sv.all (fun cur => match n.agg.get cur.1 with
      | none => false
      | some q => decide (cur.2 ≤ q)))

/-- One step of goroutine `i`; `none`: it waits or has ended. -/
def Life.step (s : Life) (i : Nat) : Option Life :=
  match s.dead with
  | some _ => none
  | none =>
  match s.threads[i]? with
  | none => none
  | some t =>
    match t.pc with
    | .idle =>
      match t.rest with
      | [] => none
      | .recv :: r =>
        if s.got < s.node.missing.length then some ({ s with got := s.got + 1 }.put i ⟨.idle, r⟩)
        else if s.closed then some (s.put i ⟨.idle, r⟩)
        else none
      | .attach :: r => some ({ s with attached := true, locked := false }.put i ⟨.want .attach, r⟩)
      | c :: r => some (s.put i ⟨.want c, r⟩)
    | .want c =>
      if s.locked then none
      else
        match c with
        | .sync none => some (s.die .nilVector)
        | .sync (some v) => some ({ s with locked := true }.put i ⟨.loop v v false, t.rest⟩)
        | c => some ({ s with locked := true }.put i ⟨.inside c, t.rest⟩)
    | .loop v (cur :: cs) b =>
      let st := SvsN.entry (s.node, b) cur
      if st.1.missing.length = s.node.missing.length then some ({ s with node := st.1 }.put i ⟨.loop v cs st.2, t.rest⟩)
      else if s.closed then some (s.die .closedSend)
      else if s.cap ≤ s.node.missing.length - s.got then none
      else some ({ s with node := st.1 }.put i ⟨.loop v cs st.2, t.rest⟩)
    | .loop v [] b => some ({ s.finish v b with log := .sync (some v) :: s.log }.put i ⟨.unlock false, t.rest⟩)
    | .inside .timer =>
      if needsExpress s.node && !s.attached then some (s.die .detached)
      else some (({ s with node := s.node.onSyncTimer, log := .timer :: s.log } : Life).cancel.schedule.put i ⟨.unlock false, t.rest⟩)
    | .inside (.newData p) =>
      if s.attached then some ({ s with node := s.node.newData p, log := .newData p :: s.log }.put i ⟨.unlock false, t.rest⟩)
      else some (s.die .detached)
    | .inside .detach =>
      if s.closed then some (s.die .closedClose)
      else some ({ s.cancel with closed := true }.put i ⟨.unlock true, t.rest⟩)
    | .inside .attach =>
      if s.listener then some (s.die .todo)
      else some (({ s with node := SvsN.attach s.node.self, got := 0, closed := false, log := [] } : Life).schedule.put i ⟨.unlock false, t.rest⟩)
    | .inside _ => none
    | .unlock leave =>
      if s.locked then some ({ s with locked := false }.put i ⟨if leave then .leaving else .idle, t.rest⟩)
      else some (s.die .unlocked)
    | .leaving => some ({ s with attached := false }.put i ⟨.idle, t.rest⟩)

/-- Timer `n` expires: its function starts in a new goroutine. -/
def Life.fire (s : Life) (n : Nat) : Option Life :=
  match s.dead with
  | some _ => none
  | none => if n ∈ s.live then some { s with live := s.live.erase n, threads := s.threads ++ [⟨.want .timer, []⟩] } else none

/-- What happens by any schedule. -/
inductive Leads (s₀ : Life) : Life → Prop
  | refl : Leads s₀ s₀
  | step {s s' : Life} {i : Nat} : Leads s₀ s → s.step i = some s' → Leads s₀ s'
  | fire {s s' : Life} {n : Nat} : Leads s₀ s → s.fire n = some s' → Leads s₀ s'

/-- `getSyncIntv`, sync.go 256-259, in nanoseconds; `r`: what `rand.Int63n` gives.  `none`: `rand.Int63n` panics. -/
def syncIntv (interval : Nat) (r : Nat) : Option Int :=
  if interval / 4 = 0 then none else some ((interval : Int) + ((r : Int) - (interval / 8 : Nat)))

/-- `getAggIntv`, sync.go 261-264 -/
def aggIntv (interval : Nat) (r : Nat) : Option Int :=
  if interval = 0 then none else some ((interval : Int) + ((r : Int) - (interval / 2 : Nat)))

end Ndn.Schema.Svs
