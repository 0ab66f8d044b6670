/-
# The locks taken by the goroutines of an application

The engine, a schema tree, its storages, the sync node of a tree, the timer of
the tests and a stream face guard their data with locks of the package `sync`.
Callbacks of the application are called while some of these locks are held.
This file models what the functions of the library do with locks, in the order
of the source, and how goroutines that run them interleave.

Simplifications.
* What a function does besides locking is the single step `use` (it reads and
  writes the data of a lock) or `look` (it only reads them); the values are
  modelled elsewhere (Engine/Pit, Engine/Fib, Schema/Tree, Schema/SvsNode ...).
* Waiting for anything else than a lock is not modelled here: channels
  (`ExecMgmtCmd`: C69; `missChan`: Schema/SvsLife), the network, sleeping.
* Which callbacks an arriving packet calls is left open: any list of them.
* The mutex of the text log handler is left out.
-/

namespace Ndn.Engine.Locks

/-- The locks.  `fib`, `pit`: /repo/pkg/engine/basic/default_engine.go 59-60
(`fibLock`, `pitLock`); `tree`: /repo/pkg/schema/tree.go 17; `store`:
/repo/pkg/schema/basic_policies.go 105 (`MemStoragePolicy.lock`); `key`:
/repo/pkg/schema/demosec/policies.go 16 (`KeyStoragePolicy.lock`); `data`:
/repo/pkg/schema/svs/sync.go 48 (`SvsNode.dataLock`); `clock`:
/repo/pkg/engine/dummy/timer.go 20; `send`:
/repo/pkg/engine/basic/transports.go 24 (`StreamFace.sendMut`). -/
inductive Lock
  | tree | data | store | key | pit | fib | clock | send
  deriving DecidableEq, Repr

/-- What a goroutine does, as far as locks are concerned.  A lock is an
`RWMutex`; a `Mutex` is one of which only the writing half is used.
`RWMutex.Lock` has two halves: `acq` announces the writer (after which no new
reader gets in), `enter` waits until the readers that are inside have left. -/
inductive Instr
  | acq (l : Lock)
  | enter (l : Lock)
  | rel (l : Lock)
  | racq (l : Lock)
  | rrel (l : Lock)
  | use (l : Lock)
  | look (l : Lock)
  | go (p : List Instr)

/-- The code that a goroutine still has to run. -/
abbrev Prog := List Instr

/-- A hold on a lock: `w` since the announcement as a writer, `r` as a reader. -/
inductive Hold
  | w (l : Lock)
  | r (l : Lock)
  deriving DecidableEq, Repr

/-- A goroutine: the code still to run, and the locks that it has taken and not
released.  The locks of Go do not know their holders: no step depends on
`held`. -/
structure Thread where
  code : Prog
  held : List Hold

/-- The state of the process: its goroutines, whether a writer has announced
itself for a lock, the number of readers inside a lock, and whether the process
died (`fatal error: sync: Unlock of unlocked RWMutex`). -/
structure St where
  threads : List Thread
  locked : Lock → Bool
  readers : Lock → Nat
  dead : Bool

/-- Change of one value of a function. -/
def upd {α : Type} (f : Lock → α) (l : Lock) (v : α) : Lock → α :=
  fun x => if x = l then v else f x

/-- One step of goroutine `i`, `none` when it has ended or has to wait. -/
def St.step (s : St) (i : Nat) : Option St :=
  if s.dead then none else
  match s.threads[i]? with
  | none => none
  | some t =>
    match t.code with
    | [] => none
    | .acq l :: p =>
      if s.locked l then none
      else some { s with threads := s.threads.set i ⟨.enter l :: p, .w l :: t.held⟩,
                         locked := upd s.locked l true }
    | .enter l :: p =>
      if s.readers l = 0 then some { s with threads := s.threads.set i ⟨p, t.held⟩ }
      else none
    | .rel l :: p =>
      if s.locked l then
        some { s with threads := s.threads.set i ⟨p, t.held.erase (.w l)⟩,
                      locked := upd s.locked l false }
      else some { s with dead := true }
    | .racq l :: p =>
      if s.locked l then none
      else some { s with threads := s.threads.set i ⟨p, .r l :: t.held⟩,
                         readers := upd s.readers l (s.readers l + 1) }
    | .rrel l :: p =>
      if s.readers l = 0 then some { s with dead := true }
      else some { s with threads := s.threads.set i ⟨p, t.held.erase (.r l)⟩,
                         readers := upd s.readers l (s.readers l - 1) }
    | .use _ :: p => some { s with threads := s.threads.set i ⟨p, t.held⟩ }
    | .look _ :: p => some { s with threads := s.threads.set i ⟨p, t.held⟩ }
    | .go q :: p => some { s with threads := s.threads.set i ⟨p, t.held⟩ ++ [⟨q, []⟩] }

/-- The process at the start, with goroutines that are to run the given code. -/
def St.init (ps : List Prog) : St :=
  { threads := ps.map (fun p => ⟨p, []⟩), locked := fun _ => false, readers := fun _ => 0,
    dead := false }

/-- The states that a process gets to, by any schedule. -/
inductive Reach (s₀ : St) : St → Prop
  | refl : Reach s₀ s₀
  | tail {s s' : St} {i : Nat} : Reach s₀ s → s.step i = some s' → Reach s₀ s'

/-! ## The functions of the engine -/

/-- Engine.AttachHandler, /repo/pkg/engine/basic/default_engine.go 85-98. -/
def attachHandler : Prog := [.acq .fib, .use .fib, .rel .fib]

/-- Engine.DetachHandler, default_engine.go 100-110. -/
def detachHandler : Prog := [.acq .fib, .use .fib, .rel .fib]

/-- StreamFace.Send, /repo/pkg/engine/basic/transports.go 103-116.  The other
faces take no lock. -/
def send : Prog := [.acq .send, .use .send, .rel .send]

/-- Timer.Schedule, /repo/pkg/engine/dummy/timer.go 65-87.  The timer of
/repo/pkg/engine/basic/timer.go 21-32 takes no lock. -/
def schedule : Prog := [.acq .clock, .use .clock, .rel .clock]

/-- The function returned by Timer.Schedule, dummy/timer.go 89-101, when the
event is still there (otherwise it takes no lock). -/
def cancel : Prog := [.acq .clock, .use .clock, .rel .clock]

/-- Engine.onInterest, default_engine.go 198-264, which calls `handler` after
it has released the lock (209-225, 263). -/
def onInterest (handler : Prog) : Prog :=
  [.acq .fib, .use .fib, .rel .fib] ++ handler

/-- Engine.onData, default_engine.go 266-318: `cbs` are the callbacks of the
entries that the packet satisfies, each called with the lock held (267-268,
300-311). -/
def onData (cbs : List Prog) : Prog :=
  [.acq .pit, .use .pit] ++ cbs.flatMap (fun cb => cancel ++ cb) ++ [.use .pit, .rel .pit]

/-- Engine.onNack, default_engine.go 320-340. -/
def onNack (cbs : List Prog) : Prog :=
  [.acq .pit, .use .pit] ++ cbs.flatMap (fun cb => cancel ++ cb) ++ [.use .pit, .rel .pit]

/-- The function that Engine.Express schedules (`timeoutFunc`),
default_engine.go 403-427: `cbs` are the callbacks of the entries that are out
of time. -/
def onTimeout (cbs : List Prog) : Prog :=
  [.acq .pit, .use .pit] ++ cbs.flatten ++ [.use .pit, .rel .pit]

/-- Engine.Express, default_engine.go 370-449: the entry is made, with its
timer, under the lock (398-437), then the Interest is sent (440). -/
def express : Prog :=
  [.acq .pit, .use .pit] ++ schedule ++ [.use .pit, .rel .pit] ++ send

/-! ## The functions of a schema tree -/

/-- MemStoragePolicy.Get, /repo/pkg/schema/basic_policies.go 115-139. -/
def memGet : Prog := [.racq .store, .look .store, .rrel .store]

/-- MemStoragePolicy.Put, basic_policies.go 141-150. -/
def memPut : Prog := [.acq .store, .use .store, .rel .store]

/-- KeyStoragePolicy.onSearch, /repo/pkg/schema/demosec/policies.go 24-39. -/
def keySearch : Prog := [.racq .key, .look .key, .rrel .key]

/-- KeyStoragePolicy.onSave, policies.go 41-48. -/
def keySave : Prog := [.acq .key, .use .key, .rel .key]

/-- ExpressPoint.SearchCache, /repo/pkg/schema/expressing_point.go 53-76, with
both storages applied to the node; a storage found to have the packet ends the
search, so that the second one may be left out. -/
def searchCache (first second : Bool) : Prog :=
  (if first then memGet else []) ++ (if second then keySearch else [])

/-- The listeners of OnSaveStorage (any of the two storages, 320). -/
def saveStorage (first second : Bool) : Prog :=
  (if first then memPut else []) ++ (if second then keySave else [])

/-- The callback that ExpressPoint.NeedCallback gives to Engine.Express,
expressing_point.go 269-325: everything is done in a new goroutine.  `validate`
is what the listeners of OnValidateData do, `save` is what those of
OnSaveStorage do, `k` the callback of the application. -/
def needCallback (validate save k : Prog) : Prog := [.go (validate ++ save ++ k)]

/-- What ExpressPoint.NeedCallback does, expressing_point.go 162-334. -/
inductive Outcome
  /-- The storage has the packet: 197-220. -/
  | cached
  /-- The Interest cannot be made or is suppressed: 228-249. -/
  | refused
  /-- The Interest is sent: 269. -/
  | sent
  /-- The Interest cannot be sent, for which the callback is called: 326-332. -/
  | failed

/-- ExpressPoint.NeedCallback (and NeedChan, 337-355, whose callback `k` takes
no lock), expressing_point.go 162-334, with the application's callback `k`. -/
def need (search : Prog) (o : Outcome) (k : Prog) : Prog :=
  search ++
  match o with
  | .cached => [.go k]
  | .refused => [.go k]
  | .sent => express
  | .failed => express ++ [.go k]

/-- LeafNode.Provide, /repo/pkg/schema/leaf_node.go 29-79: the packet is given
to the storages. -/
def provide (save : Prog) : Prog := save

/-- ExpressPoint.OnInterest, expressing_point.go 78-153: a cached packet is
sent (107-114); otherwise the listeners run in a new goroutine (116-152). -/
def onInterestNode (search : Prog) (hit : Bool) (validate k : Prog) : Prog :=
  search ++ (if hit then send else [.go (validate ++ k)])

/-- Tree.intHandler, /repo/pkg/schema/tree.go 75-88; `none`: no node matches. -/
def intHandler (node : Option Prog) : Prog :=
  [.racq .tree, .look .tree] ++ node.getD [] ++ [.rrel .tree]

/-- Tree.Attach, tree.go 31-54: `listeners` is what the listeners of OnAttach
do. -/
def treeAttach (listeners : Prog) : Prog :=
  [.acq .tree, .use .tree] ++ listeners ++ attachHandler ++ [.use .tree, .rel .tree]

/-- Tree.Detach, tree.go 57-67: `listeners` is what the listeners of OnDetach
do. -/
def treeDetach (listeners : Prog) : Prog :=
  [.acq .tree, .use .tree] ++ detachHandler ++ listeners ++ [.use .tree, .rel .tree]

/-- Tree.PutNode, tree.go 96-117. -/
def putNode : Prog := [.acq .tree, .use .tree, .rel .tree]

/-- Locking the tree from outside, Tree.RLock and Tree.RUnlock, tree.go
120-127, around `p`. -/
def withRLock (p : Prog) : Prog := [.racq .tree, .look .tree] ++ p ++ [.rrel .tree]

/-! ## The sync node of a tree -/

/-- SvsNode.expressStateVec, /repo/pkg/schema/svs/sync.go 252-254: a `NeedChan`
whose result nobody waits for. -/
def expressStateVec (search : Prog) (o : Outcome) : Prog := need search o []

/-- SvsNode.onSyncInt, sync.go 111-203, without the sending on `missChan`. -/
def onSyncInt : Prog :=
  [.acq .data, .use .data] ++ cancel ++ schedule ++ [.use .data, .rel .data]

/-- SvsNode.onSyncTimer, sync.go 228-250. -/
def onSyncTimer (necessary : Bool) (search : Prog) (o : Outcome) : Prog :=
  [.acq .data, .use .data] ++ (if necessary then expressStateVec search o else []) ++
    cancel ++ schedule ++ [.use .data, .rel .data]

/-- SvsNode.NewData, sync.go 266-291. -/
def newData (save : Prog) (made : Bool) (search : Prog) (o : Outcome) : Prog :=
  [.acq .data, .use .data] ++ provide save ++
    (if made then expressStateVec search o else []) ++ [.use .data, .rel .data]

/-- SvsNode.onAttach, sync.go 293-330, on a new lock. -/
def svsAttach : Prog := [.acq .data, .use .data] ++ schedule ++ [.use .data, .rel .data]

/-- SvsNode.onDetach, sync.go 332-340, without the channels. -/
def svsDetach : Prog := [.acq .data, .use .data] ++ cancel ++ [.use .data, .rel .data]

end Ndn.Engine.Locks
