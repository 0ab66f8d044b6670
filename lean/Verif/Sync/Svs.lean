import Verif.Enc.Name

/-!
# State vector sync (`pkg/sync/svs.go`)

The state of `SvSync` under its mutex, and the events that change it.  A Go map is an association list with at most one entry for a key;
no result depends on the order of iteration, except that of `encodeSv`, which sorts.  `xxhash` is an arbitrary function `H` of the
bytes that are hashed.  Not modelled: parsing of the received Interest (`onSyncInterest`, see C48 for the encoding), the
durations of the timer (the timer may expire at any moment), the engine; `MakeInterest` and `Express` succeed.
-/

namespace Ndn.Sync

/-- a Go map with keys `uint64` -/
abbrev GMap (β : Type) := List (Nat × β)

/-- `m[k]`, `none` when absent -/
def GMap.get {β : Type} (m : GMap β) (k : Nat) : Option β := (m.find? (fun e => e.1 == k)).map (·.2)

/-- `m[k] = v` -/
def GMap.put {β : Type} (m : GMap β) (k : Nat) (v : β) : GMap β :=
  if m.any (fun e => e.1 == k) then m.map (fun e => if e.1 == k then (k, v) else e) else m ++ [(k, v)]

/-- pkg/encoding/name_component.go:555-560 `Component.HashInto`: what is written to the hash -/
def compHashed (c : Component) : Bytes := be 8 c.typ ++ c.val

/-- pkg/encoding/name_pattern.go:103-111 `Name.Hash` -/
def nameHash (H : Bytes → Nat) (n : Name) : Nat := H (n.flatMap compHashed)

/-- `x + 1` on `uint64` -/
def incr64 (x : Nat) : Nat := if x + 1 = 18446744073709551616 then 0 else x + 1

/-- svs.go:41-45 `SvSyncUpdate` -/
structure Update where
  name : Name
  high : Nat
  low : Nat
deriving DecidableEq

/-- a received or sent state vector (`StateVector.Entries`; the elements of a parsed sequence are not nil, a missing name is empty) -/
abbrev Vec := List (Name × Nat)

/-- svs.go:18-39 `SvSync`; `spawned` counts the started `sendSyncInterest` goroutines that have not run, `updates` are the calls of
`onUpdate`, `sent` the vectors sent, latest first -/
structure Svs where
  state : GMap Nat := []
  names : GMap Name := []
  mtime : GMap Nat := []
  suppress : Bool := false
  merge : GMap Nat := []
  running : Bool := false
  spawned : Nat := 0
  updates : List Update := []
  sent : List Vec := []
deriving DecidableEq

/-- svs.go:62 `suppressionPeriod`, in nanoseconds -/
def suppressionPeriod : Nat := 200000000

/-- the recorded sequence number, `s.state[hash]` -/
def Svs.seq (s : Svs) (h : Nat) : Nat := (s.state.get h).getD 0

/-- svs.go:158-164 `hashName`: remembers the name on first use -/
def Svs.hashName (H : Bytes → Nat) (s : Svs) (n : Name) : Nat × Svs :=
  let h := nameHash H n
  (h, if (s.names.get h).isSome then s else { s with names := s.names.put h n })

/-- svs.go:117-134 `SetSeqNo`; the flag is false when an error is returned -/
def Svs.setSeqNo (H : Bytes → Nat) (s : Svs) (n : Name) (seqNo : Nat) : Bool × Svs :=
  let (h, s) := s.hashName H n
  if seqNo ≤ s.seq h then (false, s)
  else (true, { s with state := s.state.put h seqNo, spawned := s.spawned + 1 })

/-- svs.go:136-141 `GetSeqNo`: what is returned -/
def Svs.getSeqNo (H : Bytes → Nat) (s : Svs) (n : Name) : Nat := s.seq (nameHash H n)

/-- svs.go:143-156 `IncrSeqNo` -/
def Svs.incrSeqNo (H : Bytes → Nat) (s : Svs) (n : Name) : Nat × Svs :=
  let (h, s) := s.hashName H n
  let val := incr64 (s.seq h)
  (val, { s with state := s.state.put h val, spawned := s.spawned + 1 })

/-- local variables of `onReceiveStateVector` -/
structure Recv where
  s : Svs
  isOutdated : Bool := false
  canDrop : Bool := true
  recvSet : List Nat := []

/-- svs.go:174-214: one entry of the received vector; an absent `mtime` is the zero time, long past -/
def Recv.entry (H : Bytes → Nat) (now : Nat) (r : Recv) (e : Name × Nat) : Recv :=
  let (h, s) := r.s.hashName H e.1
  let prev := s.seq h
  let r : Recv :=
    if e.2 > prev then
      { r with s := { s with state := s.state.put h e.2, mtime := s.mtime.put h now,
                             updates := ⟨e.1, e.2, incr64 prev⟩ :: s.updates } }
    else if e.2 < prev then
      { r with s := s, isOutdated := true,
               canDrop := r.canDrop && (match s.mtime.get h with | some t => !decide (t + suppressionPeriod < now) | none => false) }
    else { r with s := s }
  { r with
    recvSet := h :: r.recvSet
    s := if r.s.suppress && decide (e.2 > (r.s.merge.get h).getD 0) then { r.s with merge := r.s.merge.put h e.2 } else r.s }

/-- svs.go:166-245 `onReceiveStateVector` -/
def Svs.receive (H : Bytes → Nat) (s : Svs) (sv : Vec) (now : Nat) : Svs :=
  let r := sv.foldl (Recv.entry H now) { s := s }
  let missing := !r.isOutdated && r.s.state.any (fun e => !r.recvSet.contains e.1)
  let isOutdated := r.isOutdated || missing
  let canDrop := r.canDrop && !missing
  if !isOutdated then { r.s with suppress := false }
  else if canDrop || r.s.suppress then r.s
  else { r.s with suppress := true, merge := [] }

/-- svs.go:247-272 `timerExpired` -/
def Svs.timerExpired (s : Svs) : Svs :=
  if s.suppress && !s.state.any (fun e => decide (e.2 > (s.merge.get e.1).getD 0)) then { s with suppress := false }
  else { s with spawned := s.spawned + 1 }

/-- insertion into a list sorted by canonical order, svs.go:345-347 -/
def insertVec (e : Name × Nat) : Vec → Vec
  | [] => [e]
  | f :: l => if Name.compare e.1 f.1 < 0 then e :: f :: l else f :: insertVec e l

/-- svs.go:335-347: the entries of `encodeSv`, sorted -/
def Svs.vector (s : Svs) : Vec := (s.state.map (fun e => ((s.names.get e.1).getD [], e.2))).foldr insertVec []

/-- svs.go:274-312 `sendSyncInterest` -/
def Svs.sendSyncInterest (s : Svs) : Svs :=
  if s.running then { s with suppress := false, sent := s.vector :: s.sent } else s

inductive SvEvent where
  | set (n : Name) (seqNo : Nat)
  | incr (n : Name)
  /-- the main loop takes a vector from the channel -/
  | recv (sv : Vec) (now : Nat)
  /-- the main loop sees the ticker -/
  | timer
  /-- a goroutine `sendSyncInterest` runs -/
  | send
  /-- the main loop starts -/
  | run
  /-- the main loop ends -/
  | halt

/-- one event; `recv` and `timer` happen only in the main loop, svs.go:90-104 -/
def Svs.step (H : Bytes → Nat) (s : Svs) : SvEvent → Svs
  | .set n q => (s.setSeqNo H n q).2
  | .incr n => (s.incrSeqNo H n).2
  | .recv sv now => if s.running then s.receive H sv now else s
  | .timer => if s.running then s.timerExpired else s
  | .send => if s.spawned = 0 then s else { s with spawned := s.spawned - 1 }.sendSyncInterest
  | .run => { s with running := true }
  | .halt => { s with running := false }

/-- the state after some events, the latest first; svs.go:47-74 `NewSvSync` -/
def svsAfter (H : Bytes → Nat) : List SvEvent → Svs
  | [] => {}
  | e :: evs => (svsAfter H evs).step H e

end Ndn.Sync
