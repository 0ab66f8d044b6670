import Verif.Go.Basic

/-!
# Model of the sync node of the schema tree, `/repo/pkg/schema/svs/sync.go`

The state of `SvsNode` under `dataLock`, and the events that change it, from `onAttach` on; nothing is received after `onDetach`.  The timer may
expire at any moment (durations are not modelled).  The reader of `missChan` takes what is put there, so that a send on the full channel is only late.
`ParseStateVec` and `Provide` are given by their outcome; `Refine` does not return nil.
-/

namespace Ndn.Schema

/-- `StateVec.Entries`: node ids and sequence numbers.  Entries are pointers; those of `localSv` are made by the node and occur nowhere else, those
of `aggSv` are made by the parser or by the node and occur nowhere else. -/
abbrev SVec := List (Bytes × Nat)

/-- the entry that `findSvsEntry` finds, sync.go:101-109: the number of the first one with this id -/
def SVec.get : SVec → Bytes → Option Nat
  | [], _ => none
  | e :: v, id => if e.1 = id then some e.2 else SVec.get v id

/-- `v.Entries[v.findSvsEntry(id)].SeqNo = seq`; no change if there is no such entry -/
def SVec.set : SVec → Bytes → Nat → SVec
  | [], _, _ => []
  | e :: v, id, seq => if e.1 = id then (e.1, seq) :: v else e :: SVec.set v id seq

/-- `MissingData`, sync.go:20-24: the numbers from `start` up to but not including `stop` -/
structure Missing where
  id : Bytes
  start : Nat
  stop : Nat
  deriving DecidableEq

/-- `SvsNode`, sync.go:37-60.  `missing`: what was sent on `missChan`, first first; `sent`: the vectors expressed, first first. -/
structure SvsN where
  self : Bytes
  sv : SVec
  agg : SVec
  suppress : Bool
  selfSeq : Nat
  missing : List Missing
  sent : List SVec
  deriving DecidableEq

/-- `onAttach`, sync.go:293-330 -/
def SvsN.attach (self : Bytes) : SvsN := ⟨self, [(self, 0)], [], false, 0, [], []⟩

/-- `uint64` addition of 1 -/
def next64 (x : Nat) : Nat := (x + 1) % 2 ^ 64

/-- one turn of the first loop of `onSyncInt`, sync.go:126-152 -/
def SvsN.entry (st : SvsN × Bool) (cur : Bytes × Nat) : SvsN × Bool :=
  match st.1.sv.get cur.1 with
  | none => ({ st.1 with sv := st.1.sv ++ [cur], missing := st.1.missing ++ [⟨cur.1, 1, next64 cur.2⟩] }, st.2)
  | some q =>
    if q < cur.2 then ({ st.1 with sv := st.1.sv.set cur.1 cur.2, missing := st.1.missing ++ [⟨cur.1, next64 q, next64 cur.2⟩] }, st.2)
    else if q > cur.2 then (st.1, true)
    else st

/-- one turn of `aggregate`, sync.go:214-226 -/
def aggEntry (agg : SVec) (cur : Bytes × Nat) : SVec :=
  match agg.get cur.1 with
  | none => agg ++ [cur]
  | some q => agg.set cur.1 (max q cur.2)

/-- `onSyncInt`, sync.go:111-203.  `none`: the content does not parse; the error is only logged, and `remoteSv.Entries` panics. -/
def SvsN.onSyncInt (n : SvsN) : Option SVec → Res SvsN
  | none => .panic
  | some remote =>
    let st := remote.foldl SvsN.entry (n, false)
    let needNotif := st.2 || st.1.sv.any (fun cur => (remote.get cur.1).isNone)
    if needNotif || st.1.suppress then
      if st.1.suppress = false then .ok { st.1 with suppress := true, agg := remote }
      else .ok { st.1 with agg := remote.foldl aggEntry st.1.agg }
    else .ok st.1

/-- `expressStateVec`, sync.go:252-254 -/
def SvsN.express (n : SvsN) : SvsN := { n with sent := n.sent ++ [n.sv] }

/-- `onSyncTimer`, sync.go:228-250 -/
def SvsN.onSyncTimer (n : SvsN) : SvsN :=
  if n.suppress then
    let n := { n with suppress := false }
    if n.sv.all (fun cur => match n.agg.get cur.1 with
      | none => false
      | some q => decide (cur.2 ≤ q)) then n else n.express
  else n.express

/-- `NewData`, sync.go:266-291.  `provided`: `Provide` gives a packet. -/
def SvsN.newData (n : SvsN) (provided : Bool) : SvsN :=
  if provided then
    let seq := next64 n.selfSeq
    SvsN.express { n with selfSeq := seq, sv := n.sv.set n.self seq, suppress := false }
  else n

/-- what may happen to an attached node -/
inductive SvsNEvent where
  | sync (remote : Option SVec)
  | timer
  | newData (provided : Bool)

/-- a step; after a panic nothing happens -/
def SvsN.step (n : SvsN) : SvsNEvent → Res SvsN
  | .sync r => n.onSyncInt r
  | .timer => .ok n.onSyncTimer
  | .newData p => .ok (n.newData p)

/-- the node after a history, latest event first -/
def svsNAfter (self : Bytes) : List SvsNEvent → Res SvsN
  | [] => .ok (SvsN.attach self)
  | e :: evs => match svsNAfter self evs with
    | .ok n => n.step e
    | .err e => .err e
    | .panic => .panic

/-- the number recorded for a producer (0 if there is no entry) -/
def SvsN.recorded (n : SvsN) (id : Bytes) : Nat := (n.sv.get id).getD 0

end Ndn.Schema
