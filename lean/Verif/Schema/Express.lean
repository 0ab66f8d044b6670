import Verif.Schema.Event
import Verif.Packet.Parse
import Verif.Engine.Pit

/-!
# Model of the expressing point, `/repo/pkg/schema/expressing_point.go`

Listeners are arbitrary functions on the state `S` of the program; they return.  An answer that is not of the expected type (or nil) is `none`.
What the listeners get to see of the event, and logging, are left out.
-/

namespace Ndn.Schema
open Ndn.Packet Ndn.Codec Ndn.Engine

/-! ## Validation -/

/-- `ValidRes`, interface.go:100-109: -2 fail, -1 timeout, 0 silence, 1 pass, 2 bypass, 3 cached data.  `none`: not a `ValidRes`. -/
abbrev VAns := Option Int

/-- `return !ok || res < VrSilence || res >= VrBypass`, expressing_point.go:126 and :296 -/
def stopValidation : VAns → Bool
  | none => true
  | some r => decide (r < 0) || decide (2 ≤ r)

/-- the listeners for an event with what they do -/
structure Listeners (S A : Type) where
  val : List Cb
  beh : Cb → S → A × S

/-- the call of `DispatchUntil` in expressing_point.go:123-127 and :293-297: the result, the state, and the calls with their answers -/
def validate {S : Type} (v : Listeners S VAns) (s : S) : VAns × S × List (Cb × VAns) := dispatchUntil v.beh (some stopValidation) none v.val s

/-- `!ok || res < VrSilence` and `res == VrSilence`, expressing_point.go:129-136 and :302-315 -/
def refused : VAns → Bool
  | none => true
  | some r => decide (r < 0) || r == 0

/-- `ndn.InterestResult`, ndn.go -/
inductive Status where
  | none
  | data
  | nack
  | timeout
  | unverified
  deriving DecidableEq

/-- What the goroutine of expressing_point.go:279-324 does with a Data: the `NeedStatus` given to the callback, the calls of listeners of
`OnValidateData`, and whether `OnSaveStorage` is dispatched. -/
def onDataResult {S : Type} (v : Listeners S VAns) (s : S) : Status × List (Cb × VAns) × Bool :=
  match validate v s with
  | (r, _, calls) => if refused r then (.unverified, calls, false) else (.data, calls, true)

/-- `SignatureInfo.SignatureType` -/
def siType (si : Codec.Schema.signatureInfo.V) : Nat := si.1

/-- `SigType`, spec.go:137-143: the conversion from `uint64` to `int` -/
def sigTypeOf (i : InterestV) : Int := match i.sigInfo with
  | none => -1
  | some si => toInt (siType si)

/-- what `OnInterest` does -/
inductive IntAction where
  | panic
  | replied (w : Wire)
  | dropped (calls : List (Cb × VAns))
  /-- `OnInt.DispatchUntil` is called -/
  | handled (calls : List (Cb × VAns))

/-- expressing_point.go:116-144, after the search in the storage -/
def afterCache {S : Type} (i : InterestV) (v : Listeners S VAns) (s : S) : IntAction :=
  if sigTypeOf i ≠ -1 ∨ i.appParam.isSome then
    match validate v s with
    | (r, _, calls) => if refused r then .dropped calls else .handled calls
  else .handled []

/-- `OnInterest`, expressing_point.go:78-153; `cached` is the result of `SearchCache` -/
def onInterest {S : Type} (i : InterestV) (cached : Option Wire) (v : Listeners S VAns) (s : S) : IntAction :=
  match (i.name.getD []).getLast? with
  | none => .panic
  | some _ =>
    match cached with
    | some w => if w.isEmpty then afterCache i v s else .replied w
    | none => afterCache i v s

/-! ## Fetching -/

/-- What a call of `NeedCallback` meets: whether there is a signer and a parameter, what `SearchCache` returned and whether `ReadData` accepts
it, the final name made by `MakeInterest` (`none`: error), whether the Interest is suppressed, and whether `face.Send` succeeds. -/
structure Need where
  signer : Bool := false
  appParam : Bool := false
  cached : Option Bool := none
  made : Option Name
  supress : Bool := false
  sendOk : Bool := true
  lifetime : Nat := 4000000000
  canBePrefix : Bool := true
  delay : Nat := 0

/-- The engine and the callbacks of `NeedCallback`.  `direct` are the callbacks called by `NeedCallback` itself, `asked` the calls of
`NeedCallback` that gave a closure to the engine, with the number the engine knows it by. -/
structure NeedState where
  pit : Pit := Pit.new
  next : Nat := 0
  direct : List (Nat × Status) := []
  asked : List (Nat × Nat) := []

/-- `NeedCallback`, expressing_point.go:158-335.  Goroutines that only call `callback` run at once. -/
def NeedState.need (s : NeedState) (e : Need) : NeedState :=
  let k := s.next
  let s := { s with next := s.next + 1 }
  if !e.signer && !e.appParam && e.cached == some true then { s with direct := (k, .data) :: s.direct }
  else match e.made with
    | none => { s with direct := (k, .none) :: s.direct }
    | some name =>
      if e.supress then { s with direct := (k, .nack) :: s.direct }
      else match s.pit.express name e.lifetime e.canBePrefix e.delay with
        | (false, pit) => { s with pit := pit, direct := (k, .none) :: s.direct }
        | (true, pit) =>
          let s := { s with pit := pit, asked := (k, s.pit.next) :: s.asked }
          if e.sendOk then s else { s with direct := (k, .none) :: s.direct }

/-- the closure given to `engine.Express`, expressing_point.go:270-325: what it gives to the callback.  `verdict` is what the validation of a Data
leads to (`onDataResult`). -/
def closure (verdict : Name → Bytes → Status) : Outcome → Status
  | .data name raw => verdict name raw
  | .nack _ => .nack
  | .timeout => .timeout

/-- events of a program that calls `NeedCallback` -/
inductive NeedEvent where
  | need (e : Need)
  /-- anything else that happens to the engine -/
  | engine (ev : PitEvent)

def NeedState.step (sha : Bytes → Bytes) (s : NeedState) : NeedEvent → NeedState
  | .need e => s.need e
  | .engine ev => { s with pit := s.pit.step sha ev }

/-- the state after a schedule, most recent event first -/
def needAfter (sha : Bytes → Bytes) : List NeedEvent → NeedState
  | [] => {}
  | ev :: evs => (needAfter sha evs).step sha ev

/-- The invocations of the callback given to the `k`-th call of `NeedCallback`: those by `NeedCallback` itself, and one for every time the engine
calls its closure. -/
def NeedState.invocations (verdict : Name → Bytes → Status) (s : NeedState) (k : Nat) : List Status :=
  (s.pit.calls.filter fun c => s.asked.contains (k, c.1)).map (fun c => closure verdict c.2) ++ (s.direct.filter (·.1 == k)).map (·.2)

/-- `NeedChan`, expressing_point.go:338-356: what happens to the channel when the callback is invoked with these results.  A second invocation
sends on a closed channel. -/
def chanAfter : List Status → Res (Option Status)
  | [] => .ok none
  | [x] => .ok (some x)
  | _ => .panic

end Ndn.Schema
