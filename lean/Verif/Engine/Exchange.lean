import Verif.Engine.Dispatch
import Verif.Engine.Pit
import Verif.Engine.Fib

/-!
# An engine that receives packets: dispatch, handlers and pending Interests together

`/repo/pkg/engine/basic/default_engine.go` 112-340.  Engine/Dispatch has what a received packet is, Engine/Fib the table of handlers and Engine/Pit the table of
pending Interests; here one call of `onPacket` goes through all of them.  Logging is left out; what the application does in a handler or callback is not
part of this.
-/

namespace Ndn.Engine
open Ndn.Packet Ndn.Codec

/-- The two tables of an engine, default_engine.go:46-71. -/
structure Eng where
  fib : Fib
  pit : Pit

/-- What the application sees of a packet. -/
inductive Seen where
  | nothing
  /-- the handler is called: `Interest`, `RawInterest`, `SigCovered`, `PitToken`, `Deadline` of `ndn.InterestHandlerArgs` -/
  | handler (h : Nat) (v : InterestV) (raw cov : Wire) (token : Option Bytes) (deadline : Int)
  /-- callbacks (latest first) are called with `Data`, `RawData`, `SigCovered` of `ndn.ExpressCallbackArgs` -/
  | data (calls : List Nat) (v : DataV) (raw cov : Wire)
  /-- callbacks are called with `NackReason` -/
  | nack (calls : List Nat) (reason : Nat)
  /-- `log.Fatalf` ends the process -/
  | exit

/-- the callbacks that were called since: all calls are recorded, latest first -/
def newCalls (old new : Pit) : List Nat := (new.calls.take (new.calls.length - old.calls.length)).map (·.1)

/-- `onPacket` with `onInterest` (198-264), `onData` (266-318) and `onNack` (320-340).  A nil name is an empty one. -/
def Eng.receive (sha : Bytes → Bytes) (fuel : Nat) (e : Eng) (now : Int) (buf : Bytes) : Option (Res (Eng × Seen)) :=
  match onPacket sha fuel buf with
  | none => none
  | some .panic => some .panic
  | some (.err x) => some (.err x)
  | some (.ok a) => some (.ok (match a with
    | .drop => (e, .nothing)
    | .interest v raw cov token _ => (e, match e.fib.handler (v.name.getD []) with
      | none => .nothing
      | some h => .handler h v raw cov token (replyDeadline now v.lifetime))
    | .data v cov raw _ =>
      let p := e.pit.onData sha (v.name.getD []) raw.flatten
      ({ e with pit := p }, .data (newCalls e.pit p) v raw cov)
    | .nack name reason =>
      let p := e.pit.onNack (name.getD []) reason
      ({ e with pit := p }, .nack (newCalls e.pit p) reason)
    | .fatal => (e, .exit)))

end Ndn.Engine
