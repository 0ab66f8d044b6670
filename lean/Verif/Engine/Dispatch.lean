import Verif.Packet.Parse
import Verif.Packet.Encode

/-!
# Model of the dispatch of received packets and of replies, `/repo/pkg/engine/basic/default_engine.go`

Every face hands the engine a `BufferReader` (basic/transports.go:65,161, basic/wasmws.go:34, basic/wasmsim.go:28,
dummy/transports.go:55).  Logging is left out.
-/

namespace Ndn.Engine
open Ndn.Packet Ndn.Codec Ndn.Codec.Schema

/-- `LpPacket.IncomingFaceId` -/
def lpIncoming (v : lpPacket.V) : Option Nat := v.2.2.2.2.2.1

/-- what `onPacket` does -/
inductive Action where
  | drop
  /-- `onInterest` with `Interest`, `RawInterest`, `SigCovered`, `PitToken`, `IncomingFaceId` -/
  | interest (v : InterestV) (raw cov : Wire) (token : Option Bytes) (face : Option Nat)
  /-- `onData` -/
  | data (v : DataV) (cov raw : Wire) (token : Option Bytes)
  /-- `onNack` -/
  | nack (name : Option Name) (reason : Nat)
  /-- `log.Fatalf` -/
  | fatal

/-- default_engine.go:162-195 -/
def route (pkt : PacketSt) (raw : Wire) (reason : Nat) (token : Option Bytes) (face : Option Nat) : Action :=
  if reason ≠ 0 then
    match pkt.interest with
    | none => .drop
    | some i => .nack i.name reason
  else match pkt.interest with
    | some i => .interest i raw pkt.ictx.sigCovered token face
    | none =>
      match pkt.data with
      | some d => .data d pkt.dctx.sigCovered raw token
      | none => .fatal

/-- default_engine.go:133-158: a link packet.  The parser makes one buffer of `Fragment`, so line 140 applies; without a `Fragment`
(the packet also had a Data or an Interest), `ReadPacket` gets an empty reader (line 142) and returns an error. -/
def onLink (sha : Bytes → Bytes) (fuel : Nat) (lp : lpPacket.V) : Option (Res Action) :=
  if (lpFragIndex lp).isSome || (lpFragCount lp).isSome then some (.ok .drop)
  else match lpFragment lp with
    | none => some (.ok .drop)
    | some raw =>
      match readPacket sha fuel (BR.new raw.flatten) with
      | none => none
      | some .panic => some .panic
      | some (.err e) => some (.err e)
      | some (.ok (.error _)) => some (.ok .drop)
      | some (.ok (.ok pkt)) =>
        if pkt.data.isNone = pkt.interest.isNone then some (.ok .drop)
        else some (.ok (route pkt raw ((lpNack lp).getD 0) (lpPitToken lp) (lpIncoming lp)))

/-- `onPacket`, default_engine.go:112-196.  `none`: does not return. -/
def onPacket (sha : Bytes → Bytes) (fuel : Nat) (buf : Bytes) : Option (Res Action) :=
  match readPacket sha fuel (BR.new buf) with
  | none => none
  | some .panic => some .panic
  | some (.err e) => some (.err e)
  | some (.ok (.error _)) => some (.ok .drop)
  | some (.ok (.ok pkt)) =>
    match pkt.lp with
    | some lp => onLink sha fuel lp
    | none => some (.ok (route pkt [buf] 0 none none))

/-- `DefaultInterestLife`, default_engine.go:21, in nanoseconds -/
def defaultInterestLife : Int := 4000000000

/-- `args.Deadline`, default_engine.go:201-207; `now` is when the Interest came in.  (Times do not overflow.) -/
def replyDeadline (now : Int) (lifetime : Option Int) : Int := now + lifetime.getD defaultInterestLife

/-- errors of `Reply` -/
inductive ReplyErr where
  | deadlineExceeded
  | faceDown
  | failedToEncode
  /-- the error of `face.Send` -/
  | send
  deriving DecidableEq

/-- the fields of an `LpPacket` with `PitToken` and `Fragment`, zz_generated.go:2350-2730 (nocopy) -/
def lpFields (token : Bytes) (fragment : Option Wire) : List NF := [.elem 0x62 .bin token] ++ optWire 0x50 fragment

/-- `args.Reply`, default_engine.go:232-259: the error that is returned, and what is given to `face.Send`.  `fails` tells whether
`Send` fails. -/
def reply (deadline now : Int) (running : Bool) (token : Option Bytes) (fails : Wire → Bool) (encodedData : Option Wire) :
    Res (Option ReplyErr × Option (Option Wire)) :=
  if deadline < now then .ok (some .deadlineExceeded, none)
  else if !running then .ok (some .faceDown, none)
  else match token with
    | some t => (packetEncode 100 (lpFields t encodedData)).map fun p => (if fails p.1 then some .send else none, some (some p.1))
    | none => .ok (if fails (encodedData.getD []) then some .send else none, some encodedData)

end Ndn.Engine
