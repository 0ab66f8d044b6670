import Verif.Packet.Parse

/-!
# Model of the encoders that do not copy, `/repo/pkg/encoding/codegen` and `/repo/pkg/ndn/spec_2022/zz_generated.go`

`Interest`, `Data`, `LpPacket` and `Packet` have the option `nocopy`: a wire field is not copied; its buffers become buffers of the
result.  `Init` computes the length and `wirePlan`, the lengths of the buffers to allocate; `EncodeInto` writes.  Values that are
not there are left out: the list of fields given to the encoder has only those with something to encode.
-/

namespace Ndn.Packet
open Ndn.Codec Ndn.Codec.Schema

/-- a field with something to encode -/
inductive NF where
  /-- a field that is copied -/
  | elem (typ : Nat) (e : Elem) (v : e.V)
  /-- a `bool` that is set -/
  | flag (typ : Nat)
  /-- the name of an Interest, signature.go:150-218 (with `needDigest`) -/
  | iname (n : Name) (need : Bool)
  /-- `sigCoverStart`, markers.go:35-86 -/
  | mark
  /-- a wire, fields_wire.go:54-69 -/
  | wire (typ : Nat) (w : Wire)
  /-- a signature value with a positive estimated length, signature.go:25-98 -/
  | sig (typ est : Nat)

/-- type and length of an element with a value of `l` bytes, and the value: the switches of the generated code -/
def tlvLen (typ l : Nat) : Nat := tlLen typ + tlLen l + l

/-- the first pass of `Init`: bytes of a field -/
def NF.len : NF → Nat
  | .elem typ e v => tlLen typ + e.encLen v
  | .flag typ => tlLen typ + 1
  | .iname n _ => tlvLen 7 (Name.encLen n)
  | .mark => 0
  | .wire typ w => tlvLen typ (Wire.byteLen w)
  | .sig typ est => tlvLen typ est

/-- the first pass of `Init`: `encoder.length` -/
def encLength (fs : List NF) : Nat := (fs.map NF.len).foldl (· + ·) 0

/-- the first pass of `Init`: `encoder.sigCoverStart` -/
def coverStart : Nat → List NF → Nat
  | _, [] => 0
  | l, .mark :: _ => l
  | l, f :: fs => coverStart (l + f.len) fs

/-- the second pass of `Init`: `wirePlan` -/
def wirePlan : Nat → List NF → List Nat
  | l, [] => if l > 0 then [l] else []
  | l, .wire typ w :: fs => (l + (tlLen typ + tlLen (Wire.byteLen w))) :: (w.map fun _ => 0) ++ wirePlan 0 fs
  | l, .sig typ est :: fs => (l + (tlLen typ + tlLen est)) :: 0 :: wirePlan 0 fs
  | l, f :: fs => wirePlan (l + f.len) fs

/-- the second pass of `Init`: `SignatureValue_wireIdx`, given `len(wirePlan)` -/
def sigIdx : Nat → List NF → Option Nat
  | _, [] => none
  | n, .wire _ w :: fs => sigIdx (n + 1 + w.length) fs
  | n, .sig _ _ :: _ => some (n + 1)
  | n, _ :: fs => sigIdx n fs

/-- the local variables of `EncodeInto` and the fields of the encoder that it sets.  `buf` is `wire[wireIdx]`, or nil behind the last buffer.
A slice of a buffer that is kept (`sigCovered`) is taken as its bytes at that time; they do not change any more. -/
structure ES where
  wire : List Bytes
  idx : Nat := 0
  pos : Nat := 0
  coverIdx : Nat := 0
  covered : Wire := []
  namePos : Nat := 0

def ES.buf (s : ES) : Bytes := s.wire.getD s.idx []

/-- write to `buf` -/
def ES.write (f : WS → Res WS) (s : ES) : Res ES := (f (s.buf, s.pos)).map fun w => { s with wire := s.wire.set s.idx w.1, pos := w.2 }

/-- `wireIdx++; pos = 0; buf = wire[wireIdx]` -/
def ES.next (s : ES) : ES := { s with idx := s.idx + 1, pos := 0 }

/-- `b[i:j]` -/
def sliceOf (b : Bytes) (i j : Nat) : Res Bytes := if i ≤ j ∧ j ≤ b.length then .ok ((b.take j).drop i) else .panic

/-- `for _, w := range value { wire[wireIdx] = w; … }` -/
def ES.putBufs : List Bytes → ES → Res ES
  | [], s => .ok s
  | w :: ws, s => if s.idx < s.wire.length then ES.putBufs ws (ES.next { s with wire := s.wire.set s.idx w }) else .panic

/-- signature.go:60-98: the covered part, up to `startPos` in `buf` -/
def ES.coverTo (start startPos : Nat) (s : ES) : Res ES :=
  if s.coverIdx = s.idx then
    (sliceOf s.buf start startPos).map fun b => { s with covered := s.covered ++ [b] }
  else
    (sliceOf (s.wire.getD s.coverIdx []) start (s.wire.getD s.coverIdx []).length).bind fun b0 =>
      (sliceOf s.buf 0 startPos).map fun b1 =>
        { s with covered := s.covered ++ ([b0] ++ (s.wire.take s.idx).drop (s.coverIdx + 1) ++ [b1]) }

/-- `EncodeInto`: one field; `start` is `encoder.sigCoverStart` -/
def NF.encodeInto (start : Nat) : NF → ES → Res ES
  | .elem typ e v, s => s.write fun w => (put (tlEnc typ) w).bind (e.encodeInto v)
  | .flag typ, s => s.write fun w => (put (tlEnc typ) w).bind (put [0])
  | .iname n need, s =>
    (s.write fun w => (put (tlEnc 7) w).bind (put (tlEnc (Name.encLen n)))).bind fun s1 =>
      (s1.write (putAll putComponent n.dropLast)).bind fun s2 =>
        (match n.getLast? with
          | none => Res.ok s2
          | some c => ({ s2 with namePos := s2.pos + 2 } : ES).write (putComponent c)).bind fun s3 =>
          (sliceOf s3.buf s1.pos (if need then s2.pos else s3.pos)).map fun b => { s3 with covered := s3.covered ++ [b] }
  | .mark, s => .ok { s with coverIdx := s.idx }
  | .wire typ w, s =>
    (s.write fun x => (put (tlEnc typ) x).bind (put (tlEnc (Wire.byteLen w)))).bind fun s1 => s1.next.putBufs w
  | .sig typ est, s =>
    (s.write fun x => (put (tlEnc typ) x).bind (put (tlEnc est))).bind fun s1 =>
      (s1.coverTo start s.pos).map fun s2 => s2.next.next

/-- `EncodeInto` -/
def encodeFields (start : Nat) : List NF → ES → Res ES
  | [], s => .ok s
  | f :: fs, s => (f.encodeInto start s).bind (encodeFields start fs)

/-- `wire[i] = make([]byte, l)` -/
def alloc (plan : List Nat) : List Bytes := plan.map fun l => List.replicate l 0

/-- `PacketEncoder.Init`, zz_generated.go:4719-4857, for one element: `wirePlan`; `len` and `plan` are those of the element's encoder.  (The
last buffer is appended in one of two places, depending on whether it is empty.) -/
def packetPlan (typ len : Nat) (plan : List Nat) : List Nat :=
  match (if len > 0 then plan else []) with
  | [] => [tlLen typ + tlLen len]
  | p :: ps => (tlLen typ + tlLen len + p) :: ps

/-- `PacketEncoder.Init` and `Encode`, zz_generated.go:4719-5022, for a packet with one element: the wire and the state of the element's
encoder.  The element's encoder gets the rest of the first buffer, behind type and length, and the other buffers. -/
def packetEncode (typ : Nat) (fs : List NF) : Res (Wire × ES) :=
  let wire := alloc (packetPlan typ (encLength fs) (wirePlan 0 fs))
  ((put (tlEnc typ) (wire.getD 0 [], 0)).bind (put (tlEnc (encLength fs)))).bind fun w =>
    if encLength fs > 0 then
      (encodeFields (coverStart 0 fs) fs { wire := w.1.drop w.2 :: wire.tail }).bind fun s =>
        match s.wire with
        | [] => .panic
        | b :: bs => .ok ((w.1.take w.2 ++ b) :: bs, s)
    else .ok (wire.set 0 w.1, { wire := [] })

/-- an optional field that is copied -/
def optElem (typ : Nat) (e : Elem) : Option e.V → List NF
  | none => []
  | some v => [.elem typ e v]

/-- an optional wire -/
def optWire (typ : Nat) : Option Wire → List NF
  | none => []
  | some w => [.wire typ w]

/-- a signature value -/
def optSig (typ est : Nat) : List NF := if est > 0 then [.sig typ est] else []

/-- the fields of a Data, zz_generated.go:4165-4540; the signature value is filled in later -/
def dataFields (v : DataV) (est : Nat) : List NF :=
  [.mark] ++ optElem 0x07 .name v.name ++ optElem 0x14 (.struct Schema.metaInfo) v.metaInfo ++ optWire 0x15 v.content ++
    optElem 0x16 (.struct signatureInfo) v.sigInfo ++ optSig 0x17 est

/-- `InterestEncoder.Init`, zz_generated.go:3320-3336: the name that is encoded, with room for the digest -/
def interestName (need : Bool) (n : Name) : Name :=
  (match n.getLast? with
    | some c => if c.typ = typParamsDigest then n.dropLast else n
    | none => n) ++ if need then [⟨typParamsDigest, List.replicate 32 0⟩] else []

/-- the fields of an Interest, zz_generated.go:3318-3823; the name is as `interestName` makes it -/
def interestFields (v : InterestV) (need : Bool) (est : Nat) : List NF :=
  (match v.name with | none => [] | some n => [.iname n need]) ++
    (if v.canBePrefix then [.flag 0x21] else []) ++ (if v.mustBeFresh then [.flag 0x12] else []) ++
    optElem 0x1e (.struct links) v.fwdHint ++ optElem 0x0a (.fixed 4 false) v.nonce ++ optElem 0x0c .time v.lifetime ++
    optElem 0x22 (.fixed 1 true) v.hopLimit ++ [.mark] ++ optWire 0x24 v.appParam ++
    optElem 0x2c (.struct signatureInfo) v.sigInfo ++ optSig 0x2e est

end Ndn.Packet
