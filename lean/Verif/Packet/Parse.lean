import Verif.Codec.Schemas

/-!
# Model of the packet parsers, `/repo/pkg/ndn/spec_2022`

`Interest` and `Data` are TLV models with the `ordered` option; `Packet` holds an `Interest`, a `Data` or an `LpPacket`.
-/

namespace Ndn.Packet
open Ndn.Codec Ndn.Codec.Schema

/-! ## Parsers of models with ordered fields, codegen/model.go:147-247 -/

/-- One field of an ordered model.  `typ` is 0 for markers and procedure arguments.  `read` gets `startPos`, the length, the local
state and the reader (the template `GenReadFrom`); `skip` gets `startPos` (the template `GenSkipProcess`). -/
structure Slot (σ : Type) where
  typ : Nat
  read : Nat → Nat → σ → BR → PR σ
  skip : Nat → σ → BR → Res σ

/-- The local variables of `Parse`: `left` is the number of rounds the loop over `progress` may still do, that is
`len(fields) - progress`; `handled` are the fields whose `handled_…` flag is set. -/
structure Ord (σ : Type) where
  left : Nat
  handled : List Nat
  st : σ

/-- does a `case` of `switch typ` name this type? -/
def knows {σ : Type} (slots : List (Slot σ)) (typ : Nat) : Bool := typ != 0 && (slots.map (·.typ)).contains typ

/-- model.go:182-217: `for handled := false; !handled && progress < len(fields); progress++`.  In a round `progress + 1` is
`slots.length - k` when `k + 1` rounds are left.  A field out of order is passed over without skipping its value; an unrecognised element
takes up a round, too. -/
def ordInner {σ : Type} (ic : Bool) (slots : List (Slot σ)) (start typ l : Nat) : Nat → List Nat → σ → BR → PR (Ord σ)
  | 0, h, st, r => some (.ok ⟨0, h, st⟩, r)
  | k + 1, h, st, r =>
    if knows slots typ then
      match slots[slots.length - k]? with
      | none => ordInner ic slots start typ l k h st r
      | some s =>
        if s.typ = typ then
          match s.read start l st r with
          | none => none
          | some (.ok st', r') => some (.ok ⟨k, (slots.length - k) :: h, st'⟩, r')
          | some (.err e, r') => some (.err (.failToParse typ e), r')
          | some (.panic, r') => some (.panic, r')
        else
          match s.skip start st r with
          | .ok st' => ordInner ic slots start typ l k ((slots.length - k) :: h) st' r
          | .err e => some (.err (.failToParse typ e), r)
          | .panic => some (.panic, r)
    else if !ic && isCritical typ then some (.err (.unrecognized typ), r)
    else match BR.skip (toInt l) r with
      | (.ok (), r') => some (.ok ⟨k, h, st⟩, r')
      | (.err e, r') => some (.err (.failToParse typ e), r')
      | (.panic, r') => some (.panic, r')

/-- model.go:174-218 -/
def ordLoop {σ : Type} (ic : Bool) (slots : List (Slot σ)) : Nat → Ord σ → BR → PR (Ord σ)
  | 0, _, _ => none
  | fuel + 1, o, r =>
    if r.pos ≥ r.buf.length then some (.ok o, r)
    else match BR.readTL r with
      | (.panic, r1) => some (.panic, r1)
      | (.err e, r1) => some (.err (.failToParse 0 e), r1)
      | (.ok typ, r1) =>
        match BR.readTL r1 with
        | (.panic, r2) => some (.panic, r2)
        | (.err e, r2) => some (.err (.failToParse 0 e), r2)
        | (.ok l, r2) =>
          match ordInner ic slots r.pos typ l o.left o.handled o.st r2 with
          | none => none
          | some (.ok o', r3) => ordLoop ic slots fuel o' r3
          | some (.err e, r3) => some (.err e, r3)
          | some (.panic, r3) => some (.panic, r3)

/-- model.go:220-232: `GenSkipProcess` of the fields without `handled_…`; `i` is the index of the first slot -/
def ordFinish {σ : Type} (handled : List Nat) (r : BR) : Nat → List (Slot σ) → σ → Res σ
  | _, [], st => .ok st
  | i, s :: slots, st =>
    if handled.contains i then ordFinish handled r (i + 1) slots st
    else (s.skip r.pos st r).bind (ordFinish handled r (i + 1) slots)

/-- the generated `Parse` of an ordered model: `progress` starts at -1 -/
def ordParse {σ : Type} (ic : Bool) (fuel : Nat) (slots : List (Slot σ)) (st : σ) (r : BR) : PR σ :=
  match ordLoop ic slots fuel ⟨slots.length + 1, [], st⟩ r with
  | none => none
  | some (.ok o, r') => some (ordFinish o.handled r' 0 slots o.st, r')
  | some (.err e, r') => some (.err e, r')
  | some (.panic, r') => some (.panic, r')

/-- a procedure argument (markers.go:5-33): no type, nothing to skip -/
def argSlot {σ : Type} : Slot σ := ⟨0, fun _ _ st r => some (.ok st, r), fun _ st _ => .ok st⟩

/-- an offset marker (markers.go:35-86): `context.F = int(startPos)` -/
def markSlot {σ : Type} (set : σ → Nat → σ) : Slot σ := ⟨0, fun start _ st r => some (.ok (set st start), r), fun start st _ => .ok (set st start)⟩

/-- an optional field with an element of the generic codec -/
def elemSlot {σ : Type} (ic : Bool) (fuel : Nat) (typ : Nat) (e : Elem) (set : σ → Option e.V → σ) : Slot σ :=
  ⟨typ, fun _ l st r => PR.map (fun v => set st (some v)) (e.read ic fuel l r), fun _ st _ => .ok (set st none)⟩

/-- a bool field (fields_bool.go:39-45) -/
def flagSlot {σ : Type} (typ : Nat) (set : σ → Bool → σ) : Slot σ :=
  ⟨typ, fun _ _ st r => some (.ok (set st true), r), fun _ st _ => .ok (set st false)⟩

/-- what `append(w, reader.Range(a, b)...)` appends -/
def rangeOf (r : BR) (a b : Nat) : Wire := (r.range a b).getD []

/-- a signature field (signature.go:100-112): the value is a wire; the covered part is appended -/
def sigSlot {σ : Type} (typ : Nat) (set : σ → Option Wire → σ) (start : σ → Nat) (cover : σ → Wire → σ) : Slot σ :=
  ⟨typ, fun startPos l st r =>
    match BR.readWire (toInt l) r with
    | (.ok w, r') => some (.ok (cover (set st (some w)) (rangeOf r' (start st) startPos)), r')
    | (.err e, r') => some (.err e, r')
    | (.panic, r') => some (.panic, r'),
   fun _ st _ => .ok (set st none)⟩

/-! ## Data, spec_2022/definitions.go:152-170, zz_generated.go:4542-4701 -/

/-- `Data` -/
structure DataV where
  name : Option Name := none
  metaInfo : Option Schema.metaInfo.V := none
  content : Option Wire := none
  sigInfo : Option signatureInfo.V := none
  sigValue : Option Wire := none

/-- `DataParsingContext`, zz_generated.go:4156-4163 (the contexts of the nested models hold nothing) -/
structure DataCtx where
  sigCovered : Wire := []
  sigCoverStart : Nat := 0

/-- the fields of `Data` in order, with `value` and `context` as state -/
def dataSlots (ic : Bool) (fuel : Nat) : List (Slot (DataV × DataCtx)) :=
  [ argSlot,
    markSlot fun s p => (s.1, { s.2 with sigCoverStart := p }),
    elemSlot ic fuel 0x07 .name fun s v => ({ s.1 with name := v }, s.2),
    elemSlot ic fuel 0x14 (.struct Schema.metaInfo) fun s v => ({ s.1 with metaInfo := v }, s.2),
    elemSlot ic fuel 0x15 .wire fun s v => ({ s.1 with content := v }, s.2),
    elemSlot ic fuel 0x16 (.struct signatureInfo) fun s v => ({ s.1 with sigInfo := v }, s.2),
    sigSlot 0x17 (fun s v => ({ s.1 with sigValue := v }, s.2)) (·.2.sigCoverStart)
      fun s w => (s.1, { s.2 with sigCovered := s.2.sigCovered ++ w }) ]

/-- `DataParsingContext.Parse`, zz_generated.go:4542-4701 -/
def parseData (ic : Bool) (fuel : Nat) (ctx : DataCtx) (r : BR) : PR (DataV × DataCtx) := ordParse ic fuel (dataSlots ic fuel) ({}, ctx) r

/-! ## Interest, spec_2022/definitions.go:117-150, zz_generated.go:3837-4137 -/

/-- `Interest` -/
structure InterestV where
  name : Option Name := none
  canBePrefix : Bool := false
  mustBeFresh : Bool := false
  fwdHint : Option links.V := none
  nonce : Option Nat := none
  lifetime : Option Int := none
  hopLimit : Option Nat := none
  appParam : Option Wire := none
  sigInfo : Option signatureInfo.V := none
  sigValue : Option Wire := none

/-- `InterestParsingContext`, zz_generated.go:3302-3316 -/
structure InterestCtx where
  sigCovered : Wire := []
  digestCovered : Wire := []
  sigCoverStart : Nat := 0
  digestCoverStart : Nat := 0

/-- `enc.TypeParametersSha256DigestComponent`, component.go -/
def typParamsDigest : Nat := 2

/-- signature.go:229-258: like `readNameSlots`, with `sigCoverEnd` as accumulator: the start of the last parameters digest component -/
def readIntNameSlots : Nat → Nat → Nat → BR → Res (Name × Nat) × BR
  | 0, endName, cov, r => if r.pos ≠ endName then (.err .overflow, r) else (.ok ([], cov), r)
  | slots + 1, endName, cov, r =>
    if r.pos ≥ endName then (if r.pos ≠ endName then (.err .overflow, r) else (.ok ([], cov), r))
    else match readComponent r with
      | (.ok c, r') =>
        match readIntNameSlots slots endName (if c.typ = typParamsDigest then r.pos else cov) r' with
        | (.ok (n, q), r'') => (.ok (c :: n, q), r'')
        | (.err e, r'') => (.err e, r'')
        | (.panic, r'') => (.panic, r'')
      | (.err _, r') => (.err .unexpectedEof, r')
      | (.panic, r') => (.panic, r')

/-- signature.go:221-266: the name, and the bytes of it that are covered by the signature -/
def readIntName (l : Nat) (r : BR) : Res (Name × Wire) × BR :=
  if (l / 2 + 1) * 32 > maxAlloc then (.panic, r)
  else match readIntNameSlots (l / 2 + 1) (r.pos + l) (r.pos + l) r with
    | (.ok (n, cov), r') => (.ok (n, rangeOf r' r.pos cov), r')
    | (.err e, r') => (.err e, r')
    | (.panic, r') => (.panic, r')

/-- the fields of `Interest` in order -/
def interestSlots (ic : Bool) (fuel : Nat) : List (Slot (InterestV × InterestCtx)) :=
  [ argSlot,
    argSlot,
    ⟨0x07, fun _ l s r => PR.map (fun nc => ({ s.1 with name := some nc.1 }, { s.2 with sigCovered := s.2.sigCovered ++ nc.2 })) (some (readIntName l r)),
      fun _ s _ => .ok ({ s.1 with name := none }, s.2)⟩,
    flagSlot 0x21 fun s b => ({ s.1 with canBePrefix := b }, s.2),
    flagSlot 0x12 fun s b => ({ s.1 with mustBeFresh := b }, s.2),
    elemSlot ic fuel 0x1e (.struct links) fun s v => ({ s.1 with fwdHint := v }, s.2),
    elemSlot ic fuel 0x0a (.fixed 4 false) fun s v => ({ s.1 with nonce := v }, s.2),
    elemSlot ic fuel 0x0c .time fun s v => ({ s.1 with lifetime := v }, s.2),
    elemSlot ic fuel 0x22 (.fixed 1 true) fun s v => ({ s.1 with hopLimit := v }, s.2),
    markSlot fun s p => (s.1, { s.2 with sigCoverStart := p }),
    markSlot fun s p => (s.1, { s.2 with digestCoverStart := p }),
    elemSlot ic fuel 0x24 .wire fun s v => ({ s.1 with appParam := v }, s.2),
    elemSlot ic fuel 0x2c (.struct signatureInfo) fun s v => ({ s.1 with sigInfo := v }, s.2),
    sigSlot 0x2e (fun s v => ({ s.1 with sigValue := v }, s.2)) (·.2.sigCoverStart)
      fun s w => (s.1, { s.2 with sigCovered := s.2.sigCovered ++ w }),
    -- range marker, markers.go:88-150
    ⟨0, fun start _ s r => some (.ok (s.1, { s.2 with digestCovered := rangeOf r s.2.digestCoverStart start }), r),
      fun start s r => .ok (s.1, { s.2 with digestCovered := rangeOf r s.2.digestCoverStart start })⟩ ]

/-- `InterestParsingContext.Parse`, zz_generated.go:3837-4137 -/
def parseInterest (ic : Bool) (fuel : Nat) (ctx : InterestCtx) (r : BR) : PR (InterestV × InterestCtx) :=
  ordParse ic fuel (interestSlots ic fuel) ({}, ctx) r

/-! ## Packets -/

/-- `Packet` with `PacketParsingContext`, zz_generated.go:4713-4717 -/
structure PacketSt where
  interest : Option InterestV := none
  data : Option DataV := none
  lp : Option lpPacket.V := none
  ictx : InterestCtx := {}
  dctx : DataCtx := {}

/-- the `switch typ` of `PacketParsingContext.Parse`, zz_generated.go:5070-5099; every element gets the same context -/
def packetRead (ic : Bool) (fuel : Nat) (typ l : Nat) (s : PacketSt) (r : BR) : PR PacketSt :=
  match BR.delegate (toInt l) r with
  | (.ok sub, r1) =>
    let back {α : Type} (x : PR α) (f : α → PacketSt) : PR PacketSt :=
      match x with
      | none => none
      | some (.ok a, _) => some (.ok (f a), r1)
      | some (.err e, _) => some (.err e, r1)
      | some (.panic, _) => some (.panic, r1)
    if typ = 5 then back (parseInterest ic fuel s.ictx sub) fun p => { s with interest := some p.1, ictx := p.2 }
    else if typ = 6 then back (parseData ic fuel s.dctx sub) fun p => { s with data := some p.1, dctx := p.2 }
    else back (lpPacket.parse ic fuel sub) fun v => { s with lp := some v }
  | (.err e, r1) => some (.err e, r1)
  | (.panic, r1) => some (.panic, r1)

/-- the type numbers of `Packet`, definitions.go:175-182 -/
def packetTypes : List Nat := [5, 6, 100]

/-- `PacketParsingContext.Parse` after `Init`, zz_generated.go:5036-5121 -/
def parsePacket (ic : Bool) (fuel : Nat) (r : BR) : PR PacketSt := parseLoop ic (fun t => packetTypes.contains t) (packetRead ic fuel) fuel {} r

/-- errors of `ReadPacket`, `ReadInterest` and `ReadData` -/
inductive PErr where
  | parse (e : Err)
  | wrongType
  | invalid
  | incorrectDigest
  deriving DecidableEq, Repr

/-- `checkInterest`, spec.go:529-556; `sha` is SHA-256 -/
def checkInterest (sha : Bytes → Bytes) (v : InterestV) (ctx : InterestCtx) : Option PErr :=
  match v.name with
  | none => some .invalid
  | some name =>
    if v.sigValue.isSome && v.appParam.isNone then some .incorrectDigest
    else if v.appParam.isSome then
      match name.getLast? with
      | none => some .incorrectDigest
      | some c =>
        if c.typ ≠ typParamsDigest then some .incorrectDigest
        else if c.val = sha ctx.digestCovered.flatten then none else some .incorrectDigest
    else none

/-- the end of a parse; `none`: ran out of fuel -/
def finishParse {α β : Type} (x : PR α) (f : α → Except PErr β) : Option (Res (Except PErr β)) :=
  match x with
  | none => none
  | some (.ok a, _) => some (.ok (f a))
  | some (.err e, _) => some (.ok (.error (.parse e)))
  | some (.panic, _) => some .panic

/-- `Spec.ReadData`, spec.go:353-367: the Data and the bytes covered by its signature -/
def readData (fuel : Nat) (r : BR) : Option (Res (Except PErr (DataV × Wire))) :=
  finishParse (parsePacket false fuel r) fun s =>
    match s.data with
    | none => .error .wrongType
    | some d => if d.name.isNone then .error .invalid else .ok (d, s.dctx.sigCovered)

/-- `Spec.ReadInterest`, spec.go:558-575 -/
def readInterest (sha : Bytes → Bytes) (fuel : Nat) (r : BR) : Option (Res (Except PErr (InterestV × Wire))) :=
  finishParse (parsePacket false fuel r) fun s =>
    match s.interest with
    | none => .error .wrongType
    | some i =>
      match checkInterest sha i s.ictx with
      | some e => .error e
      | none => .ok (i, s.ictx.sigCovered)

/-- fields of an `LpPacket` that the engine uses: `FragIndex`, `FragCount`, `PitToken`, `Nack` (its reason), `Fragment` -/
def lpFragIndex (v : lpPacket.V) : Option Nat := v.2.1
def lpFragCount (v : lpPacket.V) : Option Nat := v.2.2.1
def lpPitToken (v : lpPacket.V) : Option Bytes := v.2.2.2.1
def lpNack (v : lpPacket.V) : Option Nat := (v.2.2.2.2.1 : Option networkNack.V).map fun n => (n.1 : Nat)
def lpFragment (v : lpPacket.V) : Option Wire := v.2.2.2.2.2.2.2.2.2.2.2.2.2.1

/-- `ReadPacket`, spec.go:593-618 -/
def readPacket (sha : Bytes → Bytes) (fuel : Nat) (r : BR) : Option (Res (Except PErr PacketSt)) :=
  finishParse (parsePacket false fuel r) fun s =>
    match s.data, s.interest, s.lp with
    | some d, _, _ => if d.name.isNone then .error .invalid else .ok s
    | none, some i, _ =>
      match checkInterest sha i s.ictx with
      | some e => .error e
      | none => .ok s
    | none, none, some v => if (lpFragment v).isNone then .error .invalid else .ok s
    | none, none, none => .error .wrongType

end Ndn.Packet
