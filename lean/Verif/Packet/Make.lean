import Verif.Packet.Encode

/-! # Model of making packets, `/repo/pkg/ndn/spec_2022/spec.go` -/

namespace Ndn.Packet
open Ndn.Codec Ndn.Codec.Schema

/-- `ndn.SigConfig`, ndn.go:62-70.  `sigTime` is the Unix time in nanoseconds; `notBefore` and `notAfter` are the texts that `UTC().Format(TimeFmt)`
makes of the times. -/
structure SigConfig where
  typ : Int
  keyName : Option Name := none
  nonce : Option Bytes := none
  sigTime : Option Int := none
  seqNum : Option Nat := none
  notBefore : Option Bytes := none
  notAfter : Option Bytes := none

/-- `ndn.SignatureNone`, `ndn.SignatureDigestSha256`, ndn.go:19-20 -/
def signatureNone : Int := -1
def signatureDigestSha256 : Int := 0

/-- `ndn.Signer`, ndn.go:85-89, for one packet: what `SigInfo` returns (`none`: an error), `EstimateSize`, and `ComputeSigValue` (`none`: an error) -/
structure Signer where
  sigInfo : Option (Option SigConfig)
  est : Nat
  sign : Wire → Option Bytes

/-- `uint64(typ)` of a `SigType` -/
def sigTypeNum (t : Int) : Nat := (t % 2 ^ 64).toNat

/-- `ndn.DataConfig`, ndn.go:92-96; `freshness` in nanoseconds -/
structure DataConfig where
  contentType : Option Nat := none
  freshness : Option Int := none
  finalBlock : Option Component := none

/-- `ndn.EncodedData`, `ndn.EncodedInterest` -/
structure Encoded where
  wire : Wire
  covered : Wire
  finalName : Name := []

/-- `SignatureInfo` with the fields that the code sets -/
def mkSigInfo (typ : Nat) (keyName : Option Name) (nonce : Option Bytes) (time : Option Int) (seq : Option Nat) (validity : Option (Bytes × Bytes)) :
    signatureInfo.V :=
  (typ, keyName.map fun n => (some n, none, ()), nonce, time, seq, validity.map fun v => (v.1, v.2, ()), none, ())

/-- spec.go:258-307: `SignatureInfo` and the estimate -/
def dataSig : Option Signer → Res (Option signatureInfo.V × Nat)
  | none => .ok (none, 0)
  | some s =>
    match s.sigInfo with
    | none => .err .other
    | some none => .ok (none, 0)
    | some (some c) =>
      if c.typ = signatureNone then .ok (none, 0)
      else if c.nonce.isSome || c.seqNum.isSome || c.sigTime.isSome then .err .notSupported
      else match c.notBefore, c.notAfter with
        | none, none => .ok (some (mkSigInfo (sigTypeNum c.typ) c.keyName none none none none), s.est)
        | some a, some b => .ok (some (mkSigInfo (sigTypeNum c.typ) c.keyName none none none (some (a, b))), s.est)
        | _, _ => .err .invalidValue

/-- spec.go:333-337: `wire[i] = sigVal` and the last byte of the buffer before it -/
def patchSig (wire : Wire) (i : Nat) (sig : Bytes) : Res Wire :=
  if i = 0 ∨ wire.length ≤ i ∨ wire.getD (i - 1) [] = [] then .panic
  else .ok ((wire.set i sig).set (i - 1) ((wire.getD (i - 1) []).dropLast ++ [UInt8.ofNat sig.length]))

/-- `wire[0] = enc.ShrinkLength(wire[0], shrink)` -/
def shrinkHead (wire : Wire) (shrink : Nat) : Res Wire :=
  match wire with
  | [] => .panic
  | b :: bs => (shrinkLength b shrink).map fun b' => b' :: bs

/-- the Data that is encoded, spec.go:240-256 -/
def dataOf (name : Name) (config : DataConfig) (content : Option Wire) (sigInfo : Option signatureInfo.V) : DataV :=
  { name := some name
    metaInfo := some (config.contentType, config.freshness, config.finalBlock.map Component.enc, ())
    content := content
    sigInfo := sigInfo }

/-- `Spec.MakeData`, spec.go:232-351.  `none` is nil; the estimate fits an `int`.  (`Encode` returns a non-nil wire.) -/
def makeData (name : Option Name) (config : Option DataConfig) (content : Option Wire) (signer : Option Signer) : Res Encoded :=
  match name, config with
  | none, _ => .err .invalidValue
  | some _, none => .err .invalidValue
  | some name, some config =>
    (dataSig signer).bind fun (si, est) =>
      let fields := dataFields (dataOf name config content si) est
      (packetEncode 6 fields).bind fun (wire, s) =>
        if est > 0 then
          match (signer.bind fun sg => sg.sign s.covered), sigIdx 0 fields with
          | none, _ => .err .other
          | some _, none => .panic
          | some sig, some i =>
            if sig.length > est then .err .notSupported
            else (patchSig wire i sig).bind fun wire1 => (shrinkHead wire1 (est - sig.length)).map fun wire2 => { wire := wire2, covered := s.covered }
        else .ok { wire := wire, covered := [] }

/-- `ndn.InterestConfig`, ndn.go:110-117; `lifetime` in nanoseconds -/
structure InterestConfig where
  canBePrefix : Bool := false
  mustBeFresh : Bool := false
  fwdHint : Option (List Name) := none
  nonce : Option Nat := none
  lifetime : Option Int := none
  hopLimit : Option Nat := none

/-- `time.Duration(t.UnixMilli()) * time.Millisecond` -/
def sigTimeDur (t : Int) : Int := wrap64 (t / 1000000 * 1000000)

/-- spec.go:402-452: `SignatureInfo` and the estimate -/
def interestSig (need : Bool) : Option Signer → Res (Option signatureInfo.V × Nat)
  | none => .ok (none, 0)
  | some s =>
    match s.sigInfo with
    | none => .err .other
    | some none => .ok (none, 0)
    | some (some c) =>
      if c.typ = signatureNone then .ok (none, 0)
      else if !need then .err .invalidValue
      else if c.notBefore.isSome || c.notAfter.isSome then .err .notSupported
      else if c.typ ≠ signatureDigestSha256 ∧ c.keyName.isNone then .err .invalidValue
      else if s.est ≥ 253 then .err .notSupported
      else .ok (some (mkSigInfo (sigTypeNum c.typ) (if c.typ ≠ signatureDigestSha256 then c.keyName else none) c.nonce
        (c.sigTime.map sigTimeDur) c.seqNum none), s.est)

/-- the Interest that is encoded, spec.go:376-393; the name is as `InterestEncoder.Init` makes it -/
def interestOf (name : Name) (config : InterestConfig) (appParam : Option Wire) (sigInfo : Option signatureInfo.V) : InterestV :=
  { name := some (interestName appParam.isSome name)
    canBePrefix := config.canBePrefix
    mustBeFresh := config.mustBeFresh
    fwdHint := config.fwdHint.map fun ns => (ns, ())
    nonce := config.nonce.map (· % 2 ^ 32)
    lifetime := config.lifetime
    hopLimit := config.hopLimit.map (· % 2 ^ 8)
    appParam := appParam
    sigInfo := sigInfo }

/-- spec.go:489-513: the digest is computed and put into the first buffer; `appLen` is the encoded length of the parameters' length -/
def putDigest (sha : Bytes → Bytes) (wire : Wire) (namePos appLen : Nat) : Res Wire :=
  match wire with
  | [] => .panic
  | b :: bs =>
    (parseTL b).bind fun (_, s1) => (parseTL (b.drop s1)).bind fun (_, s2) =>
      if namePos + (s1 + s2) + 32 ≤ b.length ∧ appLen + 1 ≤ b.length then
        .ok (splice b (namePos + (s1 + s2)) ((sha (b.drop (b.length - appLen - 1) ++ bs.flatten)).take 32) :: bs)
      else .panic

/-- the final name, spec.go:499: its last component is the slice of the first buffer that holds the digest.  (`ShrinkLength` keeps these
bytes where they are.) -/
def finalNameOf (name : Name) (wire : Wire) (namePos : Nat) : Res Name :=
  match wire, name.getLast? with
  | b :: _, some c =>
    (parseTL b).bind fun (_, s1) => (parseTL (b.drop s1)).bind fun (_, s2) =>
      (sliceOf b (namePos + (s1 + s2)) (namePos + (s1 + s2) + 32)).map fun d => name.dropLast ++ [{ c with val := d }]
  | _, _ => .panic

/-- spec.go:465-487: the wire with the signature value, its length, and what is covered -/
def signInterest (signer : Option Signer) (fields : List NF) (est : Nat) (wire : Wire) (s : ES) : Res (Wire × Nat × Wire) :=
  if est > 0 then
    match (signer.bind fun sg => sg.sign s.covered), sigIdx 0 fields with
    | none, _ => .err .other
    | some _, none => .err .other
    | some sig, some i =>
      if sig.length > est then .err .notSupported else (patchSig wire i sig).map fun w => (w, sig.length, s.covered)
  else .ok (wire, 0, [])

/-- spec.go:488-513: the wire with the digest, and the final name -/
def digestInterest (sha : Bytes → Bytes) (name : Name) (appParam : Option Wire) (namePos : Nat) (wire : Wire) : Res (Wire × Name) :=
  match appParam with
  | none => .ok (wire, interestName false name)
  | some a => (putDigest sha wire namePos (tlLen (Wire.byteLen a))).bind fun w =>
      (finalNameOf (interestName true name) w namePos).map fun n => (w, n)

/-- `Spec.MakeInterest`, spec.go:369-527 -/
def makeInterest (sha : Bytes → Bytes) (name : Option Name) (config : Option InterestConfig) (appParam : Option Wire) (signer : Option Signer) :
    Res Encoded :=
  match name, config with
  | none, _ => .err .invalidValue
  | some _, none => .err .invalidValue
  | some name, some config =>
    (interestSig appParam.isSome signer).bind fun (si, est) =>
      let fields := interestFields (interestOf name config appParam si) appParam.isSome est
      (packetEncode 5 fields).bind fun (wire, s) =>
        (signInterest signer fields est wire s).bind fun (wire1, sigLen, covered) =>
          (digestInterest sha name appParam s.namePos wire1).bind fun (wire2, final) =>
            (if est - sigLen > 0 then shrinkHead wire2 (est - sigLen) else .ok wire2).map fun wire3 =>
              { wire := wire3, covered := covered, finalName := final }

/-! ## Accessors -/

/-- `Data.ContentType`, spec.go:103-110 -/
def DataV.contentType (v : DataV) : Option Nat :=
  match v.metaInfo with
  | none => none
  | some m => (m.1 : Option Nat)

/-- `Data.Freshness`, spec.go:112-118 -/
def DataV.freshness (v : DataV) : Option Int :=
  match v.metaInfo with
  | none => none
  | some m => (m.2.1 : Option Int)

/-- `Data.FinalBlockID`, spec.go:120-131 -/
def DataV.finalBlockID (v : DataV) : Option Component :=
  match v.metaInfo with
  | none => none
  | some m =>
    match (m.2.2.1 : Option Bytes) with
    | none => none
    | some b =>
      match readComponent (BR.new b) with
      | (.ok c, _) => some c
      | _ => none

/-- `SigType` of Data and Interest, spec.go:31-37,136-142 -/
def sigTypeOf (si : Option signatureInfo.V) : Int :=
  match si with
  | none => signatureNone
  | some s => toInt (s.1 : Nat)

/-- `KeyName` of Data and Interest, spec.go:39-45,144-150 -/
def keyNameOf (si : Option signatureInfo.V) : Option Name :=
  match si with
  | none => none
  | some s =>
    match (s.2.1 : Option keyLocator.V) with
    | none => none
    | some k => (k.1 : Option Name)

/-- `SigNonce` of an Interest, spec.go:152-158 -/
def sigNonceOf (si : Option signatureInfo.V) : Option Bytes :=
  match si with
  | none => none
  | some s => (s.2.2.1 : Option Bytes)

/-- `SigTime` of an Interest, spec.go:160-166, in milliseconds -/
def sigTimeOf (si : Option signatureInfo.V) : Option Int :=
  match si with
  | none => none
  | some s => (s.2.2.2.1 : Option Int).map fun d => d.tdiv 1000000

/-- `SigSeqNum` of an Interest, spec.go:168-174 -/
def sigSeqNumOf (si : Option signatureInfo.V) : Option Nat :=
  match si with
  | none => none
  | some s => (s.2.2.2.2.1 : Option Nat)

/-- the texts of which `Data.Validity`, spec.go:71-85, makes times -/
def validityOf (si : Option signatureInfo.V) : Option (Bytes × Bytes) :=
  match si with
  | none => none
  | some s => (s.2.2.2.2.2.1 : Option validityPeriod.V).map fun v => ((v.1 : Bytes), (v.2.1 : Bytes))

/-- `ForwardingHint`, spec.go:201-206 -/
def InterestV.hintNames (v : InterestV) : Option (List Name) := v.fwdHint.map fun l => (l.1 : List Name)

end Ndn.Packet
