import Verif.Packet.OrdLemmas
import Verif.Codec.Props

/-!
# What the packets look like on the wire

Written without the parser of the model: a packet is the sequence of the elements of its fields, in the order of their slots.
-/

namespace Ndn.Packet
open Ndn.Codec Ndn.Codec.Schema

/-- value bytes of an optional field, with ignorable elements put anywhere in nested messages -/
def OptBody (e : Elem) : Option e.V → Option Bytes → Prop
  | none, none => True
  | some v, some b => e.Body false v b
  | _, _ => False

/-- the values of an optional field -/
def OptIn (e : Elem) : Option e.V → Prop
  | none => True
  | some v => e.InRange v

/-! ## Data -/

/-- value bytes of the fields of a Data -/
structure DataB where
  name : Option Bytes := none
  metaInfo : Option Bytes := none
  content : Option Bytes := none
  sigInfo : Option Bytes := none
  sigValue : Option Bytes := none

/-- the elements of a Data without its signature value -/
def DataB.signed (b : DataB) : List It :=
  ownIt 2 0x07 b.name ++ ownIt 3 0x14 b.metaInfo ++ ownIt 4 0x15 b.content ++ ownIt 5 0x16 b.sigInfo

/-- the elements of a Data -/
def DataB.items (b : DataB) : List It := b.signed ++ ownIt 6 0x17 b.sigValue

/-- `b` are value bytes for `v` -/
structure DataV.Bodies (v : DataV) (b : DataB) : Prop where
  name : OptBody .name v.name b.name
  metaInfo : OptBody (.struct Schema.metaInfo) v.metaInfo b.metaInfo
  content : OptBody .wire v.content b.content
  sigInfo : OptBody (.struct signatureInfo) v.sigInfo b.sigInfo
  sigValue : OptBody .wire v.sigValue b.sigValue

/-- values in range -/
structure DataV.InRange (v : DataV) : Prop where
  name : OptIn .name v.name
  metaInfo : OptIn (.struct Schema.metaInfo) v.metaInfo
  content : OptIn .wire v.content
  sigInfo : OptIn (.struct signatureInfo) v.sigInfo
  sigValue : OptIn .wire v.sigValue

/-- canonical value bytes -/
def DataV.bodies (v : DataV) : DataB :=
  ⟨v.name.map (Elem.body .name), v.metaInfo.map (Elem.body (.struct Schema.metaInfo)), v.content.map (Elem.body .wire),
   v.sigInfo.map (Elem.body (.struct signatureInfo)), v.sigValue.map (Elem.body .wire)⟩

theorem optBody_map (e : Elem) (v : Option e.V) : OptBody e v (v.map e.body) := by
  cases v with
  | none => trivial
  | some v => exact Elem.body_body false e v

theorem DataV.bodies_bodies (v : DataV) : v.Bodies v.bodies :=
  ⟨optBody_map _ _, optBody_map _ _, optBody_map _ _, optBody_map _ _, optBody_map _ _⟩

/-- the bytes of a Data packet -/
def DataV.enc (v : DataV) : Bytes := tlv 6 (bytesOf v.bodies.items)

/-! ## Interest -/

/-- value bytes of the fields of an Interest -/
structure InterestB where
  name : Option Bytes := none
  canBePrefix : Bool := false
  mustBeFresh : Bool := false
  fwdHint : Option Bytes := none
  nonce : Option Bytes := none
  lifetime : Option Bytes := none
  hopLimit : Option Bytes := none
  appParam : Option Bytes := none
  sigInfo : Option Bytes := none
  sigValue : Option Bytes := none

/-- the elements of an Interest that come before its parameters -/
def InterestB.head (b : InterestB) : List It :=
  ownIt 2 0x07 b.name ++ ownIt 3 0x21 (if b.canBePrefix then some [] else none) ++ ownIt 4 0x12 (if b.mustBeFresh then some [] else none) ++
  ownIt 5 0x1e b.fwdHint ++ ownIt 6 0x0a b.nonce ++ ownIt 7 0x0c b.lifetime ++ ownIt 8 0x22 b.hopLimit

/-- the parameters and the signature info -/
def InterestB.params (b : InterestB) : List It := ownIt 11 0x24 b.appParam ++ ownIt 12 0x2c b.sigInfo

/-- the elements of an Interest -/
def InterestB.items (b : InterestB) : List It := b.head ++ (b.params ++ ownIt 13 0x2e b.sigValue)

/-- `b` are value bytes for `v` -/
structure InterestV.Bodies (v : InterestV) (b : InterestB) : Prop where
  name : OptBody .name v.name b.name
  canBePrefix : b.canBePrefix = v.canBePrefix
  mustBeFresh : b.mustBeFresh = v.mustBeFresh
  fwdHint : OptBody (.struct links) v.fwdHint b.fwdHint
  nonce : OptBody (.fixed 4 false) v.nonce b.nonce
  lifetime : OptBody .time v.lifetime b.lifetime
  hopLimit : OptBody (.fixed 1 true) v.hopLimit b.hopLimit
  appParam : OptBody .wire v.appParam b.appParam
  sigInfo : OptBody (.struct signatureInfo) v.sigInfo b.sigInfo
  sigValue : OptBody .wire v.sigValue b.sigValue

structure InterestV.InRange (v : InterestV) : Prop where
  name : OptIn .name v.name
  fwdHint : OptIn (.struct links) v.fwdHint
  nonce : OptIn (.fixed 4 false) v.nonce
  lifetime : OptIn .time v.lifetime
  hopLimit : OptIn (.fixed 1 true) v.hopLimit
  appParam : OptIn .wire v.appParam
  sigInfo : OptIn (.struct signatureInfo) v.sigInfo
  sigValue : OptIn .wire v.sigValue

def InterestV.bodies (v : InterestV) : InterestB :=
  ⟨v.name.map (Elem.body .name), v.canBePrefix, v.mustBeFresh, v.fwdHint.map (Elem.body (.struct links)), v.nonce.map (Elem.body (.fixed 4 false)),
   v.lifetime.map (Elem.body .time), v.hopLimit.map (Elem.body (.fixed 1 true)), v.appParam.map (Elem.body .wire),
   v.sigInfo.map (Elem.body (.struct signatureInfo)), v.sigValue.map (Elem.body .wire)⟩

theorem InterestV.bodies_bodies (v : InterestV) : v.Bodies v.bodies :=
  ⟨optBody_map _ _, rfl, rfl, optBody_map _ _, optBody_map _ _, optBody_map _ _, optBody_map _ _, optBody_map _ _, optBody_map _ _, optBody_map _ _⟩

/-- the bytes of an Interest packet -/
def InterestV.enc (v : InterestV) : Bytes := tlv 5 (bytesOf v.bodies.items)

/-! ## Elements in a packet -/

/-- `its` is `own` with unrecognised, non-critical elements put in, none of which takes up a slot that is needed: `n` is the number of
slots, `types` are the known type numbers -/
structure Fitting (n : Nat) (types : List Nat) (own its : List It) : Prop where
  fits : Fits n 0 its
  owns : owns its = own
  junk : ∀ x ∈ its, x.slot = none → x.typ < 2 ^ 64 ∧ x.typ ∉ types ∧ 31 < x.typ ∧ x.typ % 2 = 0

/-- type numbers of the fields of a Data -/
def dataTypes : List Nat := [0x07, 0x14, 0x15, 0x16, 0x17]

/-- type numbers of the fields of an Interest -/
def interestTypes : List Nat := [0x07, 0x21, 0x12, 0x1e, 0x0a, 0x0c, 0x22, 0x24, 0x2c, 0x2e]

end Ndn.Packet
