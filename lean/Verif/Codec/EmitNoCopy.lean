import Verif.Codec.Emit

/-!
# Model of the back end of the code generator, `/repo/pkg/encoding/codegen`: the encoder of a model with `nocopy`

An encoder of a model with `nocopy` does not copy the buffers of a wire field; it puts them into the wire that it gives.  `Init` plans the lengths of the
buffers of that wire, `EncodeInto` fills them.  Here are the statements for this, around those of `Verif/Codec/Emit.lean`, and their lines of Go.  What they
do is in `Verif/Codec/RunNoCopy.lean`.  This file covers the fields that `Emit.lean` covers, with the wire fields of the model itself taken with `nocopy`;
not structs with `nocopy`, and not sequences of wires.
-/

namespace Ndn.Codec.Gen

/-- the statements about plans and wires -/
inductive NAtom where
  /-- `wirePlan := make([]uint, 0)` -/
  | makePlan
  /-- `wirePlan = append(wirePlan, l)` -/
  | pushPlan
  /-- `l = uint(0)` (`true`) and `l = 0` -/
  | zeroL (typed : Bool)
  /-- `encoder.wirePlan = wirePlan` -/
  | setPlan
  /-- `wireIdx := 0` -/
  | startIdx
  /-- `buf := wire[wireIdx]` -/
  | startBuf
  /-- `wireIdx ++` -/
  | nextIdx
  /-- `pos = 0` -/
  | zeroPos
  /-- `if wireIdx < len(wire) { buf = wire[wireIdx] } else { buf = nil }` -/
  | nextBuf
  /-- `wire[wireIdx] = w` -/
  | putW
  deriving DecidableEq, Repr

/-- sequences of statements; `k` is what comes after -/
inductive NCode where
  | done
  /-- statements of `Verif/Codec/Emit.lean` -/
  | plain (c : Code) (k : NCode)
  | atom (a : NAtom) (k : NCode)
  /-- `if c { … }` -/
  | cond (c : Cond) (body k : NCode)
  /-- `for range value.f { … }`, or `for _, w := range value.f { … }` -/
  | range (named : Bool) (f : Txt) (body k : NCode)
  deriving DecidableEq, Repr

/-- one after the other -/
def NCode.append : NCode → NCode → NCode
  | .done, d => d
  | .plain c k, d => .plain c (k.append d)
  | .atom a k, d => .atom a (k.append d)
  | .cond c b k, d => .cond c b (k.append d)
  | .range n f b k, d => .range n f b (k.append d)

instance : Append NCode := ⟨NCode.append⟩

/-- one statement -/
def NCode.of (a : NAtom) : NCode := .atom a .done

/-- statements of `Verif/Codec/Emit.lean` -/
def NCode.ofPlain (c : Code) : NCode := .plain c .done

/-! ## The text -/

def NAtom.text : NAtom → List Txt
  | .makePlan => [t!"wirePlan := make([]uint, 0)"]
  | .pushPlan => [t!"wirePlan = append(wirePlan, l)"]
  | .zeroL typed => [if typed then t!"l = uint(0)" else t!"l = 0"]
  | .setPlan => [t!"encoder.wirePlan = wirePlan"]
  | .startIdx => [t!"wireIdx := 0"]
  | .startBuf => [t!"buf := wire[wireIdx]"]
  | .nextIdx => [t!"wireIdx ++"]
  | .zeroPos => [t!"pos = 0"]
  | .nextBuf => [t!"if wireIdx < len(wire) {", t!"buf = wire[wireIdx]", t!"} else {", t!"buf = nil", t!"}"]
  | .putW => [t!"wire[wireIdx] = w"]

/-- the lines of Go -/
def NCode.text : NCode → List Txt
  | .done => []
  | .plain c k => c.text ++ k.text
  | .atom a k => a.text ++ k.text
  | .cond c b k => [t!"if " ++ c.text ++ t!" {"] ++ b.text ++ [t!"}"] ++ k.text
  | .range n f b k => [t!"for " ++ (if n then t!"_, w := " else []) ++ t!"range value." ++ f ++ t!" {"] ++ b.text ++ [t!"}"] ++ k.text

/-! ## Fields -/

/-- `GenSwitchWirePlan`, utils.go:145-148 -/
def switchPlan : NCode := .of .pushPlan ++ .of (.zeroL false)

/-- `GenSwitchWire`, utils.go:150-158 -/
def switchWire : NCode := .of .nextIdx ++ .of .zeroPos ++ .of .nextBuf

/-- `GenEncodingWirePlan`: fields_wire.go:54-69; for the other fields it is `GenEncodingLength` (fields_natural.go:35-37, fields_fixeduint.go:61-63,
fields_time.go:35-37, fields_binary.go:30-32, fields_string.go:38-40, fields_name.go:50-52, fields_bool.go:26-28, fields_struct.go:95-98,
fields_sequence.go:120-122 with a sub-field of which this is so) -/
def planCode (f : Txt) (n : Nat) : Cls → NCode
  | .wire true => .cond (.notNil f) (.ofPlain (typeNumLen n ++ naturalLen (.own (.len f)) true) ++ switchPlan ++ .range false f switchPlan .done) .done
  | c => .ofPlain (lengthCode f n c)

/-- `GenEncodeInto` in a model with `nocopy`: fields_wire.go:71-90, and the others as without -/
def intoNoCopy (f : Txt) (n : Nat) : Cls → NCode
  | .wire true =>
    .cond (.notNil f) (.ofPlain (encodeTypeNum n ++ naturalEncode (.own (.len f)) true) ++ switchWire ++
      .range true f (.of .putW ++ switchWire) .done) .done
  | c => .ofPlain (intoCode f n c)

/-! ## Models -/

/-- what a template gives for all fields -/
def allNoCopy (g : Field → NCode) : List Field → NCode
  | [] => .done
  | f :: fs => g f ++ allNoCopy g fs

/-- the body of `Init`: `GenInitEncoder`, model.go:63-89, with `nocopy` -/
def initNoCopyBody (fs : List Field) : NCode :=
  .ofPlain (initBody fs) ++ .of .makePlan ++ .of (.zeroL true) ++ allNoCopy (fun f => planCode f.name f.num f.cls) fs ++
    .cond (.positive (.var .l)) (.of .pushPlan) .done ++ .of .setPlan

/-- the body of `EncodeInto`: `GenEncodeInto`, model.go:91-107, with `nocopy` -/
def intoNoCopyBody (fs : List Field) : NCode :=
  .of .startIdx ++ .of .startBuf ++ .ofPlain (.of (.decl .pos (.conv .uint (.num 0)))) ++ allNoCopy (fun f => intoNoCopy f.name f.num f.cls) fs

/-- `GenEncoderStruct`, model.go:49-61, `GenInitEncoder`, model.go:63-89, `GenEncodeInto`, model.go:91-125, all with `nocopy`, and `genPublicEncode`,
model.go:258-271: the lines of the encoder -/
def noCopyText (m : TModel) : List Txt :=
  [t!"type " ++ m.name ++ t!"Encoder struct {", t!"length uint", t!"wirePlan []uint"] ++ (m.fields.map fun f => memberTexts f.name f.cls).flatten ++ [t!"}"] ++
  [t!"func (encoder *" ++ m.name ++ t!"Encoder) Init(value *" ++ m.name ++ t!") {"] ++ (initNoCopyBody m.fields).text ++ [t!"}"] ++
  [t!"func (encoder *" ++ m.name ++ t!"Encoder) EncodeInto(value *" ++ m.name ++ t!", wire enc.Wire) {"] ++ (intoNoCopyBody m.fields).text ++ [t!"}"] ++
  [t!"func (encoder *" ++ m.name ++ t!"Encoder) Encode(value *" ++ m.name ++ t!") enc.Wire {",
    t!"wire := make(enc.Wire, len(encoder.wirePlan))",
    t!"for i, l := range encoder.wirePlan {",
    t!"if l > 0 {",
    t!"wire[i] = make([]byte, l)",
    t!"}",
    t!"}",
    t!"encoder.EncodeInto(value, wire)",
    t!"return wire",
    t!"}"] ++
  (if m.opts.priv then [] else [t!"func (value *" ++ m.name ++ t!") Encode() enc.Wire {",
    t!"encoder := " ++ m.name ++ t!"Encoder{}",
    t!"encoder.Init(value)",
    t!"return encoder.Encode(value)",
    t!"}",
    t!"func (value *" ++ m.name ++ t!") Bytes() []byte {",
    t!"return value.Encode().Join()",
    t!"}"])

end Ndn.Codec.Gen
