import Verif.Codec.EmitSigned

/-!
# Model of the back end of the code generator, `/repo/pkg/encoding/codegen`: the encoder of a model with structs that have `nocopy`

A field of class `struct` whose struct has `nocopy` has an encoder of its own, with a plan of its own.  The encoder of the model plans the buffers of the inner
encoder as its own, and gives them to the inner `EncodeInto`, the first one from where it has come to.  Here are the statements for this, around those of
`Verif/Codec/EmitNoCopy.lean`.  What they do is in `Verif/Codec/RunOuter.lean`.
-/

namespace Ndn.Codec.Gen

/-- the statements about inner encoders -/
inductive OAtom where
  /-- `encoder.f_encoder.Init(value.f)`, where `f_encoder` is of type `tEncoder` -/
  | init (f t : Txt)
  /-- `l += encoder.f_encoder.wirePlan[0]` -/
  | planFirst (f : Txt)
  /-- the other entries of the inner plan, fields_struct.go:82-85 -/
  | planRest (f : Txt)
  /-- `if l == 0 { … }`, fields_struct.go:90-92 -/
  | planEnd
  /-- the call of the inner `EncodeInto` with a part of the wire, fields_struct.go:111-136 -/
  | subWire (f t : Txt)
  deriving DecidableEq, Repr

/-- sequences of statements; `k` is what comes after -/
inductive OCode where
  | done
  /-- statements of `Verif/Codec/EmitNoCopy.lean` -/
  | plain (c : NCode) (k : OCode)
  | atom (a : OAtom) (k : OCode)
  /-- `if c { … }` -/
  | cond (c : Cond) (body k : OCode)
  deriving DecidableEq, Repr

/-- one after the other -/
def OCode.append : OCode → OCode → OCode
  | .done, d => d
  | .plain c k, d => .plain c (k.append d)
  | .atom a k, d => .atom a (k.append d)
  | .cond c b k, d => .cond c b (k.append d)

instance : Append OCode := ⟨OCode.append⟩

/-- one statement -/
def OCode.of (a : OAtom) : OCode := .atom a .done

/-- statements of `Verif/Codec/EmitNoCopy.lean` -/
def OCode.ofPlain (c : NCode) : OCode := .plain c .done

/-! ## The text -/

def OAtom.text : OAtom → List Txt
  | .init f _ => [t!"encoder." ++ f ++ t!"_encoder.Init(value." ++ f ++ t!")"]
  | .planFirst f => [t!"l += encoder." ++ f ++ t!"_encoder.wirePlan[0]"]
  | .planRest f =>
    [t!"for i := 1; i < len(encoder." ++ f ++ t!"_encoder.wirePlan); i ++ {",
      t!"wirePlan = append(wirePlan, l)",
      t!"l = 0",
      t!"l = encoder." ++ f ++ t!"_encoder.wirePlan[i]",
      t!"}"]
  | .planEnd =>
    [t!"if l == 0 {",
      t!"wirePlan = append(wirePlan, l)",
      t!"l = 0",
      t!"}"]
  | .subWire f _ =>
    [t!"{",
      t!"subWire := make(enc.Wire, len(encoder." ++ f ++ t!"_encoder.wirePlan))",
      t!"subWire[0] = buf[pos:]",
      t!"for i := 1; i < len(subWire); i ++ {",
      t!"subWire[i] = wire[wireIdx + i]",
      t!"}",
      t!"encoder." ++ f ++ t!"_encoder.EncodeInto(value." ++ f ++ t!", subWire)",
      t!"for i := 1; i < len(subWire); i ++ {",
      t!"wire[wireIdx + i] = subWire[i]",
      t!"}",
      t!"if lastL := encoder." ++ f ++ t!"_encoder.wirePlan[len(subWire)-1]; lastL > 0 {",
      t!"wireIdx += len(subWire) - 1",
      t!"if len(subWire) > 1 {",
      t!"pos = lastL",
      t!"} else {",
      t!"pos += lastL",
      t!"}",
      t!"} else {",
      t!"wireIdx += len(subWire)",
      t!"pos = 0",
      t!"}",
      t!"if wireIdx < len(wire) {",
      t!"buf = wire[wireIdx]",
      t!"} else {",
      t!"buf = nil",
      t!"}",
      t!"}"]

/-- the lines of Go -/
def OCode.text : OCode → List Txt
  | .done => []
  | .plain c k => c.text ++ k.text
  | .atom a k => a.text ++ k.text
  | .cond c b k => [t!"if " ++ c.text ++ t!" {"] ++ b.text ++ [t!"}"] ++ k.text

/-! ## Fields -/

/-- `encoder.f_encoder.length` -/
def innerLength (f : Txt) : Ex := .own2 (.enc f) .length

/-- `GenInitEncoder`: fields_struct.go:44-53, and the others as without -/
def initOuter (f : Txt) : Cls → OCode
  | .struct t true => .cond (.notNil f) (.of (.init f t)) .done
  | c => .ofPlain (.ofPlain (initCode f c))

/-- `GenEncodingWirePlan`: fields_struct.go:73-98, and the others as without -/
def planOuter (f : Txt) (n : Nat) : Cls → OCode
  | .struct _ true =>
    .cond (.notNil f) (.ofPlain (.ofPlain (typeNumLen n ++ naturalLen (innerLength f) true)) ++
      .cond (.positive (innerLength f)) (.of (.planFirst f) ++ .of (.planRest f) ++ .of .planEnd) .done) .done
  | c => .ofPlain (planCode f n c)

/-- `GenEncodeInto`: fields_struct.go:101-143, and the others as without -/
def intoOuter (f : Txt) (n : Nat) : Cls → OCode
  | .struct t true =>
    .cond (.notNil f) (.ofPlain (.ofPlain (encodeTypeNum n ++ naturalEncode (innerLength f) true)) ++
      .cond (.positive (innerLength f)) (.of (.subWire f t)) .done) .done
  | c => .ofPlain (intoNoCopy f n c)

/-! ## Models -/

/-- what a template gives for all fields -/
def allOuter (g : Field → OCode) : List Field → OCode
  | [] => .done
  | f :: fs => g f ++ allOuter g fs

/-- the body of `Init`: `GenInitEncoder`, model.go:63-89, with `nocopy` -/
def initOuterBody (fs : List Field) : OCode :=
  allOuter (fun f => initOuter f.name f.cls) fs ++ .ofPlain (.ofPlain (.of (.decl .l (.conv .uint (.num 0))))) ++
    allOuter (fun f => .ofPlain (.ofPlain (lengthCode f.name f.num f.cls))) fs ++
    .ofPlain (.ofPlain (.of (.setKey .length (.var .l))) ++ .of .makePlan ++ .of (.zeroL true)) ++
    allOuter (fun f => planOuter f.name f.num f.cls) fs ++ .ofPlain (.cond (.positive (.var .l)) (.of .pushPlan) .done ++ .of .setPlan)

/-- the body of `EncodeInto`: `GenEncodeInto`, model.go:91-107, with `nocopy` -/
def intoOuterBody (fs : List Field) : OCode :=
  .ofPlain (.of .startIdx ++ .of .startBuf ++ .ofPlain (.of (.decl .pos (.conv .uint (.num 0))))) ++ allOuter (fun f => intoOuter f.name f.num f.cls) fs

/-- `GenEncoderStruct`, model.go:49-61, `GenInitEncoder`, model.go:63-89, and `GenEncodeInto`, model.go:91-125, all with `nocopy`: the lines of the encoder.
The only such model of the repository, `Packet`, is private, so that it has no `genPublicEncode`. -/
def outerText (m : TModel) : List Txt :=
  [t!"type " ++ m.name ++ t!"Encoder struct {", t!"length uint", t!"wirePlan []uint"] ++ (m.fields.map fun f => memberTexts f.name f.cls).flatten ++ [t!"}"] ++
  [t!"func (encoder *" ++ m.name ++ t!"Encoder) Init(value *" ++ m.name ++ t!") {"] ++ (initOuterBody m.fields).text ++ [t!"}"] ++
  [t!"func (encoder *" ++ m.name ++ t!"Encoder) EncodeInto(value *" ++ m.name ++ t!", wire enc.Wire) {"] ++ (intoOuterBody m.fields).text ++ [t!"}"] ++
  [t!"func (encoder *" ++ m.name ++ t!"Encoder) Encode(value *" ++ m.name ++ t!") enc.Wire {",
    t!"wire := make(enc.Wire, len(encoder.wirePlan))",
    t!"for i, l := range encoder.wirePlan {",
    t!"if l > 0 {",
    t!"wire[i] = make([]byte, l)",
    t!"}",
    t!"}",
    t!"encoder.EncodeInto(value, wire)",
    t!"return wire",
    t!"}"]

end Ndn.Codec.Gen
