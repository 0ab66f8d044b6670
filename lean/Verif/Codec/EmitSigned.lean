import Verif.Codec.EmitNoCopy

/-!
# Model of the back end of the code generator, `/repo/pkg/encoding/codegen`: the encoder of a model with a signature

A model with a field of class `signature` has markers, which keep a place of the wire, and arguments, in which the encoder leaves the parts of the wire that
the signature covers.  The name of an Interest is a field of a class of its own, because its last component is not signed but a digest that is filled in later.
Here are the statements for these, around those of `Verif/Codec/EmitNoCopy.lean`, for models with `nocopy`.  What they do is in `Verif/Codec/RunSigned.lean`.
-/

namespace Ndn.Codec.Gen

/-- the statements about places of the wire -/
inductive SAtom where
  /-- `encoder.f_wireIdx = -1` -/
  | noIdx (f : Txt)
  /-- `encoder.f = int(l)` -/
  | markLen (f : Txt)
  /-- `encoder.f_wireIdx = len(wirePlan)` -/
  | planIdx (f : Txt)
  /-- `encoder.f_wireIdx = int(wireIdx)` -/
  | markIdx (f : Txt)
  /-- `encoder.f_pos = int(pos)` -/
  | markPos (f : Txt)
  /-- `startPos := int(pos)` -/
  | startPos
  /-- the parts of the wire from the marker `m` to `startPos` are appended to `encoder.cov`, signature.go:75-87 -/
  | cover (m cov : Txt)
  /-- a digest at the end of `value.f` is dropped, signature.go:157-159 -/
  | trim (f : Txt)
  /-- `if encoder.f_needDigest { … }`: room for a digest is appended to `value.f`, signature.go:160-165 -/
  | addDigest (f : Txt)
  /-- `sigCoverStart := pos` -/
  | nameFrom
  /-- `sigCoverEnd := pos` -/
  | nameTo
  /-- `encoder.f_pos = pos + 2` -/
  | digestPos (f : Txt)
  /-- `if !encoder.f_needDigest { sigCoverEnd = pos }` -/
  | nameWhole (f : Txt)
  /-- `encoder.cov = append(encoder.cov, buf[sigCoverStart:sigCoverEnd])` -/
  | nameCover (cov : Txt)
  deriving DecidableEq, Repr

/-- sequences of statements; `k` is what comes after -/
inductive SCode where
  | done
  /-- statements of `Verif/Codec/EmitNoCopy.lean` -/
  | plain (c : NCode) (k : SCode)
  | atom (a : SAtom) (k : SCode)
  /-- `if c { … }` -/
  | cond (c : Cond) (body k : SCode)
  /-- `i := 0; for i = 0; i < len(value.f) - 1; i++ { c := value.f[i]; … }` -/
  | heads (f : Txt) (body : Code) (k : SCode)
  /-- `if len(value.f) > 0 { …; c := value.f[i]; …; … }`, after `heads` -/
  | last (f : Txt) (before : SAtom) (body : Code) (after : SAtom) (k : SCode)
  deriving DecidableEq, Repr

/-- one after the other -/
def SCode.append : SCode → SCode → SCode
  | .done, d => d
  | .plain c k, d => .plain c (k.append d)
  | .atom a k, d => .atom a (k.append d)
  | .cond c b k, d => .cond c b (k.append d)
  | .heads f b k, d => .heads f b (k.append d)
  | .last f a b c k, d => .last f a b c (k.append d)

instance : Append SCode := ⟨SCode.append⟩

/-- one statement -/
def SCode.of (a : SAtom) : SCode := .atom a .done

/-- statements of `Verif/Codec/EmitNoCopy.lean` -/
def SCode.ofPlain (c : NCode) : SCode := .plain c .done

/-! ## The text -/

def SAtom.text : SAtom → List Txt
  | .noIdx f => [t!"encoder." ++ f ++ t!"_wireIdx = -1"]
  | .markLen f => [t!"encoder." ++ f ++ t!" = int(l)"]
  | .planIdx f => [t!"encoder." ++ f ++ t!"_wireIdx = len(wirePlan)"]
  | .markIdx f => [t!"encoder." ++ f ++ t!"_wireIdx = int(wireIdx)"]
  | .markPos f => [t!"encoder." ++ f ++ t!"_pos = int(pos)"]
  | .startPos => [t!"startPos := int(pos)"]
  | .cover m cov =>
    [t!"if encoder." ++ m ++ t!"_wireIdx == int(wireIdx) {",
      t!"coveredPart := buf[encoder." ++ m ++ t!":startPos]",
      t!"encoder." ++ cov ++ t!" = append(encoder." ++ cov ++ t!", coveredPart)",
      t!"} else {",
      t!"coverStart := wire[encoder." ++ m ++ t!"_wireIdx][encoder." ++ m ++ t!":]",
      t!"encoder." ++ cov ++ t!" = append(encoder." ++ cov ++ t!", coverStart)",
      t!"for i := encoder." ++ m ++ t!"_wireIdx + 1; i < int(wireIdx); i++ {",
      t!"encoder." ++ cov ++ t!" = append(encoder." ++ cov ++ t!", wire[i])",
      t!"}",
      t!"coverEnd := buf[:startPos]",
      t!"encoder." ++ cov ++ t!" = append(encoder." ++ cov ++ t!", coverEnd)",
      t!"}"]
  | .trim f =>
    [t!"if len(value." ++ f ++ t!") > 0 && value." ++ f ++ t!"[len(value." ++ f ++ t!")-1].Typ == enc.TypeParametersSha256DigestComponent {",
      t!"value." ++ f ++ t!" = value." ++ f ++ t!"[:len(value." ++ f ++ t!")-1]",
      t!"}"]
  | .addDigest f =>
    [t!"if encoder." ++ f ++ t!"_needDigest {",
      t!"value." ++ f ++ t!" = append(value." ++ f ++ t!", enc.Component{",
      t!"Typ: enc.TypeParametersSha256DigestComponent,",
      t!"Val: make([]byte, 32),",
      t!"})",
      t!"}"]
  | .nameFrom => [t!"sigCoverStart := pos"]
  | .nameTo => [t!"sigCoverEnd := pos"]
  | .digestPos f => [t!"encoder." ++ f ++ t!"_pos = pos + 2"]
  | .nameWhole f => [t!"if !encoder." ++ f ++ t!"_needDigest {", t!"sigCoverEnd = pos", t!"}"]
  | .nameCover cov => [t!"encoder." ++ cov ++ t!" = append(encoder." ++ cov ++ t!", buf[sigCoverStart:sigCoverEnd])"]

/-- the lines of Go -/
def SCode.text : SCode → List Txt
  | .done => []
  | .plain c k => c.text ++ k.text
  | .atom a k => a.text ++ k.text
  | .cond c b k => [t!"if " ++ c.text ++ t!" {"] ++ b.text ++ [t!"}"] ++ k.text
  | .heads f b k => [t!"i := 0", t!"for i = 0; i < len(value." ++ f ++ t!")-1; i++ {", t!"c := value." ++ f ++ t!"[i]"] ++ b.text ++ [t!"}"] ++ k.text
  | .last f a b c k => [t!"if len(value." ++ f ++ t!") > 0 {"] ++ a.text ++ [t!"c := value." ++ f ++ t!"[i]"] ++ b.text ++ c.text ++ [t!"}"] ++ k.text

/-! ## Fields -/

/-- `encoder.f_estLen > 0` -/
def hasEst (f : Txt) : Cond := .positive (.own (.est f))

/-- `GenEncoderStruct`: markers.go:12-14, 38-46 and 95-103, signature.go:21-26 and 142-149, and the others as without -/
def signedMembers (f : Txt) : Cls → List Txt
  | .arg t => [f ++ t!" " ++ t]
  | .offset _ => [f ++ t!" int", f ++ t!"_wireIdx int", f ++ t!"_pos int"]
  | .range _ _ _ => [f ++ t!" int", f ++ t!"_wireIdx int", f ++ t!"_pos int"]
  | .signature _ _ _ => [f ++ t!"_wireIdx int", f ++ t!"_estLen uint"]
  | .interestName _ => [f ++ t!"_length uint", f ++ t!"_needDigest bool", f ++ t!"_wireIdx int", f ++ t!"_pos uint"]
  | c => memberTexts f c

/-- `GenInitEncoder`: signature.go:28-36 and 151-175; markers and arguments have none (fields.go:84-86); the others as without -/
def initSigned (f : Txt) : Cls → SCode
  | .arg _ => .done
  | .offset _ => .done
  | .range _ _ _ => .done
  | .signature _ _ _ => .of (.noIdx f)
  | .interestName _ =>
    .of (.noIdx f) ++ .ofPlain (.ofPlain (.of (.setKey (.len f) (.num 0)))) ++
      .cond (.notNil f) (.of (.trim f) ++ .of (.addDigest f) ++
        .ofPlain (.ofPlain (.each .c (.field f) (.of (.incKey (.len f) (.conv .uint (.size .c)))) .done))) .done
  | c => .ofPlain (.ofPlain (initCode f c))

/-- `GenEncodingLength`: markers.go:60-62 and 105-107, signature.go:46-54 and 188-196 (as of a name); arguments have none (fields.go:68-70); the others as without -/
def lengthSigned (f : Txt) (n : Nat) : Cls → SCode
  | .arg _ => .done
  | .offset _ => .of (.markLen f)
  | .range _ _ _ => .of (.markLen f)
  | .signature _ _ _ =>
    .cond (hasEst f) (.ofPlain (.ofPlain (typeNumLen n ++ naturalLen (.own (.est f)) true ++ .of (.inc .l (.own (.est f)))))) .done
  | .interestName _ => .ofPlain (.ofPlain (lengthCode f n .name))
  | c => .ofPlain (.ofPlain (lengthCode f n c))

/-- `GenEncodingWirePlan`: signature.go:56-66 and 198-200; markers and arguments have none (fields.go:72-74); the others as without -/
def planSigned (f : Txt) (n : Nat) : Cls → SCode
  | .arg _ => .done
  | .offset _ => .done
  | .range _ _ _ => .done
  | .signature _ _ _ =>
    .cond (hasEst f) (.ofPlain (.ofPlain (typeNumLen n ++ naturalLen (.own (.est f)) true) ++ switchPlan) ++ .of (.planIdx f) ++ .ofPlain switchPlan) .done
  | .interestName _ => .ofPlain (planCode f n .name)
  | c => .ofPlain (planCode f n c)

/-- `GenEncodeInto`: markers.go:64-71 and 109-116, signature.go:68-101, with `nocopy`, and 202-229; arguments have none (fields.go:76-78); the others as without -/
def intoSigned (f : Txt) (n : Nat) : Cls → SCode
  | .arg _ => .done
  | .offset _ => .of (.markIdx f) ++ .of (.markPos f)
  | .range _ _ _ => .of (.markIdx f) ++ .of (.markPos f)
  | .signature m cov _ =>
    .cond (hasEst f) (.of .startPos ++ .ofPlain (.ofPlain (encodeTypeNum n ++ naturalEncode (.own (.est f)) true)) ++ .of (.cover m cov) ++
      .ofPlain switchWire ++ .ofPlain switchWire) .done
  | .interestName cov =>
    .cond (.notNil f) (.ofPlain (.ofPlain (encodeTypeNum n ++ naturalEncode (.own (.len f)) true)) ++ .of .nameFrom ++
      .heads f (.of (.component .c)) (.of .nameTo ++ .of (.markIdx f) ++
        .last f (.digestPos f) (.of (.component .c)) (.nameWhole f) (.of (.nameCover cov)))) .done
  | c => .ofPlain (intoNoCopy f n c)

/-! ## Models -/

/-- what a template gives for all fields -/
def allSigned (g : Field → SCode) : List Field → SCode
  | [] => .done
  | f :: fs => g f ++ allSigned g fs

/-- the body of `Init`: `GenInitEncoder`, model.go:63-89, with `nocopy` -/
def initSignedBody (fs : List Field) : SCode :=
  allSigned (fun f => initSigned f.name f.cls) fs ++ .ofPlain (.ofPlain (.of (.decl .l (.conv .uint (.num 0))))) ++
    allSigned (fun f => lengthSigned f.name f.num f.cls) fs ++ .ofPlain (.ofPlain (.of (.setKey .length (.var .l))) ++ .of .makePlan ++ .of (.zeroL true)) ++
    allSigned (fun f => planSigned f.name f.num f.cls) fs ++ .ofPlain (.cond (.positive (.var .l)) (.of .pushPlan) .done ++ .of .setPlan)

/-- the body of `EncodeInto`: `GenEncodeInto`, model.go:91-107, with `nocopy` -/
def intoSignedBody (fs : List Field) : SCode :=
  .ofPlain (.of .startIdx ++ .of .startBuf ++ .ofPlain (.of (.decl .pos (.conv .uint (.num 0))))) ++ allSigned (fun f => intoSigned f.name f.num f.cls) fs

/-- `GenEncoderStruct`, model.go:49-61, `GenInitEncoder`, model.go:63-89, and `GenEncodeInto`, model.go:91-125, all with `nocopy`: the lines of the encoder.
The models of the repository with a signature are private, so that they have no `genPublicEncode`. -/
def signedText (m : TModel) : List Txt :=
  [t!"type " ++ m.name ++ t!"Encoder struct {", t!"length uint", t!"wirePlan []uint"] ++ (m.fields.map fun f => signedMembers f.name f.cls).flatten ++ [t!"}"] ++
  [t!"func (encoder *" ++ m.name ++ t!"Encoder) Init(value *" ++ m.name ++ t!") {"] ++ (initSignedBody m.fields).text ++ [t!"}"] ++
  [t!"func (encoder *" ++ m.name ++ t!"Encoder) EncodeInto(value *" ++ m.name ++ t!", wire enc.Wire) {"] ++ (intoSignedBody m.fields).text ++ [t!"}"] ++
  [t!"func (encoder *" ++ m.name ++ t!"Encoder) Encode(value *" ++ m.name ++ t!") enc.Wire {",
    t!"wire := make(enc.Wire, len(encoder.wirePlan))",
    t!"for i, l := range encoder.wirePlan {",
    t!"if l > 0 {",
    t!"wire[i] = make([]byte, l)",
    t!"}",
    t!"}",
    t!"encoder.EncodeInto(value, wire)",
    t!"return wire",
    t!"}"]

end Ndn.Codec.Gen
