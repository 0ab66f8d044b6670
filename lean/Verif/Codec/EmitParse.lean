import Verif.Codec.Emit

/-!
# Model of the back end of the code generator, `/repo/pkg/encoding/codegen`: the parser that it writes

As in `Verif/Codec/Emit.lean`, the templates write statements of a small language, `P`, and `P.text` gives the lines of Go for them.  What the statements do is
in `Verif/Codec/RunParse.lean`.  This file covers the field classes natural, fixedUint, time, binary, string, wire, name, bool, struct and sequence in models
without `ordered`.  Names are resolved: where Go has one name for two variables, one of which hides the other, they are two here.
-/

namespace Ndn.Codec.Gen

/-- what numbers are read into: `tempVal`, `timeInt`, `value.f` -/
inductive Slot where
  | temp
  | timeInt
  | field (f : Txt)
  deriving DecidableEq, Repr

/-- statements of the parser -/
inductive P where
  | skip
  | seq (a b : P)
  /-- a comment -/
  | note (t : Txt)
  /-- `{ … }` -/
  | block (b : P)
  /-- `break` -/
  | brk
  /- the frame of the method -/
  /-- `if reader == nil { … }` -/
  | ifNilReader (b : P)
  /-- `var handled_f bool = false` -/
  | declHandled (f : Txt)
  /-- `progress := -1`, `_ = progress` -/
  | declProgress
  /-- `value := &t{}` -/
  | newValue (t : Txt)
  /-- `var err error`, `var startPos int` -/
  | declErr
  | declStart
  /-- `for { … }` -/
  | forever (b : P)
  /-- `startPos = reader.Pos()` -/
  | setStart
  /-- `if startPos >= reader.Length() { … }` -/
  | ifEnd (b : P)
  /-- `typ := enc.TLNum(0)`, `l := enc.TLNum(0)` -/
  | declTyp
  | declL
  /-- `typ, err = enc.ReadTLNum(reader)`, `l, err = enc.ReadTLNum(reader)` -/
  | readTyp
  | readL
  /-- `if err != nil { … }`, `if err == nil { … }`, `if err == io.EOF { … }` -/
  | ifErr (b : P)
  | ifNoErr (b : P)
  | ifEof (b : P)
  /-- `err = nil`, `err = io.ErrUnexpectedEOF`, `err = enc.ErrBufferOverflow`, `err = enc.ErrSkipRequired{…}` -/
  | noErr
  | errEof
  | errOverflow
  | errRequired (f : Txt) (n : Nat)
  /-- `return nil, enc.ErrBufferOverflow`, `return nil, enc.ErrFailToParse{TypeNum: 0, Err: err}`, the same with `typ`,
  `return nil, enc.ErrUnrecognizedField{TypeNum: typ}`, `return nil, err`, `return value, nil` -/
  | retNil
  | retFail0
  | retFail
  | retUnrecognized
  | retErr
  | retValue
  /-- `if handled := false; true { … }`, `if true { … }` -/
  | scope (b : P)
  | always (b : P)
  /-- `switch typ { … }`, `case n: …`, `default: …` -/
  | switch (b : P)
  | case (n : Nat) (b rest : P)
  | dflt (b : P)
  /-- `handled = true`, `handled_f = true` -/
  | handled
  | handledF (f : Txt)
  /-- `if !ignoreCritical && … { … }`, `if err == nil && !handled { … }`, `if !handled_f && err == nil { … }` -/
  | ifCritical (b : P)
  | ifUnhandled (b : P)
  | ifUnhandledF (f : Txt) (b : P)
  /-- `err = reader.Skip(int(l))`, `err = reader.Skip(1)` -/
  | skipL
  | skip1
  /- numbers -/
  /-- `v := t(0)`, `v = t(0)` -/
  | declZero (v : Slot) (t : Ty)
  | setZero (v : Slot) (t : Ty)
  /-- `for i := 0; i < int(l); i++ { … }` -/
  | forL (b : P)
  /-- `x := byte(0)`, `x, err = reader.ReadByte()`, `value.f, err = reader.ReadByte()` -/
  | declX
  | readX
  | readByteF (f : Txt)
  /-- `v = t(v<<8) | t(x)` -/
  | shiftIn (v : Slot) (t : Ty)
  /-- `value.f = &tempVal` -/
  | box (f : Txt)
  /-- `value.f = &reader.Range(reader.Pos()-1, reader.Pos())[0][0]` -/
  | backByte (f : Txt)
  /-- `tempVal := time.Duration(timeInt) * time.Millisecond`, `value.f = time.Duration(timeInt) * time.Millisecond` -/
  | declTime
  | setTime (f : Txt)
  /- bytes -/
  /-- `value.f = make([]byte, l)`, `_, err = io.ReadFull(reader, value.f)` -/
  | make (f : Txt)
  | readFull (f : Txt)
  /-- `var builder strings.Builder`, `_, err = io.CopyN(&builder, reader, int64(l))` -/
  | declBuilder
  | copyN
  /-- `tempStr := builder.String()`, `value.f = &tempStr`, `value.f = builder.String()` -/
  | declStr
  | boxStr (f : Txt)
  | setStr (f : Txt)
  /-- `value.f, err = reader.ReadWire(int(l))` -/
  | readWire (f : Txt)
  /- names -/
  /-- `value.f = make(enc.Name, l/2+1)`, `startName := reader.Pos()`, `endName := startName + int(l)` -/
  | makeName (f : Txt)
  | startName
  | endName
  /-- `for j := range value.f { … }` -/
  | overName (f : Txt) (b : P)
  /-- `if reader.Pos() >= endName { … }`, `value.f = value.f[:j]` -/
  | ifPast (b : P)
  | cut (f : Txt)
  /-- `var err1, err3 error`, `value.f[j].Typ, err1 = enc.ReadTLNum(reader)`, `l, err2 := enc.ReadTLNum(reader)`,
  `value.f[j].Val, err3 = reader.ReadBuf(int(l))`, where this `l` hides the other -/
  | declErrs
  | compTyp (f : Txt)
  | compLen
  | compVal (f : Txt)
  /-- `if err1 != nil || err2 != nil || err3 != nil { … }`, `if err == nil && reader.Pos() != endName { … }` -/
  | ifErrs (b : P)
  | ifNotAt (b : P)
  /- the rest -/
  /-- `value.f = true`, `value.f = false`, `value.f = nil` -/
  | setBool (f : Txt) (v : Bool)
  | setNil (f : Txt)
  /-- `value.f, err = context.f_context.Parse(reader.Delegate(int(l)), ignoreCritical)`, where `f_context` is of type `tParsingContext` -/
  | parse (f t : Txt)
  /-- `if value.f == nil { … }`, `value.f = make([]t, 0)` -/
  | ifNilF (f : Txt) (b : P)
  | makeSeq (f t : Txt)
  /-- `pseudoValue := struct { f t }{}` -/
  | pseudo (f t : Txt)
  /-- `{ value := &pseudoValue … _ = value }` -/
  | within (b : P)
  /-- `value.f = append(value.f, pseudoValue.f)`, `progress --` -/
  | appendF (f : Txt)
  | decProgress
  deriving DecidableEq, Repr

/-- one after the other -/
def P.all : List P → P
  | [] => .skip
  | [a] => a
  | a :: b :: l => .seq a (P.all (b :: l))

def Slot.text : Slot → Txt
  | .temp => t!"tempVal"
  | .timeInt => t!"timeInt"
  | .field f => t!"value." ++ f

/-- the lines of Go; `gofmt` puts in the space in front of them -/
def P.text : P → List Txt
  | .skip => []
  | .seq a b => a.text ++ b.text
  | .note t => [t!"// " ++ t]
  | .block b => [t!"{"] ++ b.text ++ [t!"}"]
  | .brk => [t!"break"]
  | .ifNilReader b => [t!"if reader == nil {"] ++ b.text ++ [t!"}"]
  | .declHandled f => [t!"var handled_" ++ f ++ t!" bool = false"]
  | .declProgress => [t!"progress := -1", t!"_ = progress"]
  | .newValue t => [t!"value := &" ++ t ++ t!"{}"]
  | .declErr => [t!"var err error"]
  | .declStart => [t!"var startPos int"]
  | .forever b => [t!"for {"] ++ b.text ++ [t!"}"]
  | .setStart => [t!"startPos = reader.Pos()"]
  | .ifEnd b => [t!"if startPos >= reader.Length() {"] ++ b.text ++ [t!"}"]
  | .declTyp => [t!"typ := enc.TLNum(0)"]
  | .declL => [t!"l := enc.TLNum(0)"]
  | .readTyp => [t!"typ, err = enc.ReadTLNum(reader)"]
  | .readL => [t!"l, err = enc.ReadTLNum(reader)"]
  | .ifErr b => [t!"if err != nil {"] ++ b.text ++ [t!"}"]
  | .ifNoErr b => [t!"if err == nil {"] ++ b.text ++ [t!"}"]
  | .ifEof b => [t!"if err == io.EOF {"] ++ b.text ++ [t!"}"]
  | .noErr => [t!"err = nil"]
  | .errEof => [t!"err = io.ErrUnexpectedEOF"]
  | .errOverflow => [t!"err = enc.ErrBufferOverflow"]
  | .errRequired f n => [t!"err = enc.ErrSkipRequired{Name: \"" ++ f ++ t!"\", TypeNum: " ++ decTxt n ++ t!"}"]
  | .retNil => [t!"return nil, enc.ErrBufferOverflow"]
  | .retFail0 => [t!"return nil, enc.ErrFailToParse{TypeNum: 0, Err: err}"]
  | .retFail => [t!"return nil, enc.ErrFailToParse{TypeNum: typ, Err: err}"]
  | .retUnrecognized => [t!"return nil, enc.ErrUnrecognizedField{TypeNum: typ}"]
  | .retErr => [t!"return nil, err"]
  | .retValue => [t!"return value, nil"]
  | .scope b => [t!"if handled := false; true {"] ++ b.text ++ [t!"}"]
  | .always b => [t!"if true {"] ++ b.text ++ [t!"}"]
  | .switch b => [t!"switch typ {"] ++ b.text ++ [t!"}"]
  | .case n b rest => [t!"case " ++ decTxt n ++ t!":"] ++ b.text ++ rest.text
  | .dflt b => [t!"default:"] ++ b.text
  | .handled => [t!"handled = true"]
  | .handledF f => [t!"handled_" ++ f ++ t!" = true"]
  | .ifCritical b => [t!"if !ignoreCritical && ((typ <= 31) || ((typ & 1) == 1)) {"] ++ b.text ++ [t!"}"]
  | .ifUnhandled b => [t!"if err == nil && !handled {"] ++ b.text ++ [t!"}"]
  | .ifUnhandledF f b => [t!"if !handled_" ++ f ++ t!" && err == nil {"] ++ b.text ++ [t!"}"]
  | .skipL => [t!"err = reader.Skip(int(l))"]
  | .skip1 => [t!"err = reader.Skip(1)"]
  | .declZero v t => [v.text ++ t!" := " ++ t.text ++ t!"(0)"]
  | .setZero v t => [v.text ++ t!" = " ++ t.text ++ t!"(0)"]
  | .forL b => [t!"for i := 0; i < int(l); i++ {"] ++ b.text ++ [t!"}"]
  | .declX => [t!"x := byte(0)"]
  | .readX => [t!"x, err = reader.ReadByte()"]
  | .readByteF f => [t!"value." ++ f ++ t!", err = reader.ReadByte()"]
  | .shiftIn v t => [v.text ++ t!" = " ++ t.text ++ t!"(" ++ v.text ++ t!"<<8) | " ++ t.text ++ t!"(x)"]
  | .box f => [t!"value." ++ f ++ t!" = &tempVal"]
  | .backByte f => [t!"value." ++ f ++ t!" = &reader.Range(reader.Pos()-1, reader.Pos())[0][0]"]
  | .declTime => [t!"tempVal := time.Duration(timeInt) * time.Millisecond"]
  | .setTime f => [t!"value." ++ f ++ t!" = time.Duration(timeInt) * time.Millisecond"]
  | .make f => [t!"value." ++ f ++ t!" = make([]byte, l)"]
  | .readFull f => [t!"_, err = io.ReadFull(reader, value." ++ f ++ t!")"]
  | .declBuilder => [t!"var builder strings.Builder"]
  | .copyN => [t!"_, err = io.CopyN(&builder, reader, int64(l))"]
  | .declStr => [t!"tempStr := builder.String()"]
  | .boxStr f => [t!"value." ++ f ++ t!" = &tempStr"]
  | .setStr f => [t!"value." ++ f ++ t!" = builder.String()"]
  | .readWire f => [t!"value." ++ f ++ t!", err = reader.ReadWire(int(l))"]
  | .makeName f => [t!"value." ++ f ++ t!" = make(enc.Name, l/2+1)"]
  | .startName => [t!"startName := reader.Pos()"]
  | .endName => [t!"endName := startName + int(l)"]
  | .overName f b => [t!"for j := range value." ++ f ++ t!" {"] ++ b.text ++ [t!"}"]
  | .ifPast b => [t!"if reader.Pos() >= endName {"] ++ b.text ++ [t!"}"]
  | .cut f => [t!"value." ++ f ++ t!" = value." ++ f ++ t!"[:j]"]
  | .declErrs => [t!"var err1, err3 error"]
  | .compTyp f => [t!"value." ++ f ++ t!"[j].Typ, err1 = enc.ReadTLNum(reader)"]
  | .compLen => [t!"l, err2 := enc.ReadTLNum(reader)"]
  | .compVal f => [t!"value." ++ f ++ t!"[j].Val, err3 = reader.ReadBuf(int(l))"]
  | .ifErrs b => [t!"if err1 != nil || err2 != nil || err3 != nil {"] ++ b.text ++ [t!"}"]
  | .ifNotAt b => [t!"if err == nil && reader.Pos() != endName {"] ++ b.text ++ [t!"}"]
  | .setBool f v => [t!"value." ++ f ++ (if v then t!" = true" else t!" = false")]
  | .setNil f => [t!"value." ++ f ++ t!" = nil"]
  | .parse f _ => [t!"value." ++ f ++ t!", err = context." ++ f ++ t!"_context.Parse(reader.Delegate(int(l)), ignoreCritical)"]
  | .ifNilF f b => [t!"if value." ++ f ++ t!" == nil {"] ++ b.text ++ [t!"}"]
  | .makeSeq f t => [t!"value." ++ f ++ t!" = make([]" ++ t ++ t!", 0)"]
  | .pseudo f t => [t!"pseudoValue := struct {", f ++ t!" " ++ t, t!"}{}"]
  | .within b => [t!"{", t!"value := &pseudoValue"] ++ b.text ++ [t!"_ = value", t!"}"]
  | .appendF f => [t!"value." ++ f ++ t!" = append(value." ++ f ++ t!", pseudoValue." ++ f ++ t!")"]
  | .decProgress => [t!"progress--"]

/-! ## Fields -/

/-- the loop of `GenNaturalNumberDecode`, utils.go:124-143, and of fields_fixeduint.go:125-138, for numbers of the type `t` -/
def decodeNum (v : Slot) (t : Ty) : P :=
  P.all [.setZero v t, .block (.forL (P.all [.declX, .readX, .ifErr (P.all [.ifEof .errEof, .brk]), .shiftIn v t]))]

/-- the type of the numbers of a fixedUint field, fields_fixeduint.go:106-116 -/
def widthTy (w : Nat) : Ty := if w = 1 then .byte else if w = 2 then .u16 else if w = 4 then .u32 else .u64

/-- `GenReadFrom`: fields_natural.go:54-66, fields_fixeduint.go:104-173, fields_time.go:54-67, fields_binary.go:45-50, fields_string.go:60-75,
fields_wire.go:92-96, fields_name.go:66-92, fields_bool.go:39-41, fields_struct.go:149-154, fields_sequence.go:130-152 -/
def readCode (f : Txt) : Cls → P
  | .natural true => .block (P.all [.declZero .temp .u64, decodeNum .temp .u64, .box f])
  | .natural false => decodeNum (.field f) .u64
  | .fixedUint w o =>
    if w = 1 then
      if o then .block (P.all [.skip1, .ifEof .errEof, .backByte f]) else P.all [.readByteF f, .ifEof .errEof]
    else if o then .block (P.all [.declZero .temp (widthTy w), decodeNum .temp (widthTy w), .box f])
    else decodeNum (.field f) (widthTy w)
  | .time o => .block (P.all ([.declZero .timeInt .u64, decodeNum .timeInt .u64] ++ if o then [.declTime, .box f] else [.setTime f]))
  | .binary => P.all [.make f, .readFull f]
  | .string o => .block (P.all [.declBuilder, .copyN, .ifNoErr (if o then P.all [.declStr, .boxStr f] else .setStr f)])
  | .wire _ => .readWire f
  | .name => P.all [.makeName f, .startName, .endName,
      .overName f (P.all [.ifPast (P.all [.cut f, .brk]), .declErrs, .compTyp f, .compLen, .compVal f, .ifErrs (P.all [.errEof, .brk])]),
      .ifNotAt .errOverflow]
  | .bool => .setBool f true
  | .struct t _ => .parse f t
  | .sequence t sub => P.all [.ifNilF f (.makeSeq f t), .block (P.all [.pseudo f t, .within (readCode f sub), .appendF f]), .decProgress]
  | _ => .skip

/-- `GenSkipProcess`: fields_natural.go:68-74, fields_fixeduint.go:175-181, fields_time.go:69-75, fields_binary.go:52-54, fields_string.go:77-83,
fields_wire.go:98-100, fields_name.go:94-96, fields_bool.go:43-45, fields_struct.go:145-147, fields_sequence.go:154-157 -/
def skipCode (f : Txt) (n : Nat) : Cls → P
  | .natural o => if o then .setNil f else .errRequired f n
  | .fixedUint _ o => if o then .setNil f else .errRequired f n
  | .time o => if o then .setNil f else .errRequired f n
  | .binary => .setNil f
  | .string o => if o then .setNil f else .errRequired f n
  | .wire _ => .setNil f
  | .name => .setNil f
  | .bool => .setBool f false
  | .struct _ _ => .setNil f
  | .sequence _ _ => .note t!"sequence - skip"
  | _ => .skip

/-! ## Models -/

/-- the `switch typ` of model.go:186-207 -/
def casesCode : List Field → P
  | [] => .dflt (P.all [.ifCritical .retUnrecognized, .handled, .skipL])
  | f :: l => if f.num ≠ 0 then .case f.num (.always (P.all [.handled, .handledF f.name, readCode f.name f.cls])) (casesCode l) else casesCode l

/-- `GenTlvNumberDecode`, utils.go:113-122 -/
def tlvNumberDecode (read : P) : P := P.all [read, .ifErr .retFail0]

/-- one round of the loop of model.go:169-222 without `ordered` -/
def roundCode (fs : List Field) : P :=
  P.all [.setStart, .ifEnd .brk, .declTyp, .declL, tlvNumberDecode .readTyp, tlvNumberDecode .readL, .noErr,
    .scope (P.all [.switch (casesCode fs), .ifUnhandled .skip, .ifErr .retFail])]

/-- the declarations of model.go:159-161 -/
def declsCode : List Field → P
  | [] => .skip
  | f :: l => .seq (.declHandled f.name) (declsCode l)

/-- model.go:228-232 -/
def finishCode : List Field → P
  | [] => .skip
  | f :: l => .seq (.ifUnhandledF f.name (skipCode f.name f.num f.cls)) (finishCode l)

/-- the body of `Parse`: `GenReadFrom`, model.go:147-249, without `ordered` -/
def parseBody (m : TModel) : P :=
  P.all [.ifNilReader .retNil, declsCode m.fields, .declProgress, .newValue m.name, .declErr, .declStart, .forever (roundCode m.fields), .setStart, .noErr,
    finishCode m.fields, .ifErr .retErr, .retValue]

/-- `GenParsingContextStruct`: fields.go:88-90, fields_struct.go:55-57, fields_sequence.go:83-86 -/
def contextMembers (f : Txt) : Cls → List Txt
  | .struct t _ => [f ++ t!"_context " ++ t ++ t!"ParsingContext"]
  | .sequence _ sub => contextMembers f sub
  | _ => []

/-- `GenInitContext`: fields.go:92-94, fields_struct.go:59-61, fields_sequence.go:88-90 -/
def contextInits (f : Txt) : Cls → List Txt
  | .struct _ _ => [t!"context." ++ f ++ t!"_context.Init()"]
  | .sequence _ sub => contextInits f sub
  | _ => []

/-- `GenParsingContextStruct`, `GenInitContext`, `GenReadFrom`, `genPublicParse`, model.go:127-249, 275-283: the lines of the parser -/
def parserText (m : TModel) : List Txt :=
  [t!"type " ++ m.name ++ t!"ParsingContext struct {"] ++ (m.fields.map fun f => contextMembers f.name f.cls).flatten ++ [t!"}"] ++
  [t!"func (context *" ++ m.name ++ t!"ParsingContext) Init() {"] ++ (m.fields.map fun f => contextInits f.name f.cls).flatten ++ [t!"}"] ++
  [t!"func (context *" ++ m.name ++ t!"ParsingContext) Parse(reader enc.ParseReader, ignoreCritical bool) (*" ++ m.name ++ t!", error) {"] ++
    (parseBody m).text ++ [t!"}"] ++
  (if m.opts.priv then [] else [t!"func Parse" ++ m.name ++ t!"(reader enc.ParseReader, ignoreCritical bool) (*" ++ m.name ++ t!", error) {",
    t!"context := " ++ m.name ++ t!"ParsingContext{}",
    t!"context.Init()",
    t!"return context.Parse(reader, ignoreCritical)",
    t!"}"])

end Ndn.Codec.Gen
