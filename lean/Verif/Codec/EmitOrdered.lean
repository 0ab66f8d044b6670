import Verif.Codec.EmitParse

/-!
# Model of the back end of the code generator, `/repo/pkg/encoding/codegen`: the parser that it writes for models with `ordered`

The frame of `Parse` (model.go:147-249) is made of statements of a small language, `Q`; what they do is in `Verif/Codec/RunOrdered.lean`.  The code that a field
contributes (`GenReadFrom`, `GenSkipProcess`) is one statement here, `read` and `skipF`, of which only the text is given: for the field classes of
`EmitParse.lean`, markers, arguments, signatures and Interest names.
-/

namespace Ndn.Codec.Gen

/-- statements of the parser -/
inductive Q where
  | skip
  | seq (a b : Q)
  /-- `break` -/
  | brk
  /-- `if reader == nil { … }` -/
  | ifNilReader (b : Q)
  /-- `var handled_f bool = false` -/
  | declHandled (f : Txt)
  /-- `progress := -1`, `_ = progress` -/
  | declProgress
  /-- `value := &t{}`, `var err error`, `var startPos int` -/
  | newValue (t : Txt)
  | declErr
  | declStart
  /-- `for { … }` -/
  | forever (b : Q)
  /-- `startPos = reader.Pos()` -/
  | setStart
  /-- `if startPos >= reader.Length() { … }` -/
  | ifEnd (b : Q)
  /-- `typ := enc.TLNum(0)`, `l := enc.TLNum(0)`, `typ, err = enc.ReadTLNum(reader)`, `l, err = enc.ReadTLNum(reader)` -/
  | declTyp
  | declL
  | readTyp
  | readL
  /-- `if err != nil { … }`, `err = nil` -/
  | ifErr (b : Q)
  | noErr
  /-- `return nil, enc.ErrBufferOverflow`, `return nil, enc.ErrFailToParse{TypeNum: 0, Err: err}`, the same with `typ`,
  `return nil, enc.ErrUnrecognizedField{TypeNum: typ}`, `return nil, err`, `return value, nil` -/
  | retNil
  | retFail0
  | retFail
  | retUnrecognized
  | retErr
  | retValue
  /-- `for handled := false; !handled && progress < n; progress++ { … }` -/
  | forProgress (n : Nat) (b : Q)
  /-- `switch typ { … }`, `case n: …`, `default: …` -/
  | switch (b : Q)
  | case (n : Nat) (b rest : Q)
  | dflt (b : Q)
  /-- `if progress+1 == i { … }` -/
  | ifNext (i : Nat) (b : Q)
  /-- `handled = true`, `handled_f = true` -/
  | handled
  | handledF (f : Txt)
  /-- `if !ignoreCritical && … { … }`, `err = reader.Skip(int(l))` -/
  | ifCritical (b : Q)
  | skipL
  /-- `if err == nil && !handled { … }` -/
  | ifUnhandled (b : Q)
  /-- `switch progress { … }`, `case i - 1: …` -/
  | switchProgress (b : Q)
  | caseProgress (i : Nat) (b rest : Q)
  /-- `if !handled_f && err == nil { … }` -/
  | ifUnhandledF (f : Txt) (b : Q)
  /-- `GenReadFrom`, `GenSkipProcess` of a field -/
  | read (f : Field)
  | skipF (f : Field)
  deriving DecidableEq, Repr

/-- one after the other -/
def Q.all : List Q → Q
  | [] => .skip
  | [a] => a
  | a :: b :: l => .seq a (Q.all (b :: l))

/-! ## Text -/

/-- the lines of `GenReadFrom`: fields.go:96-98, markers.go:52-54 and 124-126, signature.go:103-111 and 231-270; the others as without `ordered` -/
def readLines (f : Field) : List Txt :=
  match f.cls with
  | .arg _ => [t!"// base - read"]
  | .offset _ => [t!"context." ++ f.name ++ t!" = int(startPos)"]
  | .range start cov _ => [t!"context." ++ f.name ++ t!" = int(startPos)", t!"context." ++ cov ++ t!" = reader.Range(context." ++ start ++ t!", startPos)"]
  | .signature start cov _ => [t!"value." ++ f.name ++ t!", err = reader.ReadWire(int(l))", t!"if err == nil {",
      t!"coveredPart := reader.Range(context." ++ start ++ t!", startPos)",
      t!"context." ++ cov ++ t!" = append(context." ++ cov ++ t!", coveredPart...)", t!"}"]
  | .interestName cov => [t!"{",
      t!"value." ++ f.name ++ t!" = make(enc.Name, l/2+1)",
      t!"startName := reader.Pos()",
      t!"endName := startName + int(l)",
      t!"sigCoverEnd := endName",
      t!"for j := range value." ++ f.name ++ t!" {",
      t!"var err1, err3 error",
      t!"startComponent := reader.Pos()",
      t!"if startComponent >= endName {",
      t!"value." ++ f.name ++ t!" = value." ++ f.name ++ t!"[:j]",
      t!"break",
      t!"}",
      t!"value." ++ f.name ++ t!"[j].Typ, err1 = enc.ReadTLNum(reader)",
      t!"l, err2 := enc.ReadTLNum(reader)",
      t!"value." ++ f.name ++ t!"[j].Val, err3 = reader.ReadBuf(int(l))",
      t!"if err1 != nil || err2 != nil || err3 != nil {",
      t!"err = io.ErrUnexpectedEOF",
      t!"break",
      t!"}",
      t!"if value." ++ f.name ++ t!"[j].Typ == enc.TypeParametersSha256DigestComponent {",
      t!"sigCoverEnd = startComponent",
      t!"}",
      t!"}",
      t!"if err == nil && reader.Pos() != endName {",
      t!"err = enc.ErrBufferOverflow",
      t!"}",
      t!"if err == nil {",
      t!"coveredPart := reader.Range(startName, sigCoverEnd)",
      t!"context." ++ cov ++ t!" = append(context." ++ cov ++ t!", coveredPart...)",
      t!"}",
      t!"}"]
  | c => (readCode f.name c).text

/-- the lines of `GenSkipProcess`: fields.go:100-102, markers.go:56-58 and 128-133, signature.go:113-115 and 272-274; the others as without `ordered` -/
def skipLines (f : Field) : List Txt :=
  match f.cls with
  | .arg _ => [t!"// base - skip"]
  | .offset _ => [t!"context." ++ f.name ++ t!" = int(startPos)"]
  | .range start cov _ => [t!"context." ++ f.name ++ t!" = int(startPos)", t!"context." ++ cov ++ t!" = reader.Range(context." ++ start ++ t!", startPos)"]
  | .signature _ _ _ => [t!"value." ++ f.name ++ t!" = nil"]
  | .interestName _ => [t!"value." ++ f.name ++ t!" = nil"]
  | c => (skipCode f.name f.num c).text

/-- the lines of Go; `gofmt` puts in the space in front of them -/
def Q.text : Q → List Txt
  | .skip => []
  | .seq a b => a.text ++ b.text
  | .brk => [t!"break"]
  | .ifNilReader b => [t!"if reader == nil {"] ++ b.text ++ [t!"}"]
  | .declHandled f => [t!"var handled_" ++ f ++ t!" bool = false"]
  | .declProgress => [t!"progress := -1", t!"_ = progress"]
  | .newValue t => [t!"value := &" ++ t ++ t!"{}"]
  | .declErr => [t!"var err error"]
  | .declStart => [t!"var startPos int"]
  | .forever b => [t!"for {"] ++ b.text ++ [t!"}"]
  | .setStart => [t!"startPos = reader.Pos()"]
  | .ifEnd b => [t!"if startPos >= reader.Length() {"] ++ b.text ++ [t!"}"]
  | .declTyp => [t!"typ := enc.TLNum(0)"]
  | .declL => [t!"l := enc.TLNum(0)"]
  | .readTyp => [t!"typ, err = enc.ReadTLNum(reader)"]
  | .readL => [t!"l, err = enc.ReadTLNum(reader)"]
  | .ifErr b => [t!"if err != nil {"] ++ b.text ++ [t!"}"]
  | .noErr => [t!"err = nil"]
  | .retNil => [t!"return nil, enc.ErrBufferOverflow"]
  | .retFail0 => [t!"return nil, enc.ErrFailToParse{TypeNum: 0, Err: err}"]
  | .retFail => [t!"return nil, enc.ErrFailToParse{TypeNum: typ, Err: err}"]
  | .retUnrecognized => [t!"return nil, enc.ErrUnrecognizedField{TypeNum: typ}"]
  | .retErr => [t!"return nil, err"]
  | .retValue => [t!"return value, nil"]
  | .forProgress n b => [t!"for handled := false; !handled && progress < " ++ decTxt n ++ t!"; progress++ {"] ++ b.text ++ [t!"}"]
  | .switch b => [t!"switch typ {"] ++ b.text ++ [t!"}"]
  | .case n b rest => [t!"case " ++ decTxt n ++ t!":"] ++ b.text ++ rest.text
  | .dflt b => [t!"default:"] ++ b.text
  | .ifNext i b => [t!"if progress+1 == " ++ decTxt i ++ t!" {"] ++ b.text ++ [t!"}"]
  | .handled => [t!"handled = true"]
  | .handledF f => [t!"handled_" ++ f ++ t!" = true"]
  | .ifCritical b => [t!"if !ignoreCritical && ((typ <= 31) || ((typ & 1) == 1)) {"] ++ b.text ++ [t!"}"]
  | .skipL => [t!"err = reader.Skip(int(l))"]
  | .ifUnhandled b => [t!"if err == nil && !handled {"] ++ b.text ++ [t!"}"]
  | .switchProgress b => [t!"switch progress {"] ++ b.text ++ [t!"}"]
  | .caseProgress i b rest => [t!"case " ++ decTxt i ++ t!" - 1:"] ++ b.text ++ rest.text
  | .ifUnhandledF f b => [t!"if !handled_" ++ f ++ t!" && err == nil {"] ++ b.text ++ [t!"}"]
  | .read f => readLines f
  | .skipF f => skipLines f

/-! ## Models -/

/-- the `switch typ` of model.go:186-207 with `ordered`; `i` is the index of the first field -/
def orderedCases : Nat → List Field → Q
  | _, [] => .dflt (Q.all [.ifCritical .retUnrecognized, .handled, .skipL])
  | i, f :: l =>
    if f.num ≠ 0 then .case f.num (.ifNext i (Q.all [.handled, .handledF f.name, .read f])) (orderedCases (i + 1) l) else orderedCases (i + 1) l

/-- the `switch progress` of model.go:209-216 -/
def progressCases : Nat → List Field → Q
  | _, [] => .skip
  | i, f :: l => .caseProgress i (Q.all [.handledF f.name, .skipF f]) (progressCases (i + 1) l)

/-- the body of the loop of model.go:182-222 -/
def stepCode (fs : List Field) : Q := Q.all [.switch (orderedCases 0 fs), .ifUnhandled (.switchProgress (progressCases 0 fs)), .ifErr .retFail]

/-- one round of the loop of model.go:169-223 with `ordered` -/
def orderedRound (fs : List Field) : Q :=
  Q.all [.setStart, .ifEnd .brk, .declTyp, .declL, .readTyp, .ifErr .retFail0, .readL, .ifErr .retFail0, .noErr, .forProgress fs.length (stepCode fs)]

/-- the declarations of model.go:159-161 -/
def orderedDecls : List Field → Q
  | [] => .skip
  | f :: l => .seq (.declHandled f.name) (orderedDecls l)

/-- model.go:228-232 -/
def orderedFinish : List Field → Q
  | [] => .skip
  | f :: l => .seq (.ifUnhandledF f.name (.skipF f)) (orderedFinish l)

/-- the body of `Parse`: `GenReadFrom`, model.go:147-249, with `ordered` -/
def orderedBody (name : Txt) (fs : List Field) : Q :=
  Q.all [.ifNilReader .retNil, orderedDecls fs, .declProgress, .newValue name, .declErr, .declStart, .forever (orderedRound fs), .setStart, .noErr,
    orderedFinish fs, .ifErr .retErr, .retValue]

/-- `GenParsingContextStruct`: markers.go:16-18, 48-50 and 118-122, signature.go:38-40 and 176-181; the others as without `ordered` -/
def orderedMembers (f : Field) : List Txt :=
  match f.cls with
  | .arg t => [f.name ++ t!" " ++ t]
  | .offset _ => [f.name ++ t!" int"]
  | .range _ _ _ => [f.name ++ t!" int"]
  | .signature _ _ _ => []
  | .interestName _ => [f.name ++ t!"_wireIdx int", f.name ++ t!"_pos uint"]
  | c => contextMembers f.name c

/-- `GenInitContext`: signature.go:42-44 and 183-185; markers and arguments have none (fields.go:92-94); the others as without `ordered` -/
def orderedInits (f : Field) : List Txt :=
  match f.cls with
  | .signature _ cov _ => [t!"context." ++ cov ++ t!" = make(enc.Wire, 0)"]
  | c => contextInits f.name c

/-- the lines of the parser of a model with `ordered` and `private`, model.go:127-249 -/
def orderedText (m : TModel) : List Txt :=
  [t!"type " ++ m.name ++ t!"ParsingContext struct {"] ++ (m.fields.map orderedMembers).flatten ++ [t!"}"] ++
  [t!"func (context *" ++ m.name ++ t!"ParsingContext) Init() {"] ++ (m.fields.map orderedInits).flatten ++ [t!"}"] ++
  [t!"func (context *" ++ m.name ++ t!"ParsingContext) Parse(reader enc.ParseReader, ignoreCritical bool) (*" ++ m.name ++ t!", error) {"] ++
    (orderedBody m.name m.fields).text ++ [t!"}"]

end Ndn.Codec.Gen
