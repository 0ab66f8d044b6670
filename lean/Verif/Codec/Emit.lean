import Verif.Codec.Source

/-!
# Model of the back end of the code generator, `/repo/pkg/encoding/codegen`: the encoder that it writes

The templates of a field write Go statements.  Here they write statements of a small language, `Code`, and `Code.text` gives the lines of Go for them.
What the statements do is in `Verif/Codec/Run.lean`.  This file covers the field classes natural, fixedUint, time, binary, string, wire, name, bool, struct
and sequence in models without `nocopy`.
-/

namespace Ndn.Codec.Gen

/-! ## The language -/

/-- the local variables of the emitted functions; `count f` is `f_l` -/
inductive Var where
  | encoder | value | buf | pos | l | x | c | w | i | seqI | seqV | pseudoEncoder | pseudoValue
  | count (f : Txt)
  deriving DecidableEq, Repr

/-- the members of an encoder: `length`, `f_length`, `f_encoder`, `f_subencoder`, `f_estLen` -/
inductive Key where
  | length
  | len (f : Txt)
  | enc (f : Txt)
  | sub (f : Txt)
  | est (f : Txt)
  deriving DecidableEq, Repr

/-- the types that numbers are converted to -/
inductive Ty where
  | byte | u16 | u32 | u64 | uint
  deriving DecidableEq, Repr

/-- expressions -/
inductive Ex where
  /-- a number, in decimal digits -/
  | num (n : Nat)
  /-- a number, in hexadecimal digits -/
  | hex (n : Nat)
  /-- `a + b` -/
  | sum (a b : Nat)
  | var (v : Var)
  /-- `value.f` -/
  | field (f : Txt)
  /-- `*value.f` -/
  | deref (f : Txt)
  /-- `value.f[v]` -/
  | item (f : Txt) (v : Var)
  /-- `encoder.k` and `encoder.k.k'` -/
  | own (k : Key)
  | own2 (k k' : Key)
  /-- `len(e)` -/
  | len (e : Ex)
  /-- `t(e)` -/
  | conv (t : Ty) (e : Ex)
  /-- `e/time.Millisecond` -/
  | millis (e : Ex)
  /-- `v.EncodingLength()` -/
  | size (v : Var)
  deriving DecidableEq, Repr

/-- statements without statements in them -/
inductive Atom where
  /-- `v := e` -/
  | decl (v : Var) (e : Ex)
  /-- `pseudoEncoder := &encoder.f_subencoder[v]` -/
  | refSub (f : Txt) (v : Var)
  /-- `pseudoValue := struct { f t }{ f: e, }` -/
  | pseudo (f t : Txt) (e : Ex)
  /-- `value := &pseudoValue` -/
  | addr
  /-- `v += e` -/
  | inc (v : Var) (e : Ex)
  /-- `encoder.k = e` -/
  | setKey (k : Key) (e : Ex)
  /-- `encoder.k += e` -/
  | incKey (k : Key) (e : Ex)
  /-- `encoder.f_subencoder = make([]struct{ … }, f_l)` -/
  | makeSub (f : Txt) (members : List Txt)
  /-- `buf[pos] = e`, `buf[pos+1] = e` -/
  | poke (next : Bool) (e : Ex)
  /-- `binary.BigEndian.PutUint16(buf[pos+1:], uint16(e))` and so on -/
  | putBE (t : Ty) (e : Ex)
  /-- `copy(buf[pos:], e)` -/
  | copy (e : Ex)
  /-- `pos += uint(v.EncodeInto(buf[pos:]))` -/
  | component (v : Var)
  /-- `encoder.f_encoder.Init(value.f)`, where `f_encoder` is of type `tEncoder` -/
  | init (f t : Txt)
  /-- `encoder.f_encoder.EncodeInto(value.f, buf[pos:])` -/
  | into (f t : Txt)
  /-- `_ = v` -/
  | use (v : Var)
  deriving DecidableEq, Repr

/-- conditions: `value.f != nil`, `value.f`, `e > 0` -/
inductive Cond where
  | notNil (f : Txt)
  | isTrue (f : Txt)
  | positive (e : Ex)
  deriving DecidableEq, Repr

/-- sequences of statements; `k` is what comes after -/
inductive Code where
  | done
  | atom (a : Atom) (k : Code)
  /-- `if c { … }` -/
  | cond (c : Cond) (body k : Code)
  /-- `switch x := e; { case x <= b1: … case x <= b2: … case x <= b3: … default: … }` -/
  | switch (e : Ex) (b1 b2 b3 : Nat) (c1 c2 c3 c4 k : Code)
  /-- `for _, v := range e { … }` -/
  | each (v : Var) (e : Ex) (body k : Code)
  /-- `for seq_i, seq_v := range e { … }` -/
  | items (e : Ex) (body k : Code)
  /-- `for i := 0; i < v; i++ { … }` -/
  | times (v : Var) (body k : Code)
  /-- `{ … }` -/
  | block (body k : Code)
  deriving DecidableEq, Repr

/-- one after the other -/
def Code.append : Code → Code → Code
  | .done, d => d
  | .atom a k, d => .atom a (k.append d)
  | .cond c b k, d => .cond c b (k.append d)
  | .switch e b1 b2 b3 c1 c2 c3 c4 k, d => .switch e b1 b2 b3 c1 c2 c3 c4 (k.append d)
  | .each v e b k, d => .each v e b (k.append d)
  | .items e b k, d => .items e b (k.append d)
  | .times v b k, d => .times v b (k.append d)
  | .block b k, d => .block b (k.append d)

instance : Append Code := ⟨Code.append⟩

/-- one statement -/
def Code.of (a : Atom) : Code := .atom a .done

/-! ## The text -/

/-- decimal digits -/
def decTxt (n : Nat) : Txt := Nat.toDigits 10 n

/-- hexadecimal digits -/
def hexTxt (n : Nat) : Txt := t!"0x" ++ Nat.toDigits 16 n

def Var.text : Var → Txt
  | .encoder => t!"encoder"
  | .value => t!"value"
  | .buf => t!"buf"
  | .pos => t!"pos"
  | .l => t!"l"
  | .x => t!"x"
  | .c => t!"c"
  | .w => t!"w"
  | .i => t!"i"
  | .seqI => t!"seq_i"
  | .seqV => t!"seq_v"
  | .pseudoEncoder => t!"pseudoEncoder"
  | .pseudoValue => t!"pseudoValue"
  | .count f => f ++ t!"_l"

def Key.text : Key → Txt
  | .length => t!"length"
  | .len f => f ++ t!"_length"
  | .enc f => f ++ t!"_encoder"
  | .sub f => f ++ t!"_subencoder"
  | .est f => f ++ t!"_estLen"

def Ty.text : Ty → Txt
  | .byte => t!"byte"
  | .u16 => t!"uint16"
  | .u32 => t!"uint32"
  | .u64 => t!"uint64"
  | .uint => t!"uint"

def Ex.text : Ex → Txt
  | .num n => decTxt n
  | .hex n => hexTxt n
  | .sum a b => decTxt a ++ t!" + " ++ decTxt b
  | .var v => v.text
  | .field f => t!"value." ++ f
  | .deref f => t!"*value." ++ f
  | .item f v => t!"value." ++ f ++ t!"[" ++ v.text ++ t!"]"
  | .own k => t!"encoder." ++ k.text
  | .own2 k k' => t!"encoder." ++ k.text ++ t!"." ++ k'.text
  | .len e => t!"len(" ++ e.text ++ t!")"
  | .conv t e => t.text ++ t!"(" ++ e.text ++ t!")"
  | .millis e => e.text ++ t!"/time.Millisecond"
  | .size v => v.text ++ t!".EncodingLength()"

/-- the name of the function that writes a number of the type -/
def Ty.put : Ty → Txt
  | .byte => t!"PutUint8"
  | .u16 => t!"PutUint16"
  | .u32 => t!"PutUint32"
  | .u64 => t!"PutUint64"
  | .uint => t!"PutUint"

def Atom.text : Atom → List Txt
  | .decl v e => [v.text ++ t!" := " ++ e.text]
  | .refSub f v => [t!"pseudoEncoder := &encoder." ++ f ++ t!"_subencoder[" ++ v.text ++ t!"]"]
  | .pseudo f t e => [t!"pseudoValue := struct {", f ++ t!" " ++ t, t!"}{", f ++ t!": " ++ e.text ++ t!",", t!"}"]
  | .addr => [t!"value := &pseudoValue"]
  | .inc v e => [v.text ++ t!" += " ++ e.text]
  | .setKey k e => [t!"encoder." ++ k.text ++ t!" = " ++ e.text]
  | .incKey k e => [t!"encoder." ++ k.text ++ t!" += " ++ e.text]
  | .makeSub f ms => [t!"encoder." ++ f ++ t!"_subencoder = make([]struct{"] ++ ms ++ [t!"}, " ++ f ++ t!"_l)"]
  | .poke next e => [(if next then t!"buf[pos+1] = " else t!"buf[pos] = ") ++ e.text]
  | .putBE t e => [t!"binary.BigEndian." ++ t.put ++ t!"(buf[pos+1:], " ++ t.text ++ t!"(" ++ e.text ++ t!"))"]
  | .copy e => [t!"copy(buf[pos:], " ++ e.text ++ t!")"]
  | .component v => [t!"pos += uint(" ++ v.text ++ t!".EncodeInto(buf[pos:]))"]
  | .init f _ => [t!"encoder." ++ f ++ t!"_encoder.Init(value." ++ f ++ t!")"]
  | .into f _ => [t!"encoder." ++ f ++ t!"_encoder.EncodeInto(value." ++ f ++ t!", buf[pos:])"]
  | .use v => [t!"_ = " ++ v.text]

def Cond.text : Cond → Txt
  | .notNil f => t!"value." ++ f ++ t!" != nil"
  | .isTrue f => t!"value." ++ f
  | .positive e => e.text ++ t!" > 0"

/-- the lines of Go; `gofmt` puts in the space in front of them -/
def Code.text : Code → List Txt
  | .done => []
  | .atom a k => a.text ++ k.text
  | .cond c b k => [t!"if " ++ c.text ++ t!" {"] ++ b.text ++ [t!"}"] ++ k.text
  | .switch e b1 b2 b3 c1 c2 c3 c4 k =>
    [t!"switch x := " ++ e.text ++ t!"; {", t!"case x <= " ++ hexTxt b1 ++ t!":"] ++ c1.text ++ [t!"case x <= " ++ hexTxt b2 ++ t!":"] ++ c2.text ++
      [t!"case x <= " ++ hexTxt b3 ++ t!":"] ++ c3.text ++ [t!"default:"] ++ c4.text ++ [t!"}"] ++ k.text
  | .each v e b k => [t!"for _, " ++ v.text ++ t!" := range " ++ e.text ++ t!" {"] ++ b.text ++ [t!"}"] ++ k.text
  | .items e b k => [t!"for seq_i, seq_v := range " ++ e.text ++ t!" {"] ++ b.text ++ [t!"}"] ++ k.text
  | .times v b k => [t!"for i := 0; i < " ++ v.text ++ t!"; i ++ {"] ++ b.text ++ [t!"}"] ++ k.text
  | .block b k => [t!"{"] ++ b.text ++ [t!"}"] ++ k.text

/-! ## Numbers -/

/-- `GenTypeNumLen`, utils.go:9-22 -/
def typeNumLen (n : Nat) : Code :=
  .of (.inc .l (.num (if n ≤ 0xfc then 1 else if n ≤ 0xffff then 3 else if n ≤ 0xffffffff then 5 else 9)))

/-- `GenEncodeTypeNum`, utils.go:24-44 -/
def encodeTypeNum (n : Nat) : Code :=
  if n ≤ 0xfc then .of (.poke false (.conv .byte (.num n))) ++ .of (.inc .pos (.num 1))
  else if n ≤ 0xffff then .of (.poke false (.num 0xfd)) ++ .of (.putBE .u16 (.num n)) ++ .of (.inc .pos (.num 3))
  else if n ≤ 0xffffffff then .of (.poke false (.num 0xfe)) ++ .of (.putBE .u32 (.num n)) ++ .of (.inc .pos (.num 5))
  else .of (.poke false (.num 0xff)) ++ .of (.putBE .u64 (.num n)) ++ .of (.inc .pos (.num 9))

/-- `GenNaturalNumberLen`, utils.go:46-73 -/
def naturalLen (e : Ex) (isTlv : Bool) : Code :=
  .switch e (if isTlv then 0xfc else 0xff) 0xffff 0xffffffff (.of (.inc .l (.num (if isTlv then 1 else 2)))) (.of (.inc .l (.num 3)))
    (.of (.inc .l (.num 5))) (.of (.inc .l (.num 9))) .done

/-- `GenNaturalNumberEncode`, utils.go:75-111 -/
def naturalEncode (e : Ex) (isTlv : Bool) : Code :=
  .switch e (if isTlv then 0xfc else 0xff) 0xffff 0xffffffff
    (if isTlv then .of (.poke false (.conv .byte (.var .x))) ++ .of (.inc .pos (.num 1))
      else .of (.poke false (.num 1)) ++ .of (.poke true (.conv .byte (.var .x))) ++ .of (.inc .pos (.num 2)))
    (.of (.poke false (if isTlv then .hex 0xfd else .num 2)) ++ .of (.putBE .u16 (.var .x)) ++ .of (.inc .pos (.num 3)))
    (.of (.poke false (if isTlv then .hex 0xfe else .num 4)) ++ .of (.putBE .u32 (.var .x)) ++ .of (.inc .pos (.num 5)))
    (.of (.poke false (if isTlv then .hex 0xff else .num 8)) ++ .of (.putBE .u64 (.var .x)) ++ .of (.inc .pos (.num 9))) .done

/-! ## Fields -/

/-- a field that may be nil, or one that may not -/
def guarded (opt : Bool) (f : Txt) (c : Code) : Code := if opt then .cond (.notNil f) c .done else c

/-- `value.f` or `*value.f` -/
def access (opt : Bool) (f : Txt) : Ex := if opt then .deref f else .field f

/-- `GenEncoderStruct`: the members that a field adds to the encoder.  fields.go:93-95, fields_name.go:22-24, fields_wire.go:25-27, fields_struct.go:40-42,
fields_sequence.go:43-49 -/
def memberTexts (f : Txt) : Cls → List Txt
  | .name => [f ++ t!"_length uint"]
  | .wire _ => [f ++ t!"_length uint"]
  | .struct t _ => [f ++ t!"_encoder " ++ t ++ t!"Encoder"]
  | .sequence _ sub => [f ++ t!"_subencoder []struct{"] ++ memberTexts f sub ++ [t!"}"]
  | _ => []

/-- `GenInitEncoder`: fields.go:97-99, fields_name.go:26-38, fields_wire.go:29-42, fields_struct.go:44-53, fields_sequence.go:51-79 -/
def initCode (f : Txt) : Cls → Code
  | .name => .cond (.notNil f) (.of (.setKey (.len f) (.num 0)) ++ .each .c (.field f) (.of (.incKey (.len f) (.conv .uint (.size .c)))) .done) .done
  | .wire _ =>
    .cond (.notNil f) (.of (.setKey (.len f) (.num 0)) ++ .each .c (.field f) (.of (.incKey (.len f) (.conv .uint (.len (.var .c))))) .done) .done
  | .struct t _ => .cond (.notNil f) (.of (.init f t)) .done
  | .sequence t sub =>
    .block (.of (.decl (.count f) (.len (.field f))) ++ .of (.makeSub f (memberTexts f sub)) ++
      .times (.count f) (.of (.refSub f .i) ++ .of (.pseudo f t (.item f .i)) ++
        .block (.of (.decl .encoder (.var .pseudoEncoder)) ++ .of .addr ++ initCode f sub ++ .of (.use .encoder) ++ .of (.use .value)) .done) .done) .done
  | _ => .done

/-- `SequenceField.encodingGeneral`, fields_sequence.go:92-116 -/
def general (f t : Txt) (c : Code) : Code :=
  .cond (.notNil f) (.items (.field f) (.of (.refSub f .seqI) ++ .of (.pseudo f t (.var .seqV)) ++
    .block (.of (.decl .encoder (.var .pseudoEncoder)) ++ .of .addr ++ c ++ .of (.use .encoder) ++ .of (.use .value)) .done) .done) .done

/-- `GenEncodingLength`: fields_natural.go:22-33, fields_fixeduint.go:47-59, fields_time.go:22-33, fields_binary.go:20-28, fields_string.go:22-36,
fields_wire.go:44-52, fields_name.go:40-48, fields_bool.go:17-24, fields_struct.go:63-71, fields_sequence.go:116-118 -/
def lengthCode (f : Txt) (n : Nat) : Cls → Code
  | .natural o => guarded o f (typeNumLen n ++ naturalLen (access o f) false)
  | .fixedUint w o => guarded o f (typeNumLen n ++ .of (.inc .l (.sum 1 w)))
  | .time o => guarded o f (typeNumLen n ++ naturalLen (.conv .u64 (.millis (access o f))) false)
  | .binary => guarded true f (typeNumLen n ++ naturalLen (.len (.field f)) true ++ .of (.inc .l (.conv .uint (.len (.field f)))))
  | .string o => guarded o f (typeNumLen n ++ naturalLen (.len (access o f)) true ++ .of (.inc .l (.conv .uint (.len (access o f)))))
  | .wire _ => guarded true f (typeNumLen n ++ naturalLen (.own (.len f)) true ++ .of (.inc .l (.own (.len f))))
  | .name => guarded true f (typeNumLen n ++ naturalLen (.own (.len f)) true ++ .of (.inc .l (.own (.len f))))
  | .bool => .cond (.isTrue f) (typeNumLen n ++ typeNumLen 0) .done
  | .struct _ _ => guarded true f (typeNumLen n ++ naturalLen (.own2 (.enc f) .length) true ++ .of (.inc .l (.own2 (.enc f) .length)))
  | .sequence t sub => general f t (lengthCode f n sub)
  | _ => .done

/-- the inner function of fields_fixeduint.go:68-89 -/
def fixedEncode (w : Nat) (e : Ex) : Code :=
  if w = 1 then .of (.poke false (.num 1)) ++ .of (.poke true (.conv .byte e)) ++ .of (.inc .pos (.num 2))
  else if w = 2 then .of (.poke false (.num 2)) ++ .of (.putBE .u16 e) ++ .of (.inc .pos (.num 3))
  else if w = 4 then .of (.poke false (.num 4)) ++ .of (.putBE .u32 e) ++ .of (.inc .pos (.num 5))
  else if w = 8 then .of (.poke false (.num 8)) ++ .of (.putBE .u64 e) ++ .of (.inc .pos (.num 9))
  else .done

/-- `GenEncodeInto`: fields_natural.go:39-50, fields_fixeduint.go:65-102, fields_time.go:39-50, fields_binary.go:34-43, fields_string.go:42-58,
fields_wire.go:71-90 without `nocopy`, fields_name.go:54-64, fields_bool.go:30-37, fields_struct.go:101-143 without `nocopy`, fields_sequence.go:124-126 -/
def intoCode (f : Txt) (n : Nat) : Cls → Code
  | .natural o => guarded o f (encodeTypeNum n ++ naturalEncode (access o f) false)
  | .fixedUint w o => guarded o f (encodeTypeNum n ++ fixedEncode w (access o f))
  | .time o => guarded o f (encodeTypeNum n ++ naturalEncode (.conv .u64 (.millis (access o f))) false)
  | .binary =>
    guarded true f (encodeTypeNum n ++ naturalEncode (.len (.field f)) true ++ .of (.copy (.field f)) ++ .of (.inc .pos (.conv .uint (.len (.field f)))))
  | .string o =>
    guarded o f (encodeTypeNum n ++ naturalEncode (.len (access o f)) true ++ .of (.copy (access o f)) ++
      .of (.inc .pos (.conv .uint (.len (access o f)))))
  | .wire _ =>
    guarded true f (encodeTypeNum n ++ naturalEncode (.own (.len f)) true ++
      .each .w (.field f) (.of (.copy (.var .w)) ++ .of (.inc .pos (.conv .uint (.len (.var .w))))) .done)
  | .name => guarded true f (encodeTypeNum n ++ naturalEncode (.own (.len f)) true ++ .each .c (.field f) (.of (.component .c)) .done)
  | .bool => .cond (.isTrue f) (encodeTypeNum n ++ encodeTypeNum 0) .done
  | .struct t _ =>
    guarded true f (encodeTypeNum n ++ naturalEncode (.own2 (.enc f) .length) true ++
      .cond (.positive (.own2 (.enc f) .length)) (.of (.into f t) ++ .of (.inc .pos (.own2 (.enc f) .length))) .done)
  | .sequence t sub => general f t (intoCode f n sub)
  | _ => .done

/-! ## Models -/

/-- what a template gives for all fields -/
def allFields (g : Field → Code) : List Field → Code
  | [] => .done
  | f :: fs => g f ++ allFields g fs

/-- the body of `Init`: `GenInitEncoder`, model.go:63-89, without `nocopy` -/
def initBody (fs : List Field) : Code :=
  allFields (fun f => initCode f.name f.cls) fs ++ .of (.decl .l (.conv .uint (.num 0))) ++ allFields (fun f => lengthCode f.name f.num f.cls) fs ++
    .of (.setKey .length (.var .l))

/-- the body of `EncodeInto`: `GenEncodeInto`, model.go:91-107, without `nocopy` -/
def intoBody (fs : List Field) : Code :=
  .of (.decl .pos (.conv .uint (.num 0))) ++ allFields (fun f => intoCode f.name f.num f.cls) fs

/-- `GenEncoderStruct`, model.go:49-61, `GenInitEncoder`, model.go:63-89, `GenEncodeInto`, model.go:91-125, all without `nocopy`, and `genPublicEncode`,
model.go:258-271: the lines of the encoder -/
def encoderText (m : TModel) : List Txt :=
  [t!"type " ++ m.name ++ t!"Encoder struct {", t!"length uint"] ++ (m.fields.map fun f => memberTexts f.name f.cls).flatten ++ [t!"}"] ++
  [t!"func (encoder *" ++ m.name ++ t!"Encoder) Init(value *" ++ m.name ++ t!") {"] ++ (initBody m.fields).text ++ [t!"}"] ++
  [t!"func (encoder *" ++ m.name ++ t!"Encoder) EncodeInto(value *" ++ m.name ++ t!", buf []byte) {"] ++ (intoBody m.fields).text ++ [t!"}"] ++
  [t!"func (encoder *" ++ m.name ++ t!"Encoder) Encode(value *" ++ m.name ++ t!") enc.Wire {",
    t!"wire := make(enc.Wire, 1)",
    t!"wire[0] = make([]byte, encoder.length)",
    t!"buf := wire[0]",
    t!"encoder.EncodeInto(value, buf)",
    t!"return wire",
    t!"}"] ++
  (if m.opts.priv then [] else [t!"func (value *" ++ m.name ++ t!") Encode() enc.Wire {",
    t!"encoder := " ++ m.name ++ t!"Encoder{}",
    t!"encoder.Init(value)",
    t!"return encoder.Encode(value)",
    t!"}",
    t!"func (value *" ++ m.name ++ t!") Bytes() []byte {",
    t!"return value.Encode().Join()",
    t!"}"])

end Ndn.Codec.Gen
