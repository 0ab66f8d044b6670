import Verif.Codec.Library

/-!
# Model of the front end of the code generator, `/repo/pkg/encoding/codegen`

`gondn_tlv_gen` reads the type declarations of a package.  The doc comment and the tag of each field of a struct say how it is encoded.  This file covers
what becomes of comments and tags: `codegen.go` and the constructors of the field classes.  What the templates then make of the fields is in
`Verif/Codec/Schema.lean`, `Map.lean` and `Dict.lean`.  Texts are lists of characters; Go's parser is not modelled, so that a declaration is given by
its names, tags and comments.
-/

namespace Ndn.Codec.Gen

/-- texts -/
abbrev Txt := List Char

/-- `t!"abc"` is the list of the characters -/
macro:max "t!" s:str : term => do
  let cs := s.getString.toList.map fun c => Lean.Syntax.mkCharLit c
  `(([$(cs.toArray),*] : List Char))

/-! ## Texts and numbers -/

/-- what is before the first `sep`, and what is behind it if there is one; `strings.Index` -/
def cut (sep : Char) : Txt → Txt × Option Txt
  | [] => ([], none)
  | c :: s => if c = sep then ([], some s) else (c :: (cut sep s).1, (cut sep s).2)

/-- `strings.SplitN(s, ":", n)` -/
def splitN (sep : Char) : Nat → Txt → List Txt
  | 0, _ => []
  | 1, s => [s]
  | n + 2, s =>
    match cut sep s with
    | (a, none) => [a]
    | (a, some r) => a :: splitN sep (n + 1) r

/-- `strings.Split(s, ":")` -/
def split (sep : Char) (s : Txt) : List Txt := splitN sep (s.length + 2) s

/-- the value of a digit -/
def digitVal (c : Char) : Option Nat :=
  if '0' ≤ c ∧ c ≤ '9' then some (c.toNat - 48)
  else if 'a' ≤ c ∧ c ≤ 'z' then some (c.toNat - 87)
  else if 'A' ≤ c ∧ c ≤ 'Z' then some (c.toNat - 55)
  else none

/-- the loop of `strconv.ParseUint` without the test for overflow -/
def digitsVal (base : Nat) : Nat → Txt → Option Nat
  | acc, [] => some acc
  | acc, c :: s =>
    match digitVal c with
    | some d => if d < base then digitsVal base (acc * base + d) s else none
    | none => none

/-- `strconv.ParseUint` with a given base: an error if the number does not fit 64 bits -/
def parseBase (base : Nat) (s : Txt) : Option Nat :=
  match digitsVal base 0 s with
  | some n => if n < 2 ^ 64 then some n else none
  | none => none

/-- `strconv.ParseUint(s, 0, 0)`: the base is that of the prefix, and 8 for a mere zero in front.  Underscores, which Go allows between digits here, are
taken as errors. -/
def parseUint0 : Txt → Option Nat
  | [] => none
  | c :: s =>
    if c ≠ '0' then parseBase 10 (c :: s)
    else match s with
      | b :: d :: ds =>
        if b = 'b' ∨ b = 'B' then parseBase 2 (d :: ds)
        else if b = 'o' ∨ b = 'O' then parseBase 8 (d :: ds)
        else if b = 'x' ∨ b = 'X' then parseBase 16 (d :: ds)
        else parseBase 8 s
      | _ => parseBase 8 s

/-! ## Tags and comments -/

/-- `[0-9a-fA-FxX]`, codegen.go:29 -/
def isTagChar (c : Char) : Bool :=
  ('0' ≤ c && c ≤ '9') || ('a' ≤ c && c ≤ 'f') || ('A' ≤ c && c ≤ 'F') || c == 'x' || c == 'X'

/-- the expression `tlv:"([0-9a-fA-FxX]+)"` at the beginning of a text: what is in the parentheses -/
def tagAt (s : Txt) : Option Txt :=
  if (t!"tlv:\"").isPrefixOf s then
    let r := s.drop 5
    let d := r.takeWhile isTagChar
    if d ≠ [] ∧ (r.drop d.length).head? = some '"' then some d else none
  else none

/-- `FindStringSubmatch`: the first place where it matches -/
def findTag : Txt → Option Txt
  | [] => none
  | c :: s =>
    match tagAt (c :: s) with
    | some d => some d
    | none => findTag s

/-- `Generator.parseTag`, codegen.go:33-46; `none` is a field without tag -/
def parseTag : Option Txt → Nat
  | none => 0
  | some tag =>
    match findTag tag with
    | none => 0
    | some d => (parseUint0 d).getD 0

/-- `Generator.parseDoc`, codegen.go:48-66; no comments are the same as a nil group -/
def parseDoc (ind : Txt) : List Txt → Txt
  | [] => []
  | c :: doc =>
    let p1 := t!"//+" ++ ind ++ [':']
    let p2 := t!"// +" ++ ind ++ [':']
    if p1.isPrefixOf c then c.drop p1.length
    else if p2.isPrefixOf c then c.drop p2.length
    else parseDoc ind doc

/-! ## Fields -/

/-- the keys of `fieldList`, fields.go:113-130 -/
inductive Kind where
  | natural | fixedUint | time | binary | string | wire | name | bool | procedureArgument | offsetMarker | rangeMarker | sequence | struct | signature
  | interestName | map
  deriving DecidableEq, Repr

/-- `fieldList`, fields.go:113-130 -/
def classTable : List (Txt × Kind) :=
  [(t!"natural", .natural), (t!"fixedUint", .fixedUint), (t!"time", .time), (t!"binary", .binary), (t!"string", .string), (t!"wire", .wire),
    (t!"name", .name), (t!"bool", .bool), (t!"procedureArgument", .procedureArgument), (t!"offsetMarker", .offsetMarker),
    (t!"rangeMarker", .rangeMarker), (t!"sequence", .sequence), (t!"struct", .struct), (t!"signature", .signature),
    (t!"interestName", .interestName), (t!"map", .map)]

/-- the field classes with what their constructors keep; the name and the number of a field are apart from that -/
inductive Cls where
  /-- fields_natural.go:6-10 -/
  | natural (opt : Bool)
  /-- fields_fixeduint.go:10-15 -/
  | fixedUint (l : Nat) (opt : Bool)
  | time (opt : Bool)
  | binary
  | string (opt : Bool)
  | wire (noCopy : Bool)
  | name
  | bool
  /-- markers.go:5-10 -/
  | arg (typ : Txt)
  | offset (noCopy : Bool)
  | range (start cov : Txt) (noCopy : Bool)
  /-- fields_sequence.go:10-15; the sub-field has the same name and number -/
  | sequence (typ : Txt) (sub : Cls)
  /-- fields_struct.go:10-15 -/
  | struct (typ : Txt) (inner : Bool)
  | signature (start cov : Txt) (noCopy : Bool)
  | interestName (cov : Txt)
  /-- map_field.go:10-17; the key has the number of the field, the value the number `vnum` -/
  | map (ktyp : Txt) (key : Cls) (vnum : Nat) (vtyp : Txt) (val : Cls)
  deriving DecidableEq, Repr

/-- the switch of `NewFixedUintField`, fields_fixeduint.go:26-36 -/
def fixedWidth (s : Txt) : Nat :=
  if s = t!"byte" then 1 else if s = t!"uint16" then 2 else if s = t!"uint32" then 4 else if s = t!"uint64" then 8 else 0

/-- `CreateField`, fields.go:112-138, with the constructors fields_natural.go:12-20, fields_fixeduint.go:17-45, fields_time.go:12-20, fields_binary.go:11-18,
fields_string.go:12-20, fields_wire.go:15-23, fields_name.go:13-20, fields_bool.go:8-15, markers.go:21-29, 71-80, 134-150, fields_sequence.go:17-41,
fields_struct.go:17-38, signature.go:117-131, 276-287, map_field.go:164-200.  `none` is an error.  `ord i` is the order in which the `i`-th call goes through
the Go map `fieldList`; `fuel` bounds the depth of the calls. -/
def createField (ord : Nat → List (Txt × Kind)) (noCopy : Bool) : Nat → Nat → Txt → Txt → Option Cls
  | 0, _, _, _ => none
  | fuel + 1, i, cls, ann =>
    match (ord i).find? fun p => p.1.isPrefixOf cls with
    | none => none
    | some (_, k) =>
      match k with
      | .natural => some (.natural (ann = t!"optional"))
      | .fixedUint =>
        if ann = [] then none
        else match split ':' ann with
          | [] => none
          | w :: rest => some (.fixedUint (fixedWidth w) (rest.head? = some t!"optional"))
      | .time => some (.time (ann = t!"optional"))
      | .binary => some .binary
      | .string => some (.string (ann = t!"optional"))
      | .wire => some (.wire noCopy)
      | .name => some .name
      | .bool => some .bool
      | .procedureArgument => some (.arg ann)
      | .offsetMarker => some (.offset noCopy)
      | .rangeMarker =>
        match split ':' ann with
        | a :: b :: _ => if a = [] ∨ b = [] then none else some (.range a b noCopy)
        | _ => none
      | .sequence =>
        match splitN ':' 3 ann with
        | [t, c] => (createField ord noCopy fuel (2 * i + 1) c []).map (.sequence t)
        | [t, c, a] => (createField ord noCopy fuel (2 * i + 1) c a).map (.sequence t)
        | _ => none
      | .struct =>
        if ann = [] then none
        else match split ':' ann with
          | [] => none
          | t :: rest => if !noCopy && rest.head? = some t!"nocopy" then none else some (.struct t (rest.head? = some t!"nocopy"))
      | .signature =>
        match split ':' ann with
        | a :: b :: _ => if a = [] ∨ b = [] then none else some (.signature a b noCopy)
        | _ => none
      | .interestName => if ann = [] then none else some (.interestName ann)
      | .map =>
        match splitN ':' 6 ann with
        | kt :: kc :: vn :: vt :: vc :: rest =>
          match parseUint0 vn with
          | none => none
          | some n =>
            match createField ord noCopy fuel (2 * i + 1) vc (rest.headD []), createField ord noCopy fuel (2 * i + 2) kc (rest.headD []) with
            | some v, some k => some (.map kt k n vt v)
            | _, _ => none
        | _ => none

/-- a field of a model -/
structure Field where
  name : Txt
  num : Nat
  cls : Cls
  deriving DecidableEq, Repr

/-- the type number that the constructor keeps: 0 for arguments and offset markers, markers.go:21-29, 71-80 -/
def Cls.num : Cls → Nat → Nat
  | .arg _, _ => 0
  | .offset _, _ => 0
  | _, n => n

/-- `ParseField`, codegen.go:68-76 -/
def parseField (ord : Nat → List (Txt × Kind)) (noCopy : Bool) (name : Txt) (num : Nat) (str : Txt) : Option Field :=
  (createField ord noCopy (str.length + 1) 0 (cut ':' str).1 ((cut ':' str).2.getD [])).map fun c => ⟨name, c.num num, c⟩

/-! ## Models -/

/-- the options of a model, model.go:9-32 -/
structure Opts where
  priv : Bool := false
  noCopy : Bool := false
  dict : Bool := false
  ordered : Bool := false
  deriving DecidableEq, Repr

/-- `TlvModel.ProcessOption`, model.go:34-47; `none` is the panic -/
def processOption (o : Opts) (s : Txt) : Option Opts :=
  if s = t!"private" then some { o with priv := true }
  else if s = t!"nocopy" then some { o with noCopy := true }
  else if s = t!"dict" then some { o with dict := true }
  else if s = t!"ordered" then some { o with ordered := true }
  else none

/-- all options -/
def processOptions (o : Opts) : List Txt → Option Opts
  | [] => some o
  | s :: l =>
    match processOption o s with
    | some o' => processOptions o' l
    | none => none

/-- a field of a Go struct: its names, its tag and its comments -/
structure FieldSrc where
  names : List Txt
  tag : Option Txt
  doc : List Txt

/-- a type of a type declaration; `fields` is `none` if it is not a struct -/
structure SpecSrc where
  name : Txt
  fields : Option (List FieldSrc)

/-- a type declaration; there are several types if it has parentheses -/
structure DeclSrc where
  doc : List Txt
  specs : List SpecSrc

/-- `TlvModel` -/
structure TModel where
  name : Txt
  opts : Opts
  fields : List Field
  deriving DecidableEq, Repr

/-- codegen.go:117-139: one field of the struct; a field that cannot be parsed is logged and left out -/
def fieldOf (ord : Nat → List (Txt × Kind)) (noCopy : Bool) (f : FieldSrc) : Option Field :=
  match f.names with
  | [] => none
  | name :: _ =>
    let str := parseDoc t!"field" f.doc
    if str = [] then none else parseField ord noCopy name (parseTag f.tag) str

/-- codegen.go:108-115 -/
def optsOf (doc : List Txt) : Option Opts :=
  let s := parseDoc t!"tlv-model" doc
  if s = [] then some {} else processOptions {} (split ',' s)

/-- `Generator.ProcessDecl` for a type declaration, codegen.go:79-148: the model that is added; `ok none` if there is none.  The package name, which the
first identifier sets, is left out. -/
def processDecl (ord : Nat → List (Txt × Kind)) (d : DeclSrc) : Res (Option TModel) :=
  match d.specs with
  | [] => .panic
  | s :: _ =>
    match s.fields with
    | none => .ok none
    | some fs =>
      match optsOf d.doc with
      | none => .panic
      | some o =>
        let fields := fs.filterMap (fieldOf ord o.noCopy)
        if fields = [] then .ok none else .ok (some ⟨s.name, o, fields⟩)

/-- `ast.Inspect(astFile, g.ProcessDecl)` over the type declarations of a package, cmd/gondn_tlv_gen/main.go:62-68 -/
def processAll (ord : Nat → List (Txt × Kind)) : List DeclSrc → Res (List TModel)
  | [] => .ok []
  | d :: ds => (processDecl ord d).bind fun m => (processAll ord ds).map fun ms => m.toList ++ ms

/-! ## What the templates make of a model -/

/-- how a field is stored and encoded: see `Mode` and `Elem`.  The classes of packets, and sequences of pointers, flags, sequences and maps, are `none`. -/
def Cls.elem (env : Txt → Option Fields) : Cls → Option (Mode × Elem)
  | .natural o => some (if o then .opt else .req, .nat)
  | .fixedUint l o => some (if o then .opt else .req, .fixed l (o && l == 1))
  | .time o => some (if o then .opt else .req, .time)
  | .binary => some (.opt, .bin)
  | .string o => some (if o then .opt else .req, .str)
  | .wire _ => some (.opt, .wire)
  | .name => some (.opt, .name)
  | .struct t _ => (env t).map fun fs => (.opt, .struct fs)
  | .sequence _ sub =>
    match sub with
    | .natural false => some (.seq, .nat)
    | .fixedUint l false => some (.seq, .fixed l false)
    | .time false => some (.seq, .time)
    | .string false => some (.seq, .str)
    | .binary => some (.seq, .bin)
    | .name => some (.seq, .name)
    | .wire _ => some (.seq, .wire)
    | .struct t _ => (env t).map fun fs => (.seq, .struct fs)
    | _ => none
  | _ => none

/-- the schema of the fields -/
def schemaOf (env : Txt → Option Fields) : List Field → Option Fields
  | [] => some .nil
  | f :: fs =>
    match f.cls with
    | .bool => (schemaOf env fs).map (.flag f.num)
    | c =>
      match c.elem env, schemaOf env fs with
      | some (m, e), some rest => some (.cons f.num m e rest)
      | _, _ => none

/-- the schema of the model called `n` among `ms`, with structs in structs up to the depth `fuel` -/
def resolve (ms : List TModel) : Nat → Txt → Option Fields
  | 0, _ => none
  | fuel + 1, n =>
    match ms.find? fun m => m.name == n with
    | some m => schemaOf (resolve ms fuel) m.fields
    | none => none

/-- the schema of a model whose last field is a map -/
def resolveMap (ms : List TModel) (fuel : Nat) (n : Txt) : Option MapMsg :=
  match ms.find? fun m => m.name == n with
  | some m =>
    match schemaOf (resolve ms fuel) m.fields.dropLast, m.fields.getLast? with
    | some fs, some ⟨_, num, .map _ k vnum _ v⟩ =>
      match k, v.elem (resolve ms fuel) with
      | .string false, some (_, e) => some ⟨fs, num, .str, vnum, e⟩
      | .natural false, some (_, e) => some ⟨fs, num, .nat, vnum, e⟩
      | _, _ => none
    | _, _ => none
  | none => none

end Ndn.Codec.Gen
