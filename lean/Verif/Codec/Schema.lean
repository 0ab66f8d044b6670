import Verif.Enc.Name
import Verif.Enc.WireReader

/-!
# Model of the TLV code generator, `/repo/pkg/encoding/codegen`

The generator turns a struct with field annotations into an encoder and a parser.  The model is an interpreter: a schema
(`Fields`) is the annotated struct, and `Fields.encLen`, `Fields.encodeInto`, `Fields.parse` are what the templates
produce for it.  This file covers models without the `ordered` option, with the field classes natural, fixedUint, time,
bool, binary, string, name, wire, struct and sequence.
-/

namespace Ndn.Codec

/-! ## Schemas and values -/

/-- How a field stores its element: `req` a plain value that must be present, `opt` a pointer or a nil-able slice,
`seq` a `sequence` of elements.  fields.go:112-138, fields_natural.go:12-20, fields_sequence.go:17-41. -/
inductive Mode where
  | req | opt | seq
  deriving DecidableEq, Repr

mutual
/-- The field classes that carry a value: fields_natural.go, fields_fixeduint.go, fields_time.go, fields_binary.go,
fields_string.go, fields_name.go, fields_wire.go, fields_struct.go. -/
inductive Elem where
  | nat
  /-- `fixedUint` of `w` bytes; `ptr` is whether the parser uses the `*byte` code path (fields_fixeduint.go:104-173) -/
  | fixed (w : Nat) (ptr : Bool)
  | time
  | bin
  | str
  | name
  | wire
  | struct (fs : Fields)
/-- A TLV model: its fields in order with their type numbers.  `flag` is a `bool` field (fields_bool.go). -/
inductive Fields where
  | nil
  | flag (typ : Nat) (rest : Fields)
  | cons (typ : Nat) (m : Mode) (e : Elem) (rest : Fields)
end

/-- The Go type of a field with the given element type. -/
@[reducible] def Mode.Of (α : Type) : Mode → Type
  | .req => α
  | .opt => Option α
  | .seq => List α

/-- What the parser keeps for a field while it runs: whether it was seen, and its value. -/
@[reducible] def Mode.StOf (α : Type) : Mode → Type
  | .req => Option α
  | .opt => Option α
  | .seq => List α

mutual
/-- The Go type of one element.  `time` is a `time.Duration` in nanoseconds; a `string` is its bytes. -/
def Elem.V : Elem → Type
  | .nat => Nat
  | .fixed _ _ => Nat
  | .time => Int
  | .bin => Bytes
  | .str => Bytes
  | .name => Name
  | .wire => Wire
  | .struct fs => Fields.V fs
/-- The Go struct. -/
def Fields.V : Fields → Type
  | .nil => Unit
  | .flag _ rest => Bool × Fields.V rest
  | .cons _ m e rest => Mode.Of (Elem.V e) m × Fields.V rest
end

/-- The local variables of the generated `Parse`: `value` and the `handled_…` flags (model.go:160-170). -/
def Fields.St : Fields → Type
  | .nil => Unit
  | .flag _ rest => Bool × Fields.St rest
  | .cons _ m e rest => Mode.StOf (Elem.V e) m × Fields.St rest

/-! ## Encoding: the length pass -/

/-- width of a natural number, utils.go:46-73 with `isTlv = false` (without the length byte) -/
def natW (x : Nat) : Nat :=
  if x ≤ 0xff then 1 else if x ≤ 0xffff then 2 else if x ≤ 0xffffffff then 4 else 8

/-- `uint64(value / time.Millisecond)`, fields_time.go:22-34: Go's `/` truncates. -/
def timeMs (d : Int) : Nat := ((d.tdiv 1000000) % 2 ^ 64).toNat

mutual
/-- bytes of an element after its type number, the `GenEncodingLength` templates: fields_natural.go:22-34,
fields_fixeduint.go:47-59, fields_time.go:22-34, fields_binary.go:20-28, fields_string.go:22-36, fields_name.go:26-48,
fields_wire.go:29-52, fields_struct.go:44-71. -/
def Elem.encLen : (e : Elem) → e.V → Nat
  | .nat, (x : Nat) => 1 + natW x
  | .fixed w _, (_ : Nat) => 1 + w
  | .time, (d : Int) => 1 + natW (timeMs d)
  | .bin, (b : Bytes) => tlLen b.length + b.length
  | .str, (b : Bytes) => tlLen b.length + b.length
  | .name, (n : Name) => tlLen (Name.encLen n) + Name.encLen n
  | .wire, (w : Wire) => tlLen (Wire.byteLen w) + Wire.byteLen w
  | .struct fs, v => tlLen (Fields.encLen fs v) + Fields.encLen fs v
/-- `Init` of the generated encoder: the `length` it computes (model.go:63-89, fields_bool.go:17-24,
fields_sequence.go:92-120). -/
def Fields.encLen : (fs : Fields) → fs.V → Nat
  | .nil, _ => 0
  | .flag typ rest, (b, vs) => (if b then tlLen typ + 1 else 0) + Fields.encLen rest vs
  | .cons typ .req e rest, (v, vs) => (tlLen typ + Elem.encLen e v) + Fields.encLen rest vs
  | .cons _ .opt _ rest, (none, vs) => Fields.encLen rest vs
  | .cons typ .opt e rest, (some v, vs) => (tlLen typ + Elem.encLen e v) + Fields.encLen rest vs
  | .cons typ .seq e rest, (l, vs) => l.foldl (fun acc v => acc + (tlLen typ + Elem.encLen e v)) 0 + Fields.encLen rest vs
end

/-! ## Encoding: writing into the buffer -/

/-- `buf` and `pos` of the generated `EncodeInto` (model.go:91-125). -/
abbrev WS := Bytes × Nat

/-- overwrite `buf` from `pos` on -/
def splice (buf : Bytes) (pos : Nat) (bs : Bytes) : Bytes := buf.take pos ++ bs ++ buf.drop (pos + bs.length)

/-- index writes and `binary.BigEndian.PutUint…`: panic when they do not fit; `pos` advances -/
def put (bs : Bytes) (s : WS) : Res WS :=
  if s.2 + bs.length ≤ s.1.length then .ok (splice s.1 s.2 bs, s.2 + bs.length) else .panic

/-- `copy(buf[pos:], bs)`: truncates silently, panics when `pos` is past the end; `pos` advances by `len(bs)` -/
def putCopy (bs : Bytes) (s : WS) : Res WS :=
  if s.2 ≤ s.1.length then .ok (splice s.1 s.2 (bs.take (s.1.length - s.2)), s.2 + bs.length) else .panic

/-- a natural number with its length byte, utils.go:75-111 with `isTlv = false` -/
def putNat (x : Nat) (s : WS) : Res WS := put (UInt8.ofNat (natW x) :: be (natW x) x) s

/-- `for … range`: run a writer for every element -/
def putAll {α : Type} (f : α → WS → Res WS) : List α → WS → Res WS
  | [], s => .ok s
  | a :: l, s => (f a s).bind (putAll f l)

/-- `Component.EncodeInto`, component.go:85-90 -/
def putComponent (c : Component) (s : WS) : Res WS :=
  ((put (tlEnc c.typ) s).bind (put (natEnc c.val.length))).bind (putCopy c.val)

mutual
/-- an element after its type number, the `GenEncodeInto` templates: fields_natural.go:40-52, fields_fixeduint.go:65-102,
fields_time.go:40-52, fields_binary.go:34-43, fields_string.go:42-58, fields_name.go:54-64, fields_wire.go:71-90 (without
`nocopy`), fields_struct.go:101-143 (without `nocopy`). -/
def Elem.encodeInto : (e : Elem) → e.V → WS → Res WS
  | .nat, (x : Nat), s => putNat x s
  | .fixed w _, (x : Nat), s => put (UInt8.ofNat w :: be w x) s
  | .time, (d : Int), s => putNat (timeMs d) s
  | .bin, (b : Bytes), s => (put (tlEnc b.length) s).bind (putCopy b)
  | .str, (b : Bytes), s => (put (tlEnc b.length) s).bind (putCopy b)
  | .name, (n : Name), s => (put (tlEnc (Name.encLen n)) s).bind (putAll putComponent n)
  | .wire, (w : Wire), s => (put (tlEnc (Wire.byteLen w)) s).bind (putAll putCopy w)
  | .struct fs, v, s =>
    (put (tlEnc (Fields.encLen fs v)) s).bind fun s1 =>
      if Fields.encLen fs v > 0 then
        (Fields.encodeInto fs v s1).bind fun s2 => .ok (s2.1, s1.2 + Fields.encLen fs v)
      else .ok s1
/-- `EncodeInto` of the generated encoder (model.go:91-125, fields_bool.go:30-37, fields_sequence.go:92-128). -/
def Fields.encodeInto : (fs : Fields) → fs.V → WS → Res WS
  | .nil, _, s => .ok s
  | .flag typ rest, (b, vs), s =>
    (if b then (put (tlEnc typ) s).bind (put [0]) else .ok s).bind (Fields.encodeInto rest vs)
  | .cons typ .req e rest, (v, vs), s =>
    ((put (tlEnc typ) s).bind (Elem.encodeInto e v)).bind (Fields.encodeInto rest vs)
  | .cons _ .opt _ rest, (none, vs), s => Fields.encodeInto rest vs s
  | .cons typ .opt e rest, (some v, vs), s =>
    ((put (tlEnc typ) s).bind (Elem.encodeInto e v)).bind (Fields.encodeInto rest vs)
  | .cons typ .seq e rest, (l, vs), s =>
    (putAll (fun v s => (put (tlEnc typ) s).bind (Elem.encodeInto e v)) l s).bind (Fields.encodeInto rest vs)
end

/-- the generated `Encode` (model.go:100-124): allocate `length` bytes, then `EncodeInto`. -/
def Fields.encode (fs : Fields) (v : fs.V) : Res Bytes :=
  (Fields.encodeInto fs v (List.replicate (fs.encLen v) 0, 0)).map (·.1)

/-! ## Parsing -/

/-- the outcome of a parsing step; `none`: ran out of fuel -/
abbrev PR (α : Type) := Option (Res α × BR)

/-- utils.go:124-143: a natural number of `l` bytes, any `l`, modulo 2^64 (no iteration when `int(l)` is negative). -/
def readNatural (l : Nat) : RM BR Nat := readBeLoop BR.readByte (toInt l).toNat 0

/-- fields_fixeduint.go:104-173.  One-byte fields ignore `l`; the `*byte` variant skips one byte and takes it back with
`Range`. -/
def readFixed (w : Nat) (ptr : Bool) (l : Nat) : RM BR Nat := fun r =>
  if w = 1 then
    if ptr then
      match RM.onErr (fun e => if e = .eof then .unexpectedEof else e) (BR.skip 1) r with
      | (.ok (), r') =>
        match r'.range ((r'.pos : Int) - 1) r'.pos with
        | some ((b :: _) :: _) => (.ok b.toNat, r')
        | _ => (.panic, r')
      | (.err e, r') =>
        match r'.range ((r'.pos : Int) - 1) r'.pos with
        | some ((_ :: _) :: _) => (.err e, r')
        | _ => (.panic, r')
      | (.panic, r') => (.panic, r')
    else
      match RM.onErr (fun e => if e = .eof then .unexpectedEof else e) BR.readByte r with
      | (.ok b, r') => (.ok b.toNat, r')
      | (.err e, r') => (.err e, r')
      | (.panic, r') => (.panic, r')
  else
    match readBeLoop BR.readByte (toInt l).toNat 0 r with
    | (.ok x, r') => (.ok (x % 256 ^ w), r')
    | (.err e, r') => (.err e, r')
    | (.panic, r') => (.panic, r')

/-- fields_time.go:54-67: `time.Duration(x) * time.Millisecond` -/
def durOfMs (x : Nat) : Int := wrap64 (toInt x * 1000000)

/-- `io.ReadFull(reader, make([]byte, n))` on a `BufferReader`, fields_binary.go:45-50: one or two calls of `Read` -/
def readFull (n : Nat) : RM BR Bytes := fun r =>
  if n > maxAlloc then (.panic, r)
  else if n = 0 then (.ok [], r)
  else match BR.read n r with
    | (.ok bs, r') => if bs.length = n then (.ok bs, r') else (.err .unexpectedEof, r')
    | (.err e, r') => (.err e, r')
    | (.panic, r') => (.panic, r')

/-- `io.CopyN(&builder, reader, int64(l))`, fields_string.go:60-75: a negative count copies nothing and is no error -/
def copyN (l : Nat) : RM BR Bytes := fun r =>
  let bs := (r.buf.drop r.pos).take (toInt l).toNat
  if (bs.length : Int) < toInt l then (.err .eof, { r with pos := r.pos + bs.length })
  else (.ok bs, { r with pos := r.pos + bs.length })

/-- the loop of fields_name.go:66-92; `slots` is `len(value.Name) - j`.  (The three reads are done even if an earlier one
failed; a failed read leaves the reader at the end, where the later ones cannot succeed with bytes nor panic.) -/
def readNameSlots : Nat → Nat → BR → Res Name × BR
  | 0, endName, r => if r.pos ≠ endName then (.err .overflow, r) else (.ok [], r)
  | slots + 1, endName, r =>
    if r.pos ≥ endName then (if r.pos ≠ endName then (.err .overflow, r) else (.ok [], r))
    else match readComponent r with
      | (.ok c, r') =>
        match readNameSlots slots endName r' with
        | (.ok n, r'') => (.ok (c :: n), r'')
        | (.err e, r'') => (.err e, r'')
        | (.panic, r'') => (.panic, r'')
      | (.err _, r') => (.err .unexpectedEof, r')
      | (.panic, r') => (.panic, r')

/-- fields_name.go:66-92.  `make(enc.Name, l/2+1)` panics when the array (32 bytes an entry) cannot exist. -/
def readNameField (l : Nat) : RM BR Name := fun r =>
  if (l / 2 + 1) * 32 > maxAlloc then (.panic, r)
  else readNameSlots (l / 2 + 1) (r.pos + l) r

/-- `typ <= 31 || typ & 1 == 1`, model.go:247 -/
def isCritical (typ : Nat) : Bool := typ ≤ 31 || typ % 2 == 1

/-- the fields a model knows -/
def Fields.types : Fields → List Nat
  | .nil => []
  | .flag t rest => t :: rest.types
  | .cons t _ _ rest => t :: rest.types

/-- zero-valued `value`, nothing handled -/
def Fields.init : (fs : Fields) → fs.St
  | .nil => ()
  | .flag _ rest => (false, rest.init)
  | .cons _ .req _ rest => (none, rest.init)
  | .cons _ .opt _ rest => (none, rest.init)
  | .cons _ .seq _ rest => (([] : List _), rest.init)

/-- after the loop: `GenSkipProcess` of the unhandled fields; a missing required field is an error
(fields_natural.go:68-74, model.go:222-232) -/
def Fields.finish : (fs : Fields) → fs.St → Res fs.V
  | .nil, _ => .ok ()
  | .flag _ rest, (b, st) => (rest.finish st).map fun vs => (b, vs)
  | .cons _ .req _ _, (none, _) => .err .skipRequired
  | .cons _ .req _ rest, (some v, st) => (rest.finish st).map fun vs => (v, vs)
  | .cons _ .opt _ rest, (o, st) => (rest.finish st).map fun vs => (o, vs)
  | .cons _ .seq _ rest, (l, st) => (rest.finish st).map fun vs => (l, vs)

/-- the main loop, model.go:174-218 for a model without `ordered`: `known typ` and `read` are the `switch typ`. -/
def parseLoop {σ : Type} (ic : Bool) (known : Nat → Bool) (read : Nat → Nat → σ → BR → PR σ) : Nat → σ → BR → PR σ
  | 0, _, _ => none
  | fuel + 1, st, r =>
    if r.pos ≥ r.buf.length then some (.ok st, r)
    else match BR.readTL r with
      | (.panic, r1) => some (.panic, r1)
      | (.err e, r1) => some (.err (.failToParse 0 e), r1)
      | (.ok typ, r1) =>
        match BR.readTL r1 with
        | (.panic, r2) => some (.panic, r2)
        | (.err e, r2) => some (.err (.failToParse 0 e), r2)
        | (.ok l, r2) =>
          if known typ then
            match read typ l st r2 with
            | none => none
            | some (.ok st', r3) => parseLoop ic known read fuel st' r3
            | some (.err e, r3) => some (.err (.failToParse typ e), r3)
            | some (.panic, r3) => some (.panic, r3)
          else if !ic && isCritical typ then some (.err (.unrecognized typ), r2)
          else match BR.skip (toInt l) r2 with
            | (.ok (), r3) => parseLoop ic known read fuel st r3
            | (.err e, r3) => some (.err (.failToParse typ e), r3)
            | (.panic, r3) => some (.panic, r3)

/-- replace the value of an outcome -/
def PR.map {α β : Type} (f : α → β) : PR α → PR β
  | none => none
  | some (x, r) => some (x.map f, r)

/-- store an element that was read: assignment, or `append` for a sequence (fields_sequence.go:130-152) -/
def Mode.store {α : Type} : (m : Mode) → Mode.StOf α m → α → Mode.StOf α m
  | .req, _, a => some a
  | .opt, _, a => some a
  | .seq, l, a => l ++ [a]

mutual
/-- the `GenReadFrom` templates; `l` is the length read -/
def Elem.read (ic : Bool) (fuel : Nat) : (e : Elem) → Nat → BR → PR e.V
  | .nat, l, r => some (readNatural l r)
  | .fixed w p, l, r => some (readFixed w p l r)
  | .time, l, r => PR.map (α := Nat) (β := Int) durOfMs (some (readNatural l r))
  | .bin, l, r => some (readFull l r)
  | .str, l, r => some (copyN l r)
  | .name, l, r => some (readNameField l r)
  | .wire, l, r => some (BR.readWire (toInt l) r)
  | .struct fs, l, r =>  -- fields_struct.go:149-154: `Parse(reader.Delegate(int(l)), ignoreCritical)`
    match BR.delegate (toInt l) r with
    | (.ok sub, r1) =>
      match parseLoop ic (fun t => fs.types.contains t) (Fields.dispatch ic fuel fs) fuel fs.init sub with
      | none => none
      | some (.ok st, _) => some (fs.finish st, r1)
      | some (.err e, _) => some (.err e, r1)
      | some (.panic, _) => some (.panic, r1)
    | (.err e, r1) => some (.err e, r1)
    | (.panic, r1) => some (.panic, r1)
/-- the `switch typ` of the main loop, model.go:188-205; `flag` fields do not look at `l` (fields_bool.go:39-41) -/
def Fields.dispatch (ic : Bool) (fuel : Nat) : (fs : Fields) → Nat → Nat → fs.St → BR → PR fs.St
  | .nil, _, _, st, r => some (.ok st, r)
  | .flag t rest, typ, l, (b, st), r =>
    if typ = t then some (.ok (true, st), r)
    else PR.map (fun st' => (b, st')) (Fields.dispatch ic fuel rest typ l st r)
  | .cons t m e rest, typ, l, (x, st), r =>
    if typ = t then PR.map (fun v => (m.store x v, st)) (Elem.read ic fuel e l r)
    else PR.map (fun st' => (x, st')) (Fields.dispatch ic fuel rest typ l st r)
end

/-- the generated `Parse` (model.go:147-247) on a reader -/
def Fields.parse (ic : Bool) (fuel : Nat) (fs : Fields) (r : BR) : PR fs.V :=
  match parseLoop ic (fun t => fs.types.contains t) (Fields.dispatch ic fuel fs) fuel fs.init r with
  | none => none
  | some (.ok st, r1) => some (fs.finish st, r1)
  | some (.err e, r1) => some (.err e, r1)
  | some (.panic, r1) => some (.panic, r1)

end Ndn.Codec
