import Verif.Codec.Schema

/-!
# Model of the `map` fields of the TLV code generator, `/repo/pkg/encoding/codegen/map_field.go`

A message with fields as in `Codec/Schema` and one `map` field behind them.  Each entry of the map is an element with the key, followed by an element with
the value.  Go iterates over a map in any order, and in another one each time; so the two passes of the encoder get the entries as lists, in the order of
the iteration.
-/

namespace Ndn.Codec

/-- the classes of keys: "KeyField can only be Natural or String", map_field.go:22 -/
inductive KeyClass where
  | nat | str
  deriving DecidableEq

/-- the Go type of a key -/
@[reducible] def KeyClass.V : KeyClass → Type
  | .nat => Nat
  | .str => Bytes

instance (k : KeyClass) : DecidableEq k.V :=
  match k with
  | .nat => inferInstanceAs (DecidableEq Nat)
  | .str => inferInstanceAs (DecidableEq Bytes)

/-- the field of a key -/
def KeyClass.elem : KeyClass → Elem
  | .nat => .nat
  | .str => .str

def KeyClass.toElem : (k : KeyClass) → k.V → k.elem.V
  | .nat, (x : Nat) => (x : Nat)
  | .str, (b : Bytes) => (b : Bytes)

def KeyClass.ofElem : (k : KeyClass) → k.elem.V → k.V
  | .nat, (x : Nat) => (x : Nat)
  | .str, (b : Bytes) => (b : Bytes)

/-- the zero value of a key -/
def KeyClass.zero : (k : KeyClass) → k.V
  | .nat => (0 : Nat)
  | .str => ([] : Bytes)

/-- `MapField`, map_field.go:10-17, behind other fields -/
structure MapMsg where
  fs : Fields
  keyTyp : Nat
  key : KeyClass
  valTyp : Nat
  val : Elem

/-- an entry of the map; `none` is a nil value -/
abbrev MapMsg.Entry (m : MapMsg) := m.key.V × Option m.val.V

/-- one round of the length pass, map_field.go:75-98 -/
def MapMsg.entryLen (m : MapMsg) (e : m.Entry) : Nat :=
  tlLen m.keyTyp + m.key.elem.encLen (m.key.toElem e.1) +
    match e.2 with
    | none => 0
    | some v => tlLen m.valTyp + m.val.encLen v

/-- the length pass -/
def MapMsg.encLen (m : MapMsg) (v : m.fs.V) (es : List m.Entry) : Nat := m.fs.encLen v + es.foldl (fun acc e => acc + m.entryLen e) 0

/-- one round of the write pass, map_field.go:75-98 -/
def MapMsg.putEntry (m : MapMsg) (e : m.Entry) (s : WS) : Res WS :=
  ((put (tlEnc m.keyTyp) s).bind (m.key.elem.encodeInto (m.key.toElem e.1))).bind fun s1 =>
    match e.2 with
    | none => .ok s1
    | some v => (put (tlEnc m.valTyp) s1).bind (m.val.encodeInto v)

/-- the write pass -/
def MapMsg.encodeInto (m : MapMsg) (v : m.fs.V) (es : List m.Entry) (s : WS) : Res WS := (m.fs.encodeInto v s).bind (putAll m.putEntry es)

/-- `Encode`, model.go:100-124: `es` are the entries in the order of the length pass, `es'` in that of the write pass -/
def MapMsg.encode (m : MapMsg) (v : m.fs.V) (es es' : List m.Entry) : Res Bytes :=
  (m.encodeInto v es' (List.replicate (m.encLen v es) 0, 0)).map (·.1)

/-- `m[k] = v` -/
def assign {κ α : Type} [DecidableEq κ] (l : List (κ × α)) (k : κ) (v : α) : List (κ × α) := (k, v) :: l.filter fun p => p.1 ≠ k

/-- map_field.go:118-139: the element of the value.  (The code returns the errors of the two numbers and of another type at once; here the main loop
wraps them once more.) -/
def MapMsg.readVal (m : MapMsg) (ic : Bool) (fuel : Nat) (r : BR) : PR m.val.V :=
  match BR.readTL r with
  | (.panic, r1) => some (.panic, r1)
  | (.err e, r1) => some (.err (.failToParse 0 e), r1)
  | (.ok typ, r1) =>
    match BR.readTL r1 with
    | (.panic, r2) => some (.panic, r2)
    | (.err e, r2) => some (.err (.failToParse 0 e), r2)
    | (.ok l, r2) =>
      if typ ≠ m.valTyp then some (.err (.failToParse m.keyTyp (.unrecognized typ)), r2)
      else m.val.read ic fuel l r2

/-- map_field.go:112-142: an error of the key is overwritten by what reading the next number gives (the reader is at its end then; the key would be the zero
value) -/
def MapMsg.readEntry (m : MapMsg) (ic : Bool) (fuel l : Nat) (es : List (m.key.V × m.val.V)) (r : BR) : PR (List (m.key.V × m.val.V)) :=
  match m.key.elem.read ic fuel l r with
  | none => none
  | some (.panic, r1) => some (.panic, r1)
  | some (.err _, r1) => PR.map (assign es m.key.zero) (m.readVal ic fuel r1)
  | some (.ok k, r1) => PR.map (assign es (m.key.ofElem k)) (m.readVal ic fuel r1)

/-- the `switch typ` -/
def MapMsg.dispatch (m : MapMsg) (ic : Bool) (fuel typ l : Nat) (st : m.fs.St × List (m.key.V × m.val.V)) (r : BR) :
    PR (m.fs.St × List (m.key.V × m.val.V)) :=
  if typ = m.keyTyp then PR.map (fun es => (st.1, es)) (m.readEntry ic fuel l st.2 r)
  else PR.map (fun st' => (st', st.2)) (m.fs.dispatch ic fuel typ l st.1 r)

/-- `Parse`; nothing is done for a map that is not there (map_field.go:157-160) -/
def MapMsg.parse (m : MapMsg) (ic : Bool) (fuel : Nat) (r : BR) : PR (m.fs.V × List (m.key.V × m.val.V)) :=
  match parseLoop ic (fun t => m.fs.types.contains t || t == m.keyTyp) (m.dispatch ic fuel) fuel (m.fs.init, []) r with
  | none => none
  | some (.ok st, r1) => some ((m.fs.finish st.1).map fun v => (v, st.2), r1)
  | some (.err e, r1) => some (.err e, r1)
  | some (.panic, r1) => some (.panic, r1)

end Ndn.Codec
