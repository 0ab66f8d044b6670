import Verif.Codec.Schema
import Verif.Enc.NameLemmas

/-!
# What the generated codec should do

The TLV format of a message, written without the encoder or parser of the model: an element is its type number, its length
and its value; a message is the concatenation of the elements of its fields in order.
-/

namespace Ndn.Codec

/-- type, length, value -/
def tlv (typ : Nat) (body : Bytes) : Bytes := tlEnc typ ++ tlEnc body.length ++ body

mutual
/-- value bytes of an element -/
def Elem.body : (e : Elem) → e.V → Bytes
  | .nat, (x : Nat) => natEnc x
  | .fixed w _, (x : Nat) => be w x
  | .time, (d : Int) => natEnc (timeMs d)
  | .bin, (b : Bytes) => b
  | .str, (b : Bytes) => b
  | .name, (n : Name) => Name.encBody n
  | .wire, (w : Wire) => w.flatten
  | .struct fs, v => (Fields.elems fs v).flatten
/-- the elements of a message, in order -/
def Fields.elems : (fs : Fields) → fs.V → List Bytes
  | .nil, _ => []
  | .flag typ rest, (b, vs) => (if b then [tlv typ []] else []) ++ Fields.elems rest vs
  | .cons typ .req e rest, (v, vs) => tlv typ (Elem.body e v) :: Fields.elems rest vs
  | .cons _ .opt _ rest, (none, vs) => Fields.elems rest vs
  | .cons typ .opt e rest, (some v, vs) => tlv typ (Elem.body e v) :: Fields.elems rest vs
  | .cons typ .seq e rest, (l, vs) => l.map (fun v => tlv typ (Elem.body e v)) ++ Fields.elems rest vs
end

/-- the bytes of a message -/
def Fields.enc (fs : Fields) (v : fs.V) : Bytes := (fs.elems v).flatten

mutual
/-- fixed-width fields have one of the widths of Go's unsigned integers -/
def Elem.Widths : Elem → Prop
  | .fixed w _ => w = 1 ∨ w = 2 ∨ w = 4 ∨ w = 8
  | .struct fs => Fields.Widths fs
  | _ => True
def Fields.Widths : Fields → Prop
  | .nil => True
  | .flag _ rest => Fields.Widths rest
  | .cons _ _ e rest => Elem.Widths e ∧ Fields.Widths rest
end

mutual
/-- a schema the generator accepts: distinct non-zero type numbers (the Go compiler rejects a `switch` with equal cases)
and integer widths -/
def Elem.WF : Elem → Prop
  | .fixed w _ => w = 1 ∨ w = 2 ∨ w = 4 ∨ w = 8
  | .struct fs => Fields.WF fs
  | _ => True
def Fields.WF : Fields → Prop
  | .nil => True
  | .flag t rest => 0 < t ∧ t < 2 ^ 64 ∧ t ∉ rest.types ∧ Fields.WF rest
  | .cons t _ e rest => 0 < t ∧ t < 2 ^ 64 ∧ t ∉ rest.types ∧ Elem.WF e ∧ Fields.WF rest
end

/-- a predicate on all the elements a field holds -/
def Mode.All {α : Type} (p : α → Prop) : (m : Mode) → Mode.Of α m → Prop
  | .req, a => p a
  | .opt, none => True
  | .opt, some a => p a
  | .seq, l => ∀ a ∈ l, p a

mutual
/-- the values a field can hold and give back: integers in the range of their type; durations that are a non-negative
number of milliseconds; name components of at most 252 bytes; wires in one buffer (a parsed wire always is). -/
def Elem.InRange : (e : Elem) → e.V → Prop
  | .nat, (x : Nat) => x < 2 ^ 64
  | .fixed w _, (x : Nat) => x < 256 ^ w
  | .time, (d : Int) => ∃ ms : Int, d = ms * 1000000 ∧ -2 ^ 63 ≤ d ∧ d < 2 ^ 63
  | .bin, _ => True
  | .str, _ => True
  | .name, (n : Name) => ∀ c ∈ n, c.Small
  | .wire, (w : Wire) => ∃ b, w = [b]
  | .struct fs, v => Fields.InRange fs v
def Fields.InRange : (fs : Fields) → fs.V → Prop
  | .nil, _ => True
  | .flag _ rest, (_, vs) => Fields.InRange rest vs
  | .cons _ m e rest, (x, vs) => m.All (Elem.InRange e) x ∧ Fields.InRange rest vs
end

/-- an element that the model `fs` does not know and that may be ignored -/
def Ignorable (ic : Bool) (fs : Fields) (b : Bytes) : Prop :=
  ∃ typ body, b = tlv typ body ∧ typ < 2 ^ 64 ∧ typ ∉ fs.types ∧ (ic = true ∨ (31 < typ ∧ typ % 2 = 0))

/-- `own` with elements satisfying `U` put in anywhere -/
inductive Mixed (U : Bytes → Prop) : List Bytes → List Bytes → Prop
  | nil : Mixed U [] []
  | own (b : Bytes) {own items : List Bytes} : Mixed U own items → Mixed U (b :: own) (b :: items)
  | junk {b : Bytes} {own items : List Bytes} : U b → Mixed U own items → Mixed U own (b :: items)

/-- pointwise relation between two lists -/
def Zip {α : Type} (R : α → Bytes → Prop) : List α → List Bytes → Prop
  | [], [] => True
  | a :: l, b :: bs => R a b ∧ Zip R l bs
  | _, _ => False

mutual
/-- value bytes of an element, with ignorable elements put anywhere in nested messages -/
def Elem.Body (ic : Bool) : (e : Elem) → e.V → Bytes → Prop
  | .nat, v, b => b = Elem.body .nat v
  | .fixed w p, v, b => b = Elem.body (.fixed w p) v
  | .time, v, b => b = Elem.body .time v
  | .bin, v, b => b = Elem.body .bin v
  | .str, v, b => b = Elem.body .str v
  | .name, v, b => b = Elem.body .name v
  | .wire, v, b => b = Elem.body .wire v
  | .struct fs, v, b => ∃ own items, Fields.Own ic fs v own ∧ Mixed (Ignorable ic fs) own items ∧ b = items.flatten
/-- the elements of the fields of a message, with ignorable elements put anywhere in nested messages -/
def Fields.Own (ic : Bool) : (fs : Fields) → fs.V → List Bytes → Prop
  | .nil, _, own => own = []
  | .flag typ rest, (b, vs), own => ∃ tl, Fields.Own ic rest vs tl ∧ own = (if b then [tlv typ []] else []) ++ tl
  | .cons typ .req e rest, (v, vs), own =>
    ∃ b tl, Elem.Body ic e v b ∧ Fields.Own ic rest vs tl ∧ own = tlv typ b :: tl
  | .cons _ .opt _ rest, (none, vs), own => Fields.Own ic rest vs own
  | .cons typ .opt e rest, (some v, vs), own =>
    ∃ b tl, Elem.Body ic e v b ∧ Fields.Own ic rest vs tl ∧ own = tlv typ b :: tl
  | .cons typ .seq e rest, (l, vs), own =>
    ∃ bs tl, Zip (Elem.Body ic e) l bs ∧ Fields.Own ic rest vs tl ∧ own = bs.map (tlv typ) ++ tl
end

end Ndn.Codec
