import Verif.Codec.Run
import Verif.Codec.Spec

/-!
# Which Go value stands for a message

The schema of a model says what its messages are; the encoder gets a pointer to a Go struct.  This file says which structs stand for which messages.
-/

namespace Ndn.Codec.Gen

/-- a field of the class may be nil -/
def Cls.optional : Cls → Bool
  | .natural o => o
  | .fixedUint _ o => o
  | .time o => o
  | .string o => o
  | .binary => true
  | .wire _ => true
  | .name => true
  | .struct _ _ => true
  | _ => false

/-- a pointer to the value, or the value itself -/
def boxed (opt : Bool) (g : GV) : GV := if opt then .ptr g else g

/-- what a field of a sequence may hold: the elements, or nil if there are none -/
def IsSeq (g : GV) (gs : List GV) : Prop := g = .arr gs ∨ (g = .nil ∧ gs = [])

/-- the names of the fields differ, as in any Go struct -/
def Named (fields : List Field) : Prop := (fields.map Field.name).Nodup

mutual
/-- the Go value `g`, which is not nil, stands for `v` in a field of the class -/
def Stands (ms : List TModel) : (e : Elem) → Cls → e.V → GV → Prop
  | .nat, c, (x : Nat), g => ∃ o, c = .natural o ∧ g = boxed o (.num x)
  | .fixed w _, c, (x : Nat), g => ∃ o, c = .fixedUint w o ∧ g = boxed o (.num x)
  | .time, c, (d : Int), g => ∃ o, c = .time o ∧ g = boxed o (.dur d)
  | .bin, c, (b : Bytes), g => c = .binary ∧ g = .bytes b
  | .str, c, (b : Bytes), g => ∃ o, c = .string o ∧ g = boxed o (.bytes b)
  | .name, c, (n : Name), g => c = .name ∧ g = .name n
  | .wire, c, (w : Wire), g => ∃ nc, c = .wire nc ∧ g = .wire w
  | .struct fs, c, v, g => ∃ t nc m kvs, c = .struct t nc ∧ (ms.find? fun m => m.name == t) = some m ∧ Named m.fields ∧
      g = .ptr (.struct kvs) ∧ StandsAll ms fs m.fields v kvs
/-- the members `kvs` of a Go struct stand for the message `v` of a model with the fields -/
def StandsAll (ms : List TModel) : (fs : Fields) → List Field → fs.V → List (Txt × GV) → Prop
  | .nil, fields, _, _ => fields = []
  | .flag t rest, fields, (b, vs), kvs =>
    ∃ f l, fields = f :: l ∧ f.num = t ∧ f.cls = .bool ∧ lookup f.name kvs = some (.bool b) ∧ StandsAll ms rest l vs kvs
  | .cons t .req e rest, fields, (v, vs), kvs =>
    ∃ f l, fields = f :: l ∧ f.num = t ∧ f.cls.optional = false ∧ (∃ g, lookup f.name kvs = some g ∧ Stands ms e f.cls v g) ∧ StandsAll ms rest l vs kvs
  | .cons t .opt _ rest, fields, (none, vs), kvs =>
    ∃ f l, fields = f :: l ∧ f.num = t ∧ f.cls.optional = true ∧ lookup f.name kvs = some .nil ∧ StandsAll ms rest l vs kvs
  | .cons t .opt e rest, fields, (some v, vs), kvs =>
    ∃ f l, fields = f :: l ∧ f.num = t ∧ f.cls.optional = true ∧ (∃ g, lookup f.name kvs = some g ∧ Stands ms e f.cls v g) ∧ StandsAll ms rest l vs kvs
  | .cons t .seq e rest, fields, (xs, vs), kvs =>
    ∃ f l, fields = f :: l ∧ f.num = t ∧ (∃ ty sub, f.cls = .sequence ty sub ∧ ∃ g gs, lookup f.name kvs = some g ∧ IsSeq g gs ∧ gs.length = xs.length ∧
      ∀ (i : Nat) (x : e.V) (g : GV), xs[i]? = some x → gs[i]? = some g → Stands ms e sub x g) ∧ StandsAll ms rest l vs kvs
end

mutual
/-- how deep structs are in structs -/
def Elem.depth : Elem → Nat
  | .struct fs => Fields.depth fs + 1
  | _ => 0
def Fields.depth : Fields → Nat
  | .nil => 0
  | .flag _ rest => Fields.depth rest
  | .cons _ _ e rest => max (Elem.depth e) (Fields.depth rest)
end

end Ndn.Codec.Gen
