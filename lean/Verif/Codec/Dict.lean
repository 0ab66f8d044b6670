import Verif.Codec.Schemas

/-!
# Dictionaries: `ToDict` and `DictTo…`

What the generator makes for models with the `dict` option (`/repo/pkg/encoding/codegen/dicts.go`, model.go:351-377): a conversion of the struct
to a `map[string]any` and back.  In the library these are `Strategy`, `ControlArgs` and `ControlResponseVal`
(mgmt_2022/definitions.go:51-103); `MakeCmdDict` (mgmt.go:42-51) takes the arguments of a command in this form.
-/

namespace Ndn.Codec

deriving instance DecidableEq for Elem, Fields

/-- the `any` values: `uint` of `w` bytes, `string`, `[]byte`, `bool`, `enc.Name`, a non-nil pointer to a struct of the type named `t`, a nested map, and
everything else (an `int`, nil, ...).  A nil pointer, slice or name with its type is not modelled. -/
inductive DV where
  | uint (w n : Nat)
  | str (b : Bytes)
  | bytes (b : Bytes)
  | bool (b : Bool)
  | name (n : Name)
  | ptr (t : String) (fs : Fields) (v : fs.V)
  | dict (d : List (String × DV))
  | other (tag : Nat)

/-- `map[string]any` -/
abbrev Dict := List (String × DV)

/-- `dict[k]` -/
def Dict.get (d : Dict) (k : String) : Option DV :=
  match d with
  | [] => none
  | (k', v) :: d => if k' = k then some v else Dict.get d k
/-- `dict[k] = v` -/
def Dict.put (d : Dict) (k : String) (v : DV) : Dict := (k, v) :: d.filter fun p => p.1 ≠ k

/-- The Go names of the fields of a struct, in order; for a field that is a struct, also the name of its type and those of its fields. -/
inductive Keys where
  | nil
  | cons (key tname : String) (sub rest : Keys)

def Keys.list : Keys → List String
  | .nil => []
  | .cons k _ _ rest => k :: rest.list

mutual
/-- The value that `GenToDict` stores (dicts.go:5-15, 39-49, 73-79, 115-121, 137-143, 195-205); nothing is generated for `time` and `wire`
(fields.go:104-106). -/
def Elem.toDV : (e : Elem) → Keys → e.V → Option DV
  | .nat, _, (n : Nat) => some (.uint 8 n)
  | .fixed w _, _, (n : Nat) => some (.uint w n)
  | .time, _, _ => none
  | .bin, _, (b : Bytes) => some (.bytes b)
  | .str, _, (b : Bytes) => some (.str b)
  | .name, _, (n : Name) => some (.name n)
  | .wire, _, _ => none
  | .struct fs, ks, v => some (.dict (Fields.toDict fs ks v []))
/-- `ToDict`, model.go:351-361, dicts.go: the fields in order.  For a `sequence` the template does not give valid Go code (dicts.go:160-189), so that the
last case is not used. -/
def Fields.toDict : (fs : Fields) → Keys → fs.V → Dict → Dict
  | .flag _ rest, .cons k _ _ ks, (b, vs), d => Fields.toDict rest ks vs (d.put k (.bool b))
  | .cons _ .req e rest, .cons k _ sub ks, (v, vs), d =>
    match Elem.toDV e sub v with
    | some x => Fields.toDict rest ks vs (d.put k x)
    | none => Fields.toDict rest ks vs d
  | .cons _ .opt e rest, .cons k _ sub ks, (some v, vs), d =>
    match Elem.toDV e sub v with
    | some x => Fields.toDict rest ks vs (d.put k x)
    | none => Fields.toDict rest ks vs d
  | .cons _ .opt _ rest, .cons _ _ _ ks, (none, vs), d => Fields.toDict rest ks vs d
  | _, _, _, d => d
end

/-- the two errors of `DictTo…`, with the name of the field: `ErrIncompatibleType`, `ErrSkipRequired` -/
inductive DErr where
  | incompatible (key : String)
  | skipRequired (key : String)
  deriving DecidableEq, Repr

/-- the type assertion `vv.(T)` of `GenFromDict` (dicts.go:20, 54, 84, 104, 126, 148, 222); `t` is the name of the struct type -/
def Elem.ofDV : (e : Elem) → String → DV → Option e.V
  | .nat, _, .uint w n => if w = 8 then some n else none
  | .fixed w _, _, .uint w' n => if w' = w then some n else none
  | .bin, _, .bytes b => some b
  | .str, _, .str b => some b
  | .name, _, .name n => some n
  | .struct fs, t, .ptr t' fs' v => if h : t' = t ∧ fs' = fs then some (h.2 ▸ v) else none
  | _, _, _ => none

mutual
def Elem.zero : (e : Elem) → e.V
  | .nat => (0 : Nat)
  | .fixed _ _ => (0 : Nat)
  | .time => (0 : Int)
  | .bin => ([] : Bytes)
  | .str => ([] : Bytes)
  | .name => ([] : Name)
  | .wire => ([] : Wire)
  | .struct fs => Fields.zero fs
/-- `&T{}` -/
def Fields.zero : (fs : Fields) → fs.V
  | .nil => ()
  | .flag _ rest => (false, Fields.zero rest)
  | .cons _ .req e rest => (Elem.zero e, Fields.zero rest)
  | .cons _ .opt _ rest => (none, Fields.zero rest)
  | .cons _ .seq _ rest => ([], Fields.zero rest)
end

/-- whether `GenFromDict` generates anything for a field of this class (dicts.go; fields.go:108-110) -/
def Elem.inDict : Elem → Bool
  | .time => false
  | .wire => false
  | _ => true

/-- `DictTo…`, model.go:363-377: the fields in order, stopping at the first error (dicts.go:17-37, 51-71, 81-93, 101-113, 123-135, 145-158, 207-245) -/
def Fields.fromDict : (fs : Fields) → Keys → Dict → Except DErr fs.V
  | .flag _ rest, .cons k _ _ ks, d =>
    match d.get k with
    | some (.bool b) => (Fields.fromDict rest ks d).map fun vs => (b, vs)
    | some _ => .error (.incompatible k)
    | none => (Fields.fromDict rest ks d).map fun vs => (false, vs)
  | .cons _ .req e rest, .cons k t _ ks, d =>
    if e.inDict then
      match d.get k with
      | some dv =>
        match e.ofDV t dv with
        | some v => (Fields.fromDict rest ks d).map fun vs => (v, vs)
        | none => .error (.incompatible k)
      | none => .error (.skipRequired k)
    else (Fields.fromDict rest ks d).map fun vs => (e.zero, vs)
  | .cons _ .opt e rest, .cons k t _ ks, d =>
    if e.inDict then
      match d.get k with
      | some dv =>
        match e.ofDV t dv with
        | some v => (Fields.fromDict rest ks d).map fun vs => (some v, vs)
        | none => .error (.incompatible k)
      | none => (Fields.fromDict rest ks d).map fun vs => (none, vs)
    else (Fields.fromDict rest ks d).map fun vs => (none, vs)
  | fs, _, _ => .ok fs.zero

namespace Schema

/-- mgmt_2022/definitions.go:52-55 -/
def strategyKeys : Keys := .cons "Name" "" .nil .nil
/-- mgmt_2022/definitions.go:58-93 -/
def controlArgsKeys : Keys :=
  .cons "Name" "" .nil <| .cons "FaceId" "" .nil <| .cons "Uri" "" .nil <| .cons "LocalUri" "" .nil <| .cons "Origin" "" .nil <|
  .cons "Cost" "" .nil <| .cons "Capacity" "" .nil <| .cons "Count" "" .nil <| .cons "Flags" "" .nil <| .cons "Mask" "" .nil <|
  .cons "Strategy" "Strategy" strategyKeys <| .cons "ExpirationPeriod" "" .nil <| .cons "FacePersistency" "" .nil <|
  .cons "BaseCongestionMarkInterval" "" .nil <| .cons "DefaultCongestionThreshold" "" .nil <| .cons "Mtu" "" .nil .nil
/-- mgmt_2022/definitions.go:96-103 -/
def controlResponseValKeys : Keys :=
  .cons "StatusCode" "" .nil <| .cons "StatusText" "" .nil <| .cons "Params" "ControlArgs" controlArgsKeys .nil

end Schema
end Ndn.Codec
