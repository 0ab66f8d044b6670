import Verif.Enc.Name
import Verif.Enc.Prim

/-!
# Model of the attributes of nodes and policies, `/repo/pkg/schema/interface.go` and `representation.go`

A description in JSON gives attributes to nodes and policies.  `instantiateAttrs` puts in the values of the environment, and `Instantiate` hands each
attribute to the `Set` of its `PropertyDesc`, which assigns a field of the implementation by reflection.

A field is its name with its current value, whose type is that of the field.  JSON numbers are `float64`; they are an arbitrary type with the two
conversions that the code uses.  A panic inside `Set` is recovered and leaves the error that was set at the beginning.  Fields of interface types
do not occur among the properties.
-/

namespace Ndn.Schema

/-- the conversions of a `float64` (or `float32`) that are used: `uint64(v)`, interface.go:187, and `time.Duration(v * float64(time.Millisecond))`,
interface.go:234, 237 -/
structure FloatOps (F : Type) where
  toU64 : F → Nat
  ms : F → Int

/-- the Go values that attributes and fields have; `ext` stands for values of other types, told apart by `ty` -/
inductive GVal (F : Type) where
  | nil
  | bool (b : Bool)
  | str (s : Bytes)
  | bytes (b : Bytes)
  | f64 (x : F)
  | f32 (x : F)
  | u64 (n : Nat)
  | i64 (n : Int)
  | uint (n : Nat)
  | int (n : Int)
  /-- `ndn.ContentType`, a named `uint` (ndn.go:29) -/
  | ctype (n : Nat)
  /-- `time.Duration` -/
  | dur (d : Int)
  | name (n : Name)
  /-- `enc.Matching` -/
  | matching (m : List (String × Bytes))
  /-- `map[string]any` -/
  | map (m : List (String × GVal F))
  /-- `[]any` -/
  | list (l : List (GVal F))
  | ext (ty id : Nat)

/-- Go types -/
inductive GTy where
  | nil | bool | str | bytes | f64 | f32 | u64 | i64 | uint | int | ctype | dur | name | matching | map | list
  | ext (ty : Nat)
  deriving DecidableEq, Repr

variable {F : Type}

def GVal.ty : GVal F → GTy
  | .nil => .nil
  | .bool _ => .bool
  | .str _ => .str
  | .bytes _ => .bytes
  | .f64 _ => .f64
  | .f32 _ => .f32
  | .u64 _ => .u64
  | .i64 _ => .i64
  | .uint _ => .uint
  | .int _ => .int
  | .ctype _ => .ctype
  | .dur _ => .dur
  | .name _ => .name
  | .matching _ => .matching
  | .map _ => .map
  | .list _ => .list
  | .ext t _ => .ext t

/-! ## The environment -/

/-- the environment: names with their values -/
abbrev Env (F : Type) := Bytes → Option (GVal F)

mutual
/-- `handleVal`, representation.go:66-88: `none` is the panic "missing attributes" -/
def GVal.inst (env : Env F) : GVal F → Option (GVal F)
  | .str s =>
    match s with
    | [] => some (.str s)
    | c :: _ => if c ≠ 36 then some (.str s) else env s
  | .map m => (instMap env m).map .map
  | .list l => (instList env l).map .list
  | v => some v
/-- `handleMap`, representation.go:89-95 -/
def instMap (env : Env F) : List (String × GVal F) → Option (List (String × GVal F))
  | [] => some []
  | (k, v) :: m =>
    match v.inst env, instMap env m with
    | some v', some m' => some ((k, v') :: m')
    | _, _ => none
/-- `handleList`, representation.go:96-102 -/
def instList (env : Env F) : List (GVal F) → Option (List (GVal F))
  | [] => some []
  | v :: l =>
    match v.inst env, instList env l with
    | some v', some l' => some (v' :: l')
    | _, _ => none
end

/-! ## Fields -/

/-- an implementation: its fields -/
abbrev Impl (F : Type) := List (String × GVal F)

/-- `FieldByName` -/
def Impl.get (o : Impl F) (f : String) : Option (GVal F) :=
  match o with
  | [] => none
  | (f', v) :: o => if f' = f then some v else Impl.get o f
/-- the assignment of a field -/
def Impl.put (o : Impl F) (f : String) (v : GVal F) : Impl F := o.map fun p => if p.1 = f then (f, v) else p

/-- `ErrInvalidValue` and `ErrNotSupported` -/
inductive AErr where
  | invalidValue | notSupported
  deriving DecidableEq, Repr

/-- `field.Set(reflect.ValueOf(value))`: panics, and so ends with the error `e`, unless the types are the same -/
def assignField (o : Impl F) (f : String) (cur v : GVal F) : Impl F × Option AErr :=
  if v.ty = cur.ty then (o.put f v, none) else (o, some .invalidValue)

/-- `Set` of `DefaultPropertyDesc`, interface.go:175-204 -/
def setDefault (ops : FloatOps F) (f : String) (o : Impl F) (v : GVal F) : Impl F × Option AErr :=
  match o.get f with
  | none => (o, some .notSupported)
  | some cur =>
    match cur.ty, v with
    | .u64, .f64 x => (o.put f (.u64 (ops.toU64 x)), none)
    | .bytes, .str s => (o.put f (.bytes s), none)
    | _, _ => assignField o f cur v

/-- `time.Duration(v) * time.Millisecond` in int64 -/
def msOf (n : Int) : Int := wrap64 (n * 1000000)

/-- `Set` of `TimePropertyDesc`, interface.go:227-254 -/
def setTime (ops : FloatOps F) (f : String) (o : Impl F) (v : GVal F) : Impl F × Option AErr :=
  match o.get f with
  | none => (o, some .invalidValue)
  | some cur =>
    match v with
    | .f32 x => assignField o f cur (.dur (ops.ms x))
    | .f64 x => assignField o f cur (.dur (ops.ms x))
    | .i64 n => assignField o f cur (.dur (msOf n))
    | .u64 n => assignField o f cur (.dur (msOf n))
    | .int n => assignField o f cur (.dur (msOf n))
    | .uint n => assignField o f cur (.dur (msOf n))
    | _ => (o, some .invalidValue)

/-- `Get` of `TimePropertyDesc`, interface.go:221-226: `uint64(d / time.Millisecond)`; nil if there is no such field of this type -/
def getTime (f : String) (o : Impl F) : GVal F :=
  match o.get f with
  | some (.dur d) => .u64 ((d.tdiv 1000000) % 2 ^ 64).toNat
  | _ => .nil

/-- the loop of interface.go:274-288: a value of another type is passed over; `none`: a text is not a component -/
def matchOf : List (String × GVal F) → Option (List (String × Bytes))
  | [] => some []
  | (k, v) :: m =>
    match v with
    | .bytes b => (matchOf m).map fun r => (k, b) :: r
    | .u64 n => (matchOf m).map fun r => (k, natEnc n) :: r
    | .str s =>
      match componentFromStr s with
      | .ok c => (matchOf m).map fun r => (k, c.val) :: r
      | _ => none
    | _ => matchOf m

/-- `Set` of `MatchingPropertyDesc`, interface.go:266-292 -/
def setMatching (f : String) (o : Impl F) (v : GVal F) : Impl F × Option AErr :=
  match o.get f with
  | none => (o, some .invalidValue)
  | some cur =>
    match v with
    | .map m =>
      match matchOf m with
      | some r => assignField o f cur (.matching r)
      | none => (o, some .invalidValue)
    | _ => (o, some .invalidValue)

/-- `Set` of `NamePropertyDesc`, interface.go:326-343: of a text, `field.Set` and `ret = nil` come under `err != nil`; the name is then nil -/
def setName (f : String) (o : Impl F) (v : GVal F) : Impl F × Option AErr :=
  match o.get f with
  | none => (o, some .invalidValue)
  | some cur =>
    match v with
    | .name n => assignField o f cur (.name n)
    | .str s =>
      match nameFromStr s with
      | .err _ => assignField o f cur (.name [])
      | _ => (o, some .invalidValue)
    | _ => (o, some .invalidValue)

/-! ## Properties of nodes -/

/-- the kinds of `PropertyDesc` that assign a field -/
inductive PKind where
  | dflt | time | matching | name
  deriving DecidableEq, Repr

/-- a `PropertyDesc`: of a field, or `SubNodePropertyDesc` with the path of the sub-node and the property there -/
inductive PDesc where
  | fld (k : PKind) (f : String)
  | sub (path key : String)
  deriving DecidableEq, Repr

def PKind.set (k : PKind) (ops : FloatOps F) (f : String) (o : Impl F) (v : GVal F) : Impl F × Option AErr :=
  match k with
  | .dflt => setDefault ops f o v
  | .time => setTime ops f o v
  | .matching => setMatching f o v
  | .name => setName f o v

/-- `Properties`: the property with this key -/
def findProp (ps : List (String × PDesc)) (key : String) : Option PDesc :=
  match ps with
  | [] => none
  | (k, d) :: ps => if k = key then some d else findProp ps key

/-- an implementation with its properties -/
structure PNode (F : Type) where
  props : List (String × PDesc)
  impl : Impl F

/-- a node and the nodes below it that its description makes, by path; the node itself has the path "" -/
abbrev PTree (F : Type) := List (String × PNode F)

def PTree.get (t : PTree F) (path : String) : Option (PNode F) :=
  match t with
  | [] => none
  | (p, n) :: t => if p = path then some n else PTree.get t path
def PTree.put (t : PTree F) (path : String) (o : Impl F) : PTree F :=
  t.map fun p => if p.1 = path then (p.1, ⟨p.2.props, o⟩) else p

/-- `Set` of a field of the node at `path` -/
def setAt (ops : FloatOps F) (t : PTree F) (path : String) (k : PKind) (f : String) (v : GVal F) : PTree F × Option AErr :=
  match t.get path with
  | none => (t, some .invalidValue)
  | some n => let r := k.set ops f n.impl v; (t.put path r.1, r.2)

/-- `nodeDesc.Properties[k].Set(impl, v)`, representation.go:126, with `SubNodePropertyDesc` (interface.go:307-312) and `Node.Set`
(base_node.go:249-251).  `none`: the property does not exist, so that a nil function is called.  No property of the library refers to a property of a
sub-node that refers to another one. -/
def setProp (ops : FloatOps F) (t : PTree F) (key : String) (v : GVal F) : Option (PTree F × Option AErr) :=
  match t.get "" with
  | none => none
  | some n =>
    match findProp n.props key with
    | none => none
    | some (.fld k f) => some (setAt ops t "" k f v)
    | some (.sub path key') =>
      match t.get path with
      | none => some (t, some .invalidValue)
      | some n' =>
        match findProp n'.props key' with
        | some (.fld k f) => some (setAt ops t path k f v)
        | _ => some (t, some .invalidValue)

/-- the loop of representation.go:124-130 over the attributes in the order of `range`; `none` is a panic -/
def setAttrs (ops : FloatOps F) : PTree F → List (String × GVal F) → Option (PTree F)
  | t, [] => some t
  | t, (k, v) :: rest =>
    match setProp ops t k v with
    | some (t', none) => setAttrs ops t' rest
    | _ => none

/-- the attributes of a node or policy: representation.go:123-130, 163-169 -/
def applyAttrs (ops : FloatOps F) (env : Env F) (t : PTree F) (attrs : List (String × GVal F)) : Option (PTree F) :=
  match instMap env attrs with
  | some a => setAttrs ops t a
  | none => none

/-- `Node.Set` of the node at `path` (base_node.go:249-251) as `CreateSvsNode` calls it, svs/sync.go:81-91: the error is not looked at -/
def setQuiet (ops : FloatOps F) (path key : String) (v : GVal F) (t : PTree F) : PTree F :=
  match t.get path with
  | none => t
  | some n =>
    match findProp n.props key with
    | some (.fld k f) => (setAt ops t path k f v).1
    | _ => t

/-! ## Classes of the library

The node under the path "" is the one that the class describes; the others are those that its `Create` puts below it. -/

/-- `RegisterPolicy`, basic_policies.go:16-21, 47-51, 302-309 -/
def registerPolicy : PTree F :=
  [("", ⟨[("RegisterIf", .fld .dflt "RegisterIf"), ("Patterns", .fld .matching "Patterns")],
    [("RegisterIf", .bool true), ("Patterns", .matching [])]⟩)]

/-- `FixedHmacSigner`, basic_policies.go:192-207, 322-331 -/
def fixedHmacSigner : PTree F :=
  [("", ⟨[("KeyValue", .fld .dflt "Key"), ("KeyName", .fld .name "KeyName"), ("SignForCert", .fld .dflt "SignForCert"), ("ExpireTime", .fld .time "ExpireTime")],
    [("Key", .str []), ("KeyName", .name []), ("SignForCert", .bool false), ("ExpireTime", .dur 0)]⟩)]

/-- `FixedHmacIntSigner`, basic_policies.go:334-340 -/
def fixedHmacIntSigner : PTree F :=
  [("", ⟨[("KeyValue", .fld .dflt "Key")], [("Key", .str [])]⟩)]

/-- `KeyStoragePolicy`, demosec/policies.go:15-18, 186-193; the pointer to a key store is a value of the type `ext 0`, nil is 0 -/
def keyStoragePolicy : PTree F :=
  [("", ⟨[("KeyStore", .fld .dflt "KeyStore")], [("KeyStore", .ext 0 0)]⟩)]

/-- `SignedBy`, demosec/policies.go:80-86, 195-204 -/
def signedByPolicy : PTree F :=
  [("", ⟨[("Mapping", .fld .dflt "Mapping"), ("KeyStore", .fld .dflt "KeyStore"), ("KeyNodePath", .fld .dflt "KeyNodePath")],
    [("Mapping", .map []), ("KeyStore", .ext 0 0), ("KeyNodePath", .str [])]⟩)]

/-- the properties of `ExpressPoint`, expressing_point.go:382-387, with interface.go:141-151 -/
def expressProps : List (String × PDesc) :=
  [("CanBePrefix", .fld .dflt "CanBePrefix"), ("MustBeFresh", .fld .dflt "MustBeFresh"), ("Lifetime", .fld .time "Lifetime"),
    ("SupressInt", .fld .dflt "SupressInt")]

/-- the fields of `ExpressPoint` after `CreateExpressPoint`, expressing_point.go:357-376 -/
def expressFields : Impl F :=
  [("CanBePrefix", .bool true), ("MustBeFresh", .bool true), ("Lifetime", .dur 4000000000), ("SupressInt", .bool false)]

/-- `ExpressPoint` -/
def expressPoint : PNode F := ⟨expressProps, expressFields⟩

/-- `LeafNode`, leaf_node.go:13-21, 81-89, 93-106 -/
def leafNode : PNode F :=
  ⟨expressProps ++ [("ContentType", .fld .dflt "ContentType"), ("Freshness", .fld .time "Freshness"), ("ValidDuration", .fld .time "ValidDur")],
    expressFields ++ [("ContentType", .ctype 0), ("Freshness", .dur 60000000000), ("ValidDur", .dur 3153600000000000000)]⟩

/-- `SegmentedNode`, rdr/rdr.go:15-26, 32-51, 579-590 -/
def segmentedNode : PNode F :=
  ⟨[("ContentType", .fld .dflt "ContentType"), ("Lifetime", .fld .time "Lifetime"), ("Freshness", .fld .time "Freshness"), ("ValidDuration", .fld .time "ValidDur"),
      ("MustBeFresh", .fld .dflt "MustBeFresh"), ("SegmentSize", .fld .dflt "SegmentSize"), ("MaxRetriesOnFailure", .fld .dflt "MaxRetriesOnFailure"),
      ("Pipeline", .fld .dflt "Pipeline")],
    [("ContentType", .ctype 0), ("Freshness", .dur 10000000000), ("ValidDur", .dur 3153600000000000000), ("Lifetime", .dur 4000000000),
      ("MustBeFresh", .bool true), ("SegmentSize", .u64 8000), ("MaxRetriesOnFailure", .u64 15),
      ("Pipeline", .str (ascii ['S', 'i', 'n', 'g', 'l', 'e', 'P', 'a', 'c', 'k', 'e', 't']))]⟩

/-- the properties that a class takes over from a `SegmentedNode` below it, rdr/rdr.go:671-678, 755-762 -/
def segmentedSubs (path : String) : List (String × PDesc) :=
  [("ContentType", .sub path "ContentType"), ("Lifetime", .sub path "Lifetime"), ("Freshness", .sub path "Freshness"), ("ValidDuration", .sub path "ValidDuration"),
    ("MustBeFresh", .sub path "MustBeFresh"), ("SegmentSize", .sub path "SegmentSize"), ("MaxRetriesOnFailure", .sub path "MaxRetriesOnFailure"),
    ("Pipeline", .sub path "Pipeline")]

/-- `RdrNode`, rdr/rdr.go:220-225, 231-249, 665-679 -/
def rdrNode : PTree F :=
  [("", ⟨[("MetaFreshness", .fld .time "MetaFreshness"), ("MaxRetriesForMeta", .fld .dflt "MaxRetriesForMeta"), ("MetaLifetime", .sub "32=metadata" "Lifetime")]
        ++ segmentedSubs "<v=versionNumber>",
      [("MetaFreshness", .dur 10000000), ("MaxRetriesForMeta", .u64 15)]⟩),
    ("<v=versionNumber>", segmentedNode), ("32=metadata", expressPoint), ("32=metadata/<v=versionNumber>/seg=0", leafNode)]

/-- `GeneralObjNode`, rdr/rdr.go:388-395, 412-433, 746-763 -/
def generalObjNode : PTree F :=
  [("", ⟨[("MetaFreshness", .fld .time "MetaFreshness"), ("MaxRetriesForMeta", .fld .dflt "MaxRetriesForMeta"),
        ("ManifestFreshness", .fld .time "ManifestFreshness"), ("MaxRetriesForManifest", .fld .dflt "MaxRetriesForManifest"),
        ("MetaLifetime", .sub "32=metadata" "Lifetime"), ("ManifestLifetime", .sub "32=manifest" "Lifetime")] ++ segmentedSubs "32=data",
      [("MetaFreshness", .dur 10000000), ("MaxRetriesForMeta", .u64 15), ("ManifestFreshness", .dur 10000000), ("MaxRetriesForManifest", .u64 15)]⟩),
    ("32=data", segmentedNode), ("32=metadata", leafNode), ("32=manifest", leafNode)]

/-- `ContentKeyNode`, demosec/encryption.go:21-23, 40-51, 150-156 -/
def contentKeyNode : PTree F :=
  [("", ⟨[("Lifetime", .sub "<contentKeyID>" "Lifetime"), ("Freshness", .sub "<contentKeyID>" "Freshness"), ("ValidDuration", .sub "<contentKeyID>" "ValidDuration")], []⟩),
    ("<contentKeyID>", ⟨(leafNode (F := F)).props, (leafNode.impl.put "ContentType" (.ctype 2)).put "MustBeFresh" (.bool false)⟩)]

/-- `SvsNode` before the calls of `Set` in `CreateSvsNode`, svs/sync.go:37-60, 66-80, 87-88, 368-381 -/
def svsNode0 : PTree F :=
  let leaf := "/<8=nodeId>/<seq=seqNo>"
  [("", ⟨[("SyncInterval", .fld .time "SyncInterval"), ("SuppressionInterval", .fld .time "SuppressionInterval"), ("BaseMatching", .fld .matching "BaseMatching"),
        ("ChannelSize", .fld .dflt "ChannelSize"), ("SelfNodeId", .fld .dflt "SelfNodeId"), ("ContentType", .sub leaf "ContentType"),
        ("Lifetime", .sub leaf "Lifetime"), ("Freshness", .sub leaf "Freshness"), ("ValidDuration", .sub leaf "ValidDuration"), ("MustBeFresh", .sub leaf "MustBeFresh")],
      [("SyncInterval", .dur 30000000000), ("SuppressionInterval", .dur 200000000), ("BaseMatching", .matching []), ("ChannelSize", .u64 0), ("SelfNodeId", .bytes [])]⟩),
    (leaf, leafNode), ("/32=notif", expressPoint)]

/-- `CreateSvsNode`, svs/sync.go:66-99 -/
def svsNode (ops : FloatOps F) : PTree F :=
  let leaf := "/<8=nodeId>/<seq=seqNo>"
  let set := setQuiet ops
  svsNode0 |> set leaf "CanBePrefix" (.bool false) |> set leaf "MustBeFresh" (.bool false) |> set leaf "Lifetime" (.dur 4000000000)
    |> set leaf "Freshness" (.dur 60000000000) |> set leaf "ValidDuration" (.dur 3153600000000000000)
    |> set "/32=notif" "CanBePrefix" (.bool true) |> set "/32=notif" "MustBeFresh" (.bool true) |> set "/32=notif" "Lifetime" (.dur 1000000000)

/-- the classes with properties -/
def classes (ops : FloatOps F) : List (String × PTree F) :=
  [("RegisterPolicy", registerPolicy), ("FixedHmacSigner", fixedHmacSigner), ("FixedHmacIntSigner", fixedHmacIntSigner), ("KeyStoragePolicy", keyStoragePolicy),
    ("SignedBy", signedByPolicy), ("ExpressPoint", [("", expressPoint)]), ("LeafNode", [("", leafNode)]), ("SegmentedNode", [("", segmentedNode), ("<seg=segmentNumber>", leafNode)]),
    ("RdrNode", rdrNode), ("GeneralObjNode", generalObjNode), ("ContentKeyNode", contentKeyNode), ("SvsNode", svsNode ops)]

end Ndn.Schema
