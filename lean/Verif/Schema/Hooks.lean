import Verif.Schema.Build
import Verif.Schema.DemoSec
import Verif.Schema.MemStore

/-!
# Model of applying policies to a schema tree and of the attach events, `/repo/pkg/schema/basic_policies.go`, `demosec/policies.go`,
`base_node.go` and `representation.go`

A node holds the class of its `impl` and the listeners of its events.  A listener is a function of the program (`own`) or a method of the policy with this
number (`pol`); `IdPtr` makes a new pointer each time, so a listener is added as often as `Apply` is called.  The attributes of policies were set before
(C73).  What the own listeners do with the tree is not modelled, only what they return.
-/

namespace Ndn.Schema

/-- the classes of nodes that are registered, base_node.go:402-415, expressing_point.go:379-480, leaf_node.go:93-139, rdr/rdr.go:578-810, svs/sync.go:431-499,
demosec/encryption.go:149-213 -/
inductive Cls where
  | base
  | express
  | leaf
  | segmented
  | rdr
  | genObj
  | svs
  | contentKey
deriving DecidableEq

/-- the events, interface.go:111-140; `missing` is `OnMissingData`, svs/sync.go:40 -/
inductive Evt where
  | attach
  | detach
  | int
  | validateInt
  | validateData
  | search
  | save
  | intSigner
  | dataSigner
  | missing
deriving DecidableEq

/-- whether the struct of a class has a field for the event (also by embedding) that `Create` fills: base_node.go:337-341, 393-399; expressing_point.go:33-47, 357-377;
leaf_node.go:13-21, 79-91; rdr/rdr.go:15-50, 221-249, 393-433; svs/sync.go:37-98; demosec/encryption.go:21-53 -/
def Cls.has (c : Cls) (e : Evt) : Bool :=
  match e with
  | .attach => true
  | .detach => true
  | .int => c == .express || c == .leaf
  | .validateInt => c == .express || c == .leaf
  | .validateData => c == .express || c == .leaf
  | .search => c == .express || c == .leaf
  | .save => c == .express || c == .leaf
  | .intSigner => c == .express || c == .leaf
  | .dataSigner => c == .leaf
  | .missing => c == .svs

/-- the methods of policies that are used as listeners -/
inductive Fn where
  | onAttach
  | onSearch
  | onSave
  | onGetDataSigner
  | onValidateData
  | onGetIntSigner
  | onValidateInt
deriving DecidableEq

/-- a listener -/
inductive Lst where
  | own (n : Nat)
  | pol (i : Nat) (f : Fn)
deriving DecidableEq

/-- a node without its children: the class and the listeners -/
structure HNode where
  cls : Cls
  ls : Evt → List Lst

/-- `Node.GetEvent`, base_node.go:254-259; `none` is nil -/
def HNode.getEvent (d : HNode) (e : Evt) : Option (List Lst) := if d.cls.has e then some (d.ls e) else none

/-- `event.Add` on an event that exists, event.go:67-69 -/
def HNode.add (d : HNode) (e : Evt) (l : Lst) : HNode := { d with ls := fun e' => if e' = e then d.ls e ++ [l] else d.ls e' }

/-- `if event := node.GetEvent(…); event != nil { event.Add(…) }` -/
def HNode.addIf (d : HNode) (e : Evt) (l : Lst) : HNode :=
  match d.getEvent e with
  | none => d
  | some _ => d.add e l

/-- the same with a panic if the event does not exist: base_node.go:263-265 (`Add` of nil), basic_policies.go:88-93, 237-242, 291-296, demosec/policies.go:173-178 -/
def HNode.addMust (d : HNode) (e : Evt) (l : Lst) : Option HNode :=
  match d.getEvent e with
  | none => none
  | some _ => some (d.add e l)

/-- the policies with the attributes that matter here: `RegisterIf` and `Patterns`; the key; whether `KeyStore` is set; `KeyNodePath` (`none`: not a pattern) -/
inductive Pol where
  | register (on : Bool) (patterns : Matching)
  | sha256
  | memStorage
  | hmac (key : Bytes)
  | hmacInt (key : Bytes)
  | keyStorage (store : Bool)
  | signedBy (store : Bool) (keyNodePath : Option NamePattern)

/-- `Apply` of a policy that does not go to the children: basic_policies.go:40-45, 81-94, 226-243, 280-299, demosec/policies.go:164-179; `none` is a panic -/
def Pol.applyNode (i : Nat) (p : Pol) (d : HNode) : Option HNode :=
  match p with
  | .register on _ => if on then d.addMust .attach (.pol i .onAttach) else some d
  | .sha256 => (d.addIf .dataSigner (.pol i .onGetDataSigner)).addMust .validateData (.pol i .onValidateData)
  | .hmac key =>
    if key.length = 0 then none
    else (d.addIf .dataSigner (.pol i .onGetDataSigner)).addMust .validateData (.pol i .onValidateData)
  | .hmacInt key =>
    if key.length = 0 then none
    else
      match (d.addIf .intSigner (.pol i .onGetIntSigner)).addMust .validateInt (.pol i .onValidateInt) with
      | none => none
      | some d => d.addMust .attach (.pol i .onAttach)
  | .signedBy _ _ =>
    ((d.addIf .attach (.pol i .onAttach)).addIf .dataSigner (.pol i .onGetDataSigner)).addMust .validateData (.pol i .onValidateData)
  | .memStorage => some d
  | .keyStorage _ => some d

/-- basic_policies.go:171-179, demosec/policies.go:60-68 -/
def storageNode (i : Nat) (d : HNode) : HNode :=
  ((d.addIf .attach (.pol i .onAttach)).addIf .search (.pol i .onSearch)).addIf .save (.pol i .onSave)

mutual
/-- `MemStoragePolicy.Apply` and `KeyStoragePolicy.Apply`, basic_policies.go:168-184, demosec/policies.go:57-73 -/
def applyStorage (i : Nat) : DTree HNode → DTree HNode
  | .node d chd => .node (storageNode i d) (applyStorageAll i chd)
/-- the loop over the children -/
def applyStorageAll (i : Nat) : List (CompPat × DTree HNode) → List (CompPat × DTree HNode)
  | [] => []
  | (e, t) :: rest => (e, applyStorage i t) :: applyStorageAll i rest
end

/-- `Apply` of a policy to a node of a tree; `none` is a panic -/
def Pol.apply (i : Nat) (p : Pol) (t : DTree HNode) : Option (DTree HNode) :=
  match p with
  | .memStorage => some (applyStorage i t)
  | .keyStorage _ => some (applyStorage i t)
  | p => (p.applyNode i t.desc).map fun d => .node d t.chd

/-- `inst.Apply(tree.At(path))`, representation.go:148-151 and 176: the tree with the changed node; `none` is a panic -/
def applyAt (f : DTree HNode → Option (DTree HNode)) : DTree HNode → NamePattern → Option (DTree HNode)
  | t, [] => f t
  | t, e :: es =>
    match DTree.find e t.chd with
    | none => none
    | some (j, c) => (applyAt f c es).map (t.setChild j)

/-- the loop over the policies, representation.go:141-178; `i` is the number of the next one.  `none` is a panic. -/
def applyAll : Nat → DTree HNode → List (NamePattern × Pol) → Option (DTree HNode)
  | _, t, [] => some t
  | i, t, (path, p) :: rest =>
    match applyAt (p.apply i) t path with
    | none => none
    | some t' => applyAll (i + 1) t' rest

/-! ## Attaching -/

/-- what the policies keep: `timer` (basic_policies.go:152-155), `keyNode` (demosec/policies.go:156), `signer` (basic_policies.go:275-278) by the number of the
policy, and the routes that were registered, the latest last -/
structure PolSt where
  timer : Nat → Bool := fun _ => false
  keyNode : Nat → Option NamePattern := fun _ => none
  signer : Nat → Bool := fun _ => false
  routes : List Name := []

/-- what a listener of the attach event returns: nil, an error, something else -/
inductive Ans where
  | nil
  | error
  | other
deriving DecidableEq

/-- the surroundings of an attachment: the root, the attached prefix, the policies by number, what the program's listeners return (`none` is a panic), and whether
the forwarder accepts a route -/
structure AttachEnv where
  root : DTree HNode
  pre : Name
  pols : List Pol
  own : Nat → Option Ans
  route : Name → Bool

/-- `onAttach` of a policy whose listener is called for the node at `a`: basic_policies.go:27-38, 152-155, 275-278, demosec/policies.go:50-55, 147-162 -/
def Pol.onAttach (env : AttachEnv) (a : Addr) (i : Nat) (p : Pol) (s : PolSt) : Option (Ans × PolSt) :=
  match p with
  | .register _ patterns =>
    match Ndn.Schema.apply env.pre env.root.toS a patterns with
    | some (some n) => if env.route n then some (.nil, { s with routes := s.routes ++ [n] }) else none
    | _ => none
  | .memStorage => some (.nil, { s with timer := fun j => if j = i then true else s.timer j })
  | .hmacInt _ => some (.nil, { s with signer := fun j => if j = i then true else s.signer j })
  | .keyStorage store => if store then some (.nil, s) else none
  | .signedBy store path =>
    if store then
      match path with
      | none => none
      | some q =>
        match env.root.at' q with
        | none => none
        | some _ => some (.nil, { s with keyNode := fun j => if j = i then some q else s.keyNode j })
    else none
  | .sha256 => some (.nil, s)
  | .hmac _ => some (.nil, s)

/-- one listener of the attach event -/
def Lst.run (env : AttachEnv) (a : Addr) (l : Lst) (s : PolSt) : Option (Ans × PolSt) :=
  match l with
  | .own n => (env.own n).map fun r => (r, s)
  | .pol i .onAttach =>
    match env.pols[i]? with
    | none => none
    | some p => p.onAttach env a i s
  | .pol _ _ => none

/-- `BaseNodeImpl.OnAttach`, base_node.go:353-370 with event.go:99-108: the listeners are called until one returns something; that panics if it is no error -/
def attachLoop (env : AttachEnv) (a : Addr) : List Lst → PolSt → Option PolSt
  | [], s => some s
  | l :: ls, s =>
    match l.run env a s with
    | none => none
    | some (.nil, s') => attachLoop env a ls s'
    | some (.error, s') => some s'
    | some (.other, _) => none

mutual
/-- `Node.OnAttach`, base_node.go:207-229: the children first; the error of `impl.OnAttach` is dropped (line 225).  `none` is a panic. -/
def attachNode (env : AttachEnv) (a : Addr) : DTree HNode → PolSt → Option PolSt
  | .node d chd, s =>
    match attachChildren env a 0 chd s with
    | none => none
    | some s => attachLoop env a (d.ls .attach) s
/-- the loop of base_node.go:214-220 -/
def attachChildren (env : AttachEnv) (a : Addr) (k : Nat) : List (CompPat × DTree HNode) → PolSt → Option PolSt
  | [], s => some s
  | (_, t) :: rest, s =>
    match attachNode env (a ++ [k]) t s with
    | none => none
    | some s => attachChildren env a (k + 1) rest s
end

/-- `Tree.Attach`, tree.go:31-54, as far as the listeners are concerned; it returns no error if the engine accepts the prefix -/
def attachTree (env : AttachEnv) (s : PolSt) : Option PolSt := attachNode env [] env.root s

/-! ## The listeners afterwards -/

/-- `MemStoragePolicy.onSave`, basic_policies.go:162-166: `p.timer` is nil before the policy's attach event -/
def PolSt.memOnSave (s : PolSt) (i : Nat) (z : Int) (t : Engine.Trie CacheEntry) (now : Int) (name : Name) (raw : Wire) (validDuration : Option Int) :
    Res (Engine.Trie CacheEntry) :=
  if s.timer i then memSave z t now name raw validDuration else .panic

/-- `SignedByPolicy.ConvertName` up to the node, demosec/policies.go:97-108: `p.keyNode.Apply` panics if `keyNode` is nil -/
def PolSt.signedByNode (s : PolSt) (i : Nat) : Res NamePattern :=
  match s.keyNode i with
  | none => .panic
  | some q => .ok q

/-- `FixedHmacIntSignerPolicy.onGetIntSigner`, basic_policies.go:258-260: whether there is a signer -/
def PolSt.intSigner (s : PolSt) (i : Nat) : Bool := s.signer i

/-- `KeyStoragePolicy.onSearch`, demosec/policies.go:24-39; the inner `none` is nil -/
def keyOnSearch (store : Option KeyStore) (name : Name) (canBePrefix : Bool) : Res (Option Wire) :=
  if canBePrefix then .ok none
  else
    match store with
    | none => .panic
    | some st =>
      match st.getKey name with
      | none => .ok none
      | some k => .ok (some [k.cert])

/-- `KeyStoragePolicy.onSave`, demosec/policies.go:41-48 -/
def keyOnSave (store : Option KeyStore) (name : Name) (content raw : Wire) : Res (Option KeyStore) :=
  match store with
  | none => .panic
  | some st => .ok (some (st.saveKey ⟨name, content.flatten, raw.flatten⟩))

end Ndn.Schema
