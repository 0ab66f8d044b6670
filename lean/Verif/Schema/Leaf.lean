import Verif.Schema.MemStore
import Verif.Packet.Make

/-!
# Model of leaf nodes and of the search in the storage, `/repo/pkg/schema/leaf_node.go` and `expressing_point.go`

The storages are `MemStoragePolicy`s, known by numbers.  A node has the storages that were applied to it (or to a node above it), in the order of
their `Apply`; all nodes of a program share them.  What `OnGetDataSigner` yields is a parameter (`DispatchUntil` is the subject of C50).  Times are
integers and do not overflow; a cached packet is read by `ReadData` as one buffer (C10, C27).
-/

namespace Ndn.Schema
open Ndn.Engine Ndn.Packet

/-- `MemStoragePolicy`, basic_policies.go:103-109; `timer`: is the timer set? -/
structure Store where
  timer : Bool
  tree : Trie CacheEntry

/-- the time and the storages of a program -/
structure LeafWorld where
  now : Int
  store : Nat → Store

/-- `LeafNode`, leaf_node.go:13-21; `attached`: the node has an engine.  `stores` are the listeners of `OnSaveStorage`. -/
structure LeafCfg where
  attached : Bool := true
  stores : List Nat
  contentType : Nat := 0
  freshness : Int := 0
  validDur : Int := 0

/-- `onAttach`, basic_policies.go:152-155 -/
def LeafWorld.onAttach (w : LeafWorld) (k : Nat) : LeafWorld :=
  { w with store := fun j => if j = k then { w.store k with timer := true } else w.store j }

/-- `onSave`, basic_policies.go:162-166: `p.timer.Now()` is a call on a nil interface if the timer is not set -/
def LeafWorld.save (z : Int) (name : Name) (raw : Wire) (dur : Option Int) (w : LeafWorld) (k : Nat) : Res LeafWorld :=
  if (w.store k).timer then
    (memSave z (w.store k).tree w.now name raw dur).map fun t =>
      { w with store := fun j => if j = k then { w.store k with tree := t } else w.store j }
  else .panic

/-- `OnSaveStorage.Dispatch`, event.go:89-95 -/
def saveAll (z : Int) (name : Name) (raw : Wire) (dur : Option Int) : List Nat → LeafWorld → Res LeafWorld
  | [], w => .ok w
  | k :: ks, w => (w.save z name raw dur k).bind (saveAll z name raw dur ks)

/-- the `DataConfig` that is used, leaf_node.go:41-47 -/
def LeafCfg.dataCfg (n : LeafCfg) (cfg : Option DataConfig) : DataConfig :=
  match cfg with
  | some c => c
  | none => { contentType := some n.contentType, freshness := some n.freshness }

/-- `LeafNode.Provide`, leaf_node.go:29-79: `engine.Spec()` is a call on a nil interface if the node is not attached.  `none`: nil is returned. -/
def provide (z : Int) (n : LeafCfg) (name : Option Name) (content : Option Wire) (cfg : Option DataConfig) (signer : Option Signer) (w : LeafWorld) :
    Res (Option Wire × LeafWorld) :=
  if n.attached then
    match makeData name (some (n.dataCfg cfg)) content signer with
    | .panic => .panic
    | .err _ => .ok (none, w)
    | .ok e => (saveAll z (name.getD []) e.wire (some n.validDur) n.stores w).map fun w' => (some e.wire, w')
  else .panic

/-- `onSearch`, basic_policies.go:157-160, with `Get`: without a timer the time is the zero time -/
def LeafWorld.search (z : Int) (ord : Nat → List (Bytes × Nat) → List (Bytes × Nat)) (w : LeafWorld) (name : Name) (canBePrefix mustBeFresh : Bool)
    (k : Nat) : Option Wire :=
  memGet ord (w.store k).tree (if (w.store k).timer then w.now else z) name canBePrefix mustBeFresh

/-- `ExpressPoint.SearchCache`, expressing_point.go:53-76; `none` is a nil wire -/
def searchCache (z : Int) (ord : Nat → List (Bytes × Nat) → List (Bytes × Nat)) (stores : List Nat) (w : LeafWorld) (name : Name)
    (canBePrefix mustBeFresh : Bool) : Option Wire :=
  (dispatchUntil (fun k (s : LeafWorld) => (s.search z ord name canBePrefix mustBeFresh k, s))
    (some fun a => match a with | some x => decide (0 < x.length) | none => false) none stores w).1

/-- expressing_point.go:96-98: the implicit digest is removed from the name; 1 is `TypeImplicitSha256DigestComponent`.  (The empty name is dealt with
in `onInterest`.) -/
def dataNameOf (name : Name) : Name :=
  match name.getLast? with
  | none => name
  | some c => if c.typ = 1 then name.dropLast else name

/-- `ExpressPoint.OnInterest`, expressing_point.go:78-153, with the search in the storages -/
def leafOnInterest {S : Type} (z : Int) (ord : Nat → List (Bytes × Nat) → List (Bytes × Nat)) (stores : List Nat) (w : LeafWorld) (i : InterestV)
    (v : Listeners S VAns) (s : S) : IntAction :=
  onInterest i (searchCache z ord stores w (dataNameOf (i.name.getD [])) i.canBePrefix i.mustBeFresh) v s

/-- `NeedCallback` without signer and parameter, expressing_point.go:197-222: the Data given to the callback; `none`: an Interest is made.
`readData` has enough fuel. -/
def needCached (z : Int) (ord : Nat → List (Bytes × Nat) → List (Bytes × Nat)) (stores : List Nat) (w : LeafWorld) (name : Name)
    (canBePrefix mustBeFresh : Bool) : Option DataV :=
  match searchCache z ord stores w name canBePrefix mustBeFresh with
  | none => none
  | some raw =>
    match readData (raw.flatten.length + 1) (BR.new raw.flatten) with
    | some (.ok (.ok (d, _))) => some d
    | _ => none

/-- what happens to the storages of a program -/
inductive LeafOp where
  | provide (n : LeafCfg) (name : Option Name) (content : Option Wire) (cfg : Option DataConfig) (signer : Option Signer)
  /-- a Data from the network is validated and saved, expressing_point.go:316-323; `fresh` is its FreshnessPeriod -/
  | received (stores : List Nat) (name : Name) (raw : Wire) (fresh : Option Int)
  | tick (d : Nat)
  | attach (k : Nat)

def LeafOp.step (z : Int) (w : LeafWorld) : LeafOp → Res LeafWorld
  | .provide n name content cfg signer => (Ndn.Schema.provide z n name content cfg signer w).map (·.2)
  | .received stores name raw fresh => saveAll z name raw fresh stores w
  | .tick d => .ok { w with now := w.now + d }
  | .attach k => .ok (w.onAttach k)

/-- the storages after some operations, oldest first -/
def leafRun (z : Int) : List LeafOp → LeafWorld → Res LeafWorld
  | [], w => .ok w
  | op :: ops, w => (op.step z w).bind (leafRun z ops)

/-- a program whose storages are new: `NewMemStoragePolicy`, basic_policies.go:186-190 -/
def LeafWorld.new (z now : Int) : LeafWorld := { now := now, store := fun _ => ⟨false, Trie.new (CacheEntry.zero z)⟩ }

end Ndn.Schema
