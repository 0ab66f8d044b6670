import Verif.Engine.Trie
import Verif.Schema.Express

/-!
# Model of `MemStoragePolicy`, `/repo/pkg/schema/basic_policies.go`

Times are integers and do not overflow.  A wire is a list of buffers; a nil wire is empty.
-/

namespace Ndn.Schema
open Ndn.Engine

/-- `CacheEntry`, basic_policies.go:96-99 -/
structure CacheEntry where
  raw : Wire
  validity : Int
  deriving DecidableEq

/-- the zero value; `zeroTime` is `time.Time{}` -/
def CacheEntry.zero (zeroTime : Int) : CacheEntry := ⟨[], zeroTime⟩

/-- `FirstNodeIf`, simple_trie.go:147-157.  The order in which `range` visits the children of a node is given by `ord`; a child has a larger
number than its parent, so that `size` bounds the depth. -/
def firstNodeIf {V : Type} (ord : Nat → List (Bytes × Nat) → List (Bytes × Nat)) (pred : V → Bool) (t : Trie V) : Nat → Nat → Option Nat
  | 0, _ => none
  | fuel + 1, id =>
    if pred (t.node id).val then some id
    else (ord id (t.node id).chd).findSome? fun e => firstNodeIf ord pred t fuel e.2

/-- `freshTest`, basic_policies.go:127-129 -/
def freshTest (mustBeFresh : Bool) (now : Int) (e : CacheEntry) : Bool :=
  decide (0 < e.raw.length) && (!mustBeFresh || decide (now < e.validity))

/-- `Get`, basic_policies.go:115-139; `now` is the time of the timer (the zero time if there is none).  The parameter `canBePrefix` is not used. -/
def memGet (ord : Nat → List (Bytes × Nat) → List (Bytes × Nat)) (t : Trie CacheEntry) (now : Int) (name : Name) (_canBePrefix mustBeFresh : Bool) :
    Option Wire :=
  match t.exact 0 (keys name) with
  | none => none
  | some n =>
    if freshTest mustBeFresh now (t.node n).val then some (t.node n).val.raw
    else (firstNodeIf ord (freshTest mustBeFresh now) t (t.size + 1) n).map fun m => (t.node m).val.raw

/-- `Put`, basic_policies.go:141-150 -/
def memPut (z : Int) (t : Trie CacheEntry) (name : Name) (raw : Wire) (validity : Int) : Trie CacheEntry :=
  match t.matchAlways (CacheEntry.zero z) 0 (keys name) with
  | (n, t1) => t1.setValue n ⟨raw, validity⟩

/-- the storage after some calls of `Put`, most recent first -/
def memAfter (z : Int) : List (Name × CacheEntry) → Trie CacheEntry
  | [] => Trie.new (CacheEntry.zero z)
  | p :: ps => memPut z (memAfter z ps) p.1 p.2.raw p.2.validity

/-- `onSave`, basic_policies.go:162-166: `*event.ValidDuration` is a nil dereference if there is none -/
def memSave (z : Int) (t : Trie CacheEntry) (now : Int) (name : Name) (raw : Wire) (validDuration : Option Int) : Res (Trie CacheEntry) :=
  match validDuration with
  | none => .panic
  | some d => .ok (memPut z t name raw (now + d))

/-- `data.Freshness()`, spec.go:112-118 -/
def freshnessOf (d : Packet.DataV) : Option Int := match d.metaInfo with
  | none => none
  | some m => m.2.1

/-- expressing_point.go:316-323 for a validated Data when the storage is a `MemStoragePolicy`: `OnSaveStorage` is dispatched, then the callback is called -/
def saveAndCall (z : Int) (t : Trie CacheEntry) (now : Int) (d : Packet.DataV) (raw : Wire) : Res (Trie CacheEntry × Status) :=
  (memSave z t now (d.name.getD []) raw (freshnessOf d)).map fun t' => (t', .data)

end Ndn.Schema
