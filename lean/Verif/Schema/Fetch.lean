import Verif.Schema.Leaf
import Verif.Schema.Policies
import Verif.Schema.Tree
import Verif.Engine.Exchange

/-!
# A schema tree over an engine: `Need` at one program, the handler of the tree at another

`/repo/pkg/schema/expressing_point.go`, `tree.go`.  Schema/Leaf has the storages, Schema/Tree the matching, Schema/Policies the validators, Packet/Make the
packets and Engine/Exchange the engine; here one call of `NeedCallback` and one call of `intHandler` go through all of them.  Logging is left out.  What
`OnGetIntSigner` yields is a parameter.  The closures run without other goroutines in between; Schema/Express and Engine/Locks are about those.
-/

namespace Ndn.Schema
open Ndn.Packet Ndn.Engine

/-- `ExpressPoint`, expressing_point.go:33-47, with the defaults of `CreateExpressPoint` (359-378); `stores` are the storages applied to the node (the
listeners of `OnSearchStorage` and `OnSaveStorage`), `policies` the validators of Data -/
structure PointCfg where
  canBePrefix : Bool := true
  mustBeFresh : Bool := true
  lifetime : Int := 4000000000
  supressInt : Bool := false
  stores : List Nat
  policies : List SignerPolicy

/-- the `InterestConfig` that is used, expressing_point.go:171-180; `nonce` is what the timer gives, `ConvertNonce` of it -/
def PointCfg.intCfg (n : PointCfg) (cfg : Option InterestConfig) (nonce : Nat) : InterestConfig :=
  match cfg with
  | some c => c
  | none => { canBePrefix := n.canBePrefix, mustBeFresh := n.mustBeFresh, lifetime := some n.lifetime, nonce := some nonce }

/-- what `NeedCallback` does -/
inductive NeedDo where
  /-- the callback gets the Data of the storage, 197-222 -/
  | cached (d : DataV)
  /-- the callback gets `InterestResultNone`, 228-236 -/
  | failed
  /-- the callback gets `InterestResultNack`, 242-248 -/
  | supressed
  /-- `engine.Express` is called: the packet, the lifetime and `CanBePrefix` that it uses (default_engine.go:391-396, 431) -/
  | express (e : Encoded) (life : Nat) (canBePrefix : Bool)

/-- `NeedCallback` up to `engine.Express`, expressing_point.go:158-270 -/
def needCallback (sha : Bytes → Bytes) (z : Int) (ord : Nat → List (Bytes × Nat) → List (Bytes × Nat)) (n : PointCfg) (w : LeafWorld) (name : Name)
    (appParam : Option Wire) (cfg : Option InterestConfig) (nonce : Nat) (signer : Option Signer) (supress : Bool) : Res NeedDo :=
  let c := n.intCfg cfg nonce
  match (if signer.isNone && appParam.isNone then needCached z ord n.stores w name c.canBePrefix c.mustBeFresh else none) with
  | some d => .ok (.cached d)
  | none =>
    match makeInterest sha (some name) (some c) appParam signer with
    | .panic => .panic
    | .err _ => .ok .failed
    | .ok e => if n.supressInt || supress then .ok .supressed else .ok (.express e (c.lifetime.getD 4000000000).toNat c.canBePrefix)

/-- what the callback of `NeedCallback` gets: `NeedStatus`, `Content`, `Target` (`none`: nil) -/
structure NeedRes where
  status : Status
  content : Option Wire
  target : Option Matched

/-- the goroutine for a Data, expressing_point.go:279-324; `v` are the listeners of `OnValidateData` for this event.  `onSave` (basic_policies.go:162-166) uses
`event.Target.Name`, also when `Refine` gave nil. -/
def needOnData {S : Type} (z : Int) (t : STree) (n : PointCfg) (m : Matched) (v : Listeners S VAns) (s : S) (w : LeafWorld) (d : DataV) (raw : Wire) :
    Res (NeedRes × LeafWorld) :=
  let tgt := refine t m (d.name.getD [])
  match (onDataResult v s).1 with
  | .data =>
    match tgt with
    | none => if n.stores.isEmpty then .ok (⟨.data, d.content, none⟩, w) else .panic
    | some x => (saveAll z x.name raw d.freshness n.stores w).map fun w' => (⟨.data, d.content, some x⟩, w')
  | r => .ok (⟨r, none, tgt⟩, w)

/-- `Tree.intHandler`, tree.go:75-88, and `Node.OnInterest`, base_node.go:197-203: `points` are the nodes that are expressing points; the other ones drop the
Interest (base_node.go:348-352) -/
def treeHandler {S : Type} (z : Int) (ord : Nat → List (Bytes × Nat) → List (Bytes × Nat)) (pre : Name) (t : STree) (points : Addr → Option PointCfg)
    (w : LeafWorld) (i : InterestV) (v : Listeners S VAns) (s : S) : IntAction :=
  match matchName pre t (i.name.getD []) with
  | none => .dropped []
  | some (a, _) =>
    match points a with
    | none => .dropped []
    | some n => leafOnInterest z ord n.stores w i v s

end Ndn.Schema
