import Verif.Schema.Rdr
import Verif.Schema.Build
import Verif.Codec.Schemas

/-!
# Model of versioned and general objects, `/repo/pkg/schema/rdr/rdr.go:217-527`

`RdrNode` publishes an object in segments with a metadata packet that names the version; `GeneralObjNode` publishes it with a manifest of the
digests of the segments.  A packet that is provided is its name, content and final block id; freshness and content type play no part.
The signer and storage of the leaf nodes are those of C54 and C63.
-/

namespace Ndn.Schema
open Ndn.Codec Ndn.Engine Fields Elem Mode

/-- `MetaData`, rdr/tlv.go:20-39 -/
def metaData : Fields :=
  cons 0x07 opt name <| cons 0x1a opt bin <| cons 0xf500 opt nat <| cons 0xf502 opt nat <| cons 0xf504 opt nat <| cons 0xf506 opt nat <|
  cons 0xf508 opt nat <| cons 0xf50a opt nat <| cons 0xf50c opt nat <| cons 0xf50e opt str nil
/-- `ManifestDigest`, rdr/tlv.go:6-11 -/
def manifestDigest : Fields := cons 0xcc req nat <| cons 0xce opt bin nil
/-- `ManifestData`, rdr/tlv.go:13-16 -/
def manifestData : Fields := cons 0xca seq (struct manifestDigest) nil

/-- the descriptions of the nodes below -/
inductive Kind where
  | base | leaf | express | seg | rdr | obj
  deriving DecidableEq

/-- `NewVersionComponent`, name_component.go:631-633 -/
def verComp (v : Nat) : Component := ⟨54, natEnc v⟩
/-- `NewStringComponent(32, …)` -/
def metaComp : Component := ⟨32, ascii ['m', 'e', 't', 'a', 'd', 'a', 't', 'a']⟩
def dataComp : Component := ⟨32, ascii ['d', 'a', 't', 'a']⟩
def manifestComp : Component := ⟨32, ascii ['m', 'a', 'n', 'i', 'f', 'e', 's', 't']⟩

/-- `<v=versionNumber>` -/
def verPat : CompPat := .pat 54 (ascii ['v', 'e', 'r', 's', 'i', 'o', 'n', 'N', 'u', 'm', 'b', 'e', 'r'])

/-- `CreateSegmentedNode`, rdr.go:32-51 -/
def segTree : DTree Kind := .node .seg [(.pat 50 (ascii ['s', 'e', 'g', 'm', 'e', 'n', 't', 'N', 'u', 'm', 'b', 'e', 'r']), .node .leaf [])]
/-- `CreateRdrNode`, rdr.go:231-248 -/
def rdrTree : DTree Kind :=
  .node .rdr [(verPat, segTree), (.comp metaComp, .node .express [(verPat, .node .base [(.comp (segComp 0), .node .leaf [])])])]
/-- `CreateGeneralObjNode`, rdr.go:412-433 -/
def objTree : DTree Kind := .node .obj [(.comp dataComp, segTree), (.comp metaComp, .node .leaf []), (.comp manifestComp, .node .leaf [])]

/-- `MatchedNode.Refine` of the node with the subtree `t` that was matched with `base`, interface.go:364-389: what the node is, and its name.  (What is
bound in the matching has no influence on which node is found.) -/
def refineK (t : DTree Kind) (base name : Name) : Option (Kind × Name) :=
  if base.isPrefix name then
    (continueMatch t.toS (name.drop base.length) []).bind fun p => (t.get p.1).map fun q => (q.2.desc, name)
  else
    match base.getLast? with
    | none => none
    | some c => if c.typ ≠ typDigest ∨ !(Name.equal base.dropLast name) then none else some (t.desc, name)

/-- a packet that is provided -/
structure Pub where
  name : Name
  content : Wire
  final : Option Component
  deriving DecidableEq

/-- the packets of `SegmentedNode.Provide` at the node `base` -/
def segPubs (base : Name) (segs : List Seg) : List Pub := segs.map fun s => ⟨base ++ [segComp s.no], s.content, some (segComp s.final)⟩

/-- the metadata, rdr.go:284-288, 461-465; `segCnt - 1` and the length are `uint64` -/
def metaOf (dataName : Name) (segCnt len : Nat) : metaData.V :=
  (some dataName, some (segComp ((segCnt + 2 ^ 64 - 1) % 2 ^ 64)).enc, none, some len, none, none, none, none, none, none, ())

/-- `RdrNode.Provide`, rdr.go:250-292, with the version `ver` -/
def rdrProvide (size ver : Nat) (base : Name) (content : Wire) : Res (List Pub) :=
  match refineK rdrTree base (base ++ [metaComp, verComp ver, segComp 0]), refineK rdrTree base (base ++ [verComp ver]) with
  | some (.leaf, metaName), some (.seg, dataName) =>
    (provideSegs size content).bind fun segs =>
      (metaData.encode (metaOf dataName segs.length content.flatten.length)).map fun m =>
        segPubs dataName segs ++ [⟨metaName, [m], some (segComp 0)⟩]
  | _, _ => .panic

/-- what becomes of a call of `Need` -/
inductive Next where
  /-- the callback is called with this status and without content -/
  | failed (s : Status)
  /-- `Need` of a node of this kind with this name is called -/
  | call (k : Kind) (name : Name)
  deriving DecidableEq

/-- rdr.go:354-355: the last lines of `NeedCallback`; a method of a nil node panics -/
def handOver (t : DTree Kind) (base name : Name) : Res Next :=
  match refineK t base name with
  | none => .panic
  | some (k, n) => .ok (.call k n)

/-- `RdrNode.NeedCallback`, rdr.go:294-357.  `fetch j` is the result of the `j`-th trial for the metadata, `retries` is `int(n.MaxRetriesForMeta)`.
Without an error `metadata` is not nil; with one it is, and `metadata.Name` panics.  The status for a name that does not start with
`base` is that of the last result, which is a Data.  The components of the name for a given version that `make` leaves are zero. -/
def rdrNeed (fetch : Nat → Fetched) (retries fuel : Nat) (base : Name) : Option Nat → Option (Res Next)
  | some v => some (handOver rdrTree base (List.replicate base.length ⟨0, []⟩ ++ [verComp v]))
  | none =>
    match refineK rdrTree base (base ++ [metaComp]) with
    | some (.express, _) =>
      match trials fetch retries 0 ⟨.none, [], none⟩ with
      | (false, last, _) => some (.ok (.failed last.status))
      | (true, last, _) =>
        match metaData.parse true fuel (BR.new last.content.flatten) with
        | none => none
        | some (.ok v, _) =>
          let fullName : Name := Option.getD (α := Name) v.1 []
          if base.isPrefix fullName then some (handOver rdrTree base fullName) else some (.ok (.failed .data))
        | some (_, _) => some .panic
    | _ => some .panic

/-- what the application sees -/
inductive Seen where
  | callback (s : Status) (content : Wire)
  /-- the callback is never called -/
  | silent
  deriving DecidableEq

/-- `RdrNode.NeedCallback` and what it calls.  `net k name j` is the result of the `j`-th trial for an Interest with this name after `k` calls of
`NeedCallback`; `retries` is `MaxRetriesOnFailure`.  A base node has no function `Need`; express points and leaf nodes call back with the
result of one Interest.  `none`: does not end within `fuel` calls; `pf`
bounds the work on one packet and the number of segments. -/
def rdrFetch (net : Nat → Name → Nat → Fetched) (metaRetries retries pf : Nat) : Nat → Nat → Name → Option Nat → Option (Res Seen)
  | 0, _, _, _ => none
  | fuel + 1, k, base, version =>
    match rdrNeed (net k (base ++ [metaComp])) (toInt metaRetries).toNat pf base version with
    | none => none
    | some .panic => some .panic
    | some (.err e) => some (.err e)
    | some (.ok (.failed s)) => some (.ok (.callback s []))
    | some (.ok (.call .rdr n)) => rdrFetch net metaRetries retries pf fuel (k + 1) n none
    | some (.ok (.call .seg n)) =>
      (pipeline (fun i j => net k (n ++ [segComp i]) j) retries 0 pf).map (·.map fun r => .callback r.status r.content)
    | some (.ok (.call .express n)) => some (.ok (.callback (net k n 0).status (net k n 0).content))
    | some (.ok (.call .leaf n)) => some (.ok (.callback (net k n 0).status (net k n 0).content))
    | some (.ok (.call .base _)) => some (.ok .silent)
    | some (.ok (.call .obj _)) => some (.ok .silent)

/-! ## General objects -/

/-- rdr.go:481-489 -/
def manifestOf (digests : List Bytes) : manifestData.V := (digests.mapIdx fun i d => ((i, some d, ()) : manifestDigest.V), ())

/-- `GeneralObjNode.Provide`, rdr.go:435-486.  `digest` is the SHA-256 of the packet that the leaf node makes. -/
def objProvide (digest : Pub → Bytes) (size : Nat) (base : Name) (content : Wire) : Res (List Pub) :=
  match refineK objTree base (base ++ [dataComp]), refineK objTree base (base ++ [metaComp]), refineK objTree base (base ++ [manifestComp]) with
  | some (.seg, dataName), some (.leaf, metaName), some (.leaf, manName) =>
    (provideSegs size content).bind fun segs =>
      (metaData.encode (metaOf dataName segs.length content.flatten.length)).bind fun m =>
        (manifestData.encode (manifestOf ((segPubs dataName segs).map digest))).map fun man =>
          segPubs dataName segs ++ [⟨metaName, [m], none⟩, ⟨manName, [man], none⟩]
  | _, _, _ => .panic

/-- the digests in a manifest, rdr.go:547-550 -/
def digestsOf (v : manifestData.V) : List Bytes := (v.1 : List manifestDigest.V).map fun e => Option.getD (α := Bytes) e.2.1 []

/-- `GeneralObjNode.NeedCallback`, rdr.go:488-552, and the pipeline it calls.  The inner `none`: the manifest is malformed
(`InterestResultError`). -/
def objFetch (net : Name → Nat → Fetched) (manRetries retries fuel : Nat) (base : Name) : Option (Res (Option PipeResult)) :=
  match refineK objTree base (base ++ [manifestComp]), refineK objTree base (base ++ [dataComp]) with
  | some (.leaf, manName), some (.seg, dataName) =>
    match trials (net manName) (toInt manRetries).toNat 0 ⟨.none, [], none⟩ with
    | (false, last, _) => some (.ok (some ⟨last.status, [], []⟩))
    | (true, last, _) =>
      match manifestData.parse true fuel (BR.new last.content.flatten) with
      | none => none
      | some (.panic, _) => some .panic
      | some (.err _, _) => some (.ok none)
      | some (.ok v, _) =>
        let ds := digestsOf v
        (pipeline (fun i j => net (dataName ++ [segComp i] ++ if ds.length = 0 then [] else [⟨1, ds.getD i []⟩]) j) retries ds.length fuel).map
          (·.map some)
  | _, _ => some .panic

end Ndn.Schema
