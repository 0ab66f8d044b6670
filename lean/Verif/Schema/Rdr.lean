import Verif.Enc.Name
import Verif.Schema.Express

/-!
# Model of segmentation and of the segment fetcher, `/repo/pkg/schema/rdr/rdr.go`

The matched nodes of the segments exist (`Refine` does not return nil), and a call of `NeedChan` gives one result.
-/

namespace Ndn.Schema
open Ndn.Engine

/-! ## Provide -/

/-- The inner loop of `Provide`, rdr.go:80-89: the content of a packet, and what is left.  The position (`wireIdx`, `bufferIdx`) stands for the
buffers that are left, the first one without its first `bufferIdx` bytes. -/
def takeSeg : Nat → Wire → Wire × Wire
  | _, [] => ([], [])
  | rem, b :: bs =>
    if rem = 0 ∨ b.length = 0 then ([], b :: bs)
    else
      let curSize := min b.length rem
      if b.length ≤ curSize then
        match takeSeg (rem - curSize) bs with
        | (p, rest) => (b :: p, rest)
      else ([b.take curSize], b.drop curSize :: bs)

/-- a packet given to the `Provide` of the leaf node, rdr.go:75-92: the segment number in its name, its content, and the number in `FinalBlockID` -/
structure Seg where
  no : Nat
  content : Wire
  final : Nat
  deriving DecidableEq

/-- the outer loop, rdr.go:75-103, for `n` more segments from number `i` on -/
def segLoop (size final : Nat) : Nat → Nat → Wire → List Seg
  | 0, _, _ => []
  | n + 1, i, content =>
    match takeSeg size content with
    | (p, rest) => ⟨i, p, final⟩ :: segLoop size final n (i + 1) rest

/-- `SegmentedNode.Provide`, rdr.go:53-107: the packets.  `uint64` numbers; the division panics if `SegmentSize` is 0. -/
def provideSegs (size : Nat) (content : Wire) : Res (List Seg) :=
  if size = 0 then .panic
  else
    let segCnt := (content.flatten.length + size + 2 ^ 64 - 1) % 2 ^ 64 / size
    .ok (segLoop size ((segCnt + 2 ^ 64 - 1) % 2 ^ 64) segCnt 0 content)

/-! ## SinglePacketPipeline -/

/-- `schema.NeedResult`: the status, the content, and the `FinalBlockID()` of the Data (nil if it is absent or malformed) -/
structure Fetched where
  status : Status
  content : Wire := []
  final : Option Component := none

/-- `NewSegmentComponent`, name_component.go:619-621 -/
def segComp (i : Nat) : Component := ⟨50, natEnc i⟩

/-- the inner loop, rdr.go:174-187: `n` more trials from trial `j` on.  Returns `succeeded`, the last result, and the number of trials. -/
def trials (fetch : Nat → Fetched) : Nat → Nat → Fetched → Bool × Fetched × Nat
  | 0, _, last => (false, last, 0)
  | n + 1, j, _ =>
    let result := fetch j
    if result.status = .data then (true, result, 1)
    else match trials fetch n (j + 1) result with
      | (ok, last, k) => (ok, last, k + 1)

/-- what is given to the callback, rdr.go:200-213, with the number of trials of each segment -/
structure PipeResult where
  status : Status
  content : Wire
  counts : List Nat
  deriving DecidableEq

/-- `SinglePacketPipeline`, rdr.go:141-206, from segment `i` on.  `fetch i j` is the result of the `j`-th trial for segment `i`, `retries` is
`int(n.MaxRetriesOnFailure)`, `manifest` is `len(manifest)`.  `none`: does not return. -/
def pipeLoop (fetch : Nat → Nat → Fetched) (retries manifest : Nat) : Nat → Nat → Fetched → Wire → List Nat → Option (Res PipeResult)
  | 0, _, _, _, _ => none
  | fuel + 1, i, last, fragments, counts =>
    match trials (fetch i) retries 0 last with
    | (succeeded, last, k) =>
      let fragments := if succeeded then fragments ++ last.content else fragments
      let counts := counts ++ [k]
      let done : Option (Res PipeResult) := some (.ok ⟨if succeeded then .data else last.status, fragments, counts⟩)
      if 0 < manifest then
        if i + 1 = manifest then done
        else if succeeded then pipeLoop fetch retries manifest fuel (i + 1) last fragments counts else done
      else if succeeded then
        match last.final with
        | none => some .panic
        | some c => if c.compare (segComp i) = 0 then done else pipeLoop fetch retries manifest fuel (i + 1) last fragments counts
      else done

/-- `SinglePacketPipeline`; `MaxRetriesOnFailure` is a `uint64` -/
def pipeline (fetch : Nat → Nat → Fetched) (maxRetries manifest fuel : Nat) : Option (Res PipeResult) :=
  pipeLoop fetch (toInt maxRetries).toNat manifest fuel 0 ⟨.none, [], none⟩ [] []

end Ndn.Schema
