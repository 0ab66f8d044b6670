import Verif.Go.Basic
import Verif.Util.Heap

/-!
# The shared text document

`/repo/examples/schema-test/shared-doc/crdt/crdt.go` and `textdoc.go`.

The linked list of items is a list: `Start` is its head, `Right` and `Left` of an item are its neighbours.  (The code keeps these two
in step: `Left` of the first item is always nil.)  `Parent` is never read and is left out; the content type is text.  A pointer to
an `IDType` is an `Option`.
-/

namespace Ndn.Crdt

/-- tlv.go:4-9 `IDType` -/
structure Id where
  producer : Nat
  clock : Nat
deriving DecidableEq, Repr

/-- crdt.go:11-20 `Item`: what the insertion loop reads -/
structure Node where
  id : Id
  origin : Option Id
  rorigin : Option Id
deriving DecidableEq, Repr

/-- crdt.go:11-20 `Item` -/
structure Item extends Node where
  content : Bytes
  deleted : Bool
deriving DecidableEq, Repr

/-- crdt.go:5-9 `Doc` -/
structure Doc where
  producer : Nat
  clock : Nat
  items : List Item
deriving DecidableEq, Repr

/-- crdt.go:55-81: the loop over the items `o` between `i.Left` and `i.Right`.  `before` and `conf` are the keys of `itemsBeforeO` and
`conflictingItems`; `n` items were passed, and `i` will go behind the first `left` of them.  Line 70 reads `*o.Origin` before it
compares `o.Origin` with nil. -/
def scan (i : Node) : List Node → (before conf : List Id) → (left n : Nat) → Res Nat
  | [], _, _, left, _ => .ok left
  | o :: os, before, conf, left, n =>
    if i.origin = o.origin then
      if o.id.producer < i.id.producer then scan i os (o.id :: before) [] (n + 1) (n + 1)
      else if i.rorigin = o.rorigin then .ok left
      else scan i os (o.id :: before) (o.id :: conf) left (n + 1)
    else
      match o.origin with
      | none => .panic
      | some z =>
        if z ∈ o.id :: before then
          if z ∉ o.id :: conf then scan i os (o.id :: before) [] (n + 1) (n + 1)
          else scan i os (o.id :: before) (o.id :: conf) left (n + 1)
        else .ok left

/-- the position of the last element with `f` -/
def lastIdx {α : Type} (f : α → Bool) : List α → Option Nat
  | [] => none
  | x :: xs =>
    match lastIdx f xs with
    | some k => some (k + 1)
    | none => if f x then some 0 else none

/-- crdt.go:132-138: the search for `item.Left` and `item.Right` (the last item with the identity, should there be several) -/
def findLeft (items : List Item) (origin : Option Id) : Option Nat := lastIdx (fun r => some r.id == origin) items
def findRight (items : List Item) (origin rorigin : Option Id) : Option Nat :=
  lastIdx (fun r => !(some r.id == origin) && (some r.id == rorigin)) items

/-- crdt.go:43: does the document have an item at the place of `i` that its producer did not know?  The arguments are the positions
of `i.Left` and `i.Right`. -/
def conflict (items : List Item) : Option Nat → Option Nat → Bool
  | none, none => true
  | none, some r => r != 0
  | some l, right => (if l + 1 < items.length then some (l + 1) else none) != right

/-- crdt.go:45-48, 55: the items that the loop may visit -/
def segment (items : List Item) (start : Nat) : Option Nat → List Item
  | none => items.drop start
  | some r => if start ≤ r then (items.take r).drop start else items.drop start

/-- the position behind the item at `left`, or the beginning of the document -/
def behind : Option Nat → Nat
  | none => 0
  | some l => l + 1

/-- crdt.go:34-96 `InsertInto`, with the positions of `i.Left` and `i.Right` -/
def insertInto (items : List Item) (i : Item) (left right : Option Nat) : Res (List Item) :=
  if items = [] then .ok [i]
  else do
    let k ← if conflict items left right then scan i.toNode ((segment items (behind left) right).map Item.toNode) [] [] 0 0 else .ok 0
    .ok (items.take (behind left + k) ++ i :: items.drop (behind left + k))

/-- a `uint64` counter -/
def u64 (n : Nat) : Nat := n % 2 ^ 64

/-- crdt.go:120-145 `Insert`; `none` is the result `false` -/
def Doc.insert (d : Doc) (iid origin rorigin : Option Id) (content : Bytes) : Res (Option Doc) :=
  match iid with
  | none => .ok none
  | some iid =>
    if (origin ≠ none ∧ findLeft d.items origin = none) ∨ (rorigin ≠ none ∧ findRight d.items origin rorigin = none) then .ok none
    else do
      let items ← insertInto d.items ⟨⟨iid, origin, rorigin⟩, content, false⟩ (findLeft d.items origin) (findRight d.items origin rorigin)
      .ok (some ⟨d.producer, u64 (max d.clock iid.clock + 1), items⟩)

/-- mark the first item with this identity -/
def markDeleted (iid : Id) : List Item → Option (List Item)
  | [] => none
  | r :: rs => if r.id = iid then some ({ r with deleted := true } :: rs) else (markDeleted iid rs).map (r :: ·)

/-- crdt.go:147-159 `Delete` -/
def Doc.delete (d : Doc) (iid : Option Id) : Option Doc :=
  match iid with
  | none => none
  | some iid => (markDeleted iid d.items).map fun items => ⟨d.producer, u64 (max d.clock iid.clock + 1), items⟩

/-- crdt.go:99-105 `Next`, as a position -/
def nextAt (items : List Item) (i : Nat) : Option Nat := ((items.drop (i + 1)).findIdx? (fun x => !x.deleted)).map (· + (i + 1))

/-- `n` times `Next` -/
def stepsFrom (items : List Item) : Nat → Option Nat → Option Nat
  | 0, i => i
  | _ + 1, none => none
  | n + 1, some i => stepsFrom items n (nextAt items i)

/-- crdt.go:161-172 `ItemAt`, as a position -/
def itemAt (items : List Item) (offset : Int) : Option Nat :=
  if offset ≤ 0 then none
  else stepsFrom items (offset - 1).toNat (if items = [] then none else some 0)

/-- crdt.go:174-203 `LocalInsert` -/
def Doc.localInsert (d : Doc) (offset : Int) (content : Bytes) : Option (Doc × Item) :=
  let left := itemAt d.items offset
  if left = none ∧ offset > 0 then none
  else
    let at_ := behind left
    let item : Item := ⟨⟨⟨d.producer, d.clock⟩, left.bind fun l => d.items[l]?.map (·.id), d.items[at_]?.map (·.id)⟩, content, false⟩
    some (⟨d.producer, u64 (d.clock + 1), d.items.take at_ ++ item :: d.items.drop at_⟩, item)

/-- crdt.go:205-211 `LocalDelete` -/
def Doc.localDelete (d : Doc) (offset : Int) : Option (Doc × Item) :=
  match itemAt d.items offset with
  | none => none
  | some l =>
    match d.items[l]? with
    | none => none
    | some x => some (⟨d.producer, d.clock, d.items.set l { x with deleted := true }⟩, { x with deleted := true })

/-- tlv.go:11-15 -/
def recordInsert : Nat := 1
def recordDelete : Nat := 2

/-- tlv.go:17-28 `Record` -/
structure Record where
  typ : Nat
  id : Option Id
  origin : Option Id
  rorigin : Option Id
  content : Bytes
deriving DecidableEq, Repr

/-- the order of the priorities -/
def clockLt (a b : Nat) : Bool := decide (a < b)

/-- textdoc.go:7-10 `TextDoc` -/
structure TextDoc where
  doc : Doc
  pending : Util.PQ Record Nat

/-- textdoc.go:19-24 -/
def Doc.apply (d : Doc) (rec : Record) : Res (Option Doc) :=
  if rec.typ = recordInsert then d.insert rec.id rec.origin rec.rorigin rec.content else .ok (d.delete rec.id)

/-- textdoc.go:17-29: the loop; every turn but the last takes one record from the queue, so as many turns as there are records suffice -/
def TextDoc.drain : Nat → TextDoc → Res TextDoc
  | 0, td => .ok td
  | n + 1, td =>
    match td.pending.peek with
    | none => .ok td
    | some (rec, _) =>
      match td.doc.apply rec with
      | .ok (some d) =>
        match td.pending.pop clockLt with
        | none => .panic
        | some (_, q) => TextDoc.drain n ⟨d, q⟩
      | .ok none => .ok td
      | .err e => .err e
      | .panic => .panic

/-- textdoc.go:12-30 `HandleRecord` -/
def TextDoc.handleRecord (td : TextDoc) (rec : Record) : Res TextDoc :=
  match rec.id with
  | none => .ok td
  | some iid =>
    if rec.typ ≠ recordInsert ∧ rec.typ ≠ recordDelete then .ok td
    else
      match td.pending.push clockLt rec iid.clock with
      | none => .panic
      | some (_, q) => TextDoc.drain q.q.length ⟨td.doc, q⟩

/-- textdoc.go:32-40 `GetText` -/
def TextDoc.getText (td : TextDoc) : Bytes := (td.doc.items.map fun x => if x.deleted then [] else x.content).flatten

/-- textdoc.go:42-54 `Insert` -/
def TextDoc.insert (td : TextDoc) (offset : Int) (content : Bytes) : Option (TextDoc × Record) :=
  (td.doc.localInsert offset content).map fun r =>
    (⟨r.1, td.pending⟩, ⟨recordInsert, some r.2.id, r.2.origin, r.2.rorigin, content⟩)

/-- textdoc.go:56-65 `Delete` -/
def TextDoc.delete (td : TextDoc) (offset : Int) : Option (TextDoc × Record) :=
  (td.doc.localDelete offset).map fun r => (⟨r.1, td.pending⟩, ⟨recordDelete, some r.2.id, none, none, []⟩)

/-- textdoc.go:67-76 `NewTextDoc` -/
def TextDoc.new (producer : Nat) : TextDoc := ⟨⟨producer, 0, []⟩, Util.PQ.new⟩

end Ndn.Crdt
