import Verif.Crdt.InsertLemmas

/-!
# Replicas that exchange their operations

The setting of C59 (`/repo/examples/schema-test/shared-doc/main.go:105-141, 262-285`): every replica edits its own document and sends
the record of each edit to the others.
-/

namespace Ndn.Crdt

/-- the replicas (the replica `p` has the producer number `p`), the operations each has made or handled, and all operations -/
structure World where
  reps : Nat → TextDoc
  seen : Nat → List Record
  made : List Record

def World.init : World := ⟨fun p => TextDoc.new p, fun _ => [], []⟩

/-- the replica `p` has done or handled `rec` -/
def World.put (w : World) (p : Nat) (td : TextDoc) (rec : Record) : World :=
  ⟨fun q => if q = p then td else w.reps q, fun q => if q = p then rec :: w.seen q else w.seen q, w.made⟩

/-- and it was `p` that made it -/
def World.make (w : World) (p : Nat) (td : TextDoc) (rec : Record) : World := ⟨(w.put p td rec).reps, (w.put p td rec).seen, rec :: w.made⟩

/-- the insertion of the item `z` was handled -/
def Has (seen : List Record) (z : Id) : Prop := ∃ s ∈ seen, s.typ = recordInsert ∧ s.id = some z

/-- causally ready: the items the record mentions are there.  (Every causal order of delivery is ready in this sense.) -/
structure Ready (seen : List Record) (rec : Record) : Prop where
  ins : rec.typ = recordInsert → ∀ z, rec.origin = some z ∨ rec.rorigin = some z → Has seen z
  del : rec.typ = recordDelete → ∀ z, rec.id = some z → Has seen z

/-- `Run n w`: after `n` edits and deliveries the world may be `w`.  Records arrive in any order in which each is ready, insertions once
at each replica, deletions any number of times; no call has panicked. -/
inductive Run : Nat → World → Prop
  | init : Run 0 World.init
  | ins {n : Nat} {w : World} (h : Run n w) (p : Nat) (offset : Int) (content : Bytes) (td : TextDoc) (rec : Record)
      (hr : (w.reps p).insert offset content = some (td, rec)) : Run (n + 1) (w.make p td rec)
  | del {n : Nat} {w : World} (h : Run n w) (p : Nat) (offset : Int) (td : TextDoc) (rec : Record)
      (hr : (w.reps p).delete offset = some (td, rec)) : Run (n + 1) (w.make p td rec)
  | recv {n : Nat} {w : World} (h : Run n w) (p : Nat) (td : TextDoc) (rec : Record) (hm : rec ∈ w.made)
      (once : rec ∉ w.seen p ∨ rec.typ = recordDelete) (ready : Ready (w.seen p) rec)
      (hr : (w.reps p).handleRecord rec = .ok td) : Run (n + 1) (w.put p td rec)

/-! ## Handling a record when nothing is pending -/

theorem handle_empty {td : TextDoc} {rec : Record} {x : Id} (hq : td.pending.q = []) (hid : rec.id = some x)
    (ht : rec.typ = recordInsert ∨ rec.typ = recordDelete) :
    td.handleRecord rec =
      (match td.doc.apply rec with
        | .ok (some d) => .ok ⟨d, ⟨[], td.pending.next + 1⟩⟩
        | .ok none => .ok ⟨td.doc, ⟨[⟨rec, x.clock, 0, td.pending.next⟩], td.pending.next + 1⟩⟩
        | .err e => .err e
        | .panic => .panic) := by
  obtain ⟨doc, q, next⟩ := td
  simp only at hq
  subst hq
  have hpush : Util.PQ.push clockLt ⟨[], next⟩ rec x.clock = some (0, ⟨[⟨rec, x.clock, 0, next⟩], next + 1⟩) := by
    simp [Util.PQ.push, Util.push, Util.up, Util.upLoop, Util.pqIface, Util.indexOf]
  have hpop : ∀ m, Util.PQ.pop clockLt ⟨[⟨rec, x.clock, 0, next⟩], m⟩ = some (rec, ⟨[], m⟩) := by
    intro m
    simp [Util.PQ.pop, Util.pop, Util.down, Util.downLoop, Util.pqIface]
  rw [TextDoc.handleRecord, hid]
  simp only
  rw [if_neg (by rintro ⟨h1, h2⟩; rcases ht with h | h; exact h1 h; exact h2 h), hpush]
  simp only [List.length_cons, List.length_nil]
  rw [TextDoc.drain]
  simp only [Util.PQ.peek, List.getElem?_cons_zero, Option.map_some]
  cases doc.apply rec with
  | err e => rfl
  | panic => rfl
  | ok r =>
    cases r with
    | none => rfl
    | some d =>
      simp only [hpop, TextDoc.drain]

/-! ## Deleting -/

def marked (x : Id) (items : List Item) : List Item := items.map fun it => if it.id = x then { it with deleted := true } else it

theorem marked_ids (x : Id) (items : List Item) : ids (marked x items) = ids items := by
  simp only [ids, marked, List.map_map, List.cons.injEq, true_and]
  apply List.map_congr_left
  intro it _
  simp only [Function.comp, Item.v]
  split <;> rfl

theorem marked_of_not_mem {x : Id} {items : List Item} (h : some x ∉ items.map Item.v) : marked x items = items := by
  induction items with
  | nil => rfl
  | cons a items ih =>
    simp only [List.map_cons, List.mem_cons, not_or] at h
    rw [marked, List.map_cons, if_neg (by intro he; exact h.1 (by rw [Item.v, he]))]
    rw [show List.map _ items = marked x items from rfl, ih h.2]

theorem markDeleted_eq {x : Id} {items : List Item} (nd : (items.map Item.v).Nodup) (h : some x ∈ items.map Item.v) :
    markDeleted x items = some (marked x items) := by
  induction items with
  | nil => cases h
  | cons a items ih =>
    rw [List.map_cons, List.nodup_cons] at nd
    rw [markDeleted]
    by_cases ha : a.id = x
    · rw [if_pos ha, marked, List.map_cons, if_pos ha]
      rw [show List.map _ items = marked x items from rfl, marked_of_not_mem (by rw [← ha]; exact nd.1)]
    · rw [if_neg ha, marked, List.map_cons, if_neg ha]
      rw [show List.map _ items = marked x items from rfl, ih nd.2 (by
        rcases List.mem_cons.mp h with h | h
        · simp only [Item.v, Option.some.injEq] at h; exact absurd h.symm ha
        · exact h)]
      rfl

theorem set_marked {items : List Item} (nd : (items.map Item.v).Nodup) {l : Nat} {it : Item} (h : items[l]? = some it) :
    items.set l { it with deleted := true } = marked it.id items := by
  induction items generalizing l with
  | nil => cases h
  | cons a items ih =>
    rw [List.map_cons, List.nodup_cons] at nd
    cases l with
    | zero =>
      simp only [List.getElem?_cons_zero, Option.some.injEq] at h
      subst h
      rw [List.set_cons_zero, marked, List.map_cons, if_pos rfl]
      rw [show List.map _ items = marked a.id items from rfl, marked_of_not_mem nd.1]
    | succ l =>
      rw [List.getElem?_cons_succ] at h
      have hne : a.id ≠ it.id := by
        intro he
        apply nd.1
        rw [Item.v, he]
        exact List.mem_map.mpr ⟨it, List.mem_of_getElem? h, rfl⟩
      rw [List.set_cons_succ, ih nd.2 h, marked, marked, List.map_cons, if_neg hne]

end Ndn.Crdt
