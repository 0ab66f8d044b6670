import Verif.Crdt.World

/-!
# What holds of the replicas after any edits and deliveries
-/

namespace Ndn.Crdt

open DocOrder

/-- the record of the insertion of an item -/
def Item.record (it : Item) : Record := ⟨recordInsert, some it.id, it.origin, it.rorigin, it.content⟩

/-- what a document has to do with the operations handled -/
structure DInv (items : List Item) (seen : List Record) : Prop where
  item : ∀ it ∈ items, it.record ∈ seen
  back : ∀ r ∈ seen, r.typ = recordInsert → ∃ it ∈ items, r.id = some it.id
  del : ∀ it ∈ items, (it.deleted = true ↔ ∃ r ∈ seen, r.typ = recordDelete ∧ r.id = some it.id)
  target : ∀ r ∈ seen, r.typ = recordDelete → ∃ it ∈ items, r.id = some it.id

theorem DInv.has {items : List Item} {seen : List Record} (h : DInv items seen) (z : Id) : Has seen z ↔ some z ∈ ids items := by
  simp only [ids, List.mem_cons, reduceCtorEq, false_or, List.mem_map, Item.v]
  constructor
  · rintro ⟨s, hs, ht, hid⟩
    obtain ⟨it, hit, he⟩ := h.back s hs ht
    exact ⟨it, hit, by rw [← he, hid]⟩
  · rintro ⟨it, hit, he⟩
    exact ⟨it.record, h.item it hit, rfl, he⟩

theorem DInv.ins {a b : List Item} {seen : List Record} {i : Item} (h : DInv (a ++ b) seen) (hi : i.v ∉ ids (a ++ b)) (hd : i.deleted = false) :
    DInv (a ++ i :: b) (i.record :: seen) := by
  have mm : ∀ x, x ∈ a ++ i :: b ↔ x = i ∨ x ∈ a ++ b := by
    intro x; simp only [List.mem_append, List.mem_cons]
    constructor
    · rintro (h | h | h)
      · exact .inr (.inl h)
      · exact .inl h
      · exact .inr (.inr h)
    · rintro (h | h | h)
      · exact .inr (.inl h)
      · exact .inl h
      · exact .inr (.inr h)
  have hne : ¬ (i.record.typ = recordDelete) := by simp [Item.record, recordInsert, recordDelete]
  have new : ∀ it ∈ a ++ b, it.id ≠ i.id := by
    intro it hit he
    apply hi
    exact List.mem_cons_of_mem _ (List.mem_map.mpr ⟨it, hit, by rw [Item.v, Item.v, he]⟩)
  refine ⟨?_, ?_, ?_, ?_⟩
  · intro it hit
    rcases (mm it).mp hit with rfl | hit
    · exact List.mem_cons_self
    · exact List.mem_cons_of_mem _ (h.item it hit)
  · intro r hr ht
    rcases List.mem_cons.mp hr with rfl | hr
    · exact ⟨i, (mm i).mpr (.inl rfl), rfl⟩
    · obtain ⟨it, hit, he⟩ := h.back r hr ht
      exact ⟨it, (mm it).mpr (.inr hit), he⟩
  · intro it hit
    rcases (mm it).mp hit with rfl | hit
    · rw [hd]
      simp only [Bool.false_eq_true, false_iff]
      rintro ⟨r, hr, ht, hid⟩
      rcases List.mem_cons.mp hr with rfl | hr
      · exact hne ht
      · obtain ⟨it', hit', he⟩ := h.target r hr ht
        rw [hid] at he
        injection he with he
        exact new it' hit' he.symm
    · rw [h.del it hit]
      constructor
      · rintro ⟨r, hr, h1⟩; exact ⟨r, List.mem_cons_of_mem _ hr, h1⟩
      · rintro ⟨r, hr, ht, hid⟩
        rcases List.mem_cons.mp hr with rfl | hr
        · exact absurd ht hne
        · exact ⟨r, hr, ht, hid⟩
  · intro r hr ht
    rcases List.mem_cons.mp hr with rfl | hr
    · exact absurd ht hne
    · obtain ⟨it, hit, he⟩ := h.target r hr ht
      exact ⟨it, (mm it).mpr (.inr hit), he⟩

theorem DInv.mark {items : List Item} {seen : List Record} {x : Id} {rec : Record} (h : DInv items seen) (hx : some x ∈ ids items)
    (ht : rec.typ = recordDelete) (hid : rec.id = some x) : DInv (marked x items) (rec :: seen) := by
  have hne : ¬ (rec.typ = recordInsert) := by rw [ht]; simp [recordInsert, recordDelete]
  have mm : ∀ it, it ∈ marked x items ↔ ∃ it0 ∈ items, it = if it0.id = x then { it0 with deleted := true } else it0 := by
    intro it; simp only [marked, List.mem_map]
    exact ⟨fun ⟨a, h1, h2⟩ => ⟨a, h1, h2.symm⟩, fun ⟨a, h1, h2⟩ => ⟨a, h1, h2.symm⟩⟩
  have keep : ∀ y, (∃ it ∈ items, some y = some it.id) → ∃ it ∈ marked x items, some y = some it.id := by
    rintro y ⟨it, hit, he⟩
    refine ⟨_, (mm _).mpr ⟨it, hit, rfl⟩, ?_⟩
    split <;> exact he
  refine ⟨?_, ?_, ?_, ?_⟩
  · intro it hit
    obtain ⟨it0, h0, rfl⟩ := (mm it).mp hit
    have := h.item it0 h0
    split <;> exact List.mem_cons_of_mem _ this
  · intro r hr hti
    rcases List.mem_cons.mp hr with rfl | hr
    · exact absurd hti hne
    · obtain ⟨it, hit, he⟩ := h.back r hr hti
      rw [he]
      exact keep _ ⟨it, hit, rfl⟩
  · intro it hit
    obtain ⟨it0, h0, rfl⟩ := (mm it).mp hit
    by_cases hix : it0.id = x
    · rw [if_pos hix]
      simp only [true_iff]
      exact ⟨rec, List.mem_cons_self, ht, by rw [hid, hix]⟩
    · rw [if_neg hix, h.del it0 h0]
      constructor
      · rintro ⟨r, hr, h1⟩; exact ⟨r, List.mem_cons_of_mem _ hr, h1⟩
      · rintro ⟨r, hr, ht', hid'⟩
        rcases List.mem_cons.mp hr with rfl | hr
        · rw [hid] at hid'; injection hid' with hid'; exact absurd hid'.symm hix
        · exact ⟨r, hr, ht', hid'⟩
  · intro r hr htd
    rcases List.mem_cons.mp hr with rfl | hr
    · rw [hid]
      simp only [ids, List.mem_cons, reduceCtorEq, false_or, List.mem_map, Item.v] at hx
      obtain ⟨it, hit, he⟩ := hx
      exact keep x ⟨it, hit, he.symm⟩
    · obtain ⟨it, hit, he⟩ := h.target r hr htd
      rw [he]
      exact keep _ ⟨it, hit, rfl⟩

/-- `k` tells of all insertions what their records say -/
structure Compat (k : Links (Option Id)) (made : List Record) : Prop where
  root : k.root = none
  fits : ∀ r ∈ made, r.typ = recordInsert → ∀ x, r.id = some x → Fits k ⟨x, r.origin, r.rorigin⟩

theorem Compat.tail {k : Links (Option Id)} {rec : Record} {made : List Record} (h : Compat k (rec :: made)) : Compat k made :=
  ⟨h.root, fun r hr => h.fits r (List.mem_cons_of_mem _ hr)⟩

/-- all insertions were made in a document in order, that of a producer after its earlier ones -/
def Births (k : Links (Option Id)) (made : List Record) : Prop :=
  ∃ birth : Id → List (Option Id), ∀ r ∈ made, r.typ = recordInsert → ∀ x, r.id = some x → Born k (some x) (birth x) ∧
    ∀ s ∈ made, s.typ = recordInsert → ∀ y, s.id = some y → y.producer = x.producer → y.clock < x.clock → some y ∈ birth x

structure WInv (n : Nat) (w : World) : Prop where
  prod : ∀ p, (w.reps p).doc.producer = p
  pend : ∀ p, (w.reps p).pending.q = []
  clk : ∀ p, (w.reps p).doc.clock ≤ n
  sm : ∀ p, ∀ r ∈ w.seen p, r ∈ w.made
  typ : ∀ r ∈ w.made, r.typ = recordInsert ∨ r.typ = recordDelete
  mid : ∀ r ∈ w.made, ∃ x, r.id = some x ∧ x.clock < n
  own : ∀ r ∈ w.made, r.typ = recordInsert → ∀ x, r.id = some x → r ∈ w.seen x.producer ∧ x.clock < (w.reps x.producer).doc.clock
  uniq : ∀ r ∈ w.made, ∀ s ∈ w.made, r.typ = recordInsert → s.typ = recordInsert → r.id = s.id → r = s
  docs : ∀ p, DInv (w.reps p).doc.items (w.seen p)
  order : ∀ k, Compat k w.made → (∀ p, DocOrder k (ids (w.reps p).doc.items)) ∧ Births k w.made

/-- there is such a `k` -/
def linksOf (made : List Record) : Links (Option Id) where
  root := none
  o x := match made.find? (fun r => decide (r.typ = recordInsert ∧ r.id = x)) with
    | some r => r.origin
    | none => none
  r x := match made.find? (fun r => decide (r.typ = recordInsert ∧ r.id = x)) with
    | some r => r.rorigin.map some
    | none => none
  p x := match x with
    | some i => i.producer
    | none => 0

theorem WInv.compat {n : Nat} {w : World} (h : WInv n w) : Compat (linksOf w.made) w.made := by
  refine ⟨rfl, ?_⟩
  intro r hr ht x hx
  have hfind : w.made.find? (fun r => decide (r.typ = recordInsert ∧ r.id = some x)) = some r := by
    cases hf : w.made.find? (fun r => decide (r.typ = recordInsert ∧ r.id = some x)) with
    | none =>
      have := List.find?_eq_none.mp hf r hr
      simp [ht, hx] at this
    | some s =>
      have h1 := List.find?_some hf
      simp only [decide_eq_true_eq] at h1
      rw [h.uniq s (List.mem_of_find?_eq_some hf) r hr h1.1 ht (by rw [h1.2, hx])]
  refine ⟨?_, ?_, rfl⟩
  · simp only [linksOf, Node.v, hfind]
  · simp only [linksOf, Node.v, hfind]

theorem WInv.fits {n : Nat} {w : World} (h : WInv n w) {k : Links (Option Id)} (hk : Compat k w.made) (p : Nat) :
    ∀ x ∈ (w.reps p).doc.items, Fits k x.toNode := fun x hx =>
  hk.fits x.record (h.sm p _ ((h.docs p).item x hx)) rfl x.id rfl

theorem WInv.nodup {n : Nat} {w : World} (h : WInv n w) (p : Nat) : ((w.reps p).doc.items.map Item.v).Nodup := by
  have := ((h.order _ h.compat).1 p).nodup
  rw [ids, List.nodup_cons] at this
  exact this.2

theorem single_order {k : Links (Option Id)} (hk : k.root = none) : DocOrder k (ids []) := by
  have hm : ∀ x : Option Id, x ∈ ids [] → x = none := by intro x hx; simpa [ids] using hx
  refine ⟨by simp [ids], by simp [ids, hk], ?_, ?_, ?_, ?_⟩
  · intro x hx hne; exact absurd (hm x hx) (hk ▸ hne)
  · intro x hx hne; exact absurd (hm x hx) (hk ▸ hne)
  · intro x hx hne; exact absurd (hm x hx) (hk ▸ hne)
  · intro x hx y _ hne; exact absurd (hm x hx) (hk ▸ hne)

theorem winv_init : WInv 0 World.init := by
  refine ⟨fun _ => rfl, fun _ => rfl, fun _ => Nat.le_refl _, ?_, ?_, ?_, ?_, ?_, ?_, ?_⟩
  · intro p r hr; cases hr
  · intro r hr; cases hr
  · intro r hr; cases hr
  · intro r hr; cases hr
  · intro r hr; cases hr
  · intro p; exact ⟨by intro _ h; (cases h), by intro _ h; (cases h), by intro _ h; (cases h), by intro _ h; (cases h)⟩
  · intro k hk; exact ⟨fun p => single_order hk.root, fun _ => [], by intro r hr; cases hr⟩

theorem put_same (w : World) (p : Nat) (td : TextDoc) (rec : Record) : (w.put p td rec).reps p = td ∧ (w.put p td rec).seen p = rec :: w.seen p := by
  simp [World.put]

theorem put_other (w : World) {p q : Nat} (td : TextDoc) (rec : Record) (h : q ≠ p) :
    (w.put p td rec).reps q = w.reps q ∧ (w.put p td rec).seen q = w.seen q := by
  simp [World.put, h]

/-- handling or doing `rec` at `p`, when it changes the document as it should -/
theorem WInv.put {n : Nat} {w : World} (h : WInv n w) (p : Nat) {td : TextDoc} {rec : Record} (hp : td.doc.producer = p)
    (hq : td.pending.q = []) (hc : td.doc.clock ≤ n + 1) (hc2 : (w.reps p).doc.clock ≤ td.doc.clock) (hm : rec ∈ w.made)
    (hd : DInv td.doc.items (rec :: w.seen p)) (ho : ∀ k, Compat k w.made → DocOrder k (ids td.doc.items)) : WInv (n + 1) (w.put p td rec) := by
  have all : ∀ (P : Nat → TextDoc → List Record → Prop), P p td (rec :: w.seen p) → (∀ q, P q (w.reps q) (w.seen q)) →
      ∀ q, P q ((w.put p td rec).reps q) ((w.put p td rec).seen q) := by
    intro P h1 h2 q
    by_cases hqp : q = p
    · subst hqp; rw [(put_same w q td rec).1, (put_same w q td rec).2]; exact h1
    · rw [(put_other w td rec hqp).1, (put_other w td rec hqp).2]; exact h2 q
  refine ⟨?_, ?_, ?_, ?_, h.typ, ?_, ?_, h.uniq, ?_, ?_⟩
  · exact all (fun q t _ => t.doc.producer = q) hp h.prod
  · exact all (fun _ t _ => t.pending.q = []) hq h.pend
  · exact all (fun _ t _ => t.doc.clock ≤ n + 1) hc (fun q => Nat.le_succ_of_le (h.clk q))
  · refine all (fun _ _ s => ∀ r ∈ s, r ∈ w.made) ?_ h.sm
    intro r hr
    rcases List.mem_cons.mp hr with rfl | hr
    · exact hm
    · exact h.sm p r hr
  · intro r hr
    obtain ⟨x, h1, h2⟩ := h.mid r hr
    exact ⟨x, h1, by omega⟩
  · intro r hr ht x hx
    refine all (fun q t s => q = x.producer → r ∈ s ∧ x.clock < t.doc.clock) ?_ ?_ _ rfl
    · intro he
      have := h.own r hr ht x hx
      rw [← he] at this
      exact ⟨List.mem_cons_of_mem _ this.1, by omega⟩
    · intro q he
      subst he
      exact h.own r hr ht x hx
  · exact all (fun _ t s => DInv t.doc.items s) hd h.docs
  · intro k hk
    obtain ⟨h1, h2⟩ := h.order k hk
    exact ⟨all (fun _ t _ => DocOrder k (ids t.doc.items)) (ho k hk) h1, h2⟩

theorem u64_id {m : Nat} (h : m < 2 ^ 64) : u64 m = m := Nat.mod_eq_of_lt h

/-- how a ready record changes the document -/
theorem apply_insert {n : Nat} {w : World} (h : WInv n w) (p : Nat) {rec : Record} (hm : rec ∈ w.made) (once : rec ∉ w.seen p)
    (ready : Ready (w.seen p) rec) (ht : rec.typ = recordInsert) {x : Id} (hx : rec.id = some x) :
    (some x ∉ ids (w.reps p).doc.items) ∧ rec.origin ∈ ids (w.reps p).doc.items ∧
    (∀ z, rec.rorigin = some z → some z ∈ ids (w.reps p).doc.items) ∧
    (w.reps p).doc.apply rec =
      (insertInto (w.reps p).doc.items ⟨⟨x, rec.origin, rec.rorigin⟩, rec.content, false⟩ (findLeft (w.reps p).doc.items rec.origin)
        (findRight (w.reps p).doc.items rec.origin rec.rorigin) >>= fun items =>
        .ok (some ⟨(w.reps p).doc.producer, u64 (max (w.reps p).doc.clock x.clock + 1), items⟩)) := by
  have hk := h.compat
  obtain ⟨hord, birth, hbirth⟩ := h.order _ hk
  have hD := h.docs p
  have hnew : some x ∉ ids (w.reps p).doc.items := by
    intro hmem
    obtain ⟨s, hs, hst, hsx⟩ := (hD.has x).mpr hmem
    exact once (h.uniq rec hm s (h.sm p s hs) ht hst (by rw [hx, hsx]) ▸ hs)
  have hl : rec.origin ∈ ids (w.reps p).doc.items := by
    cases ho : rec.origin with
    | none => simp [ids]
    | some z => exact (hD.has z).mp (ready.ins ht z (.inl ho))
  have hr : ∀ z, rec.rorigin = some z → some z ∈ ids (w.reps p).doc.items := fun z hz => (hD.has z).mp (ready.ins ht z (.inr hz))
  refine ⟨hnew, hl, hr, ?_⟩
  have hf := hk.fits rec hm ht x hx
  have hb := (hbirth rec hm ht x hx).1
  rw [Doc.apply, if_pos ht, hx, Doc.insert]
  rw [if_neg]
  rintro (⟨h1, h2⟩ | ⟨h1, h2⟩)
  · have hls := left_spec (hord p).nodup hl
    rw [h2, behind] at hls
    have : rec.origin = none := idx_inj hl (by rw [← hls]; simp [ids])
    exact h1 this
  · cases hz : rec.rorigin with
    | none => exact h1 hz
    | some z =>
      have hrr : (linksOf w.made).r (some x) = some (some z) := by have := hf.r; rw [Node.v] at this; rw [this, hz]; rfl
      have hoo : (linksOf w.made).o (some x) = rec.origin := hf.o
      have hlt := (hb.right _ hrr).2
      rw [hoo] at hlt
      obtain ⟨r, h3, _⟩ := right_spec (hord p).nodup (hr z hz) (origin := rec.origin) (by intro he; rw [he] at hlt; omega)
      rw [hz, h3] at h2
      cases h2

theorem winv_recv {n : Nat} {w : World} (h : WInv n w) (hn : n + 1 < 2 ^ 64) (p : Nat) (td : TextDoc) (rec : Record) (hm : rec ∈ w.made)
    (once : rec ∉ w.seen p ∨ rec.typ = recordDelete) (ready : Ready (w.seen p) rec)
    (hr : (w.reps p).handleRecord rec = .ok td) : WInv (n + 1) (w.put p td rec) := by
  obtain ⟨x, hx, hxn⟩ := h.mid rec hm
  rw [handle_empty (h.pend p) hx (h.typ rec hm)] at hr
  have hcl := h.clk p
  have hu : u64 (max (w.reps p).doc.clock x.clock + 1) = max (w.reps p).doc.clock x.clock + 1 := u64_id (by omega)
  rcases h.typ rec hm with ht | ht
  · have hon : rec ∉ w.seen p := by
      rcases once with h1 | h1
      · exact h1
      · rw [ht] at h1; cases h1
    obtain ⟨hnew, hl, hrr, happ⟩ := apply_insert h p hm hon ready ht hx
    rw [happ] at hr
    cases hins : insertInto (w.reps p).doc.items ⟨⟨x, rec.origin, rec.rorigin⟩, rec.content, false⟩
        (findLeft (w.reps p).doc.items rec.origin) (findRight (w.reps p).doc.items rec.origin rec.rorigin) with
    | err e => rw [hins] at hr; cases hr
    | panic => rw [hins] at hr; cases hr
    | ok items' =>
      rw [hins] at hr
      simp only [Res.bind_ok, Res.ok.injEq] at hr
      subst hr
      have key : ∀ k, Compat k w.made → ∃ a b, (w.reps p).doc.items = a ++ b ∧
          items' = a ++ ⟨⟨x, rec.origin, rec.rorigin⟩, rec.content, false⟩ :: b ∧ DocOrder k (ids items') := by
        intro k hk
        obtain ⟨hord, birth, hbirth⟩ := h.order k hk
        obtain ⟨hb, _⟩ := hbirth rec hm ht x hx
        refine insertInto_order hk.root (hord p) (h.fits hk p) (hk.fits rec hm ht x hx) hnew hb ?_ hl hrr hins
        intro y hy hyn hpy
        cases y with
        | none => exact absurd rfl hyn
        | some y =>
          obtain ⟨s, hs, hst, hsy⟩ := ((h.docs p).has y).mpr hy
          have hsm := h.sm p s hs
          obtain ⟨hby, hby2⟩ := hbirth s hsm hst y hsy
          have hfx := (hk.fits rec hm ht x hx).p
          have hfy := (hk.fits s hsm hst y hsy).p
          simp only [Node.v] at hfx hfy
          have hpp : y.producer = x.producer := by rw [← hfx, ← hfy]; exact hpy
          rcases Nat.lt_trichotomy y.clock x.clock with h1 | h1 | h1
          · exact .inl ((hbirth rec hm ht x hx).2 s hsm hst y hsy hpp h1)
          · exfalso
            have : y = x := by cases y; cases x; simp only at hpp h1; rw [hpp, h1]
            subst this; exact hnew hy
          · exact .inr ⟨birth y, hby, hby2 rec hm ht x hx hpp.symm h1⟩
      refine h.put p (h.prod p) rfl ?_ ?_ hm ?_ ?_
      · simp only [hu]; omega
      · simp only [hu]; omega
      · obtain ⟨a, b, e1, e2, _⟩ := key _ h.compat
        have hDD := h.docs p
        rw [e1] at hDD hnew
        have := hDD.ins (i := ⟨⟨x, rec.origin, rec.rorigin⟩, rec.content, false⟩) hnew rfl
        have hrec : Item.record ⟨⟨x, rec.origin, rec.rorigin⟩, rec.content, false⟩ = rec := by
          obtain ⟨t, i, o, r, c⟩ := rec
          simp only at ht hx
          simp only [Item.record, ht, hx]
        rw [hrec] at this
        simp only [e2]; exact this
      · intro k hk
        obtain ⟨a, b, _, _, h3⟩ := key k hk
        exact h3
  · have hmem : some x ∈ ids (w.reps p).doc.items := ((h.docs p).has x).mp (ready.del ht x hx)
    have hmem' : some x ∈ (w.reps p).doc.items.map Item.v := by simpa [ids] using hmem
    have happ : (w.reps p).doc.apply rec = .ok (some ⟨(w.reps p).doc.producer, u64 (max (w.reps p).doc.clock x.clock + 1),
        marked x (w.reps p).doc.items⟩) := by
      rw [Doc.apply, if_neg (by rw [ht]; simp [recordInsert, recordDelete]), hx]
      simp only [Doc.delete, markDeleted_eq (h.nodup p) hmem', Option.map_some]
    rw [happ] at hr
    simp only [Res.ok.injEq] at hr
    subst hr
    refine h.put p (h.prod p) rfl ?_ ?_ hm ((h.docs p).mark hmem ht hx) ?_
    · simp only [hu]; omega
    · simp only [hu]; omega
    · intro k hk
      simp only [marked_ids]
      exact (h.order k hk).1 p

/-- making `rec` at `p` -/
theorem WInv.make {n : Nat} {w : World} (h : WInv n w) (p : Nat) {td : TextDoc} {rec : Record} {x : Id} (hp : td.doc.producer = p)
    (hq : td.pending.q = []) (hc : td.doc.clock ≤ n + 1) (hc2 : (w.reps p).doc.clock ≤ td.doc.clock)
    (ht : rec.typ = recordInsert ∨ rec.typ = recordDelete) (hx : rec.id = some x) (hxn : x.clock < n + 1)
    (hown : rec.typ = recordInsert → x.producer = p ∧ x.clock = (w.reps p).doc.clock ∧ x.clock < td.doc.clock)
    (hd : DInv td.doc.items (rec :: w.seen p))
    (ho : ∀ k, Compat k (rec :: w.made) → DocOrder k (ids td.doc.items))
    (hb : rec.typ = recordInsert → ∀ k, Compat k (rec :: w.made) → Born k (some x) (ids (w.reps p).doc.items)) :
    WInv (n + 1) (w.make p td rec) := by
  have all : ∀ (P : Nat → TextDoc → List Record → Prop), P p td (rec :: w.seen p) → (∀ q, P q (w.reps q) (w.seen q)) →
      ∀ q, P q ((w.make p td rec).reps q) ((w.make p td rec).seen q) := by
    intro P h1 h2 q
    show P q ((w.put p td rec).reps q) ((w.put p td rec).seen q)
    by_cases hqp : q = p
    · subst hqp; rw [(put_same w q td rec).1, (put_same w q td rec).2]; exact h1
    · rw [(put_other w td rec hqp).1, (put_other w td rec hqp).2]; exact h2 q
  have new : rec.typ = recordInsert → ∀ s ∈ w.made, s.typ = recordInsert → s.id ≠ some x := by
    intro hti s hs hst he
    obtain ⟨h1, h2, _⟩ := hown hti
    have := (h.own s hs hst x he).2
    rw [h1] at this
    omega
  refine ⟨?_, ?_, ?_, ?_, ?_, ?_, ?_, ?_, ?_, ?_⟩
  · exact all (fun q t _ => t.doc.producer = q) hp h.prod
  · exact all (fun _ t _ => t.pending.q = []) hq h.pend
  · exact all (fun _ t _ => t.doc.clock ≤ n + 1) hc (fun q => Nat.le_succ_of_le (h.clk q))
  · refine all (fun _ _ s => ∀ r ∈ s, r ∈ rec :: w.made) ?_ (fun q r hr => List.mem_cons_of_mem _ (h.sm q r hr))
    intro r hr
    rcases List.mem_cons.mp hr with rfl | hr
    · exact List.mem_cons_self
    · exact List.mem_cons_of_mem _ (h.sm p r hr)
  · intro r hr
    rcases List.mem_cons.mp hr with rfl | hr
    · exact ht
    · exact h.typ r hr
  · intro r hr
    rcases List.mem_cons.mp hr with rfl | hr
    · exact ⟨x, hx, hxn⟩
    · obtain ⟨x, h1, h2⟩ := h.mid r hr
      exact ⟨x, h1, by omega⟩
  · intro r hr hti y hy
    rcases List.mem_cons.mp hr with rfl | hr
    · obtain ⟨h1, h2, h3⟩ := hown hti
      rw [hx] at hy
      injection hy with hy
      subst hy
      show r ∈ (w.put p td r).seen x.producer ∧ x.clock < ((w.put p td r).reps x.producer).doc.clock
      rw [h1, (put_same w p td r).1, (put_same w p td r).2]
      exact ⟨List.mem_cons_self, h3⟩
    · refine all (fun q t s => q = y.producer → r ∈ s ∧ y.clock < t.doc.clock) ?_ ?_ _ rfl
      · intro he
        have := h.own r hr hti y hy
        rw [← he] at this
        exact ⟨List.mem_cons_of_mem _ this.1, by omega⟩
      · intro q he
        subst he
        exact h.own r hr hti y hy
  · intro r hr s hs hrt hst he
    rcases List.mem_cons.mp hr with hr' | hr' <;> rcases List.mem_cons.mp hs with hs' | hs'
    · rw [hr', hs']
    · exact absurd (he.symm.trans (hr' ▸ hx)) (new (hr' ▸ hrt) s hs' hst)
    · exact absurd (he.trans (hs' ▸ hx)) (new (hs' ▸ hst) r hr' hrt)
    · exact h.uniq r hr' s hs' hrt hst he
  · exact all (fun _ t s => DInv t.doc.items s) hd h.docs
  · intro k hk
    obtain ⟨h1, birth, h2⟩ := h.order k hk.tail
    refine ⟨all (fun _ t _ => DocOrder k (ids t.doc.items)) (ho k hk) h1, ?_⟩
    refine ⟨fun y => if y = x ∧ rec.typ = recordInsert then ids (w.reps p).doc.items else birth y, ?_⟩
    intro r hr hrt y hy
    rcases List.mem_cons.mp hr with rfl | hr
    · rw [hx] at hy
      injection hy with hy
      subst hy
      simp only
      rw [if_pos ⟨trivial, hrt⟩]
      refine ⟨hb hrt k hk, ?_⟩
      intro s hs hst z hz hzp hzc
      rcases List.mem_cons.mp hs with rfl | hs
      · rw [hx] at hz; injection hz with hz; subst hz; omega
      · refine ((h.docs p).has z).mp ⟨s, ?_, hst, hz⟩
        have := (h.own s hs hst z hz).1
        rwa [hzp, (hown hrt).1] at this
    · have hyx : ¬ (y = x ∧ rec.typ = recordInsert) := by
        rintro ⟨he, hti⟩
        exact new hti r hr hrt (by rw [hy, he])
      simp only
      rw [if_neg hyx]
      obtain ⟨h3, h4⟩ := h2 r hr hrt y hy
      refine ⟨h3, ?_⟩
      intro s hs hst z hz hzp hzc
      have hry := (h.own r hr hrt y hy).2
      rcases List.mem_cons.mp hs with rfl | hs
      · exfalso
        rw [hx] at hz; injection hz with hz; subst hz
        obtain ⟨h5, h6, _⟩ := hown hst
        have := hry
        rw [← hzp, h5] at this
        omega
      · exact h4 s hs hst z hz hzp hzc

theorem winv_del {n : Nat} {w : World} (h : WInv n w) (p : Nat) (offset : Int) (td : TextDoc) (rec : Record)
    (hr : (w.reps p).delete offset = some (td, rec)) : WInv (n + 1) (w.make p td rec) := by
  rw [TextDoc.delete, Option.map_eq_some_iff] at hr
  obtain ⟨⟨d, it'⟩, h1, h2⟩ := hr
  injection h2 with h2 h3
  rw [Doc.localDelete] at h1
  cases hl : itemAt (w.reps p).doc.items offset with
  | none => rw [hl] at h1; cases h1
  | some l =>
    rw [hl] at h1
    simp only at h1
    cases hit : (w.reps p).doc.items[l]? with
    | none => rw [hit] at h1; cases h1
    | some it =>
      rw [hit] at h1
      simp only [Option.some.injEq, Prod.mk.injEq] at h1
      obtain ⟨h4, h5⟩ := h1
      subst h5
      simp only at h3
      subst h3
      have hmem : some it.id ∈ ids (w.reps p).doc.items :=
        List.mem_cons_of_mem _ (List.mem_map.mpr ⟨it, List.mem_of_getElem? hit, rfl⟩)
      rw [set_marked (h.nodup p) hit] at h4
      subst h4
      subst h2
      have hidc : it.id.clock < n := by
        obtain ⟨x, h6, h7⟩ := h.mid _ (h.sm p _ ((h.docs p).item it (List.mem_of_getElem? hit)))
        injection h6 with h6
        rw [h6]; exact h7
      refine h.make p (x := it.id) (h.prod p) (h.pend p) (Nat.le_succ_of_le (h.clk p)) (Nat.le_refl _) (.inr rfl) rfl (by omega) ?_ ?_ ?_ ?_
      · intro hc; cases hc
      · exact (h.docs p).mark hmem rfl rfl
      · intro k hk
        simp only [marked_ids]
        exact (h.order k hk.tail).1 p
      · intro hc; cases hc

theorem nextAt_lt {items : List Item} {i l : Nat} (h : nextAt items i = some l) : l < items.length := by
  rw [nextAt, Option.map_eq_some_iff] at h
  obtain ⟨k, h1, h2⟩ := h
  obtain ⟨h3, _⟩ := List.findIdx?_eq_some_iff_getElem.mp h1
  rw [List.length_drop] at h3
  omega

theorem stepsFrom_lt {items : List Item} (n : Nat) : ∀ {i : Option Nat} {l : Nat}, (∀ j, i = some j → j < items.length) →
    stepsFrom items n i = some l → l < items.length := by
  induction n with
  | zero => intro i l hi h; exact hi l h
  | succ n ih =>
    intro i l hi h
    cases i with
    | none => cases h
    | some i => exact ih (fun j hj => nextAt_lt hj) h

theorem itemAt_lt {items : List Item} {offset : Int} {l : Nat} (h : itemAt items offset = some l) : l < items.length := by
  rw [itemAt] at h
  split at h
  · cases h
  · refine stepsFrom_lt _ ?_ h
    intro j hj
    split at hj
    · cases hj
    · rename_i hne
      injection hj with hj
      have := List.length_pos_iff.mpr hne
      omega

theorem winv_ins {n : Nat} {w : World} (h : WInv n w) (hn : n + 1 < 2 ^ 64) (p : Nat) (offset : Int) (content : Bytes) (td : TextDoc)
    (rec : Record) (hr : (w.reps p).insert offset content = some (td, rec)) : WInv (n + 1) (w.make p td rec) := by
  rw [TextDoc.insert, Option.map_eq_some_iff] at hr
  obtain ⟨⟨d, i⟩, h1, h2⟩ := hr
  injection h2 with h2 h3
  have hcl := h.clk p
  have hord := h.order _ h.compat |>.1 p
  rw [Doc.localInsert] at h1
  split at h1
  · cases h1
  · simp only [Option.some.injEq, Prod.mk.injEq] at h1
    obtain ⟨h4, h5⟩ := h1
    rw [u64_id (by omega), h5] at h4
    generalize hlv : itemAt (w.reps p).doc.items offset = left at h4 h5
    generalize hit : (w.reps p).doc.items = items at h4 h5 hlv hord
    have hiid : i.id = ⟨p, (w.reps p).doc.clock⟩ := by rw [← h5]; simp [h.prod p]
    have hdel : i.deleted = false := by rw [← h5]
    have hrec : rec = i.record := by
      rw [← h3, Item.record]
      simp only
      rw [← h5]
    have hP := hit ▸ h.docs p
    have hnew : i.v ∉ ids items := by
      intro hm
      rw [Item.v, ← hP.has] at hm
      obtain ⟨s, hs, hst, hsx⟩ := hm
      have := (h.own s (h.sm p s hs) hst _ hsx).2
      rw [hiid] at this
      simp only at this
      omega
    have hli : ∀ l, left = some l → l < items.length := fun l hl => itemAt_lt (hlv.trans hl)
    have hleft : (ids items)[behind left]? = some i.origin := by
      cases left with
      | none => rw [← h5]; simp [behind, ids]
      | some l =>
        have hll := hli l rfl
        rw [← h5]
        simp [behind, ids, List.getElem?_eq_getElem hll, Item.v]
    have hlb : behind left ≤ items.length := by
      cases left with
      | none => exact Nat.zero_le _
      | some l => exact hli l rfl
    have hidx : (ids items).idxOf i.origin = behind left := idx_at hord.nodup hleft
    have hmo : i.origin ∈ ids items := List.mem_of_getElem? hleft
    have hri : i.rorigin = items[behind left]?.map (·.id) := by rw [← h5]
    have hfit : ∀ k, Compat k (rec :: w.made) → Fits k i.toNode := by
      intro k hk
      rw [hrec] at hk
      exact hk.fits i.record List.mem_cons_self rfl i.id rfl
    have born : ∀ k, Compat k (rec :: w.made) → Born k i.v (ids items) := by
      intro k hk
      have ho : k.o i.v = i.origin := (hfit k hk).o
      have hr : k.r i.v = i.rorigin.map some := (hfit k hk).r
      have hordk : DocOrder k (ids items) := hit ▸ (h.order k hk.tail).1 p
      refine ⟨hordk, hnew, by rw [ho]; exact hmo, ?_, ?_⟩
      · intro y hy hlt
        rw [ho, hidx] at hlt
        have hyl := idx_lt hy
        have hl : (ids items).length = items.length + 1 := by simp [ids]
        have hb : behind left < items.length := by omega
        refine ⟨some items[behind left].id, by rw [hr, hri, List.getElem?_eq_getElem hb]; rfl, ?_⟩
        have : (ids items).idxOf (some items[behind left].id) = behind left + 1 := by
          refine idx_at hord.nodup ?_
          rw [ids, List.getElem?_cons_succ, List.getElem?_map, List.getElem?_eq_getElem hb]; rfl
        omega
      · intro z hz
        rw [hr, hri] at hz
        cases hg : items[behind left]? with
        | none => rw [hg] at hz; cases hz
        | some it =>
          rw [hg] at hz
          simp only [Option.map_some, Option.some.injEq] at hz
          subst hz
          have hg' : (ids items)[behind left + 1]? = some (some it.id) := by
            rw [ids, List.getElem?_cons_succ, List.getElem?_map, hg]; rfl
          refine ⟨List.mem_of_getElem? hg', ?_⟩
          rw [ho, hidx, idx_at hord.nodup hg']
          omega
    have hsplit : items = items.take (behind left) ++ items.drop (behind left) := (List.take_append_drop _ _).symm
    have htd : td.doc = ⟨p, (w.reps p).doc.clock + 1, items.take (behind left) ++ i :: items.drop (behind left)⟩ := by
      rw [← h2, ← h4, h.prod p]
    have hpq : td.pending.q = [] := by rw [← h2]; exact h.pend p
    refine h.make p (x := i.id) (by rw [htd]) hpq (by rw [htd]; simp only; omega) (by rw [htd]; simp only; omega)
      (.inl (by rw [hrec]; rfl)) (by rw [hrec]; rfl) (by rw [hiid]; simp only; omega) ?_ ?_ ?_ ?_
    · intro _; rw [hiid, htd]; exact ⟨rfl, rfl, Nat.lt_succ_self _⟩
    · rw [htd, hrec]
      rw [hsplit] at hP hnew
      exact hP.ins hnew hdel
    · intro k hk
      rw [htd]
      simp only
      rw [ids_append, List.map_cons]
      have hb := born k hk
      rw [hsplit, ids_append] at hb
      refine insert_local hb ?_
      rw [show k.o i.v = i.origin from (hfit k hk).o]
      exact pre_last hsplit hmo (by rw [hidx, List.length_take]; omega)
    · intro _ k hk
      rw [hit]; exact born k hk

theorem run_inv {n : Nat} {w : World} (h : Run n w) (hn : n < 2 ^ 64) : WInv n w := by
  induction h with
  | init => exact winv_init
  | ins _ p offset content td rec hr ih => exact winv_ins (ih (by omega)) hn p offset content td rec hr
  | del _ p offset td rec hr ih => exact winv_del (ih (by omega)) p offset td rec hr
  | recv _ p td rec hm once ready hr ih => exact winv_recv (ih (by omega)) hn p td rec hm once ready hr

end Ndn.Crdt
