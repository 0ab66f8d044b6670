import Verif.Crdt.WorldLemmas
import Verif.Util.HeapProps

/-!
# C59: shared document replicas converge

"Replicas of the shared text document that have handled the same set of operations show the same text, whatever the arrival order, and
handling an operation never panics."

The setting is `Run` (`World.lean`): any number of replicas with different producer numbers edit and deliver in any order in which
every record is ready.  In it, convergence holds (`C59_converge_partial`, `C59_shows_partial`), as long as no call panics and fewer than
2^64 steps are made.  Handling an operation does panic (`C59_panics`): `InsertInto` reads `*o.Origin` before it compares it with nil.
`C59_no_panic_partial` says when it does not.
-/

namespace Ndn.Crdt

open DocOrder

theorem map_v_inj {l1 l2 : List Item} (h : l1.map Item.v = l2.map Item.v) (he : ∀ a ∈ l1, ∀ b ∈ l2, a.id = b.id → a = b) : l1 = l2 := by
  induction l1 generalizing l2 with
  | nil => exact (List.map_eq_nil_iff.mp h.symm).symm
  | cons a l1 ih =>
    cases l2 with
    | nil => cases h
    | cons b l2 =>
      simp only [List.map_cons, List.cons.injEq, Item.v, Option.some.injEq] at h
      rw [he a List.mem_cons_self b List.mem_cons_self h.1,
        ih h.2 (fun x hx y hy => he x (List.mem_cons_of_mem _ hx) y (List.mem_cons_of_mem _ hy))]

theorem item_ext {a b : Item} (h : a.record = b.record) (hd : a.deleted = b.deleted) : a = b := by
  obtain ⟨⟨i, o, r⟩, c, d⟩ := a
  obtain ⟨⟨i', o', r'⟩, c', d'⟩ := b
  simp only [Item.record, Record.mk.injEq, Option.some.injEq, true_and] at h
  obtain ⟨rfl, rfl, rfl, rfl⟩ := h
  simp only at hd
  rw [hd]

theorem same_items {n : Nat} {w : World} (h : WInv n w) (p q : Nat) (same : ∀ r, r ∈ w.seen p ↔ r ∈ w.seen q) :
    (w.reps p).doc.items = (w.reps q).doc.items := by
  have hk := h.compat
  obtain ⟨hord, _⟩ := h.order _ hk
  have hp := h.docs p
  have hq := h.docs q
  have hmem : ∀ z, z ∈ ids (w.reps p).doc.items ↔ z ∈ ids (w.reps q).doc.items := by
    intro z
    cases z with
    | none => simp [ids]
    | some z =>
      rw [← hp.has, ← hq.has]
      constructor
      · rintro ⟨s, hs, h1⟩; exact ⟨s, (same s).mp hs, h1⟩
      · rintro ⟨s, hs, h1⟩; exact ⟨s, (same s).mpr hs, h1⟩
  have hids := (hord p).unique (hord q) ((List.perm_ext_iff_of_nodup (hord p).nodup (hord q).nodup).mpr hmem)
  simp only [ids, List.cons.injEq, true_and] at hids
  refine map_v_inj hids ?_
  intro a ha b hb hab
  refine item_ext ?_ ?_
  · exact h.uniq _ (h.sm p _ (hp.item a ha)) _ (h.sm q _ (hq.item b hb)) rfl rfl (by rw [Item.record, Item.record, hab])
  · rw [Bool.eq_iff_iff, hp.del a ha, hq.del b hb, hab]
    constructor
    · rintro ⟨s, hs, h1⟩; exact ⟨s, (same s).mp hs, h1⟩
    · rintro ⟨s, hs, h1⟩; exact ⟨s, (same s).mpr hs, h1⟩

/-- Replicas that have handled the same set of operations show the same text.  (Partial: no call has panicked.) -/
theorem C59_converge_partial {n : Nat} {w : World} (h : Run n w) (hn : n < 2 ^ 64) (p q : Nat) (same : ∀ r, r ∈ w.seen p ↔ r ∈ w.seen q) :
    (w.reps p).getText = (w.reps q).getText := by
  rw [TextDoc.getText, TextDoc.getText, same_items (run_inv h hn) p q same]

/-- some operation handled deletes what `r` inserted -/
def Gone (seen : List Record) (r : Record) : Prop := ∃ s ∈ seen, s.typ = recordDelete ∧ s.id = r.id

/-- The text is that of all insertions handled, each once, without those deleted. -/
theorem C59_shows_partial {n : Nat} {w : World} (h : Run n w) (hn : n < 2 ^ 64) (p : Nat) :
    ∃ order : List Record, order.Nodup ∧ (∀ r, r ∈ order ↔ r ∈ w.seen p ∧ r.typ = recordInsert ∧ ¬ Gone (w.seen p) r) ∧
      (w.reps p).getText = (order.map (·.content)).flatten := by
  have hw := run_inv h hn
  have hp := hw.docs p
  have nd := hw.nodup p
  refine ⟨((w.reps p).doc.items.filter (fun it => !it.deleted)).map Item.record, ?_, ?_, ?_⟩
  · have h1 : (((w.reps p).doc.items.filter (fun it => !it.deleted)).map Item.v).Nodup := nd.sublist (List.filter_sublist.map _)
    have h2 : (((w.reps p).doc.items.filter (fun it => !it.deleted)).map Item.record).map Record.id =
        ((w.reps p).doc.items.filter (fun it => !it.deleted)).map Item.v := by rw [List.map_map]; rfl
    rw [← h2] at h1
    exact List.Pairwise.of_map Record.id (fun a b hab he => hab (by rw [he])) h1
  · intro r
    simp only [List.mem_map, List.mem_filter, Bool.not_eq_true']
    constructor
    · rintro ⟨it, ⟨hit, hd⟩, rfl⟩
      refine ⟨hp.item it hit, rfl, ?_⟩
      rintro ⟨s, hs, h1, h2⟩
      have := (hp.del it hit).mpr ⟨s, hs, h1, h2⟩
      rw [hd] at this; cases this
    · rintro ⟨hr, ht, hg⟩
      obtain ⟨it, hit, he⟩ := hp.back r hr ht
      have hrec : it.record = r := hw.uniq _ (hw.sm p _ (hp.item it hit)) _ (hw.sm p _ hr) rfl ht he.symm
      refine ⟨it, ⟨hit, ?_⟩, hrec⟩
      cases hd : it.deleted with
      | false => rfl
      | true =>
        obtain ⟨s, hs, h1, h2⟩ := (hp.del it hit).mp hd
        exact absurd ⟨s, hs, h1, by rw [h2, he]⟩ hg
  · rw [TextDoc.getText, List.map_map]
    generalize (w.reps p).doc.items = items
    induction items with
    | nil => rfl
    | cons a items ih =>
      cases hd : a.deleted with
      | true =>
        rw [List.filter_cons_of_neg (by simp [hd]), List.map_cons, List.flatten_cons, ih, if_pos hd]; rfl
      | false =>
        rw [List.filter_cons_of_pos (by simp [hd]), List.map_cons, List.flatten_cons, ih, hd]; rfl

theorem agree_filter {k : Links (Option Id)} {l1 l2 : List (Option Id)} (h1 : DocOrder k l1) (h2 : DocOrder k l2) :
    l1.filter (fun x => decide (x ∈ l2)) = l2.filter (fun x => decide (x ∈ l1)) := by
  have r1 := h1.restrict (fun x => decide (x ∈ l2)) (by simpa using h2.rootMem)
    (by intro x _ hne hx; simp at hx ⊢; exact (h2.orig x hx hne).1)
    (by intro x _ hne hx z hz; simp at hx ⊢; exact (h2.right x hx hne z hz).1)
  have r2 := h2.restrict (fun x => decide (x ∈ l1)) (by simpa using h1.rootMem)
    (by intro x _ hne hx; simp at hx ⊢; exact (h1.orig x hx hne).1)
    (by intro x _ hne hx z hz; simp at hx ⊢; exact (h1.right x hx hne z hz).1)
  refine r1.unique r2 ((List.perm_ext_iff_of_nodup r1.nodup r2.nodup).mpr ?_)
  intro z; simp [List.mem_filter, and_comm]

theorem ids_filter (a b : List Item) : (ids a).filter (fun x => decide (x ∈ ids b)) =
    none :: ((a.map (·.id)).filter (fun x => decide (x ∈ b.map (·.id)))).map some := by
  show List.filter _ (none :: a.map Item.v) = _
  rw [List.filter_cons_of_pos (by simp [ids])]
  congr 1
  induction a with
  | nil => rfl
  | cons x a ih =>
    have hb : (x.v ∈ ids b) ↔ x.id ∈ b.map (·.id) := by simp [ids, Item.v]
    rw [List.map_cons, List.map_cons]
    by_cases hx : x.v ∈ ids b
    · rw [List.filter_cons_of_pos (by simpa using hx), List.filter_cons_of_pos (by simpa using hb.mp hx), ih]; rfl
    · rw [List.filter_cons_of_neg (by simpa using hx), List.filter_cons_of_neg (by rw [decide_eq_true_eq]; exact fun h => hx (hb.mpr h)), ih]

/-- Replicas that have handled different sets of operations still have what both know in the same order. -/
theorem C59_same_order_partial {n : Nat} {w : World} (h : Run n w) (hn : n < 2 ^ 64) (p q : Nat) :
    ((w.reps p).doc.items.map (·.id)).filter (fun x => decide (x ∈ (w.reps q).doc.items.map (·.id))) =
      ((w.reps q).doc.items.map (·.id)).filter (fun x => decide (x ∈ (w.reps p).doc.items.map (·.id))) := by
  have hw := run_inv h hn
  obtain ⟨hord, _⟩ := hw.order _ hw.compat
  have := agree_filter (hord p) (hord q)
  rw [ids_filter, ids_filter] at this
  injection this with _ this
  exact (List.map_inj_right (fun _ _ h => Option.some.inj h)).mp this

/-! ## Panics -/

theorem scan_ok {i : Node} (os : List Node) (h : i.origin = none ∨ ∀ o ∈ os, o.origin ≠ none) :
    ∀ (before conf : List Id) (left n : Nat), ∃ m, scan i os before conf left n = .ok m := by
  induction os with
  | nil => intro _ _ left _; exact ⟨left, rfl⟩
  | cons o os ih =>
    have ih' := ih (h.imp id (fun h o ho => h o (List.mem_cons_of_mem _ ho)))
    intro before conf left n
    rw [scan]
    by_cases ho : i.origin = o.origin
    · rw [if_pos ho]
      (repeat' split)
      · exact ih' ..
      · exact ⟨_, rfl⟩
      · exact ih' ..
    · rw [if_neg ho]
      cases hz : o.origin with
      | none =>
        exfalso
        rcases h with h | h
        · rw [h, hz] at ho; exact ho rfl
        · exact h o List.mem_cons_self hz
      | some z =>
        simp only
        (repeat' split)
        · exact ih' ..
        · exact ih' ..
        · exact ⟨_, rfl⟩

/-- Handling a ready operation succeeds, and leaves nothing pending, if it is a deletion or an insertion at the very beginning, or if
no two insertions were made at the very beginning. -/
theorem C59_no_panic_partial {n : Nat} {w : World} (h : Run n w) (hn : n < 2 ^ 64) (p : Nat) (rec : Record) (hm : rec ∈ w.made)
    (once : rec ∉ w.seen p ∨ rec.typ = recordDelete) (ready : Ready (w.seen p) rec)
    (ok : rec.typ = recordDelete ∨ rec.origin = none ∨
      ∀ r ∈ w.made, ∀ s ∈ w.made, r.typ = recordInsert → s.typ = recordInsert → r.origin = none → s.origin = none → r = s) :
    ∃ td, (w.reps p).handleRecord rec = .ok td ∧ td.pending.q = [] := by
  have hw := run_inv h hn
  obtain ⟨x, hx, _⟩ := hw.mid rec hm
  rw [handle_empty (hw.pend p) hx (hw.typ rec hm)]
  rcases hw.typ rec hm with ht | ht
  · have hon : rec ∉ w.seen p := by
      rcases once with h1 | h1
      · exact h1
      · rw [ht] at h1; cases h1
    obtain ⟨hnew, hl, hrr, happ⟩ := apply_insert hw p hm hon ready ht hx
    obtain ⟨hord, _⟩ := hw.order _ hw.compat
    have hord := hord p
    have hfit := hw.fits hw.compat p
    obtain ⟨items', hins⟩ : ∃ items', insertInto (w.reps p).doc.items ⟨⟨x, rec.origin, rec.rorigin⟩, rec.content, false⟩
        (findLeft (w.reps p).doc.items rec.origin) (findRight (w.reps p).doc.items rec.origin rec.rorigin) = .ok items' := by
      by_cases hne : (w.reps p).doc.items = []
      · rw [insertInto, if_pos hne]; exact ⟨_, rfl⟩
      · rw [insertInto_eq hne, left_spec hord.nodup hl]
        obtain ⟨m, hsc⟩ := scan_ok (i := ⟨x, rec.origin, rec.rorigin⟩) ((segment (w.reps p).doc.items
          ((ids (w.reps p).doc.items).idxOf rec.origin) (findRight (w.reps p).doc.items rec.origin rec.rorigin)).map Item.toNode) (by
            rcases ok with h1 | h1 | h1
            · rw [ht] at h1; cases h1
            · exact .inl h1
            · by_cases hro : rec.origin = none
              · exact .inl hro
              · right
                intro o ho hon'
                obtain ⟨it, hit, rfl⟩ := List.mem_map.mp ho
                have hdrop : it ∈ (w.reps p).doc.items.drop ((ids (w.reps p).doc.items).idxOf rec.origin) := by
                  revert hit
                  generalize findRight (w.reps p).doc.items rec.origin rec.rorigin = rr
                  intro hit
                  cases rr with
                  | none => exact hit
                  | some r =>
                    rw [segment] at hit
                    split at hit
                    · rw [List.drop_take] at hit; exact List.mem_of_mem_take hit
                    · exact hit
                have hpos : 0 < (ids (w.reps p).doc.items).idxOf rec.origin := by
                  rcases Nat.eq_zero_or_pos ((ids (w.reps p).doc.items).idxOf rec.origin) with h2 | h2
                  · exact absurd (idx_inj hl (y := none) (by rw [h2]; simp [ids])) hro
                  · exact h2
                generalize (ids (w.reps p).doc.items).idxOf rec.origin = j at hdrop hpos
                have hp := hw.docs p
                have hsm := hw.sm p
                have nd := hord.nodup
                generalize (w.reps p).doc.items = items at hne hord hfit hp hdrop nd
                cases items with
                | nil => exact hne rfl
                | cons a items =>
                  have ha : a.origin = none := by
                    have hav : a.v ∈ ids (a :: items) := by simp [ids]
                    have hia : (ids (a :: items)).idxOf a.v = 1 := idx_at nd (by simp [ids])
                    obtain ⟨h3, h4⟩ := hord.orig a.v hav (by rw [hw.compat.root]; simp [Item.v])
                    rw [hia] at h4
                    have h5 : (linksOf w.made).o a.v = a.origin := (hfit a List.mem_cons_self).o
                    rw [h5] at h3 h4
                    exact idx_inj h3 (y := none) (by rw [show (ids (a :: items)).idxOf none = 0 by simp [ids]]; omega)
                  have hit' : it ∈ items := by
                    cases j with
                    | zero => omega
                    | succ j => rw [List.drop_succ_cons] at hdrop; exact List.mem_of_mem_drop hdrop
                  have := h1 _ (hsm _ (hp.item a List.mem_cons_self)) _ (hsm _ (hp.item it (List.mem_cons_of_mem _ hit'))) rfl rfl ha hon'
                  have hid : a.v = it.v := congrArg Record.id this
                  rw [ids, List.nodup_cons, List.map_cons, List.nodup_cons] at nd
                  exact nd.2.1 (hid ▸ List.mem_map.mpr ⟨it, hit', rfl⟩)) [] [] 0 0
        rw [hsc]
        exact ⟨_, rfl⟩
    rw [happ, hins]
    exact ⟨_, rfl, rfl⟩
  · have hmem : some x ∈ (w.reps p).doc.items.map Item.v := by simpa [ids] using ((hw.docs p).has x).mp (ready.del ht x hx)
    rw [Doc.apply, if_neg (by rw [ht]; simp [recordInsert, recordDelete]), hx]
    simp only [Doc.delete, markDeleted_eq (hw.nodup p) hmem, Option.map_some]
    exact ⟨_, rfl, rfl⟩

/-! ## The failures -/

/-- bytes of `"a"`, `"b"`, `"c"` -/
def ta : Bytes := [97]
def tb : Bytes := [98]
def tc : Bytes := [99]

/-- replica 1 types `a`, replica 2 types `b`, both into the empty document, and replica 1 types `c` behind its `a` -/
def recA : Record := ⟨recordInsert, some ⟨1, 0⟩, none, none, ta⟩
def recB : Record := ⟨recordInsert, some ⟨2, 0⟩, none, none, tb⟩
def recC : Record := ⟨recordInsert, some ⟨1, 1⟩, some ⟨1, 0⟩, none, tc⟩

def itA : Item := ⟨⟨⟨1, 0⟩, none, none⟩, ta, false⟩
def itB : Item := ⟨⟨⟨2, 0⟩, none, none⟩, tb, false⟩
def itC : Item := ⟨⟨⟨1, 1⟩, some ⟨1, 0⟩, none⟩, tc, false⟩

def w1 : World := World.init.make 1 ⟨⟨1, 1, [itA]⟩, ⟨[], 0⟩⟩ recA
def w2 : World := w1.make 2 ⟨⟨2, 1, [itB]⟩, ⟨[], 0⟩⟩ recB
def w3 : World := w2.make 1 ⟨⟨1, 2, [itA, itC]⟩, ⟨[], 0⟩⟩ recC
def w4 : World := w3.put 2 ⟨⟨2, 2, [itA, itB]⟩, ⟨[], 1⟩⟩ recA

theorem run_w1 : Run 1 w1 := Run.ins .init 1 0 ta _ _ rfl
theorem run_w2 : Run 2 w2 := Run.ins run_w1 2 0 tb _ _ rfl
theorem run_w3 : Run 3 w3 := Run.ins run_w2 1 1 tc _ _ rfl

theorem run_w4 : Run 4 w4 := by
  refine Run.recv run_w3 2 _ _ (by simp [w3, w2, w1, World.make]) (.inl ?_) ⟨?_, ?_⟩ rfl
  · simp [w3, w2, w1, World.make, World.put, World.init, recA, recB]
  · intro _ z hz; simp [recA] at hz
  · intro h; cases h

/-- **Handling an operation panics**: replica 2 has typed `b`, and has got `a` of replica 1.  Now the `c` that replica 1 typed behind its `a`
arrives, in causal order. -/
theorem C59_panics : ∃ (n : Nat) (w : World) (p : Nat) (rec : Record), Run n w ∧ rec ∈ w.made ∧ rec ∉ w.seen p ∧ Ready (w.seen p) rec ∧
    (w.reps p).handleRecord rec = .panic := by
  refine ⟨4, w4, 2, recC, run_w4, ?_, ?_, ⟨?_, ?_⟩, rfl⟩
  · simp [w4, w3, w2, w1, World.make, World.put]
  · simp [w4, w3, w2, w1, World.make, World.put, World.init, recA, recB, recC]
  · intro _ z hz
    simp only [recC, Option.some.injEq, reduceCtorEq, or_false] at hz
    subst hz
    exact ⟨recA, by simp [w4, World.put], rfl, rfl⟩
  · intro h; cases h

/-- Replica 3, which gets `c` before `b`, shows all three. -/
theorem C59_panics_other_order : ∃ t1 t2 t3, (TextDoc.new 3).handleRecord recA = .ok t1 ∧ t1.handleRecord recC = .ok t2 ∧
    t2.handleRecord recB = .ok t3 ∧ t3.getText = ta ++ tc ++ tb := ⟨_, _, _, rfl, rfl, rfl, rfl⟩

/-- **Handling the same operation twice shows it twice**: the set of operations is the same, the text is not. -/
theorem C59_duplicate_violated : ∃ t1 t2, (TextDoc.new 2).handleRecord recA = .ok t1 ∧ t1.handleRecord recA = .ok t2 ∧
    t1.getText = ta ∧ t2.getText = ta ++ ta := ⟨_, _, rfl, rfl, rfl, rfl⟩

/-- a deletion of `a` by replica 1 -/
def recD : Record := ⟨recordDelete, some ⟨1, 0⟩, none, none, []⟩
/-- replica 2 types `b` behind the deleted `a` -/
def recE : Record := ⟨recordInsert, some ⟨2, 1⟩, some ⟨1, 0⟩, none, tb⟩

/-- **An operation that is not ready blocks the queue for good**: its deletion arrives before the insertion of `a`, and has the same
priority, so that the insertion waits behind the deletion that waits for it. -/
theorem C59_blocked_violated : ∃ t1 t2 t3 u1 u2 u3,
    (TextDoc.new 3).handleRecord recA = .ok t1 ∧ t1.handleRecord recD = .ok t2 ∧ t2.handleRecord recE = .ok t3 ∧
    (TextDoc.new 3).handleRecord recD = .ok u1 ∧ u1.handleRecord recA = .ok u2 ∧ u2.handleRecord recE = .ok u3 ∧
    t3.getText = tb ∧ u3.getText = [] := ⟨_, _, _, _, _, _, rfl, rfl, rfl, rfl, rfl, rfl, rfl, rfl⟩

/-! ## The queue -/

/-- the document of a new replica after some records (any, in any order), the latest first -/
def docAfter (p : Nat) : List Record → Res TextDoc
  | [] => .ok (TextDoc.new p)
  | r :: rs => (docAfter p rs).bind (·.handleRecord r)

theorem drain_stops (n : Nat) (td td' : TextDoc) (hi : td.pending.Inv clockLt) (hn : td.pending.q.length ≤ n) (h : td.drain n = .ok td') :
    td'.pending.Inv clockLt ∧ ∀ r c, td'.pending.peek = some (r, c) → td'.doc.apply r = .ok none := by
  induction n generalizing td with
  | zero =>
    have hq : td.pending.q = [] := List.length_eq_zero_iff.mp (by omega)
    rw [TextDoc.drain] at h
    injection h with h
    subst h
    exact ⟨hi, fun r c hp => by simp [Util.PQ.peek, hq] at hp⟩
  | succ n ih =>
    rw [TextDoc.drain] at h
    cases hp : td.pending.peek with
    | none =>
      rw [hp] at h
      injection h with h
      subst h
      exact ⟨hi, fun r c hp' => by rw [hp] at hp'; cases hp'⟩
    | some rc =>
      obtain ⟨r, c⟩ := rc
      rw [hp] at h
      dsimp only at h
      have hne : td.pending.q ≠ [] := fun hq => by simp [Util.PQ.peek, hq] at hp
      cases ha : td.doc.apply r with
      | panic => rw [ha] at h; cases h
      | err => rw [ha] at h; cases h
      | ok o =>
        rw [ha] at h
        cases o with
        | none =>
          injection h with h
          subst h
          refine ⟨hi, fun r' c' hp' => ?_⟩
          rw [hp] at hp'
          injection hp' with hp'
          injection hp' with h1 h2
          subst h1
          exact ha
        | some d =>
          obtain ⟨e, s', h1, h2, h3, _⟩ := Util.pq_pop (lt := clockLt) Util.natLt_strictWeak hi hne
          rw [h1] at h
          have hl := h3.length_eq
          simp only [Util.PQ.entries, List.length_map, List.length_cons] at hl
          exact ih ⟨d, s'⟩ h2 (by show s'.q.length ≤ n; omega) h

theorem docAfter_inv (p : Nat) (recs : List Record) (td : TextDoc) (h : docAfter p recs = .ok td) :
    td.pending.Inv clockLt ∧ ∀ r c, td.pending.peek = some (r, c) → td.doc.apply r = .ok none := by
  induction recs generalizing td with
  | nil =>
    injection h with h
    subst h
    exact ⟨⟨fun i x hx => by simp [TextDoc.new, Util.PQ.new] at hx, Util.pqAfter_inv (lt := clockLt) Util.natLt_strictWeak [] _ rfl |>.heap,
      fun e he => by simp [TextDoc.new, Util.PQ.new, Util.PQ.entries] at he, by simp [TextDoc.new, Util.PQ.new, Util.PQ.entries]⟩,
      fun r c hp => by simp [TextDoc.new, Util.PQ.new, Util.PQ.peek] at hp⟩
  | cons r rs ih =>
    cases hd : docAfter p rs with
    | panic => simp [docAfter, hd, Res.bind] at h
    | err => simp [docAfter, hd, Res.bind] at h
    | ok t =>
      obtain ⟨h1, h2⟩ := ih t hd
      have h : t.handleRecord r = .ok td := by simpa [docAfter, hd, Res.bind] using h
      unfold TextDoc.handleRecord at h
      cases hid : r.id with
      | none =>
        rw [hid] at h
        injection h with h
        subst h
        exact ⟨h1, h2⟩
      | some iid =>
        rw [hid] at h
        dsimp only at h
        split at h
        · injection h with h
          subst h
          exact ⟨h1, h2⟩
        · obtain ⟨i, s', g1, g2, _⟩ := Util.pq_push (lt := clockLt) Util.natLt_strictWeak h1 r iid.clock
          rw [g1] at h
          exact drain_stops _ ⟨t.doc, s'⟩ td g2 (Nat.le_refl _) h

/-- What waits in the queue of a replica, whatever arrived and in whatever order, has no operation with a smaller clock than the one in front, and that
one cannot be applied: it is an insertion next to an item that the document does not have, or a deletion of one. -/
theorem C59_drained (p : Nat) (recs : List Record) (td : TextDoc) (h : docAfter p recs = .ok td) (r : Record) (c : Nat) (hp : td.pending.peek = some (r, c)) :
    td.doc.apply r = .ok none ∧ (r.typ ≠ recordInsert → ∀ x ∈ td.doc.items, some x.id ≠ r.id) ∧
      ∀ e ∈ td.pending.entries, c ≤ e.prio := by
  obtain ⟨hi, ha⟩ := docAfter_inv p recs td h
  have hn := ha r c hp
  refine ⟨hn, ?_, ?_⟩
  · intro ht x hx hid
    unfold Doc.apply at hn
    rw [if_neg ht] at hn
    injection hn with hn
    unfold Doc.delete at hn
    rw [← hid] at hn
    dsimp only at hn
    rw [Option.map_eq_none_iff] at hn
    have : ∀ (items : List Item), x ∈ items → markDeleted x.id items ≠ none := by
      intro items
      induction items with
      | nil => intro hx; cases hx
      | cons y ys ih =>
        intro hx
        rw [markDeleted]
        split
        · simp
        · rename_i hy
          rcases List.mem_cons.mp hx with rfl | hx
          · exact absurd rfl hy
          · simpa using ih hx
    exact this _ hx hn
  · intro e he
    have hl : 0 < td.pending.entries.length := List.length_pos_of_mem he
    have h0 : td.pending.entries[0].prio = c := by
      have hl' : 0 < td.pending.q.length := by simpa [Util.PQ.entries] using hl
      rw [Util.PQ.peek, List.getElem?_eq_getElem hl'] at hp
      simp only [Option.map_some, Option.some.injEq, Prod.mk.injEq] at hp
      simp only [Util.PQ.entries, List.getElem_map, Util.Item.entry]
      exact hp.2
    obtain ⟨k, hk, rfl⟩ := List.mem_iff_getElem.mp he
    have := Util.root_le (Util.entryLt_strictWeak (lt := clockLt) Util.natLt_strictWeak) hi.heap k hk _ _ (List.getElem?_eq_getElem hl) (List.getElem?_eq_getElem hk)
    simp only [Util.entryLt, clockLt, h0, decide_eq_false_iff_not] at this
    omega

/-- the hypotheses are met: an insertion behind an unknown item waits, and one with a greater clock waits behind it -/
example : ∃ td, docAfter 3 [⟨recordInsert, some ⟨1, 6⟩, none, none, [99]⟩, ⟨recordInsert, some ⟨1, 5⟩, some ⟨1, 4⟩, none, [98]⟩] = .ok td ∧
    td.pending.peek = some (⟨recordInsert, some ⟨1, 5⟩, some ⟨1, 4⟩, none, [98]⟩, 5) := ⟨_, rfl, rfl⟩

/-! ## The hypotheses can be met -/

def w5 : World := w2.put 2 ⟨⟨2, 2, [itA, itB]⟩, ⟨[], 1⟩⟩ recA
def w6 : World := w5.put 1 ⟨⟨1, 2, [itA, itB]⟩, ⟨[], 1⟩⟩ recB

/-- two replicas type at the same place and exchange what they typed -/
theorem run_w6 : Run 4 w6 := by
  refine Run.recv (w := w5) ?_ 1 _ _ (by simp [w5, w2, w1, World.make, World.put]) (.inl ?_) ⟨?_, ?_⟩ rfl
  · refine Run.recv run_w2 2 _ _ (by simp [w2, w1, World.make]) (.inl ?_) ⟨?_, ?_⟩ rfl
    · simp [w2, w1, World.make, World.put, World.init, recA, recB]
    · intro _ z hz; simp [recA] at hz
    · intro h; cases h
  · simp [w5, w2, w1, World.make, World.put, World.init, recA, recB]
  · intro _ z hz; simp [recB] at hz
  · intro h; cases h

example : (w6.reps 1).getText = (w6.reps 2).getText ∧ (w6.reps 1).getText = ta ++ tb :=
  ⟨C59_converge_partial run_w6 (by decide) 1 2 (by
    intro r
    simp only [w6, w5, w2, w1, World.make, World.put, World.init]
    simp [or_comm]), rfl⟩

/-- `C59_no_panic_partial` with the third alternative: in `w1` only `a` was typed at the very beginning -/
example : ∃ td, (w1.reps 2).handleRecord recA = .ok td ∧ td.pending.q = [] := by
  refine C59_no_panic_partial run_w1 (by decide) 2 recA (by simp [w1, World.make]) (.inl ?_) ⟨?_, ?_⟩ (.inr (.inr ?_))
  · simp [w1, World.make, World.put, World.init]
  · intro _ z hz; simp [recA] at hz
  · intro h; cases h
  · intro r hr s hs _ _ _ _
    simp only [w1, World.make, World.init, List.mem_singleton] at hr hs
    rw [hr, hs]

end Ndn.Crdt
