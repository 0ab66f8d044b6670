import Verif.Schema.Leaf
import Verif.Schema.MemStoreProps
import Verif.Packet.MakeProps

/-! # Properties of leaf nodes with storages: C81 -/

namespace Ndn.Schema
open Ndn.Engine Ndn.Packet Ndn.Codec

/-! ## Specification -/

/-- the operation saves the packet `raw` under `name` in storage `k`, if it does not panic -/
def LeafOp.Saves (k : Nat) (name : Name) (raw : Wire) : LeafOp → Prop
  | .provide n nm content cfg signer =>
    k ∈ n.stores ∧ nm = some name ∧ ∃ e, makeData nm (some (n.dataCfg cfg)) content signer = .ok e ∧ e.wire = raw
  | .received ks nm r _ => k ∈ ks ∧ nm = name ∧ r = raw
  | .tick _ => False
  | .attach _ => False

/-- the names of the packets that are saved have numbers in shortest form -/
def LeafCanon (ops : List LeafOp) : Prop := ∀ op ∈ ops, ∀ k name raw, op.Saves k name raw → Canon name

/-! ## What the storages hold -/

/-- what was put into the storages, most recent first -/
def Holds (z : Int) (w : LeafWorld) (h : Nat → List (Name × CacheEntry)) : Prop := ∀ k, (w.store k).tree = memAfter z (h k)

theorem memAfter_cons (z : Int) (p : Name × CacheEntry) (ps : List (Name × CacheEntry)) :
    memAfter z (p :: ps) = memPut z (memAfter z ps) p.1 p.2.raw p.2.validity := rfl

theorem save_spec {z : Int} {name : Name} {raw : Wire} {dur : Option Int} {w w' : LeafWorld} {k : Nat} (h : w.save z name raw dur k = .ok w')
    {hs : Nat → List (Name × CacheEntry)} (hh : Holds z w hs) :
    (w.store k).timer = true ∧ w'.now = w.now ∧ (∀ j, (w'.store j).timer = (w.store j).timer) ∧
    Holds z w' (fun j => if j = k then (name, ⟨raw, w.now + dur.getD 0⟩) :: hs j else hs j) := by
  unfold LeafWorld.save at h
  by_cases ht : (w.store k).timer = true
  · rw [if_pos ht] at h
    cases dur with
    | none => exact (nomatch h)
    | some d =>
      simp only [memSave, Res.map] at h
      injection h with h
      subst h
      refine ⟨ht, rfl, fun j => ?_, fun j => ?_⟩
      · show (if j = k then _ else w.store j : Store).timer = _
        split
        · next hj => subst hj; rfl
        · rfl
      · show (if j = k then _ else w.store j : Store).tree = _
        by_cases hj : j = k
        · subst hj
          simp only [if_true]
          rw [memAfter_cons]
          show memPut z (w.store j).tree _ _ _ = _
          rw [hh j]
          rfl
        · simp only [if_neg hj]
          exact hh j
  · rw [if_neg ht] at h
    exact (nomatch h)

theorem saveAll_spec {z : Int} {name : Name} {raw : Wire} {dur : Option Int} (ks : List Nat) {w w' : LeafWorld}
    (h : saveAll z name raw dur ks w = .ok w') {hs : Nat → List (Name × CacheEntry)} (hh : Holds z w hs) :
    (∀ k ∈ ks, (w.store k).timer = true) ∧ w'.now = w.now ∧ (∀ j, (w'.store j).timer = (w.store j).timer) ∧
    Holds z w' (fun j => List.replicate (ks.count j) (name, ⟨raw, w.now + dur.getD 0⟩) ++ hs j) := by
  induction ks generalizing w hs with
  | nil =>
    injection h with h
    subst h
    exact ⟨fun _ hk => (nomatch hk), rfl, fun _ => rfl, fun j => hh j⟩
  | cons k ks ih =>
    unfold saveAll at h
    cases h1 : w.save z name raw dur k with
    | panic => rw [h1] at h; exact (nomatch h)
    | err x => rw [h1] at h; exact (nomatch h)
    | ok w1 =>
      rw [h1] at h
      obtain ⟨ht, hn, htm, hh1⟩ := save_spec h1 hh
      obtain ⟨g1, g2, g3, g4⟩ := ih h hh1
      refine ⟨fun j hj => ?_, g2.trans hn, fun j => (g3 j).trans (htm j), fun j => ?_⟩
      · rcases List.mem_cons.mp hj with rfl | hj
        · exact ht
        · rw [← htm j]; exact g1 j hj
      · rw [g4 j, hn]
        by_cases hj : j = k
        · subst hj
          simp only [if_true, List.count_cons_self, List.replicate_succ']
          rw [List.append_assoc]
          rfl
        · simp only [if_neg hj, List.count_cons_of_ne (fun h : k = j => hj h.symm)]

theorem makeData_name {name : Option Name} {cfg : Option DataConfig} {content : Option Wire} {sg : Option Signer} {e : Encoded}
    (h : makeData name cfg content sg = .ok e) : ∃ n, name = some n := by
  cases name with
  | none => exact (nomatch h)
  | some n => exact ⟨n, rfl⟩

theorem provide_spec {z : Int} {n : LeafCfg} {name : Option Name} {content : Option Wire} {cfg : Option DataConfig} {sg : Option Signer} {w w' : LeafWorld}
    {r : Option Wire} (h : provide z n name content cfg sg w = .ok (r, w')) :
    n.attached = true ∧ ((∃ x, makeData name (some (n.dataCfg cfg)) content sg = .err x ∧ r = none ∧ w' = w) ∨
      ∃ nm e, name = some nm ∧ makeData name (some (n.dataCfg cfg)) content sg = .ok e ∧ r = some e.wire ∧
        saveAll z nm e.wire (some n.validDur) n.stores w = .ok w') := by
  unfold provide at h
  by_cases ha : n.attached = true
  · rw [if_pos ha] at h
    refine ⟨ha, ?_⟩
    cases hm : makeData name (some (n.dataCfg cfg)) content sg with
    | panic => rw [hm] at h; exact (nomatch h)
    | err x =>
      rw [hm] at h
      injection h with h
      injection h with h1 h2
      exact Or.inl ⟨x, rfl, h1.symm, h2.symm⟩
    | ok e =>
      rw [hm] at h
      simp only at h
      obtain ⟨nm, rfl⟩ := makeData_name hm
      cases hs : saveAll z ((some nm).getD []) e.wire (some n.validDur) n.stores w with
      | panic => rw [hs] at h; exact (nomatch h)
      | err x => rw [hs] at h; exact (nomatch h)
      | ok w1 =>
        rw [hs] at h
        injection h with h
        injection h with h1 h2
        subst h2
        exact Or.inr ⟨nm, e, rfl, rfl, h1.symm, hs⟩
  · rw [if_neg ha] at h
    exact (nomatch h)

theorem step_spec {z : Int} {op : LeafOp} {w w' : LeafWorld} (h : op.step z w = .ok w') {hs : Nat → List (Name × CacheEntry)} (hh : Holds z w hs) :
    (∀ j, (w.store j).timer = true → (w'.store j).timer = true) ∧
    ∃ ext : Nat → List (Name × CacheEntry), Holds z w' (fun j => ext j ++ hs j) ∧ ∀ j, ∀ p ∈ ext j, op.Saves j p.1 p.2.raw := by
  cases op with
  | provide n name content cfg sg =>
    unfold LeafOp.step at h
    simp only at h
    cases hp : provide z n name content cfg sg w with
    | panic => rw [hp] at h; exact (nomatch h)
    | err x => rw [hp] at h; exact (nomatch h)
    | ok q =>
      obtain ⟨r, w1⟩ := q
      rw [hp] at h
      injection h with h
      subst h
      rcases (provide_spec hp).2 with ⟨x, _, _, rfl⟩ | ⟨nm, e, rfl, hm, _, hs1⟩
      · exact ⟨fun _ h => h, fun _ => [], hh, fun _ _ hp => (nomatch hp)⟩
      · obtain ⟨_, _, g3, g4⟩ := saveAll_spec _ hs1 hh
        refine ⟨fun j hj => (g3 j).trans hj, _, g4, fun j p hp => ?_⟩
        obtain ⟨h0, rfl⟩ := List.mem_replicate.mp hp
        exact ⟨List.count_pos_iff.mp (Nat.pos_of_ne_zero h0), rfl, e, hm, rfl⟩
  | received ks name raw fresh =>
    obtain ⟨_, _, g3, g4⟩ := saveAll_spec _ (show saveAll z name raw fresh ks w = .ok w' from h) hh
    refine ⟨fun j hj => (g3 j).trans hj, _, g4, fun j p hp => ?_⟩
    obtain ⟨h0, rfl⟩ := List.mem_replicate.mp hp
    exact ⟨List.count_pos_iff.mp (Nat.pos_of_ne_zero h0), rfl, rfl⟩
  | tick d =>
    injection h with h
    subst h
    exact ⟨fun _ h => h, fun _ => [], hh, fun _ _ hp => (nomatch hp)⟩
  | attach k =>
    injection h with h
    subst h
    refine ⟨fun j hj => ?_, fun _ => [], fun j => ?_, fun _ _ hp => (nomatch hp)⟩
    · show (if j = k then _ else w.store j : Store).timer = true
      split
      · rfl
      · exact hj
    · show (if j = k then _ else w.store j : Store).tree = _
      split
      · next hj => subst hj; exact hh j
      · exact hh j

theorem run_spec {z : Int} (ops : List LeafOp) {w w' : LeafWorld} (h : leafRun z ops w = .ok w') {hs : Nat → List (Name × CacheEntry)} (hh : Holds z w hs) :
    (∀ j, (w.store j).timer = true → (w'.store j).timer = true) ∧
    ∃ ext : Nat → List (Name × CacheEntry), Holds z w' (fun j => ext j ++ hs j) ∧ ∀ j, ∀ p ∈ ext j, ∃ op ∈ ops, op.Saves j p.1 p.2.raw := by
  induction ops generalizing w hs with
  | nil =>
    injection h with h
    subst h
    exact ⟨fun _ h => h, fun _ => [], hh, fun _ _ hp => (nomatch hp)⟩
  | cons op ops ih =>
    unfold leafRun at h
    cases h1 : op.step z w with
    | panic => rw [h1] at h; exact (nomatch h)
    | err x => rw [h1] at h; exact (nomatch h)
    | ok w1 =>
      rw [h1] at h
      obtain ⟨t1, e1, hh1, s1⟩ := step_spec h1 hh
      obtain ⟨t2, e2, hh2, s2⟩ := ih h hh1
      refine ⟨fun j hj => t2 j (t1 j hj), fun j => e2 j ++ e1 j, fun j => ?_, fun j p hp => ?_⟩
      · rw [hh2 j]
        simp only [List.append_assoc]
      · rcases List.mem_append.mp hp with hp | hp
        · obtain ⟨o, ho, hso⟩ := s2 j p hp
          exact ⟨o, List.mem_cons_of_mem _ ho, hso⟩
        · exact ⟨op, List.mem_cons_self, s1 j p hp⟩

theorem holds_new (z now : Int) : Holds z (LeafWorld.new z now) (fun _ => []) := fun _ => rfl

theorem leafRun_append (z : Int) (a b : List LeafOp) (w : LeafWorld) : leafRun z (a ++ b) w = (leafRun z a w).bind (leafRun z b) := by
  induction a generalizing w with
  | nil => rfl
  | cons op a ih =>
    show (op.step z w).bind _ = ((op.step z w).bind _).bind _
    cases op.step z w with
    | ok w1 => exact ih w1
    | err x => rfl
    | panic => rfl

theorem searchCache_head {z : Int} {ord : Nat → List (Bytes × Nat) → List (Bytes × Nat)} {k : Nat} {ks : List Nat} {w : LeafWorld} {name : Name}
    {cp mf : Bool} {raw : Wire} (h : w.search z ord name cp mf k = some raw) (hr : raw ≠ []) : searchCache z ord (k :: ks) w name cp mf = some raw := by
  have hl : 0 < raw.length := List.length_pos_iff.mpr hr
  unfold searchCache dispatchUntil dispatchLoop
  simp only [h, hl, decide_true, if_true]

theorem searchCache_some {z : Int} {ord : Nat → List (Bytes × Nat) → List (Bytes × Nat)} {ks : List Nat} {w : LeafWorld} {name : Name} {cp mf : Bool}
    {raw : Wire} (h : searchCache z ord ks w name cp mf = some raw) : ∃ k ∈ ks, w.search z ord name cp mf k = some raw := by
  unfold searchCache dispatchUntil at h
  have key : ∀ (ks : List Nat) (ret : Option Wire),
      (dispatchLoop (fun k (s : LeafWorld) => (s.search z ord name cp mf k, s))
        (some fun a => match a with | some x => decide (0 < x.length) | none => false) ks ret w).1 = some raw →
      ret = some raw ∨ ∃ k ∈ ks, w.search z ord name cp mf k = some raw := by
    intro ks
    induction ks with
    | nil => intro ret h; exact Or.inl h
    | cons k ks ih =>
      intro ret h
      unfold dispatchLoop at h
      simp only at h
      right
      by_cases ha : (match w.search z ord name cp mf k with | some x => decide (0 < x.length) | none => false) = true
      · rw [if_pos ha] at h
        exact ⟨k, List.mem_cons_self, h⟩
      · rw [if_neg ha] at h
        rcases ih _ h with h | ⟨j, hj, h⟩
        · exact ⟨k, List.mem_cons_self, h⟩
        · exact ⟨j, List.mem_cons_of_mem _ hj, h⟩
  rcases key ks none h with h | h
  · exact (nomatch h)
  · exact h

/-- the storages after a `Provide` and further operations that save nothing under the name in storage `k` -/
theorem provided_holds {z now : Int} {ops1 ops2 : List LeafOp} {w1 w2 w3 : LeafWorld} {n : LeafCfg} {name : Name} {content : Option Wire}
    {cfg : Option DataConfig} {sg : Option Signer} {raw : Wire} {k : Nat} (h1 : leafRun z ops1 (LeafWorld.new z now) = .ok w1)
    (h2 : provide z n (some name) content cfg sg w1 = .ok (some raw, w2)) (h3 : leafRun z ops2 w2 = .ok w3) (hk : k ∈ n.stores)
    (hc1 : LeafCanon ops1) (hc2 : LeafCanon ops2) (hn : Canon name) (ho : ∀ op ∈ ops2, ∀ r, ¬op.Saves k name r) :
    (w3.store k).timer = true ∧ ∃ puts, (w3.store k).tree = memAfter z puts ∧ (∀ p ∈ puts, Canon p.1) ∧
      lastPut puts name = some ⟨raw, w1.now + n.validDur⟩ ∧
      ∀ p ∈ puts, p.1 ≠ name → ∃ op ∈ ops1 ++ ops2, op.Saves k p.1 p.2.raw := by
  obtain ⟨_, e1, hh1, s1⟩ := run_spec ops1 h1 (holds_new z now)
  rcases (provide_spec h2).2 with ⟨x, _, hr, _⟩ | ⟨nm, e, hnm, hm, hr, hs⟩
  · exact (nomatch hr)
  injection hnm with hnm
  injection hr with hr
  subst hnm hr
  obtain ⟨g1, _, g3, g4⟩ := saveAll_spec _ hs hh1
  obtain ⟨t3, e3, hh3, s3⟩ := run_spec ops2 h3 g4
  refine ⟨t3 k ((g3 k).trans (g1 k hk)), _, hh3 k, fun p hp => ?_, ?_, fun p hp hne => ?_⟩
  · rcases List.mem_append.mp hp with hp | hp
    · obtain ⟨op, hop, hs⟩ := s3 k p hp
      exact hc2 op hop k _ _ hs
    · rcases List.mem_append.mp hp with hp | hp
      · obtain ⟨_, rfl⟩ := List.mem_replicate.mp hp
        exact hn
      · rw [List.append_nil] at hp
        obtain ⟨op, hop, hs⟩ := s1 k p hp
        exact hc1 op hop k _ _ hs
  · unfold lastPut
    have hnone : (e3 k).find? (fun p => p.1 = name) = none := by
      rw [List.find?_eq_none]
      intro p hp hpn
      obtain ⟨op, hop, hs⟩ := s3 k p hp
      rw [of_decide_eq_true hpn] at hs
      exact ho op hop _ hs
    rw [List.find?_append, hnone]
    obtain ⟨c, hc⟩ := Nat.exists_eq_succ_of_ne_zero (Nat.pos_iff_ne_zero.mp (List.count_pos_iff.mpr hk))
    rw [hc]
    simp [List.replicate_succ]
  · rcases List.mem_append.mp hp with hp | hp
    · obtain ⟨op, hop, hs⟩ := s3 k p hp
      exact ⟨op, List.mem_append_right _ hop, hs⟩
    · rcases List.mem_append.mp hp with hp | hp
      · obtain ⟨_, rfl⟩ := List.mem_replicate.mp hp
        exact absurd rfl hne
      · rw [List.append_nil] at hp
        obtain ⟨op, hop, hs⟩ := s1 k p hp
        exact ⟨op, List.mem_append_left _ hop, hs⟩

/-! ## The properties -/

/-- C81: a packet that `Provide` returned is the answer of the storage to queries for its name, whatever the program did before and whatever is saved
afterwards under other names, until its validity ends (if a fresh packet is wanted); an Interest for its name, or for its name and any implicit
digest, is answered with this packet, whatever validators the node has. -/
theorem C81_answered (z now : Int) (ops1 ops2 : List LeafOp) (w1 w2 w3 : LeafWorld) (n : LeafCfg) (name : Name) (content : Option Wire)
    (cfg : Option DataConfig) (sg : Option Signer) (raw : Wire) (k : Nat) (h1 : leafRun z ops1 (LeafWorld.new z now) = .ok w1)
    (h2 : provide z n (some name) content cfg sg w1 = .ok (some raw, w2)) (h3 : leafRun z ops2 w2 = .ok w3) (hk : k ∈ n.stores)
    (hc1 : LeafCanon ops1) (hc2 : LeafCanon ops2) (hn : Canon name) (ho : ∀ op ∈ ops2, ∀ r, ¬op.Saves k name r) (hraw : raw ≠ [])
    (ord : Nat → List (Bytes × Nat) → List (Bytes × Nat)) (ks : List Nat) (canBePrefix mustBeFresh : Bool)
    (hv : mustBeFresh = true → w3.now < w1.now + n.validDur) :
    searchCache z ord (k :: ks) w3 name canBePrefix mustBeFresh = some raw ∧
    ∀ (S : Type) (i : InterestV) (v : Listeners S VAns) (s : S), i.mustBeFresh = mustBeFresh → i.canBePrefix = canBePrefix →
      (i.name = some name ∧ name ≠ [] ∧ (∀ c, name.getLast? = some c → c.typ ≠ 1) ∨ ∃ d, i.name = some (name ++ [⟨1, d⟩])) →
      leafOnInterest z ord (k :: ks) w3 i v s = .replied raw := by
  obtain ⟨ht, puts, htree, hcan, hl, _⟩ := provided_holds h1 h2 h3 hk hc1 hc2 hn ho
  have hs : searchCache z ord (k :: ks) w3 name canBePrefix mustBeFresh = some raw := by
    refine searchCache_head ?_ hraw
    unfold LeafWorld.search
    rw [ht, if_pos rfl, htree]
    exact C53_found z puts hcan name hn ord w3.now canBePrefix mustBeFresh _ hl ⟨hraw, hv⟩
  refine ⟨hs, fun S i v s hf hp hi => ?_⟩
  have hne : raw.isEmpty = false := by cases raw with | nil => exact absurd rfl hraw | cons _ _ => rfl
  unfold leafOnInterest onInterest
  rw [hf, hp]
  rcases hi with ⟨hi, hnn, hlast⟩ | ⟨d, hi⟩
  · rw [hi, Option.getD_some]
    obtain ⟨c, hc⟩ : ∃ c, name.getLast? = some c := by
      cases hc : name.getLast? with
      | none => exact absurd (List.getLast?_eq_none_iff.mp hc) hnn
      | some c => exact ⟨c, rfl⟩
    have hst : dataNameOf name = name := by unfold dataNameOf; rw [hc]; exact if_neg (hlast c hc)
    rw [hst, hs, hc]
    simp [hne]
  · rw [hi, Option.getD_some]
    have hst : dataNameOf (name ++ [⟨1, d⟩]) = name := by simp [dataNameOf]
    rw [hst, hs, List.getLast?_concat]
    simp [hne]

/-- C81: when a fresh packet is wanted after the validity of the provided packet has ended, this packet is not the answer: what is answered was saved
under a longer name. -/
theorem C81_expired (z now : Int) (ops1 ops2 : List LeafOp) (w1 w2 w3 : LeafWorld) (n : LeafCfg) (name : Name) (content : Option Wire)
    (cfg : Option DataConfig) (sg : Option Signer) (raw : Wire) (k : Nat) (h1 : leafRun z ops1 (LeafWorld.new z now) = .ok w1)
    (h2 : provide z n (some name) content cfg sg w1 = .ok (some raw, w2)) (h3 : leafRun z ops2 w2 = .ok w3) (hk : k ∈ n.stores)
    (hc1 : LeafCanon ops1) (hc2 : LeafCanon ops2) (hn : Canon name) (ho : ∀ op ∈ ops2, ∀ r, ¬op.Saves k name r)
    (ord : Nat → List (Bytes × Nat) → List (Bytes × Nat)) (hord : ∀ i l, (ord i l).Perm l) (canBePrefix : Bool)
    (hv : w1.now + n.validDur ≤ w3.now) (r : Wire) (hr : searchCache z ord [k] w3 name canBePrefix true = some r) :
    ∃ m, name <+: m ∧ m ≠ name ∧ ∃ op ∈ ops1 ++ ops2, op.Saves k m r := by
  obtain ⟨ht, puts, htree, hcan, hl, hfrom⟩ := provided_holds h1 h2 h3 hk hc1 hc2 hn ho
  obtain ⟨j, hj, hs⟩ := searchCache_some hr
  rw [List.mem_singleton] at hj
  subst hj
  unfold LeafWorld.search at hs
  rw [ht, if_pos rfl, htree] at hs
  obtain ⟨m, e, hpre, hlm, rfl, hu⟩ := C53_answer_partial z puts hcan name hn ord hord _ _ _ _ hs
  have hne : m ≠ name := by
    rintro rfl
    rw [hl] at hlm
    injection hlm with hlm
    subst hlm
    exact absurd (hu.2 rfl) (by simp only; omega)
  refine ⟨m, hpre, hne, ?_⟩
  unfold lastPut at hlm
  cases hf : puts.find? (fun p => p.1 = m) with
  | none => rw [hf] at hlm; exact (nomatch hlm)
  | some p =>
    rw [hf] at hlm
    injection hlm with hlm
    have hp1 : p.1 = m := by simpa using List.find?_some hf
    have := hfrom p (List.mem_of_find?_eq_some hf) (by rw [hp1]; exact hne)
    rw [hp1, show p.2 = e from hlm] at this
    exact this

/-- C81: whatever a search answers is a packet that was provided or received under the name or an extension of it, at a node with one of the storages
that are searched. -/
theorem C81_from_storage (z now : Int) (ops : List LeafOp) (w : LeafWorld) (h : leafRun z ops (LeafWorld.new z now) = .ok w) (hc : LeafCanon ops)
    (name : Name) (hn : Canon name) (ord : Nat → List (Bytes × Nat) → List (Bytes × Nat)) (hord : ∀ i l, (ord i l).Perm l) (ks : List Nat)
    (canBePrefix mustBeFresh : Bool) (r : Wire) (hr : searchCache z ord ks w name canBePrefix mustBeFresh = some r) :
    r ≠ [] ∧ ∃ k ∈ ks, ∃ m, name <+: m ∧ ∃ op ∈ ops, op.Saves k m r := by
  obtain ⟨_, ext, hh, hs⟩ := run_spec ops h (holds_new z now)
  obtain ⟨k, hk, hg⟩ := searchCache_some hr
  unfold LeafWorld.search at hg
  rw [hh k] at hg
  simp only [List.append_nil] at hg
  obtain ⟨m, e, hpre, hl, rfl, hu⟩ := C53_answer_partial z (ext k) (fun p hp => by
    obtain ⟨op, hop, hsv⟩ := hs k p hp
    exact hc op hop k _ _ hsv) name hn ord hord _ _ _ _ hg
  refine ⟨hu.1, k, hk, m, hpre, ?_⟩
  unfold lastPut at hl
  cases hf : (ext k).find? (fun p => p.1 = m) with
  | none => rw [hf] at hl; exact (nomatch hl)
  | some p =>
    rw [hf] at hl
    injection hl with hl
    have hp1 : p.1 = m := by simpa using List.find?_some hf
    have := hs k p (List.mem_of_find?_eq_some hf)
    rw [hp1, show p.2 = e from hl] at this
    exact this

/-- C81: what was provided can be had again with `Need`: the callback gets a Data with the name, the content, and the content type, freshness and final
block id that `Provide` was given (or that the node has), without an Interest.  The restrictions are those of `C27_data_round_trip_partial`. -/
theorem C81_need_partial (z now : Int) (ops1 ops2 : List LeafOp) (w1 w2 w3 : LeafWorld) (n : LeafCfg) (name : Name) (content : Option Wire)
    (cfg : Option DataConfig) (sg : Option Signer) (raw : Wire) (k : Nat) (h1 : leafRun z ops1 (LeafWorld.new z now) = .ok w1)
    (h2 : provide z n (some name) content cfg sg w1 = .ok (some raw, w2)) (h3 : leafRun z ops2 w2 = .ok w3) (hk : k ∈ n.stores)
    (hc1 : LeafCanon ops1) (hc2 : LeafCanon ops2) (hn : Canon name) (ho : ∀ op ∈ ops2, ∀ r, ¬op.Saves k name r)
    (ord : Nat → List (Bytes × Nat) → List (Bytes × Nat)) (ks : List Nat) (canBePrefix mustBeFresh : Bool)
    (hv : mustBeFresh = true → w3.now < w1.now + n.validDur)
    (hname : ∀ c ∈ name, c.Small) (hct : ∀ t, (n.dataCfg cfg).contentType = some t → t < 2 ^ 64)
    (hfr : ∀ d, (n.dataCfg cfg).freshness = some d → WholeMs d) (hfb : ∀ c, (n.dataCfg cfg).finalBlock = some c → c.Small)
    (hkey : ∀ c nm, signerConfig sg = some c → c.keyName = some nm → ∀ x ∈ nm, x.Small)
    (hty : ∀ c, signerConfig sg = some c → -2 ^ 63 ≤ c.typ ∧ c.typ < 2 ^ 63)
    (hsig : ∀ s cov sig, sg = some s → s.sign cov = some sig → s.est ≤ 252 ∨ (253 ≤ sig.length ∧ s.est / 256 = sig.length / 256 ∧ s.est < 2 ^ 63))
    (hl : raw.flatten.length < 2 ^ 43) :
    ∃ d, needCached z ord (k :: ks) w3 name canBePrefix mustBeFresh = some d ∧ d.name = some name ∧ d.content = content.map (fun w => [w.flatten]) ∧
      d.contentType = (n.dataCfg cfg).contentType ∧ d.freshness = (n.dataCfg cfg).freshness ∧ d.finalBlockID = (n.dataCfg cfg).finalBlock := by
  rcases (provide_spec h2).2 with ⟨x, _, hr, _⟩ | ⟨nm, e, hnm, hm, hr, hs⟩
  · exact (nomatch hr)
  injection hnm with hnm
  injection hr with hr
  subst hnm hr
  obtain ⟨d, cov, hrd, g1, g2, g3, g4, g5, _⟩ := C27_data_round_trip_partial name (n.dataCfg cfg) content sg e hm hname hct hfr hfb hkey hty
    (fun s sig a b => hsig s _ sig a b) hl _ (Nat.lt_succ_self _)
  have hraw : e.wire ≠ [] := by
    intro h0
    rw [h0] at hrd
    exact absurd hrd (by intro h; cases h)
  obtain ⟨hsc, _⟩ := C81_answered z now ops1 ops2 w1 w2 w3 n name content cfg sg e.wire k h1 h2 h3 hk hc1 hc2 hn ho hraw ord ks canBePrefix mustBeFresh hv
  refine ⟨d, ?_, g1, g5, g2, g3, g4⟩
  unfold needCached
  rw [hsc]
  simp only
  rw [hrd]

theorem saveAll_ok (z : Int) (name : Name) (raw : Wire) (d : Int) (ks : List Nat) (w : LeafWorld) (ht : ∀ k ∈ ks, (w.store k).timer = true) :
    ∃ w', saveAll z name raw (some d) ks w = .ok w' ∧ w'.now = w.now := by
  induction ks generalizing w with
  | nil => exact ⟨w, rfl, rfl⟩
  | cons k ks ih =>
    unfold saveAll LeafWorld.save
    rw [if_pos (ht k List.mem_cons_self)]
    simp only [memSave, Res.map, Res.bind]
    obtain ⟨w', h1, h2⟩ := ih { w with store := fun j => if j = k then { w.store k with tree := memPut z (w.store k).tree name raw (w.now + d) } else w.store j }
      (fun j hj => by
        show (if j = k then _ else w.store j : Store).timer = true
        split
        · exact ht k List.mem_cons_self
        · exact ht j (List.mem_cons_of_mem _ hj))
    exact ⟨w', h1, h2⟩

theorem saveAll_panic (z : Int) (name : Name) (raw : Wire) (d : Int) (ks : List Nat) (w : LeafWorld) (ht : ∃ k ∈ ks, (w.store k).timer = false) :
    saveAll z name raw (some d) ks w = .panic := by
  induction ks generalizing w with
  | nil => obtain ⟨k, hk, _⟩ := ht; exact (nomatch hk)
  | cons k ks ih =>
    unfold saveAll LeafWorld.save
    by_cases hk : (w.store k).timer = true
    · rw [if_pos hk]
      simp only [memSave, Res.map, Res.bind]
      refine ih _ ?_
      obtain ⟨j, hj, hf⟩ := ht
      have hne : j ≠ k := by rintro rfl; rw [hf] at hk; exact (nomatch hk)
      refine ⟨j, (List.mem_cons.mp hj).resolve_left hne, ?_⟩
      show (if j = k then _ else w.store j : Store).timer = false
      rw [if_neg hne]
      exact hf
    · rw [if_neg hk]
      rfl

/-- C81: `Provide` returns the packet that `MakeData` makes if the node is attached and its storages were applied before that; without a signer
`MakeData` succeeds. -/
theorem C81_provides (z : Int) (n : LeafCfg) (name : Name) (content : Option Wire) (cfg : Option DataConfig) (sg : Option Signer) (w : LeafWorld)
    (ha : n.attached = true) (ht : ∀ k ∈ n.stores, (w.store k).timer = true) :
    (∀ e, makeData (some name) (some (n.dataCfg cfg)) content sg = .ok e →
      ∃ w', provide z n (some name) content cfg sg w = .ok (some e.wire, w') ∧ w'.now = w.now) ∧
    ∃ e, makeData (some name) (some (n.dataCfg cfg)) content none = .ok e ∧ e.wire ≠ [] := by
  constructor
  · intro e he
    obtain ⟨w', h1, h2⟩ := saveAll_ok z name e.wire n.validDur n.stores w ht
    refine ⟨w', ?_, h2⟩
    unfold provide
    rw [if_pos ha, he]
    simp only [Option.getD_some, h1, Res.map]
  · obtain ⟨wr, s, h1, h2⟩ := data_unsigned (v := dataOf name (n.dataCfg cfg) content none) rfl
    refine ⟨{ wire := wr, covered := [] }, ?_, ?_⟩
    · simp only [makeData, dataSig, Res.bind, h1]
      rfl
    · intro h0
      simp only at h0
      subst h0
      exact absurd h2 (by simp [tlv, tlEnc])

/-- C81: when `MakeData` fails, `Provide` returns nil and leaves the storages as they are. -/
theorem C81_refused (z : Int) (n : LeafCfg) (name : Option Name) (content : Option Wire) (cfg : Option DataConfig) (sg : Option Signer) (w : LeafWorld)
    (ha : n.attached = true) (x : Err) (h : makeData name (some (n.dataCfg cfg)) content sg = .err x) :
    provide z n name content cfg sg w = .ok (none, w) := by
  unfold provide
  rw [if_pos ha, h]

/-- C81 fails: before the tree is attached `Provide` panics; so it does at a node with a storage that was applied after the tree was attached, whenever
the packet can be made. -/
theorem C81_provide_panics (z : Int) (n : LeafCfg) (name : Option Name) (content : Option Wire) (cfg : Option DataConfig) (sg : Option Signer) (w : LeafWorld) :
    (n.attached = false → provide z n name content cfg sg w = .panic) ∧
    ((∃ k ∈ n.stores, (w.store k).timer = false) → (∃ e, makeData name (some (n.dataCfg cfg)) content sg = .ok e) →
      provide z n name content cfg sg w = .panic) := by
  constructor
  · intro ha
    unfold provide
    rw [ha]
    rfl
  · rintro hk ⟨e, he⟩
    unfold provide
    split
    · rw [he]
      simp only [saveAll_panic z _ _ _ _ _ hk, Res.map]
    · rfl

/-- a leaf with storage 0, freshness 1 ms and validity 876000 h, NewLeafNode -/
def exLeaf : LeafCfg := { stores := [0], freshness := 1000000, validDur := 876000 * 3600 * 1000000000 }

theorem exLeaf_run (later : Nat) : ∃ w1 w2 w3 raw,
    leafRun 0 [.attach 0] (LeafWorld.new 0 0) = .ok w1 ∧ provide 0 exLeaf (some nmA) (some [[1]]) none none w1 = .ok (some raw, w2) ∧ raw ≠ [] ∧
    leafRun 0 [.tick later] w2 = .ok w3 ∧ w3.now = w1.now + later := by
  obtain ⟨h1, e, he, hne⟩ := C81_provides 0 exLeaf nmA (some [[1]]) none none ((LeafWorld.new 0 0).onAttach 0) rfl
    (by intro k hk; rw [show k = 0 from List.mem_singleton.mp hk]; rfl)
  obtain ⟨w2, h2, h3⟩ := h1 e he
  exact ⟨_, w2, _, e.wire, rfl, h2, hne, rfl, by show w2.now + _ = _; rw [h3]⟩

/-- C81 fails: an Interest with an implicit digest is answered with a packet that has another digest. -/
theorem C81_digest_violated (sha : Bytes → Bytes) : ∃ w raw d, leafRun 0 [.attach 0, .provide exLeaf (some nmA) (some [[1]]) none none] (LeafWorld.new 0 0) = .ok w ∧
    sha raw.flatten ≠ d ∧ d.length = 32 ∧
    leafOnInterest 0 (fun _ l => l) [0] w { name := some (nmA ++ [⟨1, d⟩]) } { val := [], beh := fun _ (s : Unit) => (none, s) } () = .replied raw := by
  obtain ⟨w1, w2, w3, raw, h1, h2, hne, h3, h4⟩ := exLeaf_run 0
  have hd : ∃ d : Bytes, sha raw.flatten ≠ d ∧ d.length = 32 := by
    by_cases h : sha raw.flatten = List.replicate 32 0
    · exact ⟨List.replicate 32 1, by rw [h]; decide, by decide⟩
    · exact ⟨_, h, by decide⟩
  obtain ⟨d, hd1, hd2⟩ := hd
  have h5 : leafRun 0 [] w2 = .ok w2 := rfl
  obtain ⟨_, hi⟩ := C81_answered 0 0 [.attach 0] [] w1 w2 w2 exLeaf nmA (some [[1]]) none none raw 0 h1 h2 h5 (List.mem_singleton.mpr rfl)
    (fun op ho k nm r hs => by rw [List.mem_singleton.mp ho] at hs; exact hs.elim) (fun op ho => (nomatch ho)) canon_ex.1 (fun op ho => (nomatch ho)) hne
    (fun _ l => l) [] false false (fun h => (nomatch h))
  refine ⟨w2, raw, d, ?_, hd1, hd2, hi Unit _ _ () rfl rfl (Or.inr ⟨d, rfl⟩)⟩
  rw [show ([.attach 0, .provide exLeaf (some nmA) (some [[1]]) none none] : List LeafOp) = [.attach 0] ++ [.provide exLeaf (some nmA) (some [[1]]) none none] from rfl,
    leafRun_append, h1]
  simp only [Res.bind, leafRun, LeafOp.step, h2, Res.map]

/-- C81 fails: an Interest with MustBeFresh is answered with a packet whose FreshnessPeriod ended long ago: the storage goes by the validity of
the node. -/
theorem C81_freshness_violated : ∃ w1 w2 w3 raw, leafRun 0 [.attach 0] (LeafWorld.new 0 0) = .ok w1 ∧
    provide 0 exLeaf (some nmA) (some [[1]]) none none w1 = .ok (some raw, w2) ∧ (exLeaf.dataCfg none).freshness = some 1000000 ∧
    leafRun 0 [.tick 3600000000000] w2 = .ok w3 ∧ w3.now = w1.now + 3600000000000 ∧
    leafOnInterest 0 (fun _ l => l) [0] w3 { name := some nmA, mustBeFresh := true } { val := [], beh := fun _ (s : Unit) => (none, s) } () =
      .replied raw := by
  obtain ⟨w1, w2, w3, raw, h1, h2, hne, h3, h4⟩ := exLeaf_run 3600000000000
  obtain ⟨_, hi⟩ := C81_answered 0 0 [.attach 0] [.tick 3600000000000] w1 w2 w3 exLeaf nmA (some [[1]]) none none raw 0 h1 h2 h3 (List.mem_singleton.mpr rfl)
    (fun op ho k nm r hs => by rw [List.mem_singleton.mp ho] at hs; exact hs.elim)
    (fun op ho k nm r hs => by rw [List.mem_singleton.mp ho] at hs; exact hs.elim) canon_ex.1
    (fun op ho r hs => by rw [List.mem_singleton.mp ho] at hs; exact hs.elim) hne
    (fun _ l => l) [] false true (fun _ => by rw [h4]; exact Int.add_lt_add_left (by decide) _)
  exact ⟨w1, w2, w3, raw, h1, h2, rfl, h3, h4, hi Unit _ _ () rfl rfl (Or.inl ⟨rfl, by decide, by decide⟩)⟩

theorem exLeaf_made : ∃ e, makeData (some nmA) (some (exLeaf.dataCfg none)) (some [[1]]) none = .ok e ∧ e.wire.flatten.length < 2 ^ 43 := by
  obtain ⟨wr, s, h1, h2⟩ := data_unsigned (v := dataOf nmA (exLeaf.dataCfg none) (some [[1]]) none) rfl
  refine ⟨{ wire := wr, covered := [] }, ?_, ?_⟩
  · simp only [makeData, dataSig, Res.bind, h1]
    rfl
  · have : (tlv 6 (bytesOf (dataOf nmA (exLeaf.dataCfg none) (some [[1]]) none).bodies.signed)).length = 18 := by rfl
    simp only [h2]
    omega

/-- the hypotheses of `C81_need_partial` are met: an unsigned packet is provided, and a year later another one under a longer name; `Need` then gives the
content of the first -/
example : ∃ w1 w2 w3 raw d, leafRun 0 [.attach 0] (LeafWorld.new 0 0) = .ok w1 ∧
    provide 0 exLeaf (some nmA) (some [[1]]) none none w1 = .ok (some raw, w2) ∧
    leafRun 0 [.tick 31536000000000000, .received [0] nmAB [[9]] (some 5)] w2 = .ok w3 ∧
    needCached 0 (fun _ l => l) [0] w3 nmA true true = some d ∧ d.content = some [[1]] := by
  obtain ⟨e, he, hl⟩ := exLeaf_made
  obtain ⟨h1, _⟩ := C81_provides 0 exLeaf nmA (some [[1]]) none none ((LeafWorld.new 0 0).onAttach 0) rfl
    (by intro k hk; rw [show k = 0 from List.mem_singleton.mp hk]; rfl)
  obtain ⟨w2, h2, h3⟩ := h1 e he
  have ht : (w2.store 0).timer = true := by
    have hs := (provide_spec h2).2
    rcases hs with ⟨_, _, hr, _⟩ | ⟨nm, e', _, _, _, hs⟩
    · exact (nomatch hr)
    · obtain ⟨g1, _, g3, _⟩ := saveAll_spec (hs := fun _ => []) _ hs (fun j => by
        show (if j = 0 then _ else _ : Store).tree = _
        split <;> rfl)
      exact (g3 0).trans (g1 0 (List.mem_singleton.mpr rfl))
  obtain ⟨w3, h4, h5⟩ := saveAll_ok 0 nmAB [[9]] 5 [0] { w2 with now := w2.now + 31536000000000000 }
    (by intro k hk; rw [show k = 0 from List.mem_singleton.mp hk]; exact ht)
  have h6 : leafRun 0 [.tick 31536000000000000, .received [0] nmAB [[9]] (some 5)] w2 = .ok w3 := by
    show (saveAll 0 nmAB [[9]] (some 5) [0] { w2 with now := w2.now + 31536000000000000 }).bind _ = _
    rw [h4]
    rfl
  have hops : ∀ op ∈ ([.tick 31536000000000000, .received [0] nmAB [[9]] (some 5)] : List LeafOp), ∀ k nm r, op.Saves k nm r → nm = nmAB := by
    intro op ho k nm r hs
    rcases List.mem_cons.mp ho with rfl | ho
    · exact hs.elim
    · rw [List.mem_singleton.mp ho] at hs
      exact hs.2.1.symm
  obtain ⟨d, g1, _, g2, _⟩ := C81_need_partial 0 0 [.attach 0] _ _ w2 w3 exLeaf nmA (some [[1]]) none none e.wire 0 rfl h2 h6 (List.mem_singleton.mpr rfl)
    (fun op ho k nm r hs => by rw [List.mem_singleton.mp ho] at hs; exact hs.elim)
    (fun op ho k nm r hs => by rw [hops op ho k nm r hs]; exact canon_ex.2.1) canon_ex.1
    (fun op ho r hs => absurd (hops op ho 0 _ r hs) (by decide)) (fun _ l => l) [] true true
    (fun _ => by rw [h5, show _ = w2.now + 31536000000000000 from rfl, h3]; exact Int.add_lt_add_left (by decide) _)
    (by simp [nmA, Component.Small]) (fun t ht => by injection ht with ht; subst ht; decide) (fun d hd => by injection hd with hd; subst hd; exact ⟨1, by decide⟩)
    (fun c hc => (nomatch hc)) (fun c nm hc => (nomatch hc)) (fun c hc => (nomatch hc)) (fun s cov sig hs => (nomatch hs)) hl
  exact ⟨_, w2, w3, e.wire, d, rfl, h2, h6, g1, g2⟩

end Ndn.Schema
