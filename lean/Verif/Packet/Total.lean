import Verif.Packet.Spec

/-! # Parsing packets ends and does not panic on calm input (lemmas) -/

namespace Ndn.Packet
open Ndn.Codec Ndn.Codec.Schema

/-- reading and skipping a field ends without a panic -/
def SlotTot {σ : Type} (B : Bytes) (s : Slot σ) : Prop :=
  (∀ start l st (r : BR), r.Good → r.buf = B → 1 ≤ r.pos → l < 2 ^ 43 → Tot r (s.read start l st r)) ∧
  ∀ start st r, s.skip start st r ≠ .panic

theorem ordInner_tot {σ : Type} {ic : Bool} {slots : List (Slot σ)} {B : Bytes} (hs : ∀ s ∈ slots, SlotTot B s) (start typ l : Nat)
    (hl : l < 2 ^ 43) (k : Nat) : ∀ (h : List Nat) (st : σ) (r : BR), r.Good → r.buf = B → 1 ≤ r.pos →
      Tot r (ordInner ic slots start typ l k h st r) := by
  induction k with
  | zero => intro h st r hg hb hp; exact .ok _ hg rfl (by omega)
  | succ k ih =>
    intro h st r hg hb hp
    rw [ordInner]
    by_cases hk : knows slots typ = true
    · rw [if_pos hk]
      cases hsl : slots[slots.length - k]? with
      | none => exact ih h st r hg hb hp
      | some s =>
        have hmem : s ∈ slots := List.mem_of_getElem? hsl
        obtain ⟨h1, h2⟩ := hs s hmem
        simp only
        by_cases ht : s.typ = typ
        · rw [if_pos ht]
          obtain ⟨y, r', hx, hy, hk'⟩ := h1 start l st r hg hb hp hl
          rw [hx]
          cases y with
          | ok st' => obtain ⟨a, b, c⟩ := hk' st' rfl; exact .ok _ a b c
          | err e => exact .err _ _
          | panic => exact absurd rfl hy
        · rw [if_neg ht]
          cases hsk : s.skip start st r with
          | ok st' => exact ih _ _ r hg hb hp
          | err e => exact .err _ _
          | panic => exact absurd hsk (h2 start st r)
    · rw [if_neg hk]
      by_cases hc : (!ic && isCritical typ) = true
      · rw [if_pos hc]; exact .err _ _
      · rw [if_neg hc, toInt_small (by omega)]
        by_cases hle : l ≤ r.rest.length
        · rw [BR.skip_ok hg hle]; exact .ok _ (hg.adv hle) rfl (by simp)
        · rw [BR.skip_err hg (by omega) (by omega)]; exact .err _ _

theorem ordLoop_tot {σ : Type} {ic : Bool} {slots : List (Slot σ)} {B : Bytes} (hB : Calm B) (hs : ∀ s ∈ slots, SlotTot B s) :
    ∀ (fuel : Nat) (o : Ord σ) (r : BR), r.Good → r.buf = B → r.rest.length < fuel → Tot r (ordLoop ic slots fuel o r) := by
  intro fuel
  induction fuel with
  | zero => intro o r _ _ h; omega
  | succ fuel ih =>
    intro o r hg hb hf
    rw [ordLoop]
    split
    · exact .ok _ hg rfl (by omega)
    · rcases readTL_cases r with ⟨_, e⟩ | ⟨r', e, _, _⟩ | ⟨typ, n1, s1, e, _⟩
      · rw [e]; exact .err _ _
      · rw [e]; exact .err _ _
      · rw [e]
        simp only
        have w1 : 1 ≤ n1 := by rcases s1.width with h | h | h | h <;> omega
        have hg1 := hg.adv s1.le_length
        rcases readTL_cases (r.adv n1) with ⟨_, e⟩ | ⟨r', e, _, _⟩ | ⟨l, n2, s2, e2, _⟩
        · rw [e]; exact .err _ _
        · rw [e]; exact .err _ _
        · rw [e2]
          simp only
          have hl : l < 2 ^ 43 := by
            have s2' := s2
            unfold BR.rest at s2'
            exact hB.split (by rw [← hb]; exact s2')
          have hg2 := hg1.adv s2.le_length
          obtain ⟨y, r3, hx, hy, hk⟩ := ordInner_tot (ic := ic) hs r.pos typ l hl o.left o.handled o.st ((r.adv n1).adv n2) hg2 hb (by simp; omega)
          rw [hx]
          cases y with
          | ok o' =>
            obtain ⟨h1, h2, h3⟩ := hk o' rfl
            simp only
            refine (ih o' r3 h1 (h2.trans hb) ?_).trans h2 (by simp at h3; omega)
            rw [BR.rest_length] at hf ⊢
            rw [h2]
            have := h1.1
            have := s1.le_length
            rw [BR.rest_length] at this
            simp only [BR.adv_pos, BR.adv_buf] at h3 ⊢
            omega
          | err e => exact .err _ _
          | panic => exact absurd rfl hy

theorem ordFinish_no_panic {σ : Type} {B : Bytes} {h : List Nat} {r : BR} : ∀ (slots : List (Slot σ)), (∀ s ∈ slots, SlotTot B s) →
    ∀ (i : Nat) (st : σ), ordFinish h r i slots st ≠ .panic
  | [], _, _, _ => by rw [ordFinish]; simp
  | s :: slots, hs, i, st => by
    rw [ordFinish]
    by_cases hc : h.contains i = true
    · rw [if_pos hc]; exact ordFinish_no_panic slots (fun s h => hs s (by simp [h])) _ _
    · rw [if_neg hc]
      cases hsk : s.skip r.pos st r with
      | ok st' => exact ordFinish_no_panic slots (fun s h => hs s (by simp [h])) _ _
      | err e => simp [Res.bind]
      | panic => exact absurd hsk ((hs s (by simp)).2 _ _ _)

theorem ordParse_tot {σ : Type} {ic : Bool} {slots : List (Slot σ)} (r : BR) (hg : r.Good) (hB : Calm r.buf) (hs : ∀ s ∈ slots, SlotTot r.buf s)
    (fuel : Nat) (hf : r.buf.length < fuel) (st : σ) : Tot r (ordParse ic fuel slots st r) := by
  obtain ⟨y, r', hx, hy, hk⟩ := ordLoop_tot (ic := ic) hB hs fuel ⟨slots.length + 1, [], st⟩ r hg rfl (by rw [BR.rest_length]; omega)
  unfold ordParse
  rw [hx]
  cases y with
  | ok o => exact ⟨_, _, rfl, ordFinish_no_panic slots hs _ _, fun _ _ => hk o rfl⟩
  | err e => exact .err _ _
  | panic => exact absurd rfl hy

theorem argSlot_tot {σ : Type} {B : Bytes} : SlotTot B (argSlot : Slot σ) :=
  ⟨fun _ _ _ _ hg _ _ _ => .ok _ hg rfl (by omega), fun _ _ _ => by simp [argSlot]⟩

theorem markSlot_tot {σ : Type} {B : Bytes} {set : σ → Nat → σ} : SlotTot B (markSlot set) :=
  ⟨fun _ _ _ _ hg _ _ _ => .ok _ hg rfl (by omega), fun _ _ _ => by simp [markSlot]⟩

theorem flagSlot_tot {σ : Type} {B : Bytes} {t : Nat} {set : σ → Bool → σ} : SlotTot B (flagSlot t set) :=
  ⟨fun _ _ _ _ hg _ _ _ => .ok _ hg rfl (by omega), fun _ _ _ => by simp [flagSlot]⟩

theorem elemSlot_tot {σ : Type} {B : Bytes} (hB : Calm B) {ic : Bool} {F t : Nat} {e : Elem} {set : σ → Option e.V → σ} (hF : B.length < F) :
    SlotTot B (elemSlot ic F t e set) :=
  ⟨fun _ l _ r hg hb hp hl => (e.read_tot ic F l r hg (hb ▸ hB) hp hl (hb ▸ hF)).map _, fun _ _ _ => by simp [elemSlot]⟩

theorem sigSlot_tot {σ : Type} {B : Bytes} {t : Nat} {set : σ → Option Wire → σ} {start : σ → Nat} {cover : σ → Wire → σ} :
    SlotTot B (sigSlot t set start cover) := by
  refine ⟨fun s l st r hg _ _ hl => ?_, fun _ _ _ => by simp [sigSlot]⟩
  obtain ⟨y, r', hx, hy, hk⟩ := tot_wire hg hl
  show Tot r (match BR.readWire (toInt l) r with
    | (.ok w, r') => some (.ok (cover (set st (some w)) (rangeOf r' (start st) s)), r')
    | (.err e, r') => some (.err e, r')
    | (.panic, r') => some (.panic, r'))
  injection hx with hx
  rw [hx]
  cases y with
  | ok w => obtain ⟨a, b, c⟩ := hk w rfl; exact .ok _ a b c
  | err e => exact .err _ _
  | panic => exact absurd rfl hy

theorem tot_intNameSlots (slots endName : Nat) : ∀ (cov : Nat) (r : BR), r.Good → Calm r.buf →
    Tot r (some (readIntNameSlots slots endName cov r)) := by
  induction slots with
  | zero =>
    intro cov r hg _
    rw [readIntNameSlots]
    split
    · exact .err _ _
    · exact .ok _ hg rfl (by omega)
  | succ n ih =>
    intro cov r hg hc
    rw [readIntNameSlots]
    split
    · split
      · exact .err _ _
      · exact .ok _ hg rfl (by omega)
    · rcases readComponent_cases r hg with ⟨h0, e⟩ | ⟨r', hne, e⟩ | ⟨t', n1, l, n2, s1, s2, h⟩
      · rw [e]; exact .err _ _
      · rw [e]; exact .err _ _
      · rcases h with ⟨hle, e⟩ | ⟨hbig, r', e⟩
        · rw [e]
          simp only
          have := ih (if t' = typParamsDigest then r.pos else cov) (r.adv (n1 + n2 + l)) (hg.adv hle) hc
          obtain ⟨y, r'', hx, hy, hk⟩ := this
          injection hx with hx
          rw [hx]
          cases y with
          | ok n => obtain ⟨a, b, c⟩ := hk n rfl
                    exact .ok _ a b (by simp at c; omega)
          | err e => exact .err _ _
          | panic => exact absurd rfl hy
        · exfalso
          have hl : l < 2 ^ 43 := by
            unfold BR.rest at s2
            rw [List.drop_drop] at s2
            exact hc.split s2
          have w1 : n1 ≤ 9 := by rcases s1.width with h | h | h | h <;> omega
          have w2 : n2 ≤ 9 := by rcases s2.width with h | h | h | h <;> omega
          have := hg.1; have := hg.2
          omega

theorem tot_intName {r : BR} (hg : r.Good) (hc : Calm r.buf) {l : Nat} (hl : l < 2 ^ 43) : Tot r (some (readIntName l r)) := by
  unfold readIntName
  rw [if_neg (by unfold maxAlloc; omega)]
  obtain ⟨y, r', hx, hy, hk⟩ := tot_intNameSlots (l / 2 + 1) (r.pos + l) (r.pos + l) r hg hc
  injection hx with hx
  rw [hx]
  cases y with
  | ok w => obtain ⟨a, b, c⟩ := hk w rfl; exact .ok _ a b c
  | err e => exact .err _ _
  | panic => exact absurd rfl hy

theorem dataSlots_tot {B : Bytes} (hB : Calm B) {ic : Bool} {F : Nat} (hF : B.length < F) : ∀ s ∈ dataSlots ic F, SlotTot B s := by
  intro s hs
  simp only [dataSlots, List.mem_cons, List.not_mem_nil, or_false] at hs
  rcases hs with rfl | rfl | rfl | rfl | rfl | rfl | rfl
  · exact argSlot_tot
  · exact markSlot_tot
  · exact elemSlot_tot hB hF
  · exact elemSlot_tot hB hF
  · exact elemSlot_tot hB hF
  · exact elemSlot_tot hB hF
  · exact sigSlot_tot

theorem interestSlots_tot {B : Bytes} (hB : Calm B) {ic : Bool} {F : Nat} (hF : B.length < F) : ∀ s ∈ interestSlots ic F, SlotTot B s := by
  intro s hs
  simp only [interestSlots, List.mem_cons, List.not_mem_nil, or_false] at hs
  rcases hs with rfl | rfl | rfl | rfl | rfl | rfl | rfl | rfl | rfl | rfl | rfl | rfl | rfl | rfl | rfl
  · exact argSlot_tot
  · exact argSlot_tot
  · exact ⟨fun _ l _ r hg hb _ hl => (tot_intName hg (hb ▸ hB) hl).map _, fun _ _ _ => by simp⟩
  · exact flagSlot_tot
  · exact flagSlot_tot
  · exact elemSlot_tot hB hF
  · exact elemSlot_tot hB hF
  · exact elemSlot_tot hB hF
  · exact elemSlot_tot hB hF
  · exact markSlot_tot
  · exact markSlot_tot
  · exact elemSlot_tot hB hF
  · exact elemSlot_tot hB hF
  · exact sigSlot_tot
  · exact ⟨fun _ _ _ _ hg _ _ _ => .ok _ hg rfl (by omega), fun _ _ _ => by simp⟩

theorem packetRead_tot (ic : Bool) (F typ l : Nat) (s : PacketSt) (r : BR) (hg : r.Good) (hc : Calm r.buf) (hl : l < 2 ^ 43)
    (hF : r.buf.length < F) : Tot r (packetRead ic F typ l s r) := by
  have back : ∀ {α : Type} (sub r1 : BR) (x : PR α) (f : α → PacketSt), Tot sub x → r1.Good → r1.buf = r.buf → r.pos ≤ r1.pos →
      Tot r (match x with
        | none => none
        | some (.ok a, _) => some (.ok (f a), r1)
        | some (.err e, _) => some (.err e, r1)
        | some (.panic, _) => some (.panic, r1)) := by
    intro α sub r1 x f hx h1 h2 h3
    obtain ⟨y, r', rfl, hy, _⟩ := hx
    cases y with
    | ok a => exact .ok _ h1 h2 h3
    | err e => exact .err _ _
    | panic => exact absurd rfl hy
  have key : ∀ (sub r1 : BR), sub.Good → Calm sub.buf → sub.buf.length < F → BR.delegate (toInt l) r = (.ok sub, r1) →
      r1.Good → r1.buf = r.buf → r.pos ≤ r1.pos → Tot r (packetRead ic F typ l s r) := by
    intro sub r1 hs hcs hFs hd h1 h2 h3
    unfold packetRead
    rw [hd]
    simp only
    by_cases h5 : typ = 5
    · rw [if_pos h5]
      exact back sub r1 _ _ (ordParse_tot sub hs hcs (interestSlots_tot hcs hFs) F hFs _) h1 h2 h3
    · rw [if_neg h5]
      by_cases h6 : typ = 6
      · rw [if_pos h6]
        exact back sub r1 _ _ (ordParse_tot sub hs hcs (dataSlots_tot hcs hFs) F hFs _) h1 h2 h3
      · rw [if_neg h6]
        exact back sub r1 _ _ (lpPacket.parse_tot ic sub hs hcs F hFs) h1 h2 h3
  by_cases h : l ≤ r.rest.length
  · have hlen : (r.rest.take l).length ≤ r.buf.length := by
      rw [List.length_take, BR.rest_length]; omega
    refine key (BR.new (r.rest.take l)) _ (BR.Good.new (by have := hg.2; omega)) ?_ (by show (r.rest.take l).length < F; omega)
      (by rw [toInt_small (by omega), BR.delegate_ok hg h]) (hg.adv h) rfl (by simp)
    exact hc.slice r.pos l
  · refine key _ _ (BR.Good.new (b := []) (by simp)) ?_ (by simp; omega)
      (by rw [toInt_small (by omega), BR.delegate_over hg (by omega) (by omega)]) hg rfl (by omega)
    intro p v n e
    simp [parseTL] at e

theorem parsePacket_tot (ic : Bool) (r : BR) (hg : r.Good) (hc : Calm r.buf) (F : Nat) (hF : r.buf.length < F) : Tot r (parsePacket ic F r) :=
  parseLoop_total r.buf hc (fun typ l st r' hg' hb _ hl => packetRead_tot ic F typ l st r' hg' (hb ▸ hc) hl (hb ▸ hF)) F {} r hg rfl
    (by rw [BR.rest_length]; omega)

theorem finishParse_tot {α β : Type} {r : BR} {x : PR α} (h : Tot r x) (f : α → Except PErr β) : ∃ y, finishParse x f = some (.ok y) := by
  obtain ⟨y, r', rfl, hy, _⟩ := h
  cases y with
  | ok a => exact ⟨f a, rfl⟩
  | err e => exact ⟨.error (.parse e), rfl⟩
  | panic => exact absurd rfl hy

end Ndn.Packet
