import Verif.Packet.Parse
import Verif.Codec.ParseLemmas
import Verif.Codec.TotalLemmas

/-! # Parsers of ordered models (lemmas) -/

namespace Ndn.Packet
open Ndn.Codec Ndn.Codec.Schema

section generic
variable {σ : Type} {ic : Bool} {slots : List (Slot σ)}

/-- skip the `n` slots from `p` on -/
def skipTo (slots : List (Slot σ)) (start : Nat) (r : BR) : Nat → Nat → σ → Res σ
  | 0, _, st => .ok st
  | n + 1, p, st =>
    match slots[p]? with
    | some s => (s.skip start st r).bind (skipTo slots start r n (p + 1))
    | none => .ok st

/-- mark the `n` slots from `p` on as handled -/
def pass : Nat → Nat → List Nat → List Nat
  | 0, _, h => h
  | n + 1, p, h => pass n (p + 1) (p :: h)

theorem mem_pass {n : Nat} : ∀ {p : Nat} {h : List Nat} {i : Nat}, i ∈ pass n p h ↔ i ∈ h ∨ (p ≤ i ∧ i < p + n) := by
  induction n with
  | zero => intro p h i; simp [pass]; omega
  | succ n ih =>
    intro p h i
    rw [pass, ih, List.mem_cons]
    constructor
    · rintro ((rfl | h) | h)
      · right; omega
      · exact .inl h
      · right; omega
    · rintro (h | h)
      · exact .inl (.inr h)
      · by_cases e : i = p
        · exact .inl (.inl e)
        · right; omega

/-- passing over slots to the one that reads the element -/
theorem ordInner_pass {start typ l : Nat} (hk : knows slots typ = true) {r r' : BR} {s : Slot σ} {st1 st' : σ} (n : Nat) :
    ∀ (p : Nat) (h : List Nat) (st : σ), slots[p + n]? = some s → s.typ = typ →
    (∀ j s', p ≤ j → j < p + n → slots[j]? = some s' → s'.typ ≠ typ) →
    skipTo slots start r n p st = .ok st1 → s.read start l st1 r = some (.ok st', r') →
    ordInner ic slots start typ l (slots.length + 1 - p) h st r =
      some (.ok ⟨slots.length + 1 - (p + n + 1), (p + n) :: pass n p h, st'⟩, r') := by
  induction n with
  | zero =>
    intro p h st hs ht _ hsk hrd
    have hp : p < slots.length := (List.getElem?_eq_some_iff.mp hs).1
    obtain ⟨k, hkk⟩ : ∃ k, slots.length + 1 - p = k + 1 := ⟨slots.length - p, by omega⟩
    have hidx : slots.length - k = p := by omega
    rw [hkk, ordInner, if_pos hk, hidx]
    have hs' : slots[p]? = some s := hs
    rw [hs']
    simp only [ht, if_true]
    have : st1 = st := by
      have h0 : Res.ok st = Res.ok st1 := hsk
      injection h0 with h0; exact h0.symm
    rw [← this, hrd]
    simp only
    have : k = slots.length + 1 - (p + 0 + 1) := by omega
    rw [this]
    rfl
  | succ n ih =>
    intro p h st hs ht hne hsk hrd
    have hp : p + (n + 1) < slots.length := (List.getElem?_eq_some_iff.mp hs).1
    obtain ⟨k, hkk⟩ : ∃ k, slots.length + 1 - p = k + 1 := ⟨slots.length - p, by omega⟩
    have hidx : slots.length - k = p := by omega
    obtain ⟨s0, hs0⟩ : ∃ s0, slots[p]? = some s0 := ⟨slots[p], List.getElem?_eq_getElem (by omega)⟩
    have hne0 := hne p s0 (by omega) (by omega) hs0
    rw [hkk, ordInner, if_pos hk, hidx, hs0]
    simp only [if_neg hne0]
    rw [skipTo, hs0] at hsk
    simp only at hsk
    cases hsk0 : s0.skip start st r with
    | ok st2 =>
      rw [hsk0] at hsk
      have hk2 : k = slots.length + 1 - (p + 1) := by omega
      simp only
      rw [hk2]
      rw [ih (p + 1) (p :: h) st2 (by rw [← hs]; congr 1; omega) ht (fun j s' h1 h2 => hne j s' (by omega) (by omega)) hsk hrd]
      have e1 : p + 1 + n = p + (n + 1) := by omega
      rw [e1]; rfl
    | err e => rw [hsk0] at hsk; exact absurd hsk (by simp [Res.bind])
    | panic => rw [hsk0] at hsk; exact absurd hsk (by simp [Res.bind])

/-- an element that is not known takes up one round -/
theorem ordInner_junk {start typ l p : Nat} (hk : knows slots typ = false) (hc : ic = true ∨ isCritical typ = false) (hp : p ≤ slots.length)
    {h : List Nat} {st : σ} {r r' : BR} (hs : BR.skip (toInt l) r = (.ok (), r')) :
    ordInner ic slots start typ l (slots.length + 1 - p) h st r = some (.ok ⟨slots.length + 1 - (p + 1), h, st⟩, r') := by
  obtain ⟨k, hkk⟩ : ∃ k, slots.length + 1 - p = k + 1 := ⟨slots.length - p, by omega⟩
  have hk2 : k = slots.length + 1 - (p + 1) := by omega
  have hcr : ¬ ((!ic && isCritical typ) = true) := by rcases hc with h | h <;> simp [h]
  rw [hkk, ordInner, if_neg (by rw [hk]; decide), if_neg hcr, hs, hk2]

/-- one round of the main loop -/
theorem ordLoop_elem {r : BR} {typ : Nat} {b t : Bytes} {o o' : Ord σ} (fuel : Nat) (hr : r.rest = tlv typ b ++ t) (ht : typ < 2 ^ 64)
    (hb : b.length < 2 ^ 62)
    (hin : ∀ r2 : BR, r2.rest = b ++ t → r2.adv b.length = r.adv (tlv typ b).length → r2.buf = r.buf → r2.pos ≤ r2.buf.length →
      ordInner ic slots r.pos typ b.length o.left o.handled o.st r2 = some (.ok o', r2.adv b.length)) :
    ordLoop ic slots (fuel + 1) o r = ordLoop ic slots fuel o' (r.adv (tlv typ b).length) := by
  obtain ⟨e1, e2, e3, e4⟩ := readTL_two hr ht hb
  have hp := tlv_ne hr
  have hp2 : ((r.adv (tlLen typ)).adv (tlLen b.length)).pos ≤ ((r.adv (tlLen typ)).adv (tlLen b.length)).buf.length := by
    have h5 := congrArg List.length hr
    have h6 := BR.rest_length r
    rw [List.length_append, tlv_length] at h5
    simp only [BR.adv_pos, BR.adv_buf]; omega
  have := hin _ e3 e4 rfl hp2
  rw [ordLoop, if_neg hp, e1]
  simp only
  rw [e2]
  simp only
  rw [this]
  simp only
  rw [e4]

theorem ordLoop_end {r : BR} {o : Ord σ} (fuel : Nat) (hr : r.rest = []) : ordLoop ic slots (fuel + 1) o r = some (.ok o, r) := by
  have : r.pos ≥ r.buf.length := by
    have := BR.rest_length r; rw [hr] at this; simp at this; omega
  rw [ordLoop, if_pos this]

/-! ## Sequences of elements -/

/-- an element: for which slot it is (`none`: unrecognised), type and value -/
structure It where
  slot : Option Nat
  typ : Nat
  body : Bytes

def It.bytes (x : It) : Bytes := tlv x.typ x.body

/-- the bytes of a sequence of elements -/
def bytesOf (its : List It) : Bytes := (its.map It.bytes).flatten

theorem bytesOf_cons (x : It) (its : List It) : bytesOf (x :: its) = x.bytes ++ bytesOf its := rfl
theorem bytesOf_append (a b : List It) : bytesOf (a ++ b) = bytesOf a ++ bytesOf b := by simp [bytesOf]

theorem length_le_bytesOf (its : List It) : its.length ≤ (bytesOf its).length := by
  induction its with
  | nil => simp [bytesOf]
  | cons x its ih =>
    rw [bytesOf_cons, List.length_append, List.length_cons, It.bytes, tlv_length]
    have := tlLen_pos x.typ
    omega

/-- the main loop on a sequence of elements, by an invariant of the elements to come, the next slot, the handled slots, the state and the
position -/
theorem run_items (Inv : List It → Nat → List Nat → σ → Nat → Prop) (B : Bytes)
    (hown : ∀ i t b rest p h st (r : BR) (tl : Bytes), Inv (⟨some i, t, b⟩ :: rest) p h st r.pos → r.buf = B →
      r.rest = tlv t b ++ tl → t < 2 ^ 64 ∧ knows slots t = true ∧ p ≤ i ∧ ∃ s, slots[i]? = some s ∧ s.typ = t ∧
        (∀ j s', p ≤ j → j < i → slots[j]? = some s' → s'.typ ≠ t) ∧
        ∀ r2 : BR, r2.rest = b ++ tl → r2.adv b.length = r.adv (tlv t b).length → r2.buf = B → Tiny r2 →
          ∃ st1 st', skipTo slots r.pos r2 (i - p) p st = .ok st1 ∧ s.read r.pos b.length st1 r2 = some (.ok st', r2.adv b.length) ∧
            Inv rest (i + 1) (i :: pass (i - p) p h) st' (r.pos + (tlv t b).length))
    (hjunk : ∀ t b rest p h st pos, Inv (⟨none, t, b⟩ :: rest) p h st pos → t < 2 ^ 64 ∧ knows slots t = false ∧
      (ic = true ∨ isCritical t = false) ∧ p ≤ slots.length ∧ Inv rest (p + 1) h st (pos + (tlv t b).length)) :
    ∀ (its : List It) (p : Nat) (h : List Nat) (st : σ) (r : BR) (tl : Bytes), Inv its p h st r.pos → r.buf = B → Tiny r →
      r.rest = bytesOf its ++ tl →
      ∃ p' h' st', Inv [] p' h' st' (r.pos + (bytesOf its).length) ∧ ∀ fuel,
        ordLoop ic slots (fuel + its.length) ⟨slots.length + 1 - p, h, st⟩ r =
          ordLoop ic slots fuel ⟨slots.length + 1 - p', h', st'⟩ (r.adv (bytesOf its).length) := by
  intro its
  induction its with
  | nil => intro p h st r tl hi _ _ _; exact ⟨p, h, st, hi, fun fuel => rfl⟩
  | cons x its ih =>
    intro p h st r tl hi hb htiny hr
    obtain ⟨slot, t, b⟩ := x
    have hr' : r.rest = tlv t b ++ (bytesOf its ++ tl) := by rw [hr, bytesOf_cons, List.append_assoc]; rfl
    have hrl : b.length < 2 ^ 43 := by
      have h1 := htiny.rest
      rw [hr', List.length_append, tlv_length] at h1
      omega
    have hadv : Tiny (r.adv (tlv t b).length) := htiny.adv (by rw [hr', List.length_append]; omega)
    have htot : (bytesOf (⟨slot, t, b⟩ :: its)).length = (tlv t b).length + (bytesOf its).length := by
      rw [bytesOf_cons, List.length_append]; rfl
    cases slot with
    | some i =>
      obtain ⟨h1, h2, h3, s, h4, h5, h6, h7⟩ := hown i t b its p h st r _ hi hb hr'
      obtain ⟨e1, e2, e3, e4⟩ := readTL_two hr' h1 (by omega)
      have ht2 : Tiny ((r.adv (tlLen t)).adv (tlLen b.length)) := by
        refine ⟨?_, htiny.2⟩
        have h5 := congrArg List.length hr'
        have h6 := BR.rest_length r
        have h8 := htiny.1
        rw [List.length_append, tlv_length] at h5
        simp only [BR.adv_pos, BR.adv_buf]; omega
      obtain ⟨st1, st', g1, g2, g3⟩ := h7 _ e3 e4 hb ht2
      obtain ⟨p', h', st'', f1, f2⟩ := ih (i + 1) _ st' (r.adv (tlv t b).length) tl g3 hb hadv (rest_adv_append hr')
      refine ⟨p', h', st'', ?_, fun fuel => ?_⟩
      · rw [htot, ← Nat.add_assoc]; exact f1
      · rw [List.length_cons, ← Nat.add_assoc, htot, ← BR.adv_adv, ← f2 fuel]
        apply ordLoop_elem (fuel + its.length) hr' h1 (by omega)
        intro r2 g4 g5 g6 g7
        obtain ⟨st1, st'2, g1', g2', _⟩ := h7 r2 g4 g5 (g6.trans hb) ⟨g7, by rw [g6]; exact htiny.2⟩
        have hr2 : r2 = (r.adv (tlLen t)).adv (tlLen b.length) := by
          have a1 : r2.buf = ((r.adv (tlLen t)).adv (tlLen b.length)).buf := g6
          have a2 : r2.pos = ((r.adv (tlLen t)).adv (tlLen b.length)).pos := by
            have := congrArg BR.pos (g5.trans e4.symm)
            simp only [BR.adv_pos] at this ⊢
            omega
          cases r2; simp only at a1 a2; subst a1; subst a2; rfl
        subst hr2
        have hee : st'2 = st' := by
          rw [g1] at g1'
          injection g1' with g1'
          subst g1'
          rw [g2] at g2'
          injection g2' with g2'
          injection g2' with g2' _
          injection g2' with g2'
          exact g2'.symm
        subst hee
        have := ordInner_pass (ic := ic) h2 (i - p) p h st (by rw [show p + (i - p) = i by omega]; exact h4) h5
          (fun j s' a b => h6 j s' a (by omega)) g1' g2'
        rw [show p + (i - p) = i by omega] at this
        exact this
    | none =>
      obtain ⟨h1, h2, h3, h4, h5⟩ := hjunk t b its p h st r.pos hi
      obtain ⟨p', h', st'', f1, f2⟩ := ih (p + 1) h st (r.adv (tlv t b).length) tl h5 hb hadv (rest_adv_append hr')
      refine ⟨p', h', st'', ?_, fun fuel => ?_⟩
      · rw [htot, ← Nat.add_assoc]; exact f1
      · rw [List.length_cons, ← Nat.add_assoc, htot, ← BR.adv_adv, ← f2 fuel]
        apply ordLoop_elem (fuel + its.length) hr' h1 (by omega)
        intro r2 g4 g5 g6 g7
        refine ordInner_junk h2 h3 h4 ?_
        rw [toInt_small (by omega)]
        exact BR.skip_ok ⟨g7, by rw [g6]; have := htiny.2; omega⟩ (by rw [g4]; simp)

/-- the whole parse of a sequence of elements -/
theorem parse_items {Inv : List It → Nat → List Nat → σ → Nat → Prop} {its : List It} {st : σ} {B : Bytes} (hB : B = bytesOf its)
    (hrun : ∃ p' h' st', Inv [] p' h' st' (0 + (bytesOf its).length) ∧ ∀ fuel,
        ordLoop ic slots (fuel + its.length) ⟨slots.length + 1 - 0, [], st⟩ (BR.new B) =
          ordLoop ic slots fuel ⟨slots.length + 1 - p', h', st'⟩ ((BR.new B).adv (bytesOf its).length))
    {fuel : Nat} (hf : B.length < fuel) :
    ∃ p' h' st', Inv [] p' h' st' B.length ∧
      ordParse ic fuel slots st (BR.new B) = some (ordFinish h' ((BR.new B).adv B.length) 0 slots st', (BR.new B).adv B.length) := by
  obtain ⟨p', h', st', h1, h2⟩ := hrun
  have hlen := length_le_bytesOf its
  rw [← hB] at hlen h2 h1
  refine ⟨p', h', st', by rw [Nat.zero_add] at h1; exact h1, ?_⟩
  obtain ⟨k, rfl⟩ : ∃ k, fuel = k + 1 + its.length := ⟨fuel - 1 - its.length, by omega⟩
  unfold ordParse
  have h3 := h2 (k + 1)
  rw [Nat.sub_zero] at h3
  rw [h3, ordLoop_end]
  rw [BR.rest_adv, BR.rest_new, List.drop_length]

/-- after the loop, by an invariant of the state -/
theorem ordFinish_inv {h : List Nat} {r : BR} (Q : Nat → σ → Prop) :
    ∀ (l : List (Slot σ)) (i : Nat) (st : σ), Q i st →
      (∀ j s st, l[j]? = some s → Q (i + j) st → if h.contains (i + j) then Q (i + j + 1) st else ∃ st', s.skip r.pos st r = .ok st' ∧ Q (i + j + 1) st') →
      ∃ st', ordFinish h r i l st = .ok st' ∧ Q (i + l.length) st' := by
  intro l
  induction l with
  | nil => intro i st hq _; exact ⟨st, rfl, hq⟩
  | cons s l ih =>
    intro i st hq hstep
    have h0 := hstep 0 s st rfl hq
    rw [Nat.add_zero] at h0
    rw [ordFinish]
    have hlen : i + (s :: l).length = i + 1 + l.length := by rw [List.length_cons]; omega
    rw [hlen]
    by_cases hc : h.contains i = true
    · rw [if_pos hc] at h0 ⊢
      exact ih (i + 1) st h0 (fun j s' st' hj hq' => by
        have := hstep (j + 1) s' st' hj (by rw [show i + (j + 1) = i + 1 + j by omega]; exact hq')
        rw [show i + (j + 1) = i + 1 + j by omega] at this
        exact this)
    · rw [if_neg hc] at h0 ⊢
      obtain ⟨st1, h1, h2⟩ := h0
      rw [h1]
      show ∃ st', ordFinish h r (i + 1) l st1 = .ok st' ∧ _
      exact ih (i + 1) st1 h2 (fun j s' st' hj hq' => by
        have := hstep (j + 1) s' st' hj (by rw [show i + (j + 1) = i + 1 + j by omega]; exact hq')
        rw [show i + (j + 1) = i + 1 + j by omega] at this
        exact this)

/-- skipping slots, by an invariant of the state -/
theorem skipTo_inv {start : Nat} {r : BR} (Q : Nat → σ → Prop) (n : Nat) : ∀ (p : Nat) (st : σ), p + n ≤ slots.length → Q p st →
    (∀ j s st, p ≤ j → j < p + n → slots[j]? = some s → Q j st → ∃ st', s.skip start st r = .ok st' ∧ Q (j + 1) st') →
    ∃ st', skipTo slots start r n p st = .ok st' ∧ Q (p + n) st' := by
  induction n with
  | zero => intro p st _ hq _; exact ⟨st, rfl, hq⟩
  | succ n ih =>
    intro p st hle hq hstep
    obtain ⟨s0, hs0⟩ : ∃ s0, slots[p]? = some s0 := ⟨slots[p], List.getElem?_eq_getElem (by omega)⟩
    obtain ⟨st1, h1, h2⟩ := hstep p s0 st (by omega) (by omega) hs0 hq
    obtain ⟨st', h3, h4⟩ := ih (p + 1) st1 (by omega) h2 (fun j s st a b => hstep j s st (by omega) (by omega))
    refine ⟨st', ?_, by rw [show p + (n + 1) = p + 1 + n by omega]; exact h4⟩
    rw [skipTo, hs0]
    show (s0.skip start st r).bind _ = _
    rw [h1]
    exact h3

/-! ## Own elements in order -/

/-- the slots of the own elements increase and unrecognised elements take up no slot that is needed: the next slot is `p` -/
def Fits (n : Nat) : Nat → List It → Prop
  | _, [] => True
  | p, ⟨some i, _, _⟩ :: its => p ≤ i ∧ Fits n (i + 1) its
  | p, ⟨none, _, _⟩ :: its => p ≤ n ∧ Fits n (p + 1) its

instance (n : Nat) : ∀ (p : Nat) (its : List It), Decidable (Fits n p its)
  | _, [] => .isTrue trivial
  | p, ⟨some i, _, _⟩ :: its => have := instDecidableFits n (i + 1) its; by unfold Fits; exact inferInstance
  | p, ⟨none, _, _⟩ :: its => have := instDecidableFits n (p + 1) its; by unfold Fits; exact inferInstance

/-- the elements that belong to a slot -/
def owns (its : List It) : List It := its.filter (·.slot.isSome)

/-- an element of slot `i` -/
def ownIt (i typ : Nat) (b : Option Bytes) : List It :=
  match b with
  | none => []
  | some b => [⟨some i, typ, b⟩]

end generic

end Ndn.Packet
