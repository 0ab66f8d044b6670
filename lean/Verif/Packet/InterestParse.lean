import Verif.Packet.InterestLemmas

/-! # The parser of Interests on sequences of elements -/

namespace Ndn.Packet
open Ndn.Codec Ndn.Codec.Schema

/-- the own elements of slots below `p` -/
def below (p : Nat) (l : List It) : List It := l.filter fun x => decide (x.slot.getD 0 < p)

theorem below_all {l : List It} {p : Nat} (h : ∀ x ∈ l, ∀ j, x.slot = some j → j < p) (hp : 0 < p) : below p l = l := by
  unfold below; rw [List.filter_eq_self]
  intro x hx
  cases hs : x.slot with
  | none => simpa using hp
  | some j => simpa using h x hx j hs

theorem below_congr {l : List It} {p q r : Nat} (hi : Incr r l) (h : ∀ x ∈ l, ∀ j, x.slot = some j → (j < p ↔ j < q)) : below p l = below q l := by
  unfold below
  apply List.filter_congr
  intro x hx
  obtain ⟨j, hj, _⟩ := hi.ge x hx
  have := h x hx j hj
  rw [hj]; simpa using this

theorem below_zero (l : List It) : below 0 l = [] := by
  unfold below; rw [List.filter_eq_nil_iff]; intro x _; simp

theorem below_append (a b : List It) (p : Nat) : below p (a ++ b) = below p a ++ below p b := by
  unfold below; rw [List.filter_append]

theorem below_nil {l : List It} {p q : Nat} (hi : Incr q l) (h : p ≤ q) : below p l = [] := by
  unfold below; rw [List.filter_eq_nil_iff]; intro x hx
  obtain ⟨j, hj, hq⟩ := hi.ge x hx
  rw [hj]; simp; omega

/-- the next own element comes after those below it -/
theorem below_succ : ∀ {l : List It} {q i : Nat} {x : It}, Incr q l → x ∈ l → x.slot = some i → below (i + 1) l = below i l ++ [x]
  | [], _, _, _, _, h, _ => (nomatch h)
  | y :: l, q, i, x, ⟨k, h1, h2, h3⟩, hx, hs => by
    rcases List.mem_cons.mp hx with rfl | hx
    · rw [h1] at hs; injection hs with hs; subst hs
      have e1 : below (k + 1) (x :: l) = x :: below (k + 1) l := by
        unfold below; rw [List.filter_cons_of_pos (by rw [h1]; simp)]
      have e2 : below k (x :: l) = below k l := by
        unfold below; rw [List.filter_cons_of_neg (by rw [h1]; simp)]
      rw [e1, e2, below_nil h3 (Nat.le_refl _), below_nil h3 (by omega)]; rfl
    · obtain ⟨j, hj, hq⟩ := h3.ge x hx
      rw [hj] at hs; injection hs with hs; subst hs
      have e1 : below (j + 1) (y :: l) = y :: below (j + 1) l := by
        unfold below; rw [List.filter_cons_of_pos (by rw [h1]; simp; omega)]
      have e2 : below j (y :: l) = y :: below j l := by
        unfold below; rw [List.filter_cons_of_pos (by rw [h1]; simp; omega)]
      rw [e1, e2, below_succ h3 hx hj]; rfl

theorem below_ownIt_of_lt {i t p : Nat} {o : Option Bytes} (h : i < p) : below p (ownIt i t o) = ownIt i t o := by
  apply below_all _ (by omega)
  intro x hx j hj; rw [ownIt_slot hx] at hj; injection hj with hj; omega

theorem below_ownIt_of_ge {i t p : Nat} {o : Option Bytes} (h : p ≤ i) : below p (ownIt i t o) = [] := below_nil (Incr.ownIt i t o) h

theorem below_head (b : InterestB) : below 11 b.items = b.head := by
  unfold InterestB.items InterestB.head InterestB.params
  simp only [below_append]
  rw [below_ownIt_of_lt (by omega), below_ownIt_of_lt (by omega), below_ownIt_of_lt (by omega), below_ownIt_of_lt (by omega),
    below_ownIt_of_lt (by omega), below_ownIt_of_lt (by omega), below_ownIt_of_lt (by omega), below_ownIt_of_ge (by omega),
    below_ownIt_of_ge (by omega), below_ownIt_of_ge (by omega)]
  simp

theorem below_params (b : InterestB) : below 13 b.items = b.head ++ b.params := by
  unfold InterestB.items InterestB.head InterestB.params
  simp only [below_append]
  rw [below_ownIt_of_lt (by omega), below_ownIt_of_lt (by omega), below_ownIt_of_lt (by omega), below_ownIt_of_lt (by omega),
    below_ownIt_of_lt (by omega), below_ownIt_of_lt (by omega), below_ownIt_of_lt (by omega), below_ownIt_of_lt (by omega),
    below_ownIt_of_lt (by omega), below_ownIt_of_ge (by omega)]
  simp

theorem owns_length_le : ∀ its : List It, (bytesOf (owns its)).length ≤ (bytesOf its).length
  | [] => Nat.le_refl _
  | x :: its => by
    have ih := owns_length_le its
    by_cases hx : x.slot.isSome = true
    · have : owns (x :: its) = x :: owns its := List.filter_cons_of_pos (p := fun x : It => x.slot.isSome) hx
      rw [this, bytesOf_cons, bytesOf_cons, List.length_append, List.length_append]; omega
    · have : owns (x :: its) = owns its := List.filter_cons_of_neg (p := fun x : It => x.slot.isSome) hx
      rw [this, bytesOf_cons, List.length_append]; omega

/-- no unrecognised element before the parameters -/
def HeadClean : List It → Prop
  | [] => True
  | x :: its => x.slot = some 11 ∨ (x.slot ≠ none ∧ HeadClean its)

theorem headClean_of_clean : ∀ {its : List It}, (∀ x ∈ its, x.slot ≠ none) → HeadClean its
  | [], _ => trivial
  | x :: _, h => .inr ⟨h x (by simp), headClean_of_clean fun y hy => h y (by simp [hy])⟩

/-- invariant of the parse: elements to come, next slot, handled slots, state, position.  `J1`: no unrecognised element before the
parameters; `J2`: no unrecognised element at all. -/
structure IInv (v : InterestV) (b : InterestB) (ctx : InterestCtx) (J1 J2 : Prop) (its : List It) (p : Nat) (h : List Nat)
    (st : InterestV × InterestCtx) (pos : Nat) : Prop where
  fits : Fits 15 p its
  own : owns its = from_ p b.items
  junk : ∀ x ∈ its, x.slot = none → x.typ < 2 ^ 64 ∧ x.typ ∉ interestTypes ∧ 31 < x.typ ∧ x.typ % 2 = 0
  val : st.1 = v.upto p
  handled : ∀ i < p, v.has i = true → i ∈ h
  bound : ∀ i ∈ h, i < p ∧ i ≤ 13
  head : J1 → (p ≤ 9 ∧ HeadClean its ∧ pos = (bytesOf (below p b.items)).length) ∨
    (12 ≤ p ∧ 9 ∈ h ∧ 10 ∈ h ∧ st.2.sigCoverStart = (bytesOf b.head).length ∧ st.2.digestCoverStart = (bytesOf b.head).length)
  sig : J2 → (∀ x ∈ its, x.slot ≠ none) ∧ p ≤ 14 ∧ pos = (bytesOf (below p b.items)).length ∧
    (14 ≤ p → b.sigValue.isSome = true) ∧
    st.2.sigCovered = ctx.sigCovered ++ (if p ≤ 2 then [] else nameCover v) ++ (if p ≤ 13 then [] else [bytesOf b.params])

theorem interest_own_step {v : InterestV} {b : InterestB} (hb : v.Bodies b) (hv : v.InRange) {ctx : InterestCtx} {B : Bytes} {J1 J2 : Prop}
    (hJ : J2 → J1) (hJB : J2 → B = bytesOf b.items) {F : Nat} (hF : B.length < F) {i t : Nat} {body : Bytes} {rest : List It} {p : Nat} {h : List Nat}
    {st : InterestV × InterestCtx} {r : BR} {tl : Bytes}
    (hi : IInv v b ctx J1 J2 (⟨some i, t, body⟩ :: rest) p h st r.pos) (hB : r.buf = B) (hr : r.rest = tlv t body ++ tl) :
    t < 2 ^ 64 ∧ knows (interestSlots false F) t = true ∧ p ≤ i ∧ ∃ s, (interestSlots false F)[i]? = some s ∧ s.typ = t ∧
      (∀ j s', p ≤ j → j < i → (interestSlots false F)[j]? = some s' → s'.typ ≠ t) ∧
      ∀ r2 : BR, r2.rest = body ++ tl → r2.adv body.length = r.adv (tlv t body).length → r2.buf = B → Tiny r2 →
        ∃ st1 st', skipTo (interestSlots false F) r.pos r2 (i - p) p st = .ok st1 ∧
          s.read r.pos body.length st1 r2 = some (.ok st', r2.adv body.length) ∧
          IInv v b ctx J1 J2 rest (i + 1) (i :: pass (i - p) p h) st' (r.pos + (tlv t body).length) := by
  obtain ⟨h1, h2, h3, h4, h5, hbd, h6, h7⟩ := hi
  have h2' : from_ p b.items = ⟨some i, t, body⟩ :: owns rest := by rw [← h2]; rfl
  obtain ⟨g1, g2, g3, g4⟩ := from_head (interest_items_incr b) h2' rfl
  obtain ⟨d1, s, d2, d3, d4, d4', d5, d6⟩ := interest_read hb hv g1 F
  have hhas : ∀ j, v.has j = true → j < i → j < p := by
    intro j hj hlt
    obtain ⟨x, hx, hs⟩ := interest_has_item hb hj
    exact g4 x hx j hs hlt
  refine ⟨?_, (interest_knows F t).mpr d1, g2, s, d2, d3, fun j s' _ hj hs' => d5 j s' hj hs', ?_⟩
  · simp only [interestTypes, List.mem_cons, List.not_mem_nil, or_false] at d1; omega
  intro r2 e1 e2 e3 e4
  obtain ⟨st1, k1, k2, k3, k4, k5⟩ := skipTo_inv (slots := interestSlots false F) (start := r.pos) (r := r2)
    (fun j st' => st'.1 = v.upto p ∧ st'.2.sigCovered = st.2.sigCovered ∧
      st'.2.sigCoverStart = (if p ≤ 9 ∧ 9 < j then r.pos else st.2.sigCoverStart) ∧
      st'.2.digestCoverStart = (if p ≤ 10 ∧ 10 < j then r.pos else st.2.digestCoverStart))
    (i - p) p st (by show p + (i - p) ≤ 15; omega) ⟨h4, rfl, by rw [if_neg (by omega)], by rw [if_neg (by omega)]⟩ (by
      intro j s' st' hj1 hj2 hj3 ⟨q1, q2, q3, q4⟩
      obtain ⟨st2, w1, w2, w3, w4, w5, _⟩ := interest_skip hj3 (st := st') (by rw [q1]; exact InterestV.upto_has hj1) r.pos r2
      refine ⟨st2, w1, by rw [w2, q1], by rw [w3, q2], ?_, ?_⟩
      · rw [w4]
        by_cases hj : j = 9
        · rw [if_pos hj, if_pos (by omega)]
        · rw [if_neg hj, q3]
          by_cases hq : p ≤ 9 ∧ 9 < j
          · rw [if_pos hq, if_pos (by omega)]
          · rw [if_neg hq, if_neg (by omega)]
      · rw [w5]
        by_cases hj : j = 10
        · rw [if_pos hj, if_pos (by omega)]
        · rw [if_neg hj, q4]
          by_cases hq : p ≤ 10 ∧ 10 < j
          · rw [if_pos hq, if_pos (by omega)]
          · rw [if_neg hq, if_neg (by omega)])
  rw [show p + (i - p) = i by omega] at k4 k5
  have hbl : body.length < F := by
    have := congrArg List.length hr
    rw [BR.rest_length, List.length_append, tlv_length, hB] at this
    omega
  obtain ⟨st', m1, m2, m3, m3', m4, m5, m6⟩ := d6 st1 r.pos r2 tl e4 e1 hbl (by rw [k2]; exact InterestV.upto_upto g2 hhas)
  have hbelow : below p b.items = below i b.items := below_congr (interest_items_incr b) (fun x hx j hj =>
    ⟨fun hlt => by omega, fun hlt => g4 x hx j hj hlt⟩)
  have hbsucc : bytesOf (below (i + 1) b.items) = bytesOf (below p b.items) ++ tlv t body := by
    rw [below_succ (interest_items_incr b) g1 rfl, bytesOf_append, hbelow]
    simp [bytesOf, It.bytes]
  -- where the parameters start
  have hstart : J1 → 11 ≤ i → st1.2.sigCoverStart = (bytesOf b.head).length ∧ st1.2.digestCoverStart = (bytesOf b.head).length := by
    intro hj1 hi11
    rcases h6 hj1 with ⟨a1, a2, a3⟩ | ⟨a1, _, _, a2, a3⟩
    · have : r.pos = (bytesOf b.head).length := by
        rw [a3, ← below_head]
        congr 2
        refine below_congr (interest_items_incr b) (fun x hx j hj => ⟨fun hlt => by omega, fun hlt => g4 x hx j hj (by omega)⟩)
      rw [k4, k5, if_pos (by omega), if_pos (by omega)]
      exact ⟨this, this⟩
    · rw [k4, k5, if_neg (by omega), if_neg (by omega)]
      exact ⟨a2, a3⟩
  refine ⟨st1, st', k1, m1, h1.2, g3, fun x hx => h3 x (by simp [hx]), m2, ?_, ?_, ?_, ?_⟩
  · intro j hj hh
    rcases Nat.lt_or_ge j i with hlt | hge
    · refine List.mem_cons_of_mem _ (mem_pass.mpr (.inl (h5 j (hhas j hh hlt) hh)))
    · obtain rfl : j = i := by omega
      simp
  · intro j hj
    rcases List.mem_cons.mp hj with rfl | hj
    · omega
    · rcases mem_pass.mp hj with hj | hj
      · have := hbd j hj; omega
      · omega
  · intro hj1
    by_cases hi11 : 11 ≤ i
    · right
      obtain ⟨a1, a2⟩ := hstart hj1 hi11
      refine ⟨by omega, ?_, ?_, by rw [m3, a1], by rw [m3', a2]⟩
      · refine List.mem_cons_of_mem _ (mem_pass.mpr ?_)
        rcases h6 hj1 with ⟨b1, _⟩ | ⟨_, b2, _⟩
        · right; omega
        · exact .inl b2
      · refine List.mem_cons_of_mem _ (mem_pass.mpr ?_)
        rcases h6 hj1 with ⟨b1, _⟩ | ⟨_, _, b2, _⟩
        · right; omega
        · exact .inl b2
    · left
      rcases h6 hj1 with ⟨a1, a2, a3⟩ | ⟨a1, _⟩
      · refine ⟨by omega, ?_, by rw [hbsucc, List.length_append, a3]⟩
        rcases a2 with a2 | a2
        · injection a2 with a2; omega
        · exact a2.2
      · omega
  · intro hj2
    obtain ⟨a1, a2, a3, _, a4⟩ := h7 hj2
    refine ⟨fun x hx => a1 x (by simp [hx]), by omega, by rw [hbsucc, List.length_append, a3], ?_, ?_⟩
    · intro h14
      obtain rfl : i = 13 := by omega
      rcases interest_mem g1 with hm | hm | hm | hm | hm | hm | hm | hm | hm | hm
      all_goals (have hs := ownIt_slot hm; injection hs with hs)
      all_goals first
        | omega
        | (obtain ⟨y, hy, _⟩ := mem_ownIt hm; rw [hy]; rfl)
    by_cases hi2 : i = 2
    · rw [m4 hi2, k3, a4, if_pos (show p ≤ 2 by omega), if_neg (show ¬ i + 1 ≤ 2 by omega), if_pos (show p ≤ 13 by omega),
        if_pos (show i + 1 ≤ 13 by omega)]; simp
    · by_cases hi13 : i = 13
      · have hp2 : (if p ≤ 2 then ([] : Wire) else nameCover v) = nameCover v := by
          by_cases hp : p ≤ 2
          · rw [if_pos hp]
            have hno : v.name.isSome = false := by
              cases hh : v.has 2 with
              | false => exact hh
              | true => have := hhas 2 hh (by omega); omega
            unfold nameCover
            cases hn : v.name with
            | none => rfl
            | some n => rw [hn] at hno; simp at hno
          · rw [if_neg hp]
        rw [m6 hi13, k3, a4, hp2, if_pos (by omega), if_neg (by omega), if_neg (by omega), List.append_nil]
        congr 1
        rw [(hstart (hJ hj2) (by omega)).1, a3, hbelow, hi13, below_params, bytesOf_append]
        unfold rangeOf BR.range
        have hBB := hJB hj2
        have hBl : B = bytesOf b.head ++ (bytesOf b.params ++ bytesOf (ownIt 13 0x2e b.sigValue)) := by
          rw [hBB]; unfold InterestB.items; rw [bytesOf_append, bytesOf_append]
        have hlen := congrArg List.length hBl
        rw [List.length_append, List.length_append] at hlen
        rw [if_neg (by rw [e3]; simp only [List.length_append]; omega), e3]
        simp only [List.length_append, Option.getD_some, Int.toNat_natCast, List.cons.injEq, and_true]
        rw [hBl, List.drop_left, Nat.add_sub_cancel_left, List.take_left]
      · rw [m5 hi2 hi13, k3, a4]
        have hp2 : (if p ≤ 2 then ([] : Wire) else nameCover v) = nameCover v := by
          by_cases hp : p ≤ 2
          · rw [if_pos hp]
            have hno : v.name.isSome = false := by
              cases hh : v.has 2 with
              | false => exact hh
              | true => have := hhas 2 hh (by omega); omega
            unfold nameCover
            cases hn : v.name with
            | none => rfl
            | some n => rw [hn] at hno; simp at hno
          · rw [if_neg hp]
        rw [hp2, if_neg (show ¬ i + 1 ≤ 2 by omega), if_pos (show p ≤ 13 by omega), if_pos (show i + 1 ≤ 13 by omega)]

theorem parseInterest_items {v : InterestV} {b : InterestB} (hb : v.Bodies b) (hv : v.InRange) {its : List It}
    (hfit : Fitting 15 interestTypes b.items its)
    (hl : (bytesOf its).length < 2 ^ 43) {F : Nat} (hF : (bytesOf its).length < F) (ctx : InterestCtx) :
    ∃ st r', parseInterest false F ctx (BR.new (bytesOf its)) = some (.ok st, r') ∧ st.1 = v ∧
      (HeadClean its → st.2.digestCovered = [(bytesOf its).drop (bytesOf b.head).length]) ∧
      (its = b.items → st.2.sigCovered = ctx.sigCovered ++ nameCover v ++ (if b.sigValue.isSome then [bytesOf b.params] else [])) := by
  have hclean : ∀ x ∈ b.items, x.slot ≠ none := by
    intro x hx hn
    obtain ⟨j, g1, _⟩ := (interest_items_incr b).ge x hx
    rw [hn] at g1; exact (nomatch g1)
  have hrun := run_items (ic := false) (slots := interestSlots false F) (IInv v b ctx (HeadClean its) (its = b.items)) (bytesOf its)
    (fun i t body rest p h st r tl hi hB hr => interest_own_step hb hv (fun h => by rw [h]; exact headClean_of_clean hclean)
      (fun h => by rw [h]) hF hi hB hr)
    (by
      intro t body rest p h st pos hi
      obtain ⟨h1, h2, h3, h4, h5, hbd, h6, h7⟩ := hi
      obtain ⟨j1, j2, j3, j4⟩ := h3 ⟨none, t, body⟩ (by simp) rfl
      have h2' : owns rest = from_ p b.items := by rw [← h2]; rfl
      obtain ⟨k1, k2⟩ := from_junk h1.2 h2' (interest_items_incr b)
      have hno : v.has p ≠ true := by
        intro hp
        obtain ⟨x, hx, hs⟩ := interest_has_item hb hp
        exact k1 x hx hs
      refine ⟨j1, ?_, .inr ?_, h1.1, h1.2, by rw [h2', k2], fun x hx => h3 x (by simp [hx]), ?_, ?_, ?_, ?_, ?_⟩
      · cases hk : knows (interestSlots false F) t with
        | false => rfl
        | true => exact absurd ((interest_knows F t).mp hk) j2
      · unfold isCritical; simp only [decide_eq_false_iff_not, Bool.or_eq_false_iff]; simp at j3 j4 ⊢; omega
      · rw [h4]
        exact InterestV.upto_upto (by omega) (fun i hi hlt => by
          rcases Nat.lt_or_ge i p with g | g
          · exact g
          · obtain rfl : i = p := by omega
            exact absurd hi hno)
      · intro i hi hh
        refine h5 i ?_ hh
        rcases Nat.lt_or_ge i p with g | g
        · exact g
        · obtain rfl : i = p := by omega
          exact absurd hh hno
      · intro i hi; have := hbd i hi; omega
      · intro hJ
        rcases h6 hJ with ⟨_, a2, _⟩ | ⟨a1, a2⟩
        · rcases a2 with a2 | a2
          · exact (nomatch a2)
          · exact absurd rfl a2.1
        · exact .inr ⟨by omega, a2⟩
      · intro hJ
        exact absurd rfl ((h7 hJ).1 ⟨none, t, body⟩ (by simp)))
    its 0 [] ({}, ctx) (BR.new (bytesOf its)) [] ⟨hfit.fits, by rw [from_zero]; exact hfit.owns, hfit.junk, rfl, fun i hi => absurd hi (by omega),
      fun i hi => (nomatch hi), fun hJ => .inl ⟨by omega, hJ, by rw [below_zero]; rfl⟩,
      fun hJ => ⟨by rw [hJ]; exact hclean, by omega, by rw [below_zero]; rfl, fun h => absurd h (by omega), by simp⟩⟩
    rfl (Tiny.new hl) (by rw [BR.rest_new, List.append_nil])
  obtain ⟨p', h', st', i1, i2⟩ := parse_items rfl hrun hF
  obtain ⟨f1, f2, f3, f4, f5, fbd, f6, f7⟩ := i1
  have hit : ∀ x ∈ b.items, ∀ j, x.slot = some j → j < p' := from_nil f2.symm
  have hall : ∀ i, v.has i = true → i < p' := by
    intro i hi
    obtain ⟨x, hx, hs⟩ := interest_has_item hb hi
    exact hit x hx i hs
  rw [InterestV.upto_all hall] at f4
  have hlen : ((BR.new (bytesOf its)).adv (bytesOf its).length).pos = (bytesOf its).length := by simp
  -- the start of the covered part after the loop
  have hstart : HeadClean its → (p' ≤ 9 ∧ 9 ∉ h' ∧ 10 ∉ h' ∧ (bytesOf its).length = (bytesOf b.head).length) ∨
      (9 ∈ h' ∧ 10 ∈ h' ∧ st'.2.digestCoverStart = (bytesOf b.head).length) := by
    intro hJ
    rcases f6 hJ with ⟨a1, a2, a3⟩ | ⟨a1, a2, a3, a4, a5⟩
    · left
      refine ⟨a1, fun h => by have := fbd 9 h; omega, fun h => by have := fbd 10 h; omega, ?_⟩
      rw [a3, ← below_head]
      congr 2
      refine below_congr (interest_items_incr b) (fun x hx j hj => ?_)
      have := hit x hx j hj
      omega
    · exact .inr ⟨a2, a3, a5⟩
  obtain ⟨st2, q1, q2, q3, q4, q5⟩ := ordFinish_inv (h := h') (r := (BR.new (bytesOf its)).adv (bytesOf its).length)
    (fun j st => st.1 = v ∧ st.2.sigCovered = st'.2.sigCovered ∧
      (HeadClean its → 10 < j → st.2.digestCoverStart = (bytesOf b.head).length) ∧
      (HeadClean its → j ≤ 10 → st.2.digestCoverStart = st'.2.digestCoverStart) ∧
      (HeadClean its → 14 < j → st.2.digestCovered = [(bytesOf its).drop (bytesOf b.head).length])) (interestSlots false F) 0 st'
    ⟨f4, rfl, fun _ h => absurd h (by omega), fun _ _ => rfl, fun _ h => absurd h (by omega)⟩ (by
      intro j s st hj ⟨w1, w2, w3, w3', w4⟩
      rw [Nat.zero_add] at w3 w3' w4 ⊢
      have hj15 : j < 15 := (List.getElem?_eq_some_iff.mp hj).1
      by_cases hc : h'.contains j = true
      · rw [if_pos hc]
        have hcm : j ∈ h' := List.contains_iff_mem.mp hc
        refine ⟨w1, w2, ?_, fun hJ hle => w3' hJ (by omega), ?_⟩
        · intro hJ hlt
          by_cases h10 : j = 10
          · rcases hstart hJ with ⟨_, _, n10, _⟩ | ⟨_, _, hd⟩
            · rw [h10] at hcm; exact absurd hcm n10
            · rw [w3' hJ (by omega)]; exact hd
          · exact w3 hJ (by omega)
        · intro hJ hlt
          have := (fbd j hcm).2
          omega
      · rw [if_neg hc]
        have hcm : j ∉ h' := fun h => hc (List.contains_iff_mem.mpr h)
        have hn : st.1.has j = false := by
          rw [w1]
          cases hh : v.has j with
          | false => rfl
          | true => exact absurd (f5 j (hall j hh) hh) hcm
        obtain ⟨st2, x1, x2, x3, _, x5, x6⟩ := interest_skip hj hn ((BR.new (bytesOf its)).adv (bytesOf its).length).pos
          ((BR.new (bytesOf its)).adv (bytesOf its).length)
        refine ⟨st2, x1, by rw [x2, w1], by rw [x3, w2], ?_, ?_, ?_⟩
        · intro hJ hlt
          rw [x5]
          by_cases h10 : j = 10
          · rw [if_pos h10, hlen]
            rcases hstart hJ with ⟨_, _, _, hl⟩ | ⟨_, h10', _⟩
            · exact hl
            · rw [h10] at hcm; exact absurd h10' hcm
          · rw [if_neg h10]; exact w3 hJ (by omega)
        · intro hJ hle
          rw [x5, if_neg (by omega)]; exact w3' hJ (by omega)
        · intro hJ hlt
          have h14 : j = 14 := by omega
          rw [x6, if_pos h14, w3 hJ (by omega), hlen]
          unfold rangeOf BR.range
          have hle : (bytesOf b.head).length ≤ (bytesOf its).length := by
            have h1 : (bytesOf b.head).length ≤ (bytesOf b.items).length := by
              unfold InterestB.items; rw [bytesOf_append, List.length_append]; omega
            have h2 : (bytesOf b.items).length ≤ (bytesOf its).length := by
              rw [← hfit.owns]; exact owns_length_le its
            omega
          rw [if_neg (by simp only [BR.adv_buf, BR.new]; omega)]
          simp only [BR.adv_buf, BR.new, Option.getD_some, Int.toNat_natCast, List.cons.injEq, and_true]
          rw [List.take_of_length_le (by simp)])
  refine ⟨st2, (BR.new (bytesOf its)).adv (bytesOf its).length, ?_, q2, fun hJ => q5.2 hJ (show 14 < 0 + 15 by decide), ?_⟩
  · unfold parseInterest; rw [i2, q1]
  · intro he
    obtain ⟨c1, c2, c3, c3', c4⟩ := f7 he
    rw [q3, c4]
    have e1 : (if p' ≤ 2 then ([] : Wire) else nameCover v) = nameCover v := by
      by_cases hp : p' ≤ 2
      · rw [if_pos hp]
        unfold nameCover
        cases hn : v.name with
        | none => rfl
        | some n =>
          have := hall 2 (by show v.name.isSome = true; rw [hn]; rfl)
          omega
      · rw [if_neg hp]
    have e2 : (if p' ≤ 13 then ([] : Wire) else [bytesOf b.params]) = (if b.sigValue.isSome then [bytesOf b.params] else []) := by
      have hs := optBody_isSome hb.sigValue
      by_cases hp : p' ≤ 13
      · rw [if_pos hp]
        have hno : b.sigValue.isSome = false := by
          rw [← hs]
          cases hh : v.has 13 with
          | false => exact hh
          | true => have := hall 13 hh; omega
        rw [hno]; rfl
      · rw [if_neg hp]
        rw [c3' (by omega), if_pos rfl]
    rw [e1, e2]

end Ndn.Packet
