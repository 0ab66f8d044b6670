import Verif.Packet.DataLemmas

/-! # The parser of Interests (lemmas) -/

namespace Ndn.Packet
open Ndn.Codec Ndn.Codec.Schema

/-! ## Names -/

/-- the components of a name that a signature covers: those before the last parameters digest, or all -/
def signedPart : Name → Name
  | [] => []
  | c :: n => if n.any (fun x => x.typ == 2) then c :: signedPart n else if c.typ = 2 then [] else c :: n

theorem signedPart_prefix : ∀ n : Name, ∃ m, n = signedPart n ++ m
  | [] => ⟨[], rfl⟩
  | c :: n => by
    obtain ⟨m, hm⟩ := signedPart_prefix n
    unfold signedPart
    by_cases h1 : (n.any (fun x => x.typ == 2)) = true
    · rw [if_pos h1]; exact ⟨m, by rw [List.cons_append, ← hm]⟩
    · rw [if_neg h1]
      by_cases h2 : c.typ = 2
      · rw [if_pos h2]; exact ⟨c :: n, rfl⟩
      · rw [if_neg h2]; exact ⟨[], by simp⟩

theorem encBody_append (a b : Name) : Name.encBody (a ++ b) = Name.encBody a ++ Name.encBody b := by
  induction a with
  | nil => rfl
  | cons c a ih => rw [List.cons_append, Name.encBody, ih, Name.encBody, List.append_assoc]

theorem readIntNameSlots_enc (n : Name) : ∀ (r : BR) (t : Bytes) (slots cov : Nat), r.Good → r.rest = Name.encBody n ++ t →
    (∀ c ∈ n, c.Small) → n.length ≤ slots →
    readIntNameSlots slots (r.pos + (Name.encBody n).length) cov r =
      (.ok (n, if n.any (fun x => x.typ == 2) then r.pos + (Name.encBody (signedPart n)).length else cov), r.adv (Name.encBody n).length) := by
  induction n with
  | nil =>
    intro r t slots cov hg hr _ hf
    cases slots <;> simp [readIntNameSlots, Name.encBody]
  | cons c n ih =>
    intro r t slots cov hg hr hs hf
    cases slots with
    | zero => simp at hf
    | succ f =>
      have hc := hs c (by simp)
      have hr1 : r.rest = c.enc ++ (Name.encBody n ++ t) := by rw [hr, Name.encBody, List.append_assoc]
      have e := readComponent_enc hg hr1 hc.1 hc.2
      have hle : c.encLen ≤ r.rest.length := by rw [hr1, List.length_append, Component.enc_length]; omega
      have hr' : (r.adv c.encLen).rest = Name.encBody n ++ t := by
        rw [← Component.enc_length]; exact rest_adv_append hr1
      have := ih (r.adv c.encLen) t f (if c.typ = typParamsDigest then r.pos else cov) (hg.adv hle) hr' (fun c hc => hs c (by simp [hc]))
        (by simpa using hf)
      have hge := Component.encLen_ge c
      have hlen : (Name.encBody (c :: n)).length = c.encLen + (Name.encBody n).length := by
        rw [Name.encBody, List.length_append, Component.enc_length]
      rw [readIntNameSlots, if_neg (by omega), e]
      simp only
      rw [hlen, ← Nat.add_assoc, show r.pos + c.encLen = (r.adv c.encLen).pos from rfl, this]
      simp only
      rw [BR.adv_adv]
      refine Prod.ext ?_ rfl
      simp only [List.any_cons]
      have hsp : signedPart (c :: n) = if n.any (fun x => x.typ == 2) then c :: signedPart n else if c.typ = 2 then [] else c :: n := rfl
      rw [hsp]
      by_cases h1 : (n.any (fun x => x.typ == 2)) = true
      · simp only [h1, if_true, Bool.or_true]
        rw [Name.encBody, List.length_append, Component.enc_length]
        simp only [BR.adv_pos, Nat.add_assoc]
      · simp only [Bool.not_eq_true] at h1
        simp only [h1, Bool.or_false]
        by_cases h2 : c.typ = 2
        · simp [h2, typParamsDigest, Name.encBody]
        · simp [h2, typParamsDigest]

theorem read_intName {n : Name} {t : Bytes} {r : BR} (hg : Tiny r) (hr : r.rest = Name.encBody n ++ t) (hs : ∀ c ∈ n, c.Small) :
    readIntName (Name.encBody n).length r = (.ok (n, [Name.encBody (signedPart n)]), r.adv (Name.encBody n).length) := by
  have h1 := hg.rest
  rw [hr, List.length_append] at h1
  have h2 := encBody_length_ge n
  unfold readIntName
  rw [if_neg (by unfold maxAlloc; omega), readIntNameSlots_enc n r t _ _ hg.good hr hs (by omega)]
  simp only
  refine Prod.ext (congrArg Res.ok (Prod.ext rfl ?_)) rfl
  simp only
  have key : ∀ (a z : Bytes), r.rest = a ++ z → rangeOf (r.adv (Name.encBody n).length) r.pos (r.pos + a.length : Nat) = [a] := by
    intro a z haz
    have hl := congrArg List.length haz
    rw [BR.rest_length, List.length_append] at hl
    have h3 := hg.1
    unfold rangeOf BR.range
    rw [if_neg (by simp only [BR.adv_buf]; omega)]
    simp only [BR.adv_buf, Option.getD_some, Int.toNat_natCast, List.cons.injEq, and_true]
    have : (r.buf.drop r.pos) = a ++ z := haz
    rw [Nat.add_sub_cancel_left]
    rw [this, List.take_left]
  by_cases hd : (n.any (fun x => x.typ == 2)) = true
  · rw [if_pos hd]
    obtain ⟨m, hm⟩ := signedPart_prefix n
    refine key _ (Name.encBody m ++ t) ?_
    rw [hr, ← List.append_assoc, ← encBody_append, ← hm]
  · rw [if_neg hd]
    have hsp : signedPart n = n := by
      cases n with
      | nil => rfl
      | cons c n =>
        simp only [List.any_cons, Bool.or_eq_true, not_or, Bool.not_eq_true, beq_eq_false_iff_ne] at hd
        unfold signedPart
        rw [if_neg (by rw [hd.2]; decide), if_neg hd.1]
    rw [hsp]
    exact key _ t hr

/-! ## Fields -/

/-- is the field of slot `i` set? -/
def InterestV.has (v : InterestV) : Nat → Bool
  | 2 => v.name.isSome
  | 3 => v.canBePrefix
  | 4 => v.mustBeFresh
  | 5 => v.fwdHint.isSome
  | 6 => v.nonce.isSome
  | 7 => v.lifetime.isSome
  | 8 => v.hopLimit.isSome
  | 11 => v.appParam.isSome
  | 12 => v.sigInfo.isSome
  | 13 => v.sigValue.isSome
  | _ => false

/-- the fields of slots below `p` -/
def InterestV.upto (v : InterestV) (p : Nat) : InterestV :=
  ⟨if 2 < p then v.name else none,
   if 3 < p then v.canBePrefix else false,
   if 4 < p then v.mustBeFresh else false,
   if 5 < p then v.fwdHint else none,
   if 6 < p then v.nonce else none,
   if 7 < p then v.lifetime else none,
   if 8 < p then v.hopLimit else none,
   if 11 < p then v.appParam else none,
   if 12 < p then v.sigInfo else none,
   if 13 < p then v.sigValue else none⟩

theorem InterestV.upto_has {v : InterestV} {p j : Nat} (h : p ≤ j) : (v.upto p).has j = false := by
  unfold has
  split
  all_goals first
    | rfl
    | (show Option.isSome (ite _ _ _) = false; rw [if_neg (by omega)]; rfl)
    | (show (ite _ _ _ : Bool) = false; rw [if_neg (by omega)])

theorem InterestV.upto_all {v : InterestV} {p : Nat} (h : ∀ i, v.has i = true → i < p) : v.upto p = v := by
  obtain ⟨x2, x3, x4, x5, x6, x7, x8, x11, x12, x13⟩ := v
  have h2 := h 2
  have h3 := h 3
  have h4 := h 4
  have h5 := h 5
  have h6 := h 6
  have h7 := h 7
  have h8 := h 8
  have h11 := h 11
  have h12 := h 12
  have h13 := h 13
  simp only [has] at h2 h3 h4 h5 h6 h7 h8 h11 h12 h13
  unfold upto
  simp only [InterestV.mk.injEq]
  refine ⟨?_, ?_, ?_, ?_, ?_, ?_, ?_, ?_, ?_, ?_⟩
  · by_cases q : 2 < p
    · rw [if_pos q]
    · rw [if_neg q]; cases x2 with
      | none => rfl
      | some x => exact absurd (h2 rfl) q
  · by_cases q : 3 < p
    · rw [if_pos q]
    · rw [if_neg q]; cases x3 with
      | false => rfl
      | true => exact absurd (h3 rfl) q
  · by_cases q : 4 < p
    · rw [if_pos q]
    · rw [if_neg q]; cases x4 with
      | false => rfl
      | true => exact absurd (h4 rfl) q
  · by_cases q : 5 < p
    · rw [if_pos q]
    · rw [if_neg q]; cases x5 with
      | none => rfl
      | some x => exact absurd (h5 rfl) q
  · by_cases q : 6 < p
    · rw [if_pos q]
    · rw [if_neg q]; cases x6 with
      | none => rfl
      | some x => exact absurd (h6 rfl) q
  · by_cases q : 7 < p
    · rw [if_pos q]
    · rw [if_neg q]; cases x7 with
      | none => rfl
      | some x => exact absurd (h7 rfl) q
  · by_cases q : 8 < p
    · rw [if_pos q]
    · rw [if_neg q]; cases x8 with
      | none => rfl
      | some x => exact absurd (h8 rfl) q
  · by_cases q : 11 < p
    · rw [if_pos q]
    · rw [if_neg q]; cases x11 with
      | none => rfl
      | some x => exact absurd (h11 rfl) q
  · by_cases q : 12 < p
    · rw [if_pos q]
    · rw [if_neg q]; cases x12 with
      | none => rfl
      | some x => exact absurd (h12 rfl) q
  · by_cases q : 13 < p
    · rw [if_pos q]
    · rw [if_neg q]; cases x13 with
      | none => rfl
      | some x => exact absurd (h13 rfl) q

theorem InterestV.upto_upto {v : InterestV} {p q : Nat} (hpq : p ≤ q) (h : ∀ i, v.has i = true → i < q → i < p) : v.upto p = v.upto q := by
  have h1 : (v.upto q).upto p = v.upto q := upto_all (fun i hi => by
    have hiq : i < q := by
      rcases Nat.lt_or_ge i q with g | g
      · exact g
      · rw [upto_has g] at hi; exact absurd hi (by decide)
    refine h i ?_ hiq
    revert hi
    unfold has upto
    split <;> first | (simp only [if_pos hiq]; exact id) | exact id)
  rw [← h1]
  unfold upto
  simp only [InterestV.mk.injEq]
  refine ⟨?_, ?_, ?_, ?_, ?_, ?_, ?_, ?_, ?_, ?_⟩ <;>
  · split
    · rw [if_pos (by omega)]
    · rfl

theorem interest_skip {F j : Nat} {s : Slot (InterestV × InterestCtx)} (hj : (interestSlots false F)[j]? = some s) {st : InterestV × InterestCtx}
    (hn : st.1.has j = false) (start : Nat) (r : BR) :
    ∃ st', s.skip start st r = .ok st' ∧ st'.1 = st.1 ∧ st'.2.sigCovered = st.2.sigCovered ∧
      st'.2.sigCoverStart = (if j = 9 then start else st.2.sigCoverStart) ∧
      st'.2.digestCoverStart = (if j = 10 then start else st.2.digestCoverStart) ∧
      st'.2.digestCovered = (if j = 14 then rangeOf r st.2.digestCoverStart start else st.2.digestCovered) := by
  obtain ⟨⟨x2, x3, x4, x5, x6, x7, x8, x11, x12, x13⟩, ctx⟩ := st
  rcases j with _ | _ | _ | _ | _ | _ | _ | _ | _ | _ | _ | _ | _ | _ | _ | j
  · obtain rfl := Option.some.inj hj; exact ⟨_, rfl, rfl, rfl, rfl, rfl, rfl⟩
  · obtain rfl := Option.some.inj hj; exact ⟨_, rfl, rfl, rfl, rfl, rfl, rfl⟩
  · obtain rfl := Option.some.inj hj
    obtain rfl : x2 = none := Option.not_isSome_iff_eq_none.mp (by rw [Bool.not_eq_true]; exact hn)
    exact ⟨_, rfl, rfl, rfl, rfl, rfl, rfl⟩
  · obtain rfl := Option.some.inj hj
    obtain rfl : x3 = false := hn
    exact ⟨_, rfl, rfl, rfl, rfl, rfl, rfl⟩
  · obtain rfl := Option.some.inj hj
    obtain rfl : x4 = false := hn
    exact ⟨_, rfl, rfl, rfl, rfl, rfl, rfl⟩
  · obtain rfl := Option.some.inj hj
    obtain rfl : x5 = none := Option.not_isSome_iff_eq_none.mp (by rw [Bool.not_eq_true]; exact hn)
    exact ⟨_, rfl, rfl, rfl, rfl, rfl, rfl⟩
  · obtain rfl := Option.some.inj hj
    obtain rfl : x6 = none := Option.not_isSome_iff_eq_none.mp (by rw [Bool.not_eq_true]; exact hn)
    exact ⟨_, rfl, rfl, rfl, rfl, rfl, rfl⟩
  · obtain rfl := Option.some.inj hj
    obtain rfl : x7 = none := Option.not_isSome_iff_eq_none.mp (by rw [Bool.not_eq_true]; exact hn)
    exact ⟨_, rfl, rfl, rfl, rfl, rfl, rfl⟩
  · obtain rfl := Option.some.inj hj
    obtain rfl : x8 = none := Option.not_isSome_iff_eq_none.mp (by rw [Bool.not_eq_true]; exact hn)
    exact ⟨_, rfl, rfl, rfl, rfl, rfl, rfl⟩
  · obtain rfl := Option.some.inj hj; exact ⟨_, rfl, rfl, rfl, rfl, rfl, rfl⟩
  · obtain rfl := Option.some.inj hj; exact ⟨_, rfl, rfl, rfl, rfl, rfl, rfl⟩
  · obtain rfl := Option.some.inj hj
    obtain rfl : x11 = none := Option.not_isSome_iff_eq_none.mp (by rw [Bool.not_eq_true]; exact hn)
    exact ⟨_, rfl, rfl, rfl, rfl, rfl, rfl⟩
  · obtain rfl := Option.some.inj hj
    obtain rfl : x12 = none := Option.not_isSome_iff_eq_none.mp (by rw [Bool.not_eq_true]; exact hn)
    exact ⟨_, rfl, rfl, rfl, rfl, rfl, rfl⟩
  · obtain rfl := Option.some.inj hj
    obtain rfl : x13 = none := Option.not_isSome_iff_eq_none.mp (by rw [Bool.not_eq_true]; exact hn)
    exact ⟨_, rfl, rfl, rfl, rfl, rfl, rfl⟩
  · obtain rfl := Option.some.inj hj; exact ⟨_, rfl, rfl, rfl, rfl, rfl, rfl⟩
  · exact absurd hj (by simp [interestSlots])

theorem interest_knows (F t : Nat) : knows (interestSlots false F) t = true ↔ t ∈ interestTypes := by
  simp only [knows, interestSlots, argSlot, markSlot, elemSlot, flagSlot, sigSlot, List.map, interestTypes]
  simp only [Bool.and_eq_true, bne_iff_ne, ne_eq, List.contains_iff_mem, List.mem_cons, List.not_mem_nil, or_false]
  omega

/-- membership in the elements -/
theorem interest_mem {b : InterestB} {x : It} (h : x ∈ b.items) :
    x ∈ ownIt 2 0x07 b.name ∨ x ∈ ownIt 3 0x21 (if b.canBePrefix then some [] else none) ∨ x ∈ ownIt 4 0x12 (if b.mustBeFresh then some [] else none) ∨ x ∈ ownIt 5 0x1e b.fwdHint ∨ x ∈ ownIt 6 0x0a b.nonce ∨ x ∈ ownIt 7 0x0c b.lifetime ∨ x ∈ ownIt 8 0x22 b.hopLimit ∨ x ∈ ownIt 11 0x24 b.appParam ∨ x ∈ ownIt 12 0x2c b.sigInfo ∨ x ∈ ownIt 13 0x2e b.sigValue := by
  unfold InterestB.items InterestB.head InterestB.params at h
  simp only [List.mem_append, or_assoc] at h
  exact h

theorem interest_mem_of {b : InterestB} {x : It} (h : 
    x ∈ ownIt 2 0x07 b.name ∨ x ∈ ownIt 3 0x21 (if b.canBePrefix then some [] else none) ∨ x ∈ ownIt 4 0x12 (if b.mustBeFresh then some [] else none) ∨ x ∈ ownIt 5 0x1e b.fwdHint ∨ x ∈ ownIt 6 0x0a b.nonce ∨ x ∈ ownIt 7 0x0c b.lifetime ∨ x ∈ ownIt 8 0x22 b.hopLimit ∨ x ∈ ownIt 11 0x24 b.appParam ∨ x ∈ ownIt 12 0x2c b.sigInfo ∨ x ∈ ownIt 13 0x2e b.sigValue) : x ∈ b.items := by
  unfold InterestB.items InterestB.head InterestB.params
  simp only [List.mem_append, or_assoc]
  exact h

theorem ownIt_slot {i t : Nat} {b : Option Bytes} {x : It} (hx : x ∈ ownIt i t b) : x.slot = some i := by
  obtain ⟨y, _, rfl⟩ := mem_ownIt hx; rfl

theorem interest_items_incr (b : InterestB) : Incr 2 b.items := by
  have e : b.items = 
    ownIt 2 0x07 b.name ++ (ownIt 3 0x21 (if b.canBePrefix then some [] else none) ++ (ownIt 4 0x12 (if b.mustBeFresh then some [] else none) ++ (ownIt 5 0x1e b.fwdHint ++ (ownIt 6 0x0a b.nonce ++ (ownIt 7 0x0c b.lifetime ++ (ownIt 8 0x22 b.hopLimit ++ (ownIt 11 0x24 b.appParam ++ (ownIt 12 0x2c b.sigInfo ++ (ownIt 13 0x2e b.sigValue))))))))) := by
    unfold InterestB.items InterestB.head InterestB.params
    simp only [List.append_assoc]
  rw [e]
  have hc : ∀ {i t q : Nat} {o : Option Bytes} {l : List It}, i < q → Incr q l → Incr i (ownIt i t o ++ l) := by
    intro i t q o l hq hl
    refine Incr.append (Incr.ownIt i t o) hl (by omega) ?_
    intro x hx j hj
    rw [ownIt_slot hx] at hj; injection hj with hj; omega
  exact hc (q := 3) (by omega) (hc (q := 4) (by omega) (hc (q := 5) (by omega) (hc (q := 6) (by omega) (hc (q := 7) (by omega) (hc (q := 8) (by omega) (hc (q := 11) (by omega) (hc (q := 12) (by omega) (hc (q := 13) (by omega) (Incr.ownIt _ _ _)))))))))

theorem interest_has_item {v : InterestV} {b : InterestB} (hb : v.Bodies b) {i : Nat} (h : v.has i = true) : ∃ x ∈ b.items, x.slot = some i := by
  have key : ∀ (o : Option Bytes) (i t : Nat), o.isSome = true → ∃ x ∈ ownIt i t o, x.slot = some i := by
    intro o i t ho
    cases o with
    | none => exact absurd ho (by decide)
    | some y => exact ⟨_, List.mem_singleton.mpr rfl, rfl⟩
  unfold InterestV.has at h
  split at h
  · replace h := (optBody_isSome hb.name).symm.trans h
    obtain ⟨x, hx, hs⟩ := key _ 2 0x07 h; exact ⟨x, interest_mem_of (.inl hx), hs⟩
  · obtain ⟨x, hx, hs⟩ := key (if b.canBePrefix then some [] else none) 3 0x21 (by rw [hb.canBePrefix, if_pos h]; rfl); exact ⟨x, interest_mem_of (.inr (.inl hx)), hs⟩
  · obtain ⟨x, hx, hs⟩ := key (if b.mustBeFresh then some [] else none) 4 0x12 (by rw [hb.mustBeFresh, if_pos h]; rfl); exact ⟨x, interest_mem_of (.inr (.inr (.inl hx))), hs⟩
  · replace h := (optBody_isSome hb.fwdHint).symm.trans h
    obtain ⟨x, hx, hs⟩ := key _ 5 0x1e h; exact ⟨x, interest_mem_of (.inr (.inr (.inr (.inl hx)))), hs⟩
  · replace h := (optBody_isSome hb.nonce).symm.trans h
    obtain ⟨x, hx, hs⟩ := key _ 6 0x0a h; exact ⟨x, interest_mem_of (.inr (.inr (.inr (.inr (.inl hx))))), hs⟩
  · replace h := (optBody_isSome hb.lifetime).symm.trans h
    obtain ⟨x, hx, hs⟩ := key _ 7 0x0c h; exact ⟨x, interest_mem_of (.inr (.inr (.inr (.inr (.inr (.inl hx)))))), hs⟩
  · replace h := (optBody_isSome hb.hopLimit).symm.trans h
    obtain ⟨x, hx, hs⟩ := key _ 8 0x22 h; exact ⟨x, interest_mem_of (.inr (.inr (.inr (.inr (.inr (.inr (.inl hx))))))), hs⟩
  · replace h := (optBody_isSome hb.appParam).symm.trans h
    obtain ⟨x, hx, hs⟩ := key _ 11 0x24 h; exact ⟨x, interest_mem_of (.inr (.inr (.inr (.inr (.inr (.inr (.inr (.inl hx)))))))), hs⟩
  · replace h := (optBody_isSome hb.sigInfo).symm.trans h
    obtain ⟨x, hx, hs⟩ := key _ 12 0x2c h; exact ⟨x, interest_mem_of (.inr (.inr (.inr (.inr (.inr (.inr (.inr (.inr (.inl hx))))))))), hs⟩
  · replace h := (optBody_isSome hb.sigValue).symm.trans h
    obtain ⟨x, hx, hs⟩ := key _ 13 0x2e h; exact ⟨x, interest_mem_of (.inr (.inr (.inr (.inr (.inr (.inr (.inr (.inr (.inr (hx)))))))))), hs⟩
  · exact absurd h (by decide)

/-- what the signature covers of the name -/
def nameCover (v : InterestV) : Wire :=
  match v.name with
  | none => []
  | some n => [Name.encBody (signedPart n)]

/-- slot, type and the reading of an own element -/
theorem interest_read {v : InterestV} {b : InterestB} (hb : v.Bodies b) (hv : v.InRange) {i t : Nat} {body : Bytes}
    (hx : (⟨some i, t, body⟩ : It) ∈ b.items)
    (F : Nat) : t ∈ interestTypes ∧ ∃ s, (interestSlots false F)[i]? = some s ∧ s.typ = t ∧ (i ≤ 8 ∨ (11 ≤ i ∧ i ≤ 13)) ∧ 2 ≤ i ∧
      (∀ j s', j < i → (interestSlots false F)[j]? = some s' → s'.typ ≠ t) ∧
      ∀ (st : InterestV × InterestCtx) (start : Nat) (r : BR) (tl : Bytes), Tiny r → r.rest = body ++ tl → body.length < F → st.1 = v.upto i →
        ∃ st', s.read start body.length st r = some (.ok st', r.adv body.length) ∧ st'.1 = v.upto (i + 1) ∧
          st'.2.sigCoverStart = st.2.sigCoverStart ∧ st'.2.digestCoverStart = st.2.digestCoverStart ∧
          (i = 2 → st'.2.sigCovered = st.2.sigCovered ++ nameCover v) ∧
          (i ≠ 2 → i ≠ 13 → st'.2.sigCovered = st.2.sigCovered) ∧
          (i = 13 → st'.2.sigCovered = st.2.sigCovered ++ rangeOf r st.2.sigCoverStart start) := by
  have hdist : ∀ j i' : Nat, j < i' → ∀ s s', (interestSlots false F)[j]? = some s → (interestSlots false F)[i']? = some s' → s'.typ ≠ 0 →
      s.typ ≠ s'.typ :=
    slots_distinct (types := [0, 0, 0x07, 0x21, 0x12, 0x1e, 0x0a, 0x0c, 0x22, 0, 0, 0x24, 0x2c, 0x2e, 0]) rfl (by decide)
  rcases interest_mem hx with hx | hx | hx | hx | hx | hx | hx | hx | hx | hx
  · obtain ⟨y, hy, he⟩ := mem_ownIt hx
    obtain ⟨rfl, rfl, rfl⟩ : i = 2 ∧ t = 0x07 ∧ body = y := by simpa using he
    refine ⟨by decide, _, rfl, rfl, by omega, by omega, fun j s' h1 h2 => hdist j 2 h1 s' _ h2 rfl (show (0x07 : Nat) ≠ 0 by decide), ?_⟩
    intro st start r tl htiny hr hF hst
    have h0 := hb.name
    rw [hy] at h0
    cases hn : v.name with
    | none => rw [hn] at h0; exact h0.elim
    | some n =>
      rw [hn] at h0
      obtain rfl : body = Name.encBody n := h0
      have hs := hv.name
      rw [hn] at hs
      refine ⟨({ st.1 with name := some n }, { st.2 with sigCovered := st.2.sigCovered ++ [Name.encBody (signedPart n)] }), ?_, ?_, rfl, rfl,
        fun _ => by show _ = _ ++ nameCover v; rw [nameCover, hn], fun h => absurd rfl h, fun h => absurd h (by omega)⟩
      · show PR.map _ (some (readIntName (Name.encBody n).length r)) = _
        rw [read_intName htiny hr hs]; rfl
      · rw [hst]; exact congrArg (fun o => ({ v.upto 2 with name := o } : InterestV)) hn.symm
  · obtain ⟨y, hy, he⟩ := mem_ownIt hx
    obtain ⟨rfl, rfl, rfl⟩ : i = 3 ∧ t = 0x21 ∧ body = y := by simpa using he
    refine ⟨by decide, _, rfl, rfl, by omega, by omega, fun j s' h1 h2 => hdist j 3 h1 s' _ h2 rfl (show (0x21 : Nat) ≠ 0 by decide), ?_⟩
    intro st start r tl htiny hr hF hst
    have hcb : v.canBePrefix = true ∧ body = [] := by
      rw [hb.canBePrefix] at hy
      cases hq : v.canBePrefix with
      | false => rw [hq] at hy; exact (nomatch hy)
      | true => rw [hq] at hy; exact ⟨rfl, (Option.some.inj hy).symm⟩
    obtain ⟨hcb, rfl⟩ := hcb
    refine ⟨({ st.1 with canBePrefix := true }, st.2), rfl, ?_, rfl, rfl, fun h => absurd h (by omega), fun _ _ => rfl, fun h => absurd h (by omega)⟩
    rw [hst]; exact congrArg (fun o => ({ v.upto 3 with canBePrefix := o } : InterestV)) hcb.symm
  · obtain ⟨y, hy, he⟩ := mem_ownIt hx
    obtain ⟨rfl, rfl, rfl⟩ : i = 4 ∧ t = 0x12 ∧ body = y := by simpa using he
    refine ⟨by decide, _, rfl, rfl, by omega, by omega, fun j s' h1 h2 => hdist j 4 h1 s' _ h2 rfl (show (0x12 : Nat) ≠ 0 by decide), ?_⟩
    intro st start r tl htiny hr hF hst
    have hcb : v.mustBeFresh = true ∧ body = [] := by
      rw [hb.mustBeFresh] at hy
      cases hq : v.mustBeFresh with
      | false => rw [hq] at hy; exact (nomatch hy)
      | true => rw [hq] at hy; exact ⟨rfl, (Option.some.inj hy).symm⟩
    obtain ⟨hcb, rfl⟩ := hcb
    refine ⟨({ st.1 with mustBeFresh := true }, st.2), rfl, ?_, rfl, rfl, fun h => absurd h (by omega), fun _ _ => rfl, fun h => absurd h (by omega)⟩
    rw [hst]; exact congrArg (fun o => ({ v.upto 4 with mustBeFresh := o } : InterestV)) hcb.symm
  · obtain ⟨y, hy, he⟩ := mem_ownIt hx
    obtain ⟨rfl, rfl, rfl⟩ : i = 5 ∧ t = 0x1e ∧ body = y := by simpa using he
    refine ⟨by decide, _, rfl, rfl, by omega, by omega, fun j s' h1 h2 => hdist j 5 h1 s' _ h2 rfl (show (0x1e : Nat) ≠ 0 by decide), ?_⟩
    intro st start r tl htiny hr hF hst
    have h0 := hb.fwdHint
    rw [hy] at h0
    obtain ⟨x, hx1, hx2⟩ := elem_opt (e := .struct links) links_wf hv.fwdHint h0
    refine ⟨({ st.1 with fwdHint := some x }, st.2), ?_, ?_, rfl, rfl, fun h => absurd h (by omega), fun _ _ => rfl, fun h => absurd h (by omega)⟩
    · show PR.map _ (Elem.read false F (.struct links) body.length r) = _
      rw [hx2 F r tl htiny hr hF]; rfl
    · rw [hst]; exact congrArg (fun o => ({ v.upto 5 with fwdHint := o } : InterestV)) hx1.symm
  · obtain ⟨y, hy, he⟩ := mem_ownIt hx
    obtain ⟨rfl, rfl, rfl⟩ : i = 6 ∧ t = 0x0a ∧ body = y := by simpa using he
    refine ⟨by decide, _, rfl, rfl, by omega, by omega, fun j s' h1 h2 => hdist j 6 h1 s' _ h2 rfl (show (0x0a : Nat) ≠ 0 by decide), ?_⟩
    intro st start r tl htiny hr hF hst
    have h0 := hb.nonce
    rw [hy] at h0
    obtain ⟨x, hx1, hx2⟩ := elem_opt (e := .fixed 4 false) (.inr (.inr (.inl rfl))) hv.nonce h0
    refine ⟨({ st.1 with nonce := some x }, st.2), ?_, ?_, rfl, rfl, fun h => absurd h (by omega), fun _ _ => rfl, fun h => absurd h (by omega)⟩
    · show PR.map _ (Elem.read false F (.fixed 4 false) body.length r) = _
      rw [hx2 F r tl htiny hr hF]; rfl
    · rw [hst]; exact congrArg (fun o => ({ v.upto 6 with nonce := o } : InterestV)) hx1.symm
  · obtain ⟨y, hy, he⟩ := mem_ownIt hx
    obtain ⟨rfl, rfl, rfl⟩ : i = 7 ∧ t = 0x0c ∧ body = y := by simpa using he
    refine ⟨by decide, _, rfl, rfl, by omega, by omega, fun j s' h1 h2 => hdist j 7 h1 s' _ h2 rfl (show (0x0c : Nat) ≠ 0 by decide), ?_⟩
    intro st start r tl htiny hr hF hst
    have h0 := hb.lifetime
    rw [hy] at h0
    obtain ⟨x, hx1, hx2⟩ := elem_opt (e := .time) trivial hv.lifetime h0
    refine ⟨({ st.1 with lifetime := some x }, st.2), ?_, ?_, rfl, rfl, fun h => absurd h (by omega), fun _ _ => rfl, fun h => absurd h (by omega)⟩
    · show PR.map _ (Elem.read false F (.time) body.length r) = _
      rw [hx2 F r tl htiny hr hF]; rfl
    · rw [hst]; exact congrArg (fun o => ({ v.upto 7 with lifetime := o } : InterestV)) hx1.symm
  · obtain ⟨y, hy, he⟩ := mem_ownIt hx
    obtain ⟨rfl, rfl, rfl⟩ : i = 8 ∧ t = 0x22 ∧ body = y := by simpa using he
    refine ⟨by decide, _, rfl, rfl, by omega, by omega, fun j s' h1 h2 => hdist j 8 h1 s' _ h2 rfl (show (0x22 : Nat) ≠ 0 by decide), ?_⟩
    intro st start r tl htiny hr hF hst
    have h0 := hb.hopLimit
    rw [hy] at h0
    obtain ⟨x, hx1, hx2⟩ := elem_opt (e := .fixed 1 true) (.inl rfl) hv.hopLimit h0
    refine ⟨({ st.1 with hopLimit := some x }, st.2), ?_, ?_, rfl, rfl, fun h => absurd h (by omega), fun _ _ => rfl, fun h => absurd h (by omega)⟩
    · show PR.map _ (Elem.read false F (.fixed 1 true) body.length r) = _
      rw [hx2 F r tl htiny hr hF]; rfl
    · rw [hst]; exact congrArg (fun o => ({ v.upto 8 with hopLimit := o } : InterestV)) hx1.symm
  · obtain ⟨y, hy, he⟩ := mem_ownIt hx
    obtain ⟨rfl, rfl, rfl⟩ : i = 11 ∧ t = 0x24 ∧ body = y := by simpa using he
    refine ⟨by decide, _, rfl, rfl, by omega, by omega, fun j s' h1 h2 => hdist j 11 h1 s' _ h2 rfl (show (0x24 : Nat) ≠ 0 by decide), ?_⟩
    intro st start r tl htiny hr hF hst
    have h0 := hb.appParam
    rw [hy] at h0
    obtain ⟨x, hx1, hx2⟩ := elem_opt (e := .wire) trivial hv.appParam h0
    refine ⟨({ st.1 with appParam := some x }, st.2), ?_, ?_, rfl, rfl, fun h => absurd h (by omega), fun _ _ => rfl, fun h => absurd h (by omega)⟩
    · show PR.map _ (Elem.read false F (.wire) body.length r) = _
      rw [hx2 F r tl htiny hr hF]; rfl
    · rw [hst]; exact congrArg (fun o => ({ v.upto 11 with appParam := o } : InterestV)) hx1.symm
  · obtain ⟨y, hy, he⟩ := mem_ownIt hx
    obtain ⟨rfl, rfl, rfl⟩ : i = 12 ∧ t = 0x2c ∧ body = y := by simpa using he
    refine ⟨by decide, _, rfl, rfl, by omega, by omega, fun j s' h1 h2 => hdist j 12 h1 s' _ h2 rfl (show (0x2c : Nat) ≠ 0 by decide), ?_⟩
    intro st start r tl htiny hr hF hst
    have h0 := hb.sigInfo
    rw [hy] at h0
    obtain ⟨x, hx1, hx2⟩ := elem_opt (e := .struct signatureInfo) signatureInfo_wf hv.sigInfo h0
    refine ⟨({ st.1 with sigInfo := some x }, st.2), ?_, ?_, rfl, rfl, fun h => absurd h (by omega), fun _ _ => rfl, fun h => absurd h (by omega)⟩
    · show PR.map _ (Elem.read false F (.struct signatureInfo) body.length r) = _
      rw [hx2 F r tl htiny hr hF]; rfl
    · rw [hst]; exact congrArg (fun o => ({ v.upto 12 with sigInfo := o } : InterestV)) hx1.symm
  · obtain ⟨y, hy, he⟩ := mem_ownIt hx
    obtain ⟨rfl, rfl, rfl⟩ : i = 13 ∧ t = 0x2e ∧ body = y := by simpa using he
    refine ⟨by decide, _, rfl, rfl, by omega, by omega, fun j s' h1 h2 => hdist j 13 h1 s' _ h2 rfl (show (0x2e : Nat) ≠ 0 by decide), ?_⟩
    intro st start r tl htiny hr hF hst
    have h0 := hb.sigValue
    rw [hy] at h0
    obtain ⟨x, hx1, hx2⟩ := elem_opt (e := .wire) trivial hv.sigValue h0
    have h3 : BR.readWire (toInt body.length) r = (.ok x, r.adv body.length) := Option.some.inj (hx2 F r tl htiny hr hF)
    refine ⟨({ st.1 with sigValue := some x }, { st.2 with sigCovered := st.2.sigCovered ++ rangeOf r st.2.sigCoverStart start }), ?_, ?_, rfl, rfl,
      fun h => absurd h (by omega), fun _ h => absurd rfl h, fun _ => rfl⟩
    · show (match BR.readWire (toInt body.length) r with
        | (.ok w, r') => some (Res.ok (_ : InterestV × InterestCtx), r')
        | (.err e, r') => some (.err e, r')
        | (.panic, r') => some (.panic, r')) = _
      rw [h3]; rfl
    · rw [hst]; exact congrArg (fun o => ({ v.upto 13 with sigValue := o } : InterestV)) hx1.symm

end Ndn.Packet
