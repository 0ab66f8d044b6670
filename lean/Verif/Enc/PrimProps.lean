import Verif.Enc.PrimLemmas

set_option linter.unusedSimpArgs false

/-! Properties C01 - C05: TL numbers, natural numbers, `ShrinkLength`. -/

namespace Ndn

/-! ### C01 -/

/-- C01: the encoding has the announced length, and both decoders give the number back and stop right after it. -/
theorem C01_tlnum_roundtrip (v : Nat) (hv : v < 2 ^ 64) (rest : Bytes) :
    (tlEnc v).length = tlLen v ∧
    parseTL (tlEnc v ++ rest) = .ok (v, (tlEnc v).length) ∧
    (∀ pre : Bytes, BR.readTL ⟨pre ++ (tlEnc v ++ rest), pre.length⟩
      = (.ok v, ⟨pre ++ (tlEnc v ++ rest), pre.length + (tlEnc v).length⟩)) := by
  refine ⟨tlEnc_length v, by rw [tlEnc_length]; exact parseTL_tlEnc hv rest, fun pre => ?_⟩
  rw [readTL_tlEnc hv (t := rest) (by simp [BR.rest])]
  simp [BR.adv, tlEnc_length]

example : (70000 : Nat) < 2 ^ 64 ∧ tlEnc 70000 = [0xfe, 0, 1, 0x11, 0x70] := by decide

/-! ### C02 -/

/-- big-endian strings of one width are ordered like their numbers -/
theorem be_lt {n a b : Nat} (hb : b < 256 ^ n) (h : a < b) : be n a < be n b := by
  induction n generalizing a b with
  | zero => simp at hb; omega
  | succ n ih =>
    have hp : 0 < 256 ^ n := Nat.pow_pos (by decide)
    have hbd : b / 256 ^ n < 256 := Nat.div_lt_of_lt_mul (by rw [Nat.pow_succ, Nat.mul_comm] at hb; omega)
    have hle : a / 256 ^ n ≤ b / 256 ^ n := Nat.div_le_div_right (by omega)
    rw [be, be, List.cons_lt_cons_iff]
    by_cases he : a / 256 ^ n = b / 256 ^ n
    · right
      refine ⟨by rw [he], ?_⟩
      have e : ∀ x, be n x = be n (x % 256 ^ n) := by
        intro x
        have h1 := be_beVal (be n x)
        rw [be_length, beVal_be] at h1; exact h1.symm
      rw [e a, e b]
      apply ih (Nat.mod_lt _ hp)
      have h1 := Nat.div_add_mod a (256 ^ n)
      have h2 := Nat.div_add_mod b (256 ^ n)
      rw [he] at h1; omega
    · left
      rw [UInt8.lt_iff_toNat_lt, toNat_ofNat_small (by omega), toNat_ofNat_small hbd]
      omega

/-- C02 (order): the smaller number has the lexicographically smaller encoding. -/
theorem C02_tlnum_order (a b : Nat) (ha : a < 2 ^ 64) (hb : b < 2 ^ 64) : a < b ↔ tlEnc a < tlEnc b := by
  have fwd : ∀ a b : Nat, b < 2 ^ 64 → a < b → tlEnc a < tlEnc b := by
    intro a b hb h
    rcases tl_cases a with ⟨h1, e, _⟩ | ⟨h1, h2, e, _⟩ | ⟨h1, h2, e, _⟩ | ⟨h1, e, _⟩ <;>
    rcases tl_cases b with ⟨k1, e', _⟩ | ⟨k1, k2, e', _⟩ | ⟨k1, k2, e', _⟩ | ⟨k1, e', _⟩ <;>
    rw [e, e', List.cons_lt_cons_iff] <;>
    first
      | (exfalso; omega)
      | (left; decide)
      | (left; rw [UInt8.lt_iff_toNat_lt, toNat_ofNat_small (by omega), toNat_ofNat_small (by omega)]; omega)
      | (left; rw [UInt8.lt_iff_toNat_lt, toNat_ofNat_small (by omega)]; exact Nat.lt_of_le_of_lt h1 (by decide))
      | (right; exact ⟨rfl, be_lt (by omega) h⟩)
  refine ⟨fwd a b hb, fun h => ?_⟩
  by_cases hlt : a < b
  · exact hlt
  · exfalso
    rcases Nat.lt_or_eq_of_le (Nat.le_of_not_lt hlt) with h2 | h2
    · exact absurd (fwd b a ha h2) (List.lt_asymm h)
    · subst h2; exact List.lt_irrefl _ h

/-- C02 (prefix-free): no encoding is a proper prefix of another one, and different numbers are encoded differently. -/
theorem C02_tlnum_prefix_free (a b : Nat) (ha : a < 2 ^ 64) (hb : b < 2 ^ 64) (h : tlEnc a <+: tlEnc b) : a = b := by
  obtain ⟨t, ht⟩ := h
  have h1 := parseTL_tlEnc ha t
  have h2 := parseTL_tlEnc hb []
  rw [List.append_nil, ← ht, h1] at h2
  injection h2 with h2; injection h2

/-- C02 (shortest): whatever bytes a decoder accepts for `v`, the encoder's output for `v` is no longer. -/
theorem C02_tlnum_shortest (bs : Bytes) (v n : Nat) (h : parseTL bs = .ok (v, n)) :
    v < 2 ^ 64 ∧ (tlEnc v).length ≤ n ∧ n ≤ bs.length := by
  rcases readTL_cases (BR.new bs) with ⟨h0, _⟩ | ⟨r', _, hpan, _⟩ | ⟨w, m, hs, _, hp⟩
  · simp at h0; subst h0; simp [parseTL] at h
  · simp at hpan; rw [h] at hpan; cases hpan
  · simp at hp hs; rw [h] at hp
    injection hp with hp; injection hp with e1 e2; subst e1 e2
    exact ⟨hs.lt, by rw [tlEnc_length]; exact hs.tlLen_le, hs.le_length⟩

example : parseTL [0xfd, 0, 7, 1] = .ok (7, 3) ∧ tlEnc 7 = [7] := by decide

/-! ### C03 -/

/-- C03: on arbitrary bytes `ReadTLNum` gives EOF on empty input, ErrUnexpectedEOF on truncated input, and otherwise a
64-bit value after 1, 3, 5 or 9 bytes; it never panics, and `ParseTLNum` panics exactly where `ReadTLNum` fails. -/
theorem C03_tlnum_decode_total (bs : Bytes) :
    (bs = [] → BR.readTL (BR.new bs) = (.err .eof, BR.new bs) ∧ parseTL bs = .panic) ∧
    (bs ≠ [] →
      ((∃ r', BR.readTL (BR.new bs) = (.err .unexpectedEof, r')) ∧ parseTL bs = .panic) ∨
      (∃ v n, BR.readTL (BR.new bs) = (.ok v, ⟨bs, n⟩) ∧ parseTL bs = .ok (v, n) ∧ v < 2 ^ 64 ∧
        (n = 1 ∨ n = 3 ∨ n = 5 ∨ n = 9) ∧ n ≤ bs.length)) := by
  constructor
  · intro h; subst h; exact ⟨rfl, rfl⟩
  · intro hne
    rcases readTL_cases (BR.new bs) with ⟨h0, _⟩ | ⟨r', h1, hpan, _⟩ | ⟨w, m, hs, h1, hp⟩
    · exact absurd h0 hne
    · left; exact ⟨⟨r', h1⟩, hpan⟩
    · right
      refine ⟨w, m, ?_, hp, hs.lt, hs.width, hs.le_length⟩
      rw [h1]; simp [BR.adv, BR.new]

/-- C03: the number of missing bytes decides: the input is rejected exactly when it is shorter than its first byte
announces. -/
theorem C03_tlnum_truncation (b : UInt8) (t : Bytes) :
    let need := if b.toNat ≤ 252 then 0 else if b.toNat = 253 then 2 else if b.toNat = 254 then 4 else 8
    parseTL (b :: t) = .panic ↔ t.length < need := by
  simp only [parseTL]
  by_cases h1 : b.toNat ≤ 252
  · simp [h1]
  · by_cases h2 : b.toNat = 253
    · by_cases h : t.length < 2 <;> simp [h2, h]
    · by_cases h3 : b.toNat = 254
      · by_cases h : t.length < 4 <;> simp [h3, h]
      · by_cases h : t.length < 8 <;> simp [h1, h2, h3, h]

example : (BR.readTL (BR.new [0xfe, 1, 2])).1 = .err .unexpectedEof := by decide

/-! ### C04 -/

/-- C04: round trip, allowed widths, and shortness among the allowed widths. -/
theorem C04_nat_roundtrip (v : Nat) (hv : v < 2 ^ 64) :
    parseNat (natEnc v) = .ok (v, (natEnc v).length) ∧ (natEnc v).length = natLen v ∧
    ((natEnc v).length = 1 ∨ (natEnc v).length = 2 ∨ (natEnc v).length = 4 ∨ (natEnc v).length = 8) ∧
    (∀ bs n, parseNat bs = .ok (v, n) → n = bs.length ∧ (natEnc v).length ≤ bs.length ∧
      (bs.length = (natEnc v).length → bs = natEnc v)) := by
  have hw : (natEnc v).length = 1 ∨ (natEnc v).length = 2 ∨ (natEnc v).length = 4 ∨ (natEnc v).length = 8 := by
    rw [natEnc_length]; unfold natLen; repeat' split
    all_goals omega
  have hval : beVal (natEnc v) = v := by
    unfold natEnc; split
    · simp [beVal]; omega
    · split
      · exact beVal_be_of_lt (by omega)
      · split
        · exact beVal_be_of_lt (by omega)
        · exact beVal_be_of_lt (by omega)
  refine ⟨?_, natEnc_length v, hw, ?_⟩
  · unfold parseNat; rw [if_pos hw, hval]
  · intro bs n h
    unfold parseNat at h
    split at h
    · rename_i hl
      injection h with h; injection h with h1 h2
      have hlt := beVal_lt bs
      rw [h1] at hlt
      refine ⟨h2.symm, ?_, ?_⟩
      · rw [natEnc_length]; unfold natLen
        rcases hl with hl | hl | hl | hl <;> rw [hl] at hlt ⊢ <;> (repeat' split) <;> omega
      · intro he
        have e1 := be_beVal bs
        have e2 := be_beVal (natEnc v)
        rw [h1, he] at e1; rw [hval] at e2
        rw [← e1, e2]
    · cases h

/-- C04: other lengths are rejected, and `ParseNat` never panics. -/
theorem C04_nat_rejects (bs : Bytes) :
    ((∃ e, parseNat bs = .err e) ↔ ¬ (bs.length = 1 ∨ bs.length = 2 ∨ bs.length = 4 ∨ bs.length = 8)) ∧
    parseNat bs ≠ .panic := by
  unfold parseNat; split <;> simp_all

example : parseNat (natEnc 65536) = .ok (65536, 4) := by decide
example : parseNat [1, 2, 3] = .err .format := by decide

/-! ### C05 -/

/-- C05: `ShrinkLength` turns the header `(t, L)` into `(t, L - s)` and keeps everything after the header. -/
theorem C05_shrink_length (t L s : Nat) (payload : Bytes) (ht : t < 2 ^ 64) (hL : L < 2 ^ 64) (hs : s ≤ L) :
    shrinkLength (tlEnc t ++ (tlEnc L ++ payload)) s = .ok (tlEnc t ++ (tlEnc (L - s) ++ payload)) := by
  unfold shrinkLength
  rw [parseTL_tlEnc ht]
  simp only [Res.bind_ok]
  rw [List.drop_left' (tlEnc_length t), parseTL_tlEnc hL]
  simp only [Res.bind_ok]
  have hnew : (L + (2 ^ 64 - s % 2 ^ 64)) % 2 ^ 64 = L - s := by omega
  rw [hnew]
  have hmono : tlLen (L - s) ≤ tlLen L := tlLen_mono (Nat.sub_le _ _)
  by_cases he : tlLen (L - s) = tlLen L
  · rw [if_pos he]
    unfold putAt
    rw [if_pos (by simp [tlEnc_length]; omega)]
    rw [List.take_left' (tlEnc_length t)]
    rw [show tlLen t + (tlEnc (L - s)).length = (tlEnc t ++ tlEnc L).length by simp [tlEnc_length, he],
      ← List.append_assoc (tlEnc t) (tlEnc L), List.drop_left' rfl, List.append_assoc]
  · rw [if_neg he, if_pos hmono]
    generalize hd : tlLen L - tlLen (L - s) = d
    have hd' : tlLen L = tlLen (L - s) + d := by omega
    unfold putAt
    rw [if_pos (by simp [tlEnc_length]; omega)]
    simp only [Res.bind_ok]
    generalize hbuf : tlEnc t ++ (tlEnc L ++ payload) = B
    have hBl : B.length = tlLen t + tlLen L + payload.length := by
      rw [← hbuf]; simp [tlEnc_length]; omega
    have hdrop : B.drop (tlLen t + tlLen L) = payload := by
      rw [← hbuf, ← List.append_assoc]; exact List.drop_left' (by simp [tlEnc_length])
    rw [if_pos (by simp [tlEnc_length]; omega)]
    simp only [Res.bind_ok]
    congr 1
    have hpre : (B.take d ++ tlEnc t).length = d + tlLen t := by simp [tlEnc_length]; omega
    rw [List.take_left' hpre]
    have e3 : List.drop (d + tlLen t + (tlEnc (L - s)).length) (B.take d ++ tlEnc t ++ B.drop (d + (tlEnc t).length))
        = payload := by
      rw [List.drop_append, hpre, List.drop_eq_nil_of_le (by simp [tlEnc_length]; omega), List.nil_append,
        List.drop_drop, ← hdrop, tlEnc_length, tlEnc_length]
      congr 1; omega
    rw [e3, List.append_assoc, List.append_assoc, List.drop_left' (by simp; omega)]

/-- a non-trivial instance: the length shrinks across the 3-byte/1-byte boundary -/
example : shrinkLength (tlEnc 6 ++ (tlEnc 300 ++ [1, 2, 3])) 100 = .ok (tlEnc 6 ++ (tlEnc 200 ++ [1, 2, 3])) :=
  C05_shrink_length 6 300 100 _ (by decide) (by decide) (by decide)

end Ndn
