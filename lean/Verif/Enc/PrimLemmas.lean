import Verif.Enc.Reader

/-! Helper lemmas about big-endian numbers, TL numbers and `BufferReader`. -/

set_option linter.unusedSimpArgs false

namespace Ndn

@[simp] theorem be_length (n v : Nat) : (be n v).length = n := by
  induction n with
  | zero => rfl
  | succ n ih => simp [be, ih]

theorem beVal_foldl (bs : Bytes) (a : Nat) :
    bs.foldl (fun acc b => acc * 256 + b.toNat) a = a * 256 ^ bs.length + beVal bs := by
  induction bs generalizing a with
  | nil => simp [beVal]
  | cons b bs ih =>
    simp only [beVal, List.foldl_cons, List.length_cons]
    rw [ih, ih (0 * 256 + b.toNat)]
    rw [Nat.pow_succ, Nat.zero_mul, Nat.zero_add, Nat.add_mul, Nat.mul_assoc, Nat.mul_comm 256, Nat.add_assoc]

@[simp] theorem beVal_nil : beVal [] = 0 := rfl

theorem beVal_cons (b : UInt8) (bs : Bytes) : beVal (b :: bs) = b.toNat * 256 ^ bs.length + beVal bs := by
  simp only [beVal, List.foldl_cons]
  rw [beVal_foldl]; simp [beVal]

theorem beVal_append (as bs : Bytes) : beVal (as ++ bs) = beVal as * 256 ^ bs.length + beVal bs := by
  rw [beVal, List.foldl_append, beVal_foldl]; rfl

theorem beVal_lt (bs : Bytes) : beVal bs < 256 ^ bs.length := by
  induction bs with
  | nil => simp
  | cons b bs ih =>
    rw [beVal_cons, List.length_cons, Nat.pow_succ]
    have := b.toNat_lt
    have h2 : b.toNat * 256 ^ bs.length ≤ 255 * 256 ^ bs.length := Nat.mul_le_mul_right _ (by omega)
    omega

theorem beVal_be (n v : Nat) : beVal (be n v) = v % 256 ^ n := by
  induction n with
  | zero => simp [be, Nat.mod_one]
  | succ n ih =>
    rw [be, beVal_cons, ih, be_length]
    have h : (UInt8.ofNat (v / 256 ^ n)).toNat = v / 256 ^ n % 256 := by simp
    rw [h, Nat.pow_succ, Nat.mod_mul, Nat.mul_comm (256 ^ n), Nat.add_comm]

theorem beVal_be_of_lt {n v : Nat} (h : v < 256 ^ n) : beVal (be n v) = v := by
  rw [beVal_be, Nat.mod_eq_of_lt h]

/-- `be` is the inverse of `beVal` on strings of the right length. -/
theorem be_beVal (bs : Bytes) : be bs.length (beVal bs) = bs := by
  suffices H : ∀ (bs : Bytes) (k : Nat), be bs.length (k * 256 ^ bs.length + beVal bs) = bs by
    simpa using H bs 0
  intro bs
  induction bs with
  | nil => intro k; rfl
  | cons b bs ih =>
    intro k
    rw [List.length_cons, be, beVal_cons]
    have hlt := beVal_lt bs
    have hp : 0 < 256 ^ bs.length := Nat.pow_pos (by decide)
    have e1 : k * 256 ^ (bs.length + 1) + (b.toNat * 256 ^ bs.length + beVal bs)
        = (k * 256 + b.toNat) * 256 ^ bs.length + beVal bs := by
      rw [Nat.pow_succ, Nat.add_mul, Nat.mul_assoc, Nat.mul_comm 256]; omega
    have e2 : (k * 256 ^ (bs.length + 1) + (b.toNat * 256 ^ bs.length + beVal bs)) / 256 ^ bs.length
        = k * 256 + b.toNat := by
      rw [e1, Nat.mul_comm, Nat.mul_add_div hp, Nat.div_eq_of_lt hlt, Nat.add_zero]
    rw [e2, e1, ih]
    congr 1
    apply UInt8.toNat_inj.mp
    have := b.toNat_lt
    rw [UInt8.toNat_ofNat']
    omega

theorem be_injective {n a b : Nat} (ha : a < 256 ^ n) (hb : b < 256 ^ n) (h : be n a = be n b) : a = b := by
  rw [← beVal_be_of_lt ha, ← beVal_be_of_lt hb, h]

theorem tlEnc_length (x : Nat) : (tlEnc x).length = tlLen x := by
  unfold tlEnc tlLen; split
  · rfl
  · split
    · simp
    · split <;> simp

theorem tlLen_pos (x : Nat) : 1 ≤ tlLen x := by
  unfold tlLen; split
  · omega
  · split
    · omega
    · split <;> omega

theorem tlLen_le (x : Nat) : tlLen x ≤ 9 := by
  unfold tlLen; split
  · omega
  · split
    · omega
    · split <;> omega

theorem tlLen_mono {x y : Nat} (h : x ≤ y) : tlLen x ≤ tlLen y := by
  unfold tlLen; repeat' split
  all_goals omega

theorem natEnc_length (x : Nat) : (natEnc x).length = natLen x := by
  unfold natEnc natLen; split
  · rfl
  · split
    · simp
    · split <;> simp

theorem tlEnc_small {x : Nat} (h : x ≤ 0xfc) : tlEnc x = [UInt8.ofNat x] := by
  unfold tlEnc; rw [if_pos h]
theorem tlEnc_2 {x : Nat} (h : 0xfc < x) (h2 : x ≤ 0xffff) : tlEnc x = 0xfd :: be 2 x := by
  unfold tlEnc; rw [if_neg (by omega), if_pos h2]
theorem tlEnc_4 {x : Nat} (h : 0xffff < x) (h2 : x ≤ 0xffffffff) : tlEnc x = 0xfe :: be 4 x := by
  unfold tlEnc; rw [if_neg (by omega), if_neg (by omega), if_pos h2]
theorem tlEnc_8 {x : Nat} (h : 0xffffffff < x) : tlEnc x = 0xff :: be 8 x := by
  unfold tlEnc; rw [if_neg (by omega), if_neg (by omega), if_neg (by omega)]

/-- The four widths of a TL number. -/
theorem tl_cases (x : Nat) :
    (x ≤ 0xfc ∧ tlEnc x = [UInt8.ofNat x] ∧ tlLen x = 1) ∨
    (0xfc < x ∧ x ≤ 0xffff ∧ tlEnc x = 0xfd :: be 2 x ∧ tlLen x = 3) ∨
    (0xffff < x ∧ x ≤ 0xffffffff ∧ tlEnc x = 0xfe :: be 4 x ∧ tlLen x = 5) ∨
    (0xffffffff < x ∧ tlEnc x = 0xff :: be 8 x ∧ tlLen x = 9) := by
  by_cases h1 : x ≤ 0xfc
  · exact .inl ⟨h1, tlEnc_small h1, by unfold tlLen; rw [if_pos h1]⟩
  · by_cases h2 : x ≤ 0xffff
    · exact .inr (.inl ⟨by omega, h2, tlEnc_2 (by omega) h2, by unfold tlLen; rw [if_neg h1, if_pos h2]⟩)
    · by_cases h3 : x ≤ 0xffffffff
      · exact .inr (.inr (.inl ⟨by omega, h3, tlEnc_4 (by omega) h3, by
          unfold tlLen; rw [if_neg h1, if_neg h2, if_pos h3]⟩))
      · exact .inr (.inr (.inr ⟨by omega, tlEnc_8 (by omega), by
          unfold tlLen; rw [if_neg h1, if_neg h2, if_neg h3]⟩))

theorem toNat_ofNat_small {x : Nat} (h : x < 256) : (UInt8.ofNat x).toNat = x := by
  rw [UInt8.toNat_ofNat']; omega

/-- `ParseTLNum` of an encoding. -/
theorem parseTL_tlEnc {x : Nat} (h : x < 2 ^ 64) (rest : Bytes) :
    parseTL (tlEnc x ++ rest) = .ok (x, tlLen x) := by
  rcases tl_cases x with ⟨h1, e, l⟩ | ⟨h1, h2, e, l⟩ | ⟨h1, h2, e, l⟩ | ⟨h1, e, l⟩ <;> rw [e, l]
  · simp only [List.cons_append, List.nil_append, parseTL]
    rw [toNat_ofNat_small (by omega), if_pos h1]
  · simp only [List.cons_append, parseTL]
    rw [if_neg (by decide), if_pos (by decide), if_neg (by simp), List.take_left' (by simp),
      beVal_be_of_lt (by omega)]
  · simp only [List.cons_append, parseTL]
    rw [if_neg (by decide), if_neg (by decide), if_pos (by decide), if_neg (by simp), List.take_left' (by simp),
      beVal_be_of_lt (by omega)]
  · simp only [List.cons_append, parseTL]
    rw [if_neg (by decide), if_neg (by decide), if_neg (by decide), if_neg (by simp), List.take_left' (by simp),
      beVal_be_of_lt (by omega)]

/-! ### The `BufferReader` as a list of remaining bytes -/

namespace BR

/-- What is left to read. -/
def rest (r : BR) : Bytes := r.buf.drop r.pos

/-- The reader after `n` more bytes. -/
def adv (r : BR) (n : Nat) : BR := { r with pos := r.pos + n }

@[simp] theorem adv_buf (r : BR) (n : Nat) : (r.adv n).buf = r.buf := rfl
@[simp] theorem adv_pos (r : BR) (n : Nat) : (r.adv n).pos = r.pos + n := rfl
@[simp] theorem adv_zero (r : BR) : r.adv 0 = r := rfl
theorem adv_adv (r : BR) (m n : Nat) : (r.adv m).adv n = r.adv (m + n) := by
  simp [adv, Nat.add_assoc]
theorem rest_adv (r : BR) (n : Nat) : (r.adv n).rest = r.rest.drop n := by
  simp [rest, adv, List.drop_drop]
@[simp] theorem rest_new (b : Bytes) : (BR.new b).rest = b := rfl
@[simp] theorem new_buf (b : Bytes) : (BR.new b).buf = b := rfl
@[simp] theorem new_pos (b : Bytes) : (BR.new b).pos = 0 := rfl
theorem rest_length (r : BR) : r.rest.length = r.buf.length - r.pos := by simp [rest]

theorem readByte_cons {r : BR} {b : UInt8} {t : Bytes} (h : r.rest = b :: t) :
    readByte r = (.ok b, r.adv 1) := by
  unfold rest at h
  have : r.buf[r.pos]? = some b := by
    have h2 : (r.buf.drop r.pos)[0]? = some b := by rw [h]; rfl
    simpa using h2
  simp [readByte, this, adv]

theorem readByte_nil {r : BR} (h : r.rest = []) : readByte r = (.err .eof, r) := by
  unfold rest at h
  have : r.buf[r.pos]? = none := by
    rw [List.getElem?_eq_none_iff]; exact List.drop_eq_nil_iff.mp h
  simp [readByte, this]

end BR

/-- The multi-byte loop of `ReadTLNum` on a long enough reader. -/
theorem readBeLoop_ok (n : Nat) (val : Nat) (r : BR) (h : n ≤ r.rest.length)
    (hv : val * 256 ^ n + 256 ^ n ≤ 2 ^ 64) :
    readBeLoop BR.readByte n val r = (.ok (val * 256 ^ n + beVal (r.rest.take n)), r.adv n) := by
  induction n generalizing val r with
  | zero => simp [readBeLoop]
  | succ n ih =>
    cases hr : r.rest with
    | nil => rw [hr] at h; simp at h
    | cons b t =>
      have hb := b.toNat_lt
      have hp : 0 < 256 ^ n := Nat.pow_pos (by decide)
      have hv1 : val * 256 + 256 ≤ 2 ^ 64 := by
        have h1 : val * 256 ^ (n + 1) + 256 ^ (n + 1) = (val * 256 + 256) * 256 ^ n := by
          rw [Nat.pow_succ, Nat.add_mul, Nat.mul_assoc, Nat.mul_comm 256]
        have : (val * 256 + 256) * 1 ≤ (val * 256 + 256) * 256 ^ n := Nat.mul_le_mul_left _ hp
        rw [Nat.mul_one] at this; rw [h1] at hv; exact Nat.le_trans this hv
      have hmod : (val * 256) % 2 ^ 64 = val * 256 := Nat.mod_eq_of_lt (by omega)
      rw [readBeLoop, RM.bind_ok (a := b) (s' := r.adv 1) (by simp [RM.onErr, BR.readByte_cons hr])]
      rw [hmod, ih]
      · rw [BR.rest_adv, hr]
        simp only [List.drop_succ_cons, List.drop_zero, List.take_succ_cons, BR.adv_adv]
        rw [beVal_cons]
        have hl : (t.take n).length = n := by
          rw [hr] at h; simp at h; simp; omega
        rw [hl, Nat.add_comm 1 n]
        congr 2
        rw [Nat.pow_succ, Nat.add_mul, Nat.mul_assoc, Nat.mul_comm 256, Nat.add_assoc]
      · rw [BR.rest_adv]; simp; rw [hr] at h; simp at h; rw [hr]; simp; omega
      · have h1 : val * 256 ^ (n + 1) + 256 ^ (n + 1) = (val * 256 + 255) * 256 ^ n + 256 ^ n := by
          rw [Nat.pow_succ]
          have : (val * 256 + 255) * 256 ^ n = val * (256 ^ n * 256) + 255 * 256 ^ n := by
            rw [Nat.add_mul, Nat.mul_assoc, Nat.mul_comm 256]
          omega
        have h2 : (val * 256 + b.toNat) * 256 ^ n ≤ (val * 256 + 255) * 256 ^ n :=
          Nat.mul_le_mul_right _ (by omega)
        omega

/-- The multi-byte loop of `ReadTLNum` on a reader that ends too early. -/
theorem readBeLoop_err (n : Nat) (val : Nat) (r : BR) (h : r.rest.length < n) :
    ∃ r', readBeLoop BR.readByte n val r = (.err .unexpectedEof, r') := by
  induction n generalizing val r with
  | zero => omega
  | succ n ih =>
    cases hr : r.rest with
    | nil =>
      exact ⟨r, by rw [readBeLoop, RM.bind_err (e := .unexpectedEof) (s' := r)]; simp [RM.onErr, BR.readByte_nil hr]⟩
    | cons b t =>
      rw [readBeLoop, RM.bind_ok (a := b) (s' := r.adv 1) (by simp [RM.onErr, BR.readByte_cons hr])]
      apply ih
      rw [BR.rest_adv, hr]; rw [hr] at h; simp at h; simpa using h

/-- Splitting a byte string that `ReadTLNum` accepts. -/
inductive TLSplit : Bytes → Nat → Nat → Prop
  | one (b : UInt8) (t : Bytes) (h : b.toNat ≤ 0xfc) : TLSplit (b :: t) b.toNat 1
  | two (t : Bytes) (h : 2 ≤ t.length) : TLSplit (0xfd :: t) (beVal (t.take 2)) 3
  | four (t : Bytes) (h : 4 ≤ t.length) : TLSplit (0xfe :: t) (beVal (t.take 4)) 5
  | eight (t : Bytes) (h : 8 ≤ t.length) : TLSplit (0xff :: t) (beVal (t.take 8)) 9

theorem readTL_of_split {r : BR} {v n : Nat} (h : TLSplit r.rest v n) : BR.readTL r = (.ok v, r.adv n) := by
  generalize hr : r.rest = s at h
  have key : ∀ (b : UInt8) (t : Bytes) (k : Nat), r.rest = b :: t → k ≤ t.length → k ≤ 8 →
      readBeLoop BR.readByte k 0 (r.adv 1) = (.ok (beVal (t.take k)), r.adv (k + 1)) := by
    intro b t k hr hk h8
    rw [readBeLoop_ok k 0 (r.adv 1)]
    · rw [BR.rest_adv, hr, BR.adv_adv, Nat.add_comm 1 k]; simp
    · rw [BR.rest_adv, hr]; simpa using hk
    · have : 256 ^ k ≤ 256 ^ 8 := Nat.pow_le_pow_right (by decide) h8
      omega
  cases h with
  | one b t hb =>
    rw [BR.readTL, readTL, RM.bind_ok (BR.readByte_cons hr)]; simp [hb]
  | two t ht =>
    rw [BR.readTL, readTL, RM.bind_ok (BR.readByte_cons hr)]
    simp only [show ¬ (0xfd : UInt8).toNat ≤ 0xfc by decide, if_false, show (0xfd : UInt8).toNat = 0xfd by decide, if_true]
    exact key _ t 2 hr ht (by decide)
  | four t ht =>
    rw [BR.readTL, readTL, RM.bind_ok (BR.readByte_cons hr)]
    simp only [show ¬ (0xfe : UInt8).toNat ≤ 0xfc by decide, if_false, show ¬ (0xfe : UInt8).toNat = 0xfd by decide,
      show (0xfe : UInt8).toNat = 0xfe by decide, if_true]
    exact key _ t 4 hr ht (by decide)
  | eight t ht =>
    rw [BR.readTL, readTL, RM.bind_ok (BR.readByte_cons hr)]
    simp only [show ¬ (0xff : UInt8).toNat ≤ 0xfc by decide, if_false, show ¬ (0xff : UInt8).toNat = 0xfd by decide,
      show ¬ (0xff : UInt8).toNat = 0xfe by decide]
    exact key _ t 8 hr ht (by decide)

theorem u8_ext_nat {b : UInt8} {n : Nat} (h : b.toNat = n) : b = UInt8.ofNat n := by
  subst h; simp

theorem readTL_cases (r : BR) :
    (r.rest = [] ∧ BR.readTL r = (.err .eof, r)) ∨
    (∃ r', BR.readTL r = (.err .unexpectedEof, r') ∧ parseTL r.rest = .panic ∧ r.rest ≠ []) ∨
    (∃ v n, TLSplit r.rest v n ∧ BR.readTL r = (.ok v, r.adv n) ∧ parseTL r.rest = .ok (v, n)) := by
  cases hr : r.rest with
  | nil => left; exact ⟨rfl, by rw [BR.readTL, readTL, RM.bind_err (BR.readByte_nil hr)]⟩
  | cons b t =>
    right
    have hb := b.toNat_lt
    have short : ∀ k, t.length < k → ∃ r', readBeLoop BR.readByte k 0 (r.adv 1) = (.err .unexpectedEof, r') := by
      intro k hk
      apply readBeLoop_err
      rw [BR.rest_adv, hr]; simpa using hk
    by_cases h1 : b.toNat ≤ 0xfc
    · right
      have hs : TLSplit (b :: t) b.toNat 1 := .one b t h1
      exact ⟨_, _, hs, readTL_of_split (hr ▸ hs), by simp [parseTL, h1]⟩
    · by_cases h2 : b.toNat = 0xfd
      · obtain rfl := u8_ext_nat h2
        by_cases hl : t.length < 2
        · left
          obtain ⟨r', hr'⟩ := short 2 hl
          refine ⟨r', ?_, by simp [parseTL, hl], by simp⟩
          rw [BR.readTL, readTL, RM.bind_ok (BR.readByte_cons hr), if_neg h1, if_pos h2, hr']
        · right
          have hs : TLSplit (UInt8.ofNat 0xfd :: t) _ _ := .two t (by omega)
          exact ⟨_, _, hs, readTL_of_split (hr ▸ hs), by simp [parseTL, hl]⟩
      · by_cases h3 : b.toNat = 0xfe
        · obtain rfl := u8_ext_nat h3
          by_cases hl : t.length < 4
          · left
            obtain ⟨r', hr'⟩ := short 4 hl
            refine ⟨r', ?_, by simp [parseTL, hl], by simp⟩
            rw [BR.readTL, readTL, RM.bind_ok (BR.readByte_cons hr), if_neg h1, if_neg h2, if_pos h3, hr']
          · right
            have hs : TLSplit (UInt8.ofNat 0xfe :: t) _ _ := .four t (by omega)
            exact ⟨_, _, hs, readTL_of_split (hr ▸ hs), by simp [parseTL, hl]⟩
        · have h4 : b.toNat = 0xff := by omega
          obtain rfl := u8_ext_nat h4
          by_cases hl : t.length < 8
          · left
            obtain ⟨r', hr'⟩ := short 8 hl
            refine ⟨r', ?_, by simp [parseTL, hl], by simp⟩
            rw [BR.readTL, readTL, RM.bind_ok (BR.readByte_cons hr), if_neg h1, if_neg h2, if_neg h3, hr']
          · right
            have hs : TLSplit (UInt8.ofNat 0xff :: t) _ _ := .eight t (by omega)
            exact ⟨_, _, hs, readTL_of_split (hr ▸ hs), by simp [parseTL, hl]⟩

/-- `ReadTLNum` of an encoding. -/
theorem readTL_tlEnc {x : Nat} (h : x < 2 ^ 64) {r : BR} {t : Bytes} (hr : r.rest = tlEnc x ++ t) :
    BR.readTL r = (.ok x, r.adv (tlLen x)) := by
  have hp := parseTL_tlEnc h t
  rcases readTL_cases r with ⟨h0, _⟩ | ⟨r', _, hpan, _⟩ | ⟨v, n, _, hok, hpp⟩
  · rw [hr] at h0
    have := congrArg List.length h0
    have h2 := tlLen_pos x
    simp [tlEnc_length] at this; omega
  · rw [hr, hp] at hpan; cases hpan
  · rw [hr, hp] at hpp
    injection hpp with hpp; injection hpp with h1 h2
    subst h1 h2; exact hok

theorem TLSplit.lt {s : Bytes} {v n : Nat} (h : TLSplit s v n) : v < 2 ^ 64 := by
  have key : ∀ (t : Bytes) (k : Nat), k ≤ 8 → beVal (t.take k) < 2 ^ 64 := by
    intro t k hk
    have h1 := beVal_lt (t.take k)
    have h2 : 256 ^ (t.take k).length ≤ 256 ^ 8 := Nat.pow_le_pow_right (by decide) (by simp; omega)
    omega
  cases h with
  | one b t hb => omega
  | two t ht => exact key t 2 (by decide)
  | four t ht => exact key t 4 (by decide)
  | eight t ht => exact key t 8 (by decide)

theorem TLSplit.le_length {s : Bytes} {v n : Nat} (h : TLSplit s v n) : n ≤ s.length := by
  cases h <;> simp <;> omega

theorem TLSplit.width {s : Bytes} {v n : Nat} (h : TLSplit s v n) : n = 1 ∨ n = 3 ∨ n = 5 ∨ n = 9 := by
  cases h <;> simp

/-- the shortest encoding is at least as short as any accepted one -/
theorem TLSplit.tlLen_le {s : Bytes} {v n : Nat} (h : TLSplit s v n) : tlLen v ≤ n := by
  cases h with
  | one b t hb => unfold tlLen; rw [if_pos hb]; omega
  | two t ht =>
    have h1 := beVal_lt (t.take 2)
    rw [List.length_take, Nat.min_eq_left ht] at h1
    unfold tlLen; split
    · omega
    · rw [if_pos (by omega)]; omega
  | four t ht =>
    have h1 := beVal_lt (t.take 4)
    rw [List.length_take, Nat.min_eq_left ht] at h1
    unfold tlLen; split
    · omega
    · split
      · omega
      · rw [if_pos (by omega)]; omega
  | eight t ht => exact _root_.Ndn.tlLen_le _

end Ndn
