import Verif.Enc.NameLemmas

set_option linter.unusedSimpArgs false

/-! Lemmas about the text form of components and names. -/

namespace Ndn

/-! ### Hexadecimal -/

theorem hexVal_hexDigit (up : Bool) (n : Nat) (h : n < 16) : hexVal (hexDigit up n) = some n := by
  have : ∀ up : Bool, ∀ n : Fin 16, hexVal (hexDigit up n.1) = some n.1 := by decide
  exact this up ⟨n, h⟩

theorem parseHex2_hex2 (up : Bool) (b : UInt8) :
    parseHex2 (hexDigit up (b.toNat / 16)) (hexDigit up (b.toNat % 16)) = some b := by
  have hb := b.toNat_lt
  unfold parseHex2
  rw [hexVal_hexDigit _ _ (by omega), hexVal_hexDigit _ _ (by omega)]
  simp only
  rw [show b.toNat / 16 * 16 + b.toNat % 16 = b.toNat by omega]
  simp

/-- hexadecimal digits are letters or digits, so legal characters -/
theorem hexDigit_legal (up : Bool) (n : Nat) (h : n < 16) : isLegalCompText (hexDigit up n) = true := by
  have : ∀ up : Bool, ∀ n : Fin 16, isLegalCompText (hexDigit up n.1) = true := by decide
  exact this up ⟨n, h⟩

theorem legal_not_special {b : UInt8} (h : isLegalCompText b = true) : isSpecial b = false := by
  cases hs : isSpecial b with
  | false => rfl
  | true =>
    simp only [isSpecial, Bool.or_eq_true, beq_iff_eq] at hs
    rcases hs with ((rfl | rfl) | rfl) | rfl <;> exact absurd h (by decide)

theorem legal_ne {b : UInt8} (h : isLegalCompText b = true) : b ≠ 61 ∧ b ≠ 47 ∧ b ≠ 37 := by
  have := legal_not_special h
  simp only [isSpecial, Bool.or_eq_false_iff, beq_eq_false_iff_ne] at this
  exact ⟨this.1.1.2, this.1.2, this.1.1.1⟩

/-! ### The text format -/

theorem textLoop_legal {b : UInt8} (h : isLegalCompText b = true) (t : Bytes) :
    textLoop (b :: t) = consRes b (textLoop t) := by
  match t with
  | [] => simp [textLoop, h]
  | [x] => simp [textLoop, h]
  | x :: y :: t => rw [textLoop, if_pos h]

theorem textLoop_esc (b : UInt8) (t : Bytes) : textLoop (37 :: (hex2 true b ++ t)) = consRes b (textLoop t) := by
  have : isLegalCompText 37 = false := by decide
  simp only [hex2, List.cons_append, List.nil_append, textLoop, this, parseHex2_hex2]
  simp

theorem textLoop_toString (v : Bytes) : textLoop (textToString v) = .ok v := by
  induction v with
  | nil => rfl
  | cons b v ih =>
    rw [textToString]
    by_cases h : isLegalCompText b = true
    · rw [if_pos h, List.cons_append, List.nil_append, textLoop_legal h, ih]; rfl
    · rw [if_neg h, List.cons_append, textLoop_esc, ih]; rfl

theorem textToString_noSpecial (v : Bytes) (h : (textToString v).any isSpecial = false) : textToString v = v := by
  induction v with
  | nil => rfl
  | cons b v ih =>
    rw [textToString] at h ⊢
    by_cases hl : isLegalCompText b = true
    · rw [if_pos hl] at h ⊢
      simp only [List.cons_append, List.nil_append, List.any_cons, Bool.or_eq_false_iff] at h
      simp [ih h.2]
    · rw [if_neg hl] at h
      simp [isSpecial] at h

theorem textFromString_toString (v : Bytes) : textFromString (textToString v) = .ok v := by
  unfold textFromString
  split
  · exact textLoop_toString v
  · rename_i h
    rw [textToString_noSpecial v (by simpa using h)]

/-- what may occur in the text of a component value: legal characters and `%` -/
theorem textToString_mem {v : Bytes} {b : UInt8} (h : b ∈ textToString v) : b ≠ 61 ∧ b ≠ 47 := by
  induction v with
  | nil => simp [textToString] at h
  | cons x v ih =>
    rw [textToString, List.mem_append] at h
    rcases h with h | h
    · by_cases hl : isLegalCompText x = true
      · rw [if_pos hl, List.mem_singleton] at h
        subst h
        exact ⟨(legal_ne hl).1, (legal_ne hl).2.1⟩
      · rw [if_neg hl] at h
        have hx := x.toNat_lt
        simp only [hex2, List.mem_cons, List.not_mem_nil, or_false] at h
        rcases h with rfl | rfl | rfl
        · decide
        · have := legal_ne (hexDigit_legal true (x.toNat / 16) (by omega)); exact ⟨this.1, this.2.1⟩
        · have := legal_ne (hexDigit_legal true (x.toNat % 16) (by omega)); exact ⟨this.1, this.2.1⟩
    · exact ih h

theorem textToString_eq_nil {v : Bytes} : textToString v = [] ↔ v = [] := by
  cases v with
  | nil => simp [textToString]
  | cons b v =>
    rw [textToString]
    split <;> simp

/-! ### The hexadecimal format -/

theorem hexFromString_toString (v : Bytes) : hexFromString (hexToString v) = .ok v := by
  induction v with
  | nil => rfl
  | cons b v ih =>
    simp only [hexToString, hex2, List.cons_append, List.nil_append, hexFromString, ih, parseHex2_hex2]

theorem hexToString_mem {v : Bytes} {b : UInt8} (h : b ∈ hexToString v) : b ≠ 61 ∧ b ≠ 47 := by
  induction v with
  | nil => simp [hexToString] at h
  | cons x v ih =>
    have hx := x.toNat_lt
    rw [hexToString, List.mem_append] at h
    rcases h with h | h
    · simp only [hex2, List.mem_cons, List.not_mem_nil, or_false] at h
      rcases h with rfl | rfl
      · have := legal_ne (hexDigit_legal false (x.toNat / 16) (by omega)); exact ⟨this.1, this.2.1⟩
      · have := legal_ne (hexDigit_legal false (x.toNat % 16) (by omega)); exact ⟨this.1, this.2.1⟩
    · exact ih h

/-! ### Decimal -/

theorem digit_isDigit (n : Nat) (h : n < 10) : isDigit (UInt8.ofNat (48 + n)) = true := by
  have : ∀ n : Fin 10, isDigit (UInt8.ofNat (48 + n.1)) = true := by decide
  exact this ⟨n, h⟩

theorem digit_toNat (n : Nat) (h : n < 10) : (UInt8.ofNat (48 + n)).toNat = 48 + n := by
  rw [UInt8.toNat_ofNat']; omega

/-- the value of a string of decimal digits -/
def decVal (s : Bytes) : Nat := s.foldl (fun acc b => acc * 10 + (b.toNat - 48)) 0

theorem decAux_spec (fuel n : Nat) (h : n < 10 ^ fuel) :
    (decAux fuel n ≠ [] ∨ fuel = 0) ∧ (decAux fuel n).all isDigit = true ∧ decVal (decAux fuel n) = n := by
  induction fuel generalizing n with
  | zero => simp at h; subst h; simp [decAux, decVal]
  | succ f ih =>
    rw [decAux]
    by_cases hn : n < 10
    · rw [if_pos hn]
      refine ⟨.inl (by simp), by simp only [List.all_cons, List.all_nil, digit_isDigit n hn]; rfl, ?_⟩
      simp only [decVal, List.foldl_cons, List.foldl_nil, digit_toNat n hn]; omega
    · rw [if_neg hn]
      have h10 : n / 10 < 10 ^ f := by rw [Nat.pow_succ] at h; omega
      obtain ⟨_, h2, h3⟩ := ih (n / 10) h10
      refine ⟨.inl (by simp), ?_, ?_⟩
      · rw [List.all_append, h2]; simp only [List.all_cons, List.all_nil, digit_isDigit (n % 10) (by omega)]; rfl
      · unfold decVal at h3 ⊢
        rw [List.foldl_append, h3]
        simp only [List.foldl_cons, List.foldl_nil]
        rw [digit_toNat _ (by omega)]; omega

theorem lt_ten_pow {n : Nat} (h : n < 2 ^ 64) : n < 10 ^ 20 := by omega

theorem parseUint_formatUint {n : Nat} (h : n < 2 ^ 64) : parseUint (formatUint n) = some n := by
  obtain ⟨h1, h2, h3⟩ := decAux_spec 20 n (lt_ten_pow h)
  have h1 : formatUint n ≠ [] := h1.resolve_right (by decide)
  have h2 : (formatUint n).all isDigit = true := h2
  have h3 : decVal (formatUint n) = n := h3
  unfold parseUint
  rw [if_neg (by simp only [h1, h2]; simp)]
  simp only
  rw [show (formatUint n).foldl (fun acc b => acc * 10 + (b.toNat - 48)) 0 = n from h3, if_pos h]

theorem formatUint_digits {n : Nat} (h : n < 2 ^ 64) : ∀ b ∈ formatUint n, isDigit b = true := by
  have := (decAux_spec 20 n (lt_ten_pow h)).2.1
  exact fun b hb => List.all_eq_true.mp this b hb

theorem digit_props {b : UInt8} (h : isDigit b = true) : b ≠ 61 ∧ b ≠ 47 ∧ isAlphabet b = false := by
  simp only [isDigit, Bool.and_eq_true, decide_eq_true_eq, UInt8.le_iff_toNat_le] at h
  refine ⟨?_, ?_, ?_⟩
  · rintro rfl; exact absurd h (by decide)
  · rintro rfl; exact absurd h (by decide)
  · simp only [isAlphabet, Bool.or_eq_false_iff, Bool.and_eq_false_iff, decide_eq_false_iff_not, UInt8.le_iff_toNat_le]
    have h1 : (48 : UInt8).toNat = 48 := rfl
    have h2 : (57 : UInt8).toNat = 57 := rfl
    have h3 : (97 : UInt8).toNat = 97 := rfl
    have h4 : (65 : UInt8).toNat = 65 := rfl
    omega

theorem formatUint_ne_nil {n : Nat} (h : n < 2 ^ 64) : formatUint n ≠ [] :=
  (decAux_spec 20 n (lt_ten_pow h)).1.resolve_right (by decide)

theorem parseCompType_formatUint {n : Nat} (h : n < 2 ^ 64) : parseCompType (formatUint n) = .ok (n, .text) := by
  have h1 := parseUint_formatUint h
  have h2 := formatUint_digits h
  have h3 := formatUint_ne_nil h
  cases hs : formatUint n with
  | nil => exact absurd hs h3
  | cons b t =>
    have hb := digit_props (h2 b (by rw [hs]; simp))
    rw [hs] at h1
    simp [parseCompType, hb.2.2, h1]

/-! ### Splitting -/

theorem splitOn_ne_nil (sep : UInt8) (s : Bytes) : splitOn sep s ≠ [] := by
  cases s with
  | nil => simp [splitOn]
  | cons b t =>
    rw [splitOn]; split
    · simp
    · split <;> simp

theorem splitOn_none {sep : UInt8} {s : Bytes} (h : sep ∉ s) : splitOn sep s = [s] := by
  induction s with
  | nil => rfl
  | cons b t ih =>
    simp only [List.mem_cons, not_or] at h
    rw [splitOn, if_neg (fun e => h.1 e.symm), ih h.2]

theorem splitOn_append {sep : UInt8} {s : Bytes} (t : Bytes) (h : sep ∉ s) :
    splitOn sep (s ++ sep :: t) = s :: splitOn sep t := by
  induction s with
  | nil => simp [splitOn]
  | cons b s ih =>
    simp only [List.mem_cons, not_or] at h
    rw [List.cons_append, splitOn, if_neg (fun e => h.1 e.symm), ih h.2]

/-- splitting is undone by joining -/
theorem splitOn_join (sep : UInt8) (s : Bytes) : List.intercalate [sep] (splitOn sep s) = s := by
  induction s with
  | nil => simp [splitOn, List.intercalate]
  | cons b t ih =>
    rw [splitOn]
    cases hs : splitOn sep t with
    | nil => exact absurd hs (splitOn_ne_nil sep t)
    | cons h r =>
      rw [hs] at ih
      split
      · rename_i hb
        subst hb
        rw [← ih]
        simp [List.intercalate, List.intersperse]
      · simp only
        rw [← ih]
        cases r <;> simp [List.intercalate, List.intersperse]

theorem splitOn_mem {sep : UInt8} {s x : Bytes} (h : x ∈ splitOn sep s) : sep ∉ x := by
  induction s generalizing x with
  | nil => simp [splitOn] at h; subst h; simp
  | cons b t ih =>
    rw [splitOn] at h
    split at h
    · rcases List.mem_cons.mp h with rfl | h
      · simp
      · exact ih h
    · rename_i hb
      cases hs : splitOn sep t with
      | nil => exact absurd hs (splitOn_ne_nil sep t)
      | cons y r =>
        rw [hs] at h ih
        simp only [List.mem_cons] at h
        rcases h with rfl | h
        · have := ih (x := y) (by simp)
          simp only [List.mem_cons, not_or]
          exact ⟨fun e => hb e.symm, this⟩
        · exact ih (by simp [h])

/-! ### Conventions -/

/-- the number conventions -/
def isNumberType (t : Nat) : Prop := t = 0x32 ∨ t = 0x34 ∨ t = 0x36 ∨ t = 0x38 ∨ t = 0x3a

theorem conv_cases {t : Nat} {name : Bytes} {f : ValFmt} (h : convByType t = some (name, f)) :
    1 ≤ t ∧ t ≤ 0x3a ∧ (f = .dec → isNumberType t) ∧ f ≠ .text ∧
    (∀ b ∈ name, b ≠ 61 ∧ b ≠ 47) ∧ parseCompType name = .ok (t, f) := by
  unfold convByType at h
  split at h
  · rename_i ht
    subst ht
    simp only [Option.some.injEq, Prod.mk.injEq] at h
    rw [← h.1, ← h.2]; refine ⟨by decide, by decide, (by intro h; cases h), by decide, by decide, by decide⟩
  split at h
  · rename_i ht
    subst ht
    simp only [Option.some.injEq, Prod.mk.injEq] at h
    rw [← h.1, ← h.2]; refine ⟨by decide, by decide, (by intro h; cases h), by decide, by decide, by decide⟩
  split at h
  · rename_i ht
    subst ht
    simp only [Option.some.injEq, Prod.mk.injEq] at h
    rw [← h.1, ← h.2]; refine ⟨by decide, by decide, (by intro h; simp [isNumberType]), by decide, by decide, by decide⟩
  split at h
  · rename_i ht
    subst ht
    simp only [Option.some.injEq, Prod.mk.injEq] at h
    rw [← h.1, ← h.2]; refine ⟨by decide, by decide, (by intro h; simp [isNumberType]), by decide, by decide, by decide⟩
  split at h
  · rename_i ht
    subst ht
    simp only [Option.some.injEq, Prod.mk.injEq] at h
    rw [← h.1, ← h.2]; refine ⟨by decide, by decide, (by intro h; simp [isNumberType]), by decide, by decide, by decide⟩
  split at h
  · rename_i ht
    subst ht
    simp only [Option.some.injEq, Prod.mk.injEq] at h
    rw [← h.1, ← h.2]; refine ⟨by decide, by decide, (by intro h; simp [isNumberType]), by decide, by decide, by decide⟩
  split at h
  · rename_i ht
    subst ht
    simp only [Option.some.injEq, Prod.mk.injEq] at h
    rw [← h.1, ← h.2]; refine ⟨by decide, by decide, (by intro h; simp [isNumberType]), by decide, by decide, by decide⟩
  · cases h

theorem natEnc_numberVal {x : Nat} (h : x < 2 ^ 64) : natEnc (numberVal (natEnc x)) = natEnc x := by
  have : beVal (natEnc x) = x := by
    unfold natEnc
    split
    · simp [beVal]; omega
    · split
      · exact beVal_be_of_lt (by omega)
      · split
        · exact beVal_be_of_lt (by omega)
        · exact beVal_be_of_lt (by omega)
  rw [numberVal, this, Nat.mod_eq_of_lt h]

theorem numberVal_lt (v : Bytes) : numberVal v < 2 ^ 64 := Nat.mod_lt _ (by omega)

theorem fmt_roundtrip {f : ValFmt} {v : Bytes} (h : f = .dec → ∃ x, x < 2 ^ 64 ∧ v = natEnc x) :
    f.fromString (f.toString v) = .ok v := by
  cases f with
  | text => exact textFromString_toString v
  | hex => exact hexFromString_toString v
  | dec =>
    obtain ⟨x, hx, rfl⟩ := h rfl
    simp only [ValFmt.fromString, ValFmt.toString, parseUint_formatUint (numberVal_lt _), natEnc_numberVal hx]

theorem fmt_mem {f : ValFmt} {v : Bytes} {b : UInt8} (h : b ∈ f.toString v) : b ≠ 61 ∧ b ≠ 47 := by
  cases f with
  | text => exact textToString_mem h
  | hex => exact hexToString_mem h
  | dec =>
    have := digit_props (formatUint_digits (numberVal_lt v) b h)
    exact ⟨this.1, this.2.1⟩

theorem componentFromStr_none {s : Bytes} (h : (61 : UInt8) ∉ s) :
    componentFromStr s = (textFromString s).map (fun v => ⟨8, v⟩) := by
  unfold componentFromStr
  rw [splitOn_none h]
  cases hq : textFromString s <;> simp [hq, Res.map]

theorem componentFromStr_eq {t v : Bytes} (ht : (61 : UInt8) ∉ t) (hv : (61 : UInt8) ∉ v) :
    componentFromStr (t ++ 61 :: v) = (do
      let (typ, f) ← parseCompType t
      if typ ≤ 0 ∨ toInt typ > 0xffff then .err .format
      else do
        let val ← f.fromString v
        .ok ⟨typ, val⟩) := by
  unfold componentFromStr
  rw [splitOn_append v ht, splitOn_none hv]

theorem not_mem_of {s : Bytes} {x : UInt8} (h : ∀ b ∈ s, b ≠ x) : x ∉ s := fun hx => h x hx rfl

theorem componentFromStr_typed {t v : Bytes} {typ : Nat} {f : ValFmt} {val : Bytes} (ht : (61 : UInt8) ∉ t)
    (hv : (61 : UInt8) ∉ v) (hp : parseCompType t = .ok (typ, f)) (h1 : 1 ≤ typ) (h2 : typ ≤ 65535)
    (hf : f.fromString v = .ok val) : componentFromStr (t ++ 61 :: v) = .ok ⟨typ, val⟩ := by
  rw [componentFromStr_eq ht hv, hp]
  simp only [Res.bind_ok]
  rw [toInt_of_lt (by omega), if_neg (by omega), hf]
  simp only [Res.bind_ok]

end Ndn
