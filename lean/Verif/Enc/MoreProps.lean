import Verif.Enc.ReaderProps
import Verif.Enc.TextProps

/-!
# More about readers (C06, C07) and the text form of patterns (C60)
-/

namespace Ndn

/-! ## C06: where the moving calls go -/

/-- C06 (moves): `UnreadByte` goes back by one; `Seek` goes to the offset counted from the start or the current position,
or back from the end (`io.Seeker` counts forward from the end; this code does not); all of them fail outside the
buffer. -/
theorem C06_moves (r : BR) (hg : r.Good) :
    (BR.unreadByte r).2.pos = r.pos - 1 ∧ ((BR.unreadByte r).1 = .ok () ↔ 0 < r.pos) ∧
    (∀ (o : Int) (whence : Nat), -2 ^ 62 ≤ o → o ≤ 2 ^ 62 → ∀ p : Nat,
      (BR.seek o whence r).1 = .ok p ↔
        (p ≤ r.buf.length ∧ ((whence = 0 ∧ (p : Int) = o) ∨ (whence = 1 ∧ (p : Int) = r.pos + o) ∨
          (whence = 2 ∧ (p : Int) = r.buf.length - o)))) ∧
    (∀ (o : Int) (whence p : Nat), (BR.seek o whence r).1 = .ok p → (BR.seek o whence r).2 = ⟨r.buf, p⟩) := by
  have h1 := hg.1
  have h2 := hg.2
  refine ⟨?_, ?_, ?_, ?_⟩
  · unfold BR.unreadByte; split
    · rename_i h; simp [h]
    · rfl
  · unfold BR.unreadByte; split
    · rename_i h; simp [h]
    · rename_i h; simp; omega
  · intro o whence l1 l2 p
    unfold BR.seek
    match whence with
    | 0 =>
      simp only
      split
      · simp; omega
      · split
        · simp; omega
        · simp; omega
    | 1 =>
      simp only
      rw [wrap64_id (by omega) (by omega)]
      split
      · simp; omega
      · split
        · simp; omega
        · simp; omega
    | 2 =>
      simp only
      rw [wrap64_id (by omega) (by omega)]
      split
      · simp; omega
      · split
        · simp; omega
        · simp; omega
    | _ + 3 => simp
  · intro o whence p
    unfold BR.seek
    match whence with
    | 0 =>
      simp only
      split
      · simp
      · split
        · simp
        · intro h; simp only [Res.ok.injEq] at h; rw [h]
    | 1 =>
      simp only
      split
      · simp
      · split
        · simp
        · intro h; simp only [Res.ok.injEq] at h; rw [h]
    | 2 =>
      simp only
      split
      · simp
      · split
        · simp
        · intro h; simp only [Res.ok.injEq] at h; rw [h]
    | _ + 3 => simp

example : (⟨[1, 2, 3], 1⟩ : BR).Good := ⟨by decide, by decide⟩

/-! ## C07: `UnreadByte` and `Read` of a `WireReader` -/

theorem accSz_succ {r : WR} {n : Nat} {s : Bytes} (h : r.wire[n]? = some s) : r.accSz (n + 1) = r.accSz n + s.length := by
  unfold WR.accSz
  rw [List.take_add_one, h]
  simp

/-- C07 (`UnreadByte`): it fails exactly at the start, and otherwise moves back by one byte, over buffer boundaries as
well (the position is relative to the joined bytes). -/
theorem C07_unread_byte (r : WR) (hs : r.seg ≤ r.wire.length) :
    (r.seg = 0 ∧ r.pos = 0 ∧ ∃ e, WR.unreadByte r = (.err e, r)) ∨
    (∃ r', WR.unreadByte r = (.ok (), r') ∧ r'.posOf = r.posOf - 1 ∧ r'.wire = r.wire) := by
  unfold WR.unreadByte
  by_cases h0 : r.pos = 0
  · rw [if_pos h0]
    by_cases hs0 : r.seg = 0
    · rw [if_pos hs0]; exact .inl ⟨hs0, h0, _, rfl⟩
    · rw [if_neg hs0]
      right
      have hlt : r.seg - 1 < r.wire.length := by omega
      have hget := List.getElem?_eq_getElem hlt
      rw [hget]
      refine ⟨_, rfl, ?_, rfl⟩
      have := accSz_succ hget
      rw [show r.seg - 1 + 1 = r.seg by omega] at this
      show ((r.wire[r.seg - 1].length : Int) - 1) + (r.accSz (r.seg - 1) : Nat) = r.pos + (r.accSz r.seg : Nat) - 1
      rw [this, h0]; push_cast; omega
  · rw [if_neg h0]
    right
    refine ⟨_, rfl, ?_, rfl⟩
    show r.pos - 1 + (r.accSz r.seg : Nat) = r.pos + (r.accSz r.seg : Nat) - 1
    omega

example : (⟨[[1, 2], [3]], 1, 0⟩ : WR).seg ≤ (⟨[[1, 2], [3]], 1, 0⟩ : WR).wire.length := by decide

/-- C07 (`Read`): when bytes are left, `Read` into a buffer of `n > 0` bytes gives a non-empty prefix, at most `n` long, of
what is left, and moves behind it (a `BufferReader` gives the longest such prefix; `io.Reader` allows both). -/
theorem C07_read_partial (r : WR) (hg : r.Good) (n : Nat) (hn : 0 < n) (hr : r.rest ≠ []) :
    ∃ bs r', WR.read n r = (.ok bs, r') ∧ 0 < bs.length ∧ bs.length ≤ n ∧ r.rest = bs ++ r'.rest ∧ r'.Good := by
  rcases WR.nextSeg_cases hg with ⟨he, _⟩ | ⟨r', s, t, hx, hg', hrest, hw, hd, h0, hp, hne⟩
  · exact absurd he hr
  · obtain ⟨hget, hlt, _⟩ := WR.drop_cons_get hd
    unfold WR.read
    rw [hx]
    simp only
    rw [if_neg (by simp), hget]
    simp only
    rw [WR.slice_ok h0 (by omega) (by omega)]
    simp only
    have hlen : ((s.drop r'.pos.toNat).take (((s.length : Int)).toNat - r'.pos.toNat)) = s.drop r'.pos.toNat := by
      apply List.take_of_length_le; simp
    rw [hlen]
    have hpos : ((s.drop r'.pos.toNat).take n).length = min n (s.length - r'.pos.toNat) := by simp
    refine ⟨_, _, rfl, by omega, by omega, ?_, ?_⟩
    · rw [← hrest, WR.rest_eq hd (by omega),
        WR.rest_eq (r := { r' with pos := r'.pos + ((s.drop r'.pos.toNat).take n).length }) hd (by simp only; omega),
        ← List.append_assoc]
      congr 1
      simp only
      rw [show (r'.pos + (((s.drop r'.pos.toNat).take n).length : Nat)).toNat =
        r'.pos.toNat + ((s.drop r'.pos.toNat).take n).length by omega, ← List.drop_drop, List.length_take]
      have : (s.drop r'.pos.toNat).drop (min n (s.drop r'.pos.toNat).length) = (s.drop r'.pos.toNat).drop n := by
        rcases Nat.le_total n (s.drop r'.pos.toNat).length with h | h
        · rw [Nat.min_eq_left h]
        · rw [Nat.min_eq_right h, List.drop_length, List.drop_eq_nil_of_le h]
      rw [this, List.take_append_drop]
    · exact ⟨⟨s, t, hd, by simp only; omega, by simp only; omega, hne⟩, hg'.small⟩

/-! ## C60: text form of patterns -/

/-- a tag that can be written in a pattern: it has no `=` and no `/` -/
def TagOk (tag : Bytes) : Prop := (61 : UInt8) ∉ tag ∧ (47 : UInt8) ∉ tag

/-- what can be written: a component as in C15 that does not begin with `<`, or a pattern with such a tag -/
def CompPat.Writable : CompPat → Prop
  | .comp c => 1 ≤ c.typ ∧ c.typ ≤ 65535 ∧ NumberOk c
  | .pat t tag => t < 2 ^ 64 ∧ TagOk tag

theorem legal_head (v : Bytes) : ∀ b t, textToString v = b :: t → b ≠ 60 := by
  cases v with
  | nil => intro b t h; simp [textToString] at h
  | cons x v =>
    intro b t h
    rw [textToString] at h
    split at h
    · rename_i hl
      simp only [List.cons_append, List.nil_append, List.cons.injEq] at h
      rw [← h.1]
      rintro rfl
      exact absurd hl (by decide)
    · simp only [List.cons_append, List.cons.injEq] at h
      rw [← h.1]; decide

theorem toStr_head (c : Component) (ht : c.typ < 2 ^ 64) : ∀ b t, c.toStr = b :: t → b ≠ 60 := by
  intro b t h
  rcases toStr_cases c ht with ⟨_, e⟩ | ⟨s, f, e, hp, hm, _⟩
  · rw [e] at h; exact legal_head _ _ _ h
  · rw [e] at h
    cases s with
    | nil => simp [parseCompType] at hp
    | cons x s =>
      simp only [List.cons_append, List.cons.injEq] at h
      rw [← h.1]
      rintro rfl
      simp only [parseCompType] at hp
      rw [if_neg (by decide)] at hp
      unfold parseUint at hp
      rw [if_pos (by right; intro h; simp only [List.all_cons, Bool.and_eq_true] at h; exact absurd h.1 (by decide))] at hp
      simp at hp

theorem bracket_inner (x : Bytes) : (([60] ++ x ++ [62] : Bytes).drop 1).dropLast = x := by simp

theorem compPatFromStr_bracket (x : Bytes) :
    compPatFromStr ([60] ++ x ++ [62]) = match splitOn 61 x with
      | [tag] => .ok (.pat 8 tag)
      | [t, tag] => do
        let (typ, _) ← parseCompType t
        .ok (.pat typ tag)
      | _ => .err .format := by
  unfold compPatFromStr
  simp only [List.cons_append, List.nil_append]
  have hl : (60 :: (x ++ [62]) : Bytes).getLast? = some 62 := by
    rw [← List.cons_append, List.getLast?_append]; rfl
  rw [if_neg (by decide), if_neg (by simp [hl])]
  have : (List.drop 1 (60 :: (x ++ [62]) : Bytes)).dropLast = x := by simp
  rw [this]
  rfl

theorem pat_roundtrip (p : CompPat) (h : p.Writable) : compPatFromStr p.toStr = .ok p := by
  cases p with
  | comp c =>
    obtain ⟨h1, h2, h3⟩ := h
    have hc := C15_string c h1 h2 h3
    show compPatFromStr c.toStr = _
    unfold compPatFromStr
    split
    · rw [hc]; rfl
    · rename_i b t hs
      rw [if_pos (toStr_head c (by omega) b t hs), hc]; rfl
  | pat t tag =>
    obtain ⟨ht, h61, h47⟩ := h
    unfold CompPat.toStr
    simp only
    split
    · rename_i h8
      rw [compPatFromStr_bracket, splitOn_none h61, h8]
    · split
      · rename_i name f hconv
        obtain ⟨_, _, _, _, hm, hpc⟩ := conv_cases hconv
        rw [show ([60] ++ name ++ [61] ++ tag ++ [62] : Bytes) = [60] ++ (name ++ 61 :: tag) ++ [62] by simp,
          compPatFromStr_bracket, splitOn_append _ (not_mem_of fun b hb => (hm b hb).1), splitOn_none h61]
        simp only [hpc, Res.bind_ok]
      · rw [show ([60] ++ formatUint t ++ [61] ++ tag ++ [62] : Bytes) = [60] ++ (formatUint t ++ 61 :: tag) ++ [62] by simp,
          compPatFromStr_bracket, splitOn_append _ (not_mem_of fun b hb => (digit_props (formatUint_digits ht b hb)).1),
          splitOn_none h61]
        simp only [parseCompType_formatUint ht, Res.bind_ok]

theorem pat_noSlash (p : CompPat) (h : p.Writable) : (47 : UInt8) ∉ p.toStr := by
  cases p with
  | comp c => exact toStr_noSlash c (by have := h.2.1; omega)
  | pat t tag =>
    obtain ⟨ht, h61, h47⟩ := h
    unfold CompPat.toStr
    simp only
    split
    · simp [h47]
    · split
      · rename_i name f hconv
        obtain ⟨_, _, _, _, hm, _⟩ := conv_cases hconv
        have := not_mem_of (x := (47 : UInt8)) (s := name) fun b hb => (hm b hb).2
        simp [h47, this]
      · have := not_mem_of (x := (47 : UInt8)) (s := formatUint t) fun b hb => (digit_props (formatUint_digits ht b hb)).2.1
        simp [h47, this]

/-- `NamePattern.String`, name_pattern.go:31-46.  The type assertion `.(*Component)` never holds for the component values
`NamePatternFromStr` builds (name_component.go:458-460 returns `Component`), so no slash is added at the end. -/
def NamePattern.toStr (n : NamePattern) : Bytes :=
  let ret := n.flatMap (fun c => 47 :: c.toStr)
  if ret.length = 0 then [47] else ret

theorem pat_eq_nil (p : CompPat) (h : p.Writable) : p.toStr = [] ↔ p = .comp ⟨8, []⟩ := by
  cases p with
  | comp c =>
    show c.toStr = [] ↔ _
    rw [toStr_eq_nil c (by have := h.2.1; omega)]
    obtain ⟨t, v⟩ := c
    simp
  | pat t tag =>
    unfold CompPat.toStr
    simp only
    split
    · simp
    · split <;> simp

/-- C60 (partial): `NamePatternFromStr(p.String())` gives back `p`, for every pattern that can be written and does not
end in an empty generic component (there it fails: `C60_pattern_text_violated`). -/
theorem C60_pattern_text_roundtrip_partial (n : NamePattern) (h : ∀ p ∈ n, p.Writable)
    (hlast : n.getLast? ≠ some (.comp ⟨8, []⟩)) : namePatternFromStr (NamePattern.toStr n) = .ok n := by
  cases n with
  | nil => decide
  | cons p0 n0 =>
    generalize hn : p0 :: n0 = n at h hlast
    have hne : n ≠ [] := by rw [← hn]; simp
    have hmap : n.flatMap (fun c => 47 :: c.toStr) = (n.map CompPat.toStr).flatMap (fun s => 47 :: s) := by
      rw [List.flatMap_map]
    have hnz : (n.flatMap (fun c => 47 :: c.toStr)).length ≠ 0 := by rw [← hn]; simp
    have hs := (splitOn_flatMap (n.map CompPat.toStr) (by
      intro s hs; obtain ⟨p, hp, rfl⟩ := List.mem_map.mp hs; exact pat_noSlash p (h p hp))).1
    have hl : (n.map CompPat.toStr).getLast? = some (n.getLast hne).toStr := by
      rw [List.getLast?_map, List.getLast?_eq_some_getLast hne]; rfl
    have hx : (n.getLast hne).toStr ≠ [] := by
      intro he
      rw [pat_eq_nil _ (h _ (List.getLast_mem hne))] at he
      rw [List.getLast?_eq_some_getLast hne, he] at hlast
      exact hlast rfl
    unfold NamePattern.toStr namePatternFromStr
    simp only
    rw [if_neg hnz, hmap, hs]
    simp only [List.head?_cons, if_true, List.drop_succ_cons, List.drop_zero]
    rw [hl]
    simp only
    rw [if_neg hx]
    exact mapRes_ok fun p hp => pat_roundtrip p (h p hp)

example : (∀ p ∈ [CompPat.comp ⟨8, [97]⟩, .comp ⟨8, []⟩, .pat 0x32 [115], .pat 99 [], .pat 8 [60]], p.Writable) ∧
    NamePattern.toStr [.comp ⟨8, [97]⟩, .comp ⟨8, []⟩, .pat 0x32 [115]] =
      ascii ['/', 'a', '/', '/', '<', 's', 'e', 'g', '=', 's', '>'] := by
  refine ⟨?_, by decide⟩
  intro p hp
  simp only [List.mem_cons, List.not_mem_nil, or_false] at hp
  rcases hp with rfl | rfl | rfl | rfl | rfl
  · exact ⟨by decide, by decide, fun h => absurd h (by simp [isNumberType])⟩
  · exact ⟨by decide, by decide, fun h => absurd h (by simp [isNumberType])⟩
  · exact ⟨by decide, by decide, by decide⟩
  · exact ⟨by decide, by decide, by decide⟩
  · exact ⟨by decide, by decide, by decide⟩

/-- C60 fails: a pattern that ends in an empty component loses it. -/
theorem C60_pattern_text_violated :
    namePatternFromStr (ascii ['/', 'a', '/', '/']) = .ok [.comp ⟨8, [97]⟩, .comp ⟨8, []⟩] ∧
    namePatternFromStr (NamePattern.toStr [.comp ⟨8, [97]⟩, .comp ⟨8, []⟩]) = .ok [.comp ⟨8, [97]⟩] := by
  decide

/-! ### What the text of a component looks like -/

/-- the unreserved characters of a URI (RFC 3986, 2.3) -/
def Unreserved (b : UInt8) : Prop :=
  (65 ≤ b ∧ b ≤ 90) ∨ (97 ≤ b ∧ b ≤ 122) ∨ (48 ≤ b ∧ b ≤ 57) ∨ b ∈ ascii ['-', '.', '_', '~']

instance (b : UInt8) : Decidable (Unreserved b) := by unfold Unreserved; infer_instance

/-- the digits of percent-encoding -/
def upperHex : Bytes := ascii ['0', '1', '2', '3', '4', '5', '6', '7', '8', '9', 'A', 'B', 'C', 'D', 'E', 'F']

/-- one byte in a URI: itself if it is unreserved, otherwise percent-encoded with capital letters -/
def uriByte (b : UInt8) : Bytes :=
  if Unreserved b then [b] else 37 :: [upperHex.getD (b.toNat / 16) 0, upperHex.getD (b.toNat % 16) 0]

/-- C15, what the text is: the bytes of a generic component are written as in a URI, and the canonical text of the other types has the number of the type
and an equals sign before it -/
theorem C15_escaping (t : Nat) (v : Bytes) :
    Component.canonStr ⟨8, v⟩ = v.flatMap uriByte ∧ Component.toStr ⟨8, v⟩ = v.flatMap uriByte ∧
      (t ≠ 8 → Component.canonStr ⟨t, v⟩ = formatUint t ++ ascii ['='] ++ v.flatMap uriByte) := by
  have hb : ∀ n : Fin 256, (if isLegalCompText (UInt8.ofNat n.1) then [UInt8.ofNat n.1] else 37 :: hex2 true (UInt8.ofNat n.1)) = uriByte (UInt8.ofNat n.1) := by
    decide +kernel
  have key : ∀ v : Bytes, textToString v = v.flatMap uriByte := by
    intro v
    induction v with
    | nil => rfl
    | cons b v ih =>
      have h := hb ⟨b.toNat, b.toNat_lt⟩
      simp only [UInt8.ofNat_toNat] at h
      rw [textToString, List.flatMap_cons, h, ih]
  refine ⟨?_, ?_, fun h => ?_⟩
  · simp [Component.canonStr, key]
  · simp [Component.toStr, convByType, key]
  · simp only [Component.canonStr, if_pos h, key]; rfl

/-- `a-b c` in a component -/
example : Component.toStr ⟨8, ascii ['a', '-', 'b', ' ', 'c']⟩ = ascii ['a', '-', 'b', '%', '2', '0', 'c'] := by decide +kernel

/-- two lower-case digits -/
def lowerHex2 (b : UInt8) : Bytes :=
  let d := ascii ['0', '1', '2', '3', '4', '5', '6', '7', '8', '9', 'a', 'b', 'c', 'd', 'e', 'f']
  [d.getD (b.toNat / 16) 0, d.getD (b.toNat % 16) 0]

theorem decAux_digits : ∀ (fuel n : Nat), n < 10 ^ (fuel + 1) → decAux (fuel + 1) n = ascii (Nat.toDigits 10 n) := by
  have hd : ∀ n : Fin 10, [UInt8.ofNat (48 + n.1)] = ascii [Nat.digitChar n.1] := by decide
  intro fuel
  induction fuel with
  | zero =>
    intro n h
    rw [decAux, if_pos (by omega), Nat.toDigits_of_lt_base (by omega)]
    exact hd ⟨n, by omega⟩
  | succ fuel ih =>
    intro n h
    rw [decAux]
    by_cases hn : n < 10
    · rw [if_pos hn, Nat.toDigits_of_lt_base hn]
      exact hd ⟨n, hn⟩
    · rw [if_neg hn, ih (n / 10) (by rw [Nat.pow_succ] at h; omega), Nat.toDigits_of_base_le (n := n) (by decide) (by omega), hd ⟨n % 10, by omega⟩]
      simp [ascii]

/-- C15, the names of the types with conventions: digests are written in hexadecimal, the others as decimal numbers -/
theorem C15_conventions (v : Bytes) (n : Nat) (hn : n < 2 ^ 64) :
    Component.toStr ⟨1, v⟩ = ascii "sha256digest=".toList ++ v.flatMap lowerHex2 ∧
    Component.toStr ⟨2, v⟩ = ascii "params-sha256=".toList ++ v.flatMap lowerHex2 ∧
    Component.toStr ⟨50, natEnc n⟩ = ascii "seg=".toList ++ ascii (Nat.toDigits 10 n) ∧
    Component.toStr ⟨52, natEnc n⟩ = ascii "off=".toList ++ ascii (Nat.toDigits 10 n) ∧
    Component.toStr ⟨54, natEnc n⟩ = ascii "v=".toList ++ ascii (Nat.toDigits 10 n) ∧
    Component.toStr ⟨56, natEnc n⟩ = ascii "t=".toList ++ ascii (Nat.toDigits 10 n) ∧
    Component.toStr ⟨58, natEnc n⟩ = ascii "seq=".toList ++ ascii (Nat.toDigits 10 n) := by
  have hb : ∀ n : Fin 256, hex2 false (UInt8.ofNat n.1) = lowerHex2 (UInt8.ofNat n.1) := by decide +kernel
  have key : hexToString v = v.flatMap lowerHex2 := by
    induction v with
    | nil => rfl
    | cons b v ih =>
      have h := hb ⟨b.toNat, b.toNat_lt⟩
      simp only [UInt8.ofNat_toNat] at h
      rw [hexToString, List.flatMap_cons, h, ih]
  have hv : numberVal (natEnc n) = n := by
    have : beVal (natEnc n) = n := by
      unfold natEnc
      split
      · simp [beVal]; omega
      · split
        · exact beVal_be_of_lt (by omega)
        · split
          · exact beVal_be_of_lt (by omega)
          · exact beVal_be_of_lt (by omega)
    rw [numberVal, this, Nat.mod_eq_of_lt hn]
  have hd : formatUint n = ascii (Nat.toDigits 10 n) := decAux_digits 19 n (by omega)
  refine ⟨?_, ?_, ?_, ?_, ?_, ?_, ?_⟩ <;>
    simp only [Component.toStr, convByType, Nat.reduceEqDiff, if_true, if_false, ValFmt.toString, key, hv, hd] <;> rfl

example : Component.toStr ⟨1, [0xab, 7]⟩ = ascii "sha256digest=ab07".toList ∧ Component.toStr ⟨54, [1, 0]⟩ = ascii "v=256".toList := by decide +kernel

end Ndn
