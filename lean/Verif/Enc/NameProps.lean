import Verif.Enc.OrderLemmas

set_option linter.unusedSimpArgs false

/-! Properties C09 - C14: binary form, comparison and prefixes of components and names. -/

namespace Ndn

/-! ### C09 -/

/-- C09 (first half): `Bytes` has the announced length, for every type and value. -/
theorem C09_component_length (c : Component) : c.enc.length = c.encLen := c.enc_length

/-- C09, for values of at most 252 bytes: all three decoders give the component back and stop right after it.
Missing: longer values, for which the claim is false (`C09_long_value_violated`). -/
theorem C09_component_roundtrip_partial (c : Component) (ht : c.typ < 2 ^ 64) (hl : c.val.length ≤ 252) :
    componentFromBytes c.enc = .ok c ∧
    (∀ rest : Bytes, (c.enc ++ rest).length < 2 ^ 62 → parseComponent (c.enc ++ rest) = .ok (c, c.encLen)) ∧
    (∀ pre rest : Bytes, (pre ++ (c.enc ++ rest)).length < 2 ^ 62 →
      readComponent ⟨pre ++ (c.enc ++ rest), pre.length⟩ = (.ok c, ⟨pre ++ (c.enc ++ rest), pre.length + c.encLen⟩)) := by
  have main : ∀ pre rest : Bytes, (pre ++ (c.enc ++ rest)).length < 2 ^ 62 →
      readComponent ⟨pre ++ (c.enc ++ rest), pre.length⟩ =
        (.ok c, ⟨pre ++ (c.enc ++ rest), pre.length + c.encLen⟩) := by
    intro pre rest hlen
    exact readComponent_enc (r := ⟨pre ++ (c.enc ++ rest), pre.length⟩) (t := rest)
      ⟨by simp, hlen⟩ (by simp [BR.rest]) ht hl
  refine ⟨?_, ?_, main⟩
  · have hs : c.enc.length < 2 ^ 62 := by
      rw [Component.enc_length, Component.encLen, natLen_eq_tlLen hl]
      have := tlLen_le c.typ; have := tlLen_le c.val.length; omega
    have := main [] [] (by simpa using hs)
    simp only [List.append_nil, List.nil_append, List.length_nil] at this
    unfold componentFromBytes BR.new
    rw [this]
  · intro rest hlen
    have e1 : parseTL (c.enc ++ rest) = .ok (c.typ, tlLen c.typ) := by
      rw [Component.enc, List.append_assoc, List.append_assoc]; exact parseTL_tlEnc ht _
    have hd : (c.enc ++ rest).drop (tlLen c.typ) = tlEnc c.val.length ++ (c.val ++ rest) := by
      rw [Component.enc, List.append_assoc, List.append_assoc, ← tlEnc_length, List.drop_left, natEnc_eq_tlEnc hl]
    have e2 : parseTL ((c.enc ++ rest).drop (tlLen c.typ)) = .ok (c.val.length, tlLen c.val.length) := by
      rw [hd]; exact parseTL_tlEnc (by omega) _
    have hd2 : (c.enc ++ rest).drop (tlLen c.typ + tlLen c.val.length) = c.val ++ rest := by
      rw [← List.drop_drop, hd, ← tlEnc_length c.val.length, List.drop_left]
    have h1 := tlLen_le c.typ; have h2 := tlLen_le c.val.length
    have hw : wrap64 (((tlLen c.typ + tlLen c.val.length : Nat) : Int) + toInt c.val.length) =
        ((tlLen c.typ + tlLen c.val.length + c.val.length : Nat) : Int) := by
      rw [toInt_of_lt (by omega), wrap64_id] <;> omega
    have hl3 : (c.enc ++ rest).length = tlLen c.typ + tlLen c.val.length + c.val.length + rest.length := by
      rw [List.length_append, Component.enc_length, Component.encLen, natLen_eq_tlLen hl]
    have e3 := BR.slice_ok (b := c.enc ++ rest) (p := tlLen c.typ + tlLen c.val.length) (l := c.val.length)
      (by omega)
    unfold parseComponent
    rw [e1]
    simp only [Res.bind_ok]
    rw [e2]
    simp only [Res.bind_ok]
    rw [hw, e3]
    simp only [Res.bind_ok]
    rw [hd2, List.take_left, Component.encLen, natLen_eq_tlLen hl, Int.toNat_natCast]

example : (⟨32, [1, 2, 3]⟩ : Component).typ < 2 ^ 64 ∧ (⟨32, [1, 2, 3]⟩ : Component).val.length ≤ 252 ∧
    (⟨32, [1, 2, 3]⟩ : Component).enc = [32, 3, 1, 2, 3] := by decide

/-- C09 fails for every component whose value is longer than 252 bytes: `Bytes` writes the length as a natural number
where a TL number is expected, so `ComponentFromBytes` never gives it back. -/
theorem C09_long_value_violated (c : Component) (ht : c.typ < 2 ^ 64) (hl : 252 < c.val.length)
    (hm : c.encLen < 2 ^ 62) : componentFromBytes c.enc ≠ .ok c := by
  intro h
  have hg : (BR.new c.enc).Good := .new (by rw [Component.enc_length]; exact hm)
  have hs1 : TLSplit c.enc c.typ (tlLen c.typ) := by
    rw [Component.enc, List.append_assoc]; exact tlSplit_tlEnc ht _
  rcases readComponent_cases (BR.new c.enc) hg with ⟨_, e⟩ | ⟨r', _, e⟩ | ⟨t', n1, l, n2, s1, s2, hh⟩
  · unfold componentFromBytes at h; rw [e] at h; cases h
  · unfold componentFromBytes at h; rw [e] at h; cases h
  · rcases hh with ⟨hle, e⟩ | ⟨_, r', e⟩
    · unfold componentFromBytes at h
      rw [e] at h
      simp only [BR.rest_new] at s1 s2 hle h
      obtain ⟨rfl, rfl⟩ := s1.det hs1
      have hv : l = c.val.length := by
        have := congrArg (fun x => match x with | Res.ok (y : Component) => y.val.length | _ => 0) h
        simp only [List.length_take, List.length_drop] at this
        omega
      have h3 := s2.tlLen_le
      have h4 := natLen_lt_tlLen hl
      rw [Component.enc_length, Component.encLen] at hle
      rw [hv] at h3
      omega
    · unfold componentFromBytes at h; rw [e] at h; cases h

example : (252 : Nat) < (⟨8, List.replicate 300 0⟩ : Component).val.length := by
  rw [List.length_replicate]; omega

/-! ### C10 -/

theorem nameFromBytes_shape {fuel : Nat} {n : Name} {body : Bytes} {k v : Nat} {L : Bytes}
    (hs : TLSplit (L ++ body) v k) (hlen : (7 :: (L ++ body)).length < 2 ^ 62) :
    nameFromBytes fuel (7 :: (L ++ body)) = some (.ok n) ↔
      toInt v = ((L ++ body).length : Int) - k ∧
      ∃ r', readNameLoop fuel ⟨7 :: (L ++ body), 1 + k⟩ = some (.ok n, r') := by
  have e1 : BR.readTL (BR.new (7 :: (L ++ body))) = (.ok 7, ⟨7 :: (L ++ body), 1⟩) := by
    have := readTL_of_split (r := BR.new (7 :: (L ++ body))) (v := 7) (n := 1) (.one 7 (L ++ body) (by decide))
    exact this
  have e2 : BR.readTL ⟨7 :: (L ++ body), 1⟩ = (.ok v, ⟨7 :: (L ++ body), 1 + k⟩) :=
    readTL_of_split (r := ⟨7 :: (L ++ body), 1⟩) hs
  have hk := hs.le_length
  have hg : (⟨7 :: (L ++ body), 1 + k⟩ : BR).Good := ⟨by simp at hk ⊢; omega, hlen⟩
  unfold nameFromBytes
  rw [e1]
  simp only [ne_eq, not_true_eq_false, if_false]
  rw [e2]
  simp only
  cases hq : readNameLoop fuel ⟨7 :: (L ++ body), 1 + k⟩ with
  | none => simp
  | some x =>
    obtain ⟨x, r'⟩ := x
    have hb : r'.buf = 7 :: (L ++ body) := by
      have hle : fuel ≤ (L ++ body).length + fuel + 1 := by omega
      obtain ⟨x2, r2, hx2, _, hb2⟩ := readNameLoop_ends ((L ++ body).length + fuel + 1) _ hg
        (by rw [BR.rest_length]; simp; omega)
      rw [readNameLoop_mono hq _ hle] at hx2
      simp only [Option.some.injEq, Prod.mk.injEq] at hx2
      rw [hx2.2]; exact hb2
    cases x with
    | ok m =>
      simp only [hb, List.length_cons]
      have harith : toInt v = (((L ++ body).length + 1 : Nat) : Int) - ((1 + k : Nat) : Int) ↔
          toInt v = ((L ++ body).length : Int) - k := by omega
      by_cases hc : toInt v = ((L ++ body).length : Int) - k
      · rw [if_neg (by simpa using harith.mpr hc)]
        simp [hc]
      · rw [if_pos (fun h => hc (harith.mp h))]
        constructor
        · intro h; simp at h
        · intro h; exact absurd h.1 hc
    | err e => simp
    | panic => simp

/-- Names that can be encoded: every component value and the whole name at most 252 bytes. -/
def Name.Small (n : Name) : Prop := (∀ c ∈ n, c.val.length ≤ 252) ∧ Name.encLen n ≤ 252

/-- the bytes consumed by a successful loop are at least the shortest TLVs of the components -/
theorem readNameLoop_cover (fuel : Nat) : ∀ (r r' : BR) (n : Name), r.Good → readNameLoop fuel r = some (.ok n, r') →
    (n.flatMap Component.tlv).length ≤ r.rest.length := by
  induction fuel with
  | zero => intro r r' n _ h; simp [readNameLoop] at h
  | succ f ih =>
    intro r r' n hg h
    rcases readComponent_cases r hg with ⟨h0, e⟩ | ⟨r1, hne, e⟩ | ⟨t', n1, l, n2, s1, s2, hh⟩
    · simp [readNameLoop, e] at h; rw [h.1]; simp
    · simp [readNameLoop, e] at h
    · rcases hh with ⟨hle, e⟩ | ⟨_, r1, e⟩
      · simp only [readNameLoop, e] at h
        cases hq : readNameLoop f (r.adv (n1 + n2 + l)) with
        | none => rw [hq] at h; cases h
        | some x =>
          obtain ⟨x, r1⟩ := x
          rw [hq] at h
          cases x with
          | ok cs =>
            simp only [Option.some.injEq, Prod.mk.injEq, Res.ok.injEq] at h
            have hcs := ih _ _ _ (hg.adv hle) hq
            rw [BR.rest_adv, List.length_drop] at hcs
            rw [← h.1, List.flatMap_cons, List.length_append]
            have hl1 := s1.tlLen_le; have hl2 := s2.tlLen_le
            have hvl : ((r.rest.drop (n1 + n2)).take l).length = l := by simp; omega
            have : (Component.tlv ⟨t', (r.rest.drop (n1 + n2)).take l⟩).length = tlLen t' + tlLen l + l := by
              simp only [Component.tlv, List.length_append, tlEnc_length]
              rw [hvl]
            omega
          | err e => simp at h
          | panic => simp at h
      · simp [readNameLoop, e] at h

theorem tlv_length_ge (n : Name) : Name.encLen n ≤ (n.flatMap Component.tlv).length ∧
    ((∃ c ∈ n, 252 < c.val.length) → Name.encLen n < (n.flatMap Component.tlv).length) := by
  have hle : ∀ x, natLen x ≤ tlLen x := by
    intro x
    by_cases h : x ≤ 0xfc
    · rw [natLen_eq_tlLen h]; omega
    · exact Nat.le_of_lt (natLen_lt_tlLen (by omega))
  rw [Name.encLen_eq]
  induction n with
  | nil => simp [Name.encBody]
  | cons c n ih =>
    have hc : c.enc.length ≤ c.tlv.length := by
      rw [Component.enc_length]
      simp only [Component.encLen, Component.tlv, List.length_append, tlEnc_length]
      have := hle c.val.length; omega
    simp only [Name.encBody, List.flatMap_cons, List.length_append]
    refine ⟨by omega, ?_⟩
    rintro ⟨d, hd, hdl⟩
    rcases List.mem_cons.mp hd with rfl | hd
    · have : d.enc.length < d.tlv.length := by
        rw [Component.enc_length]
        simp only [Component.encLen, Component.tlv, List.length_append, tlEnc_length]
        have := natLen_lt_tlLen hdl; omega
      omega
    · have := ih.2 ⟨d, hd, hdl⟩
      omega

theorem natEnc_ne_nil (x : Nat) : natEnc x ≠ [] := by
  intro h
  have := congrArg List.length h
  rw [natEnc_length] at this
  have h1 : 1 ≤ natLen x := by unfold natLen; repeat' split
                               all_goals omega
  simp at this; omega

theorem bytes_cons (n : Name) : Name.bytes n = 7 :: (natEnc (Name.encLen n) ++ Name.encBody n) := rfl

/-- C10, exactly: `NameFromBytes` gives a name back from its `Bytes` if and only if every component value and the
whole name have at most 252 bytes.  (`bytes.length + 1` rounds of the loop always suffice, see C11.)  Partial because the
property asks for all names; for the others it is false. -/
theorem C10_name_roundtrip_partial (n : Name) (ht : ∀ c ∈ n, c.typ < 2 ^ 64) (hm : (Name.bytes n).length < 2 ^ 62)
    (fuel : Nat) (hf : (Name.bytes n).length < fuel) :
    nameFromBytes fuel (Name.bytes n) = some (.ok n) ↔ Name.Small n := by
  constructor
  · intro h
    rw [bytes_cons] at h hm
    -- the length field
    rcases readTL_cases ⟨natEnc (Name.encLen n) ++ Name.encBody n, 0⟩ with ⟨h0, _⟩ | ⟨r', e, _, _⟩ | ⟨v, k, hs, _, _⟩
    · simp [BR.rest, natEnc_ne_nil] at h0
    · exfalso
      -- decoding the length fails
      have e1 : BR.readTL (BR.new (7 :: (natEnc (Name.encLen n) ++ Name.encBody n))) =
          (.ok 7, ⟨7 :: (natEnc (Name.encLen n) ++ Name.encBody n), 1⟩) :=
        readTL_of_split (r := BR.new _) (v := 7) (n := 1) (.one 7 _ (by decide))
      unfold nameFromBytes at h
      rw [e1] at h
      simp only [ne_eq, not_true_eq_false, if_false] at h
      rcases readTL_cases ⟨7 :: (natEnc (Name.encLen n) ++ Name.encBody n), 1⟩ with ⟨_, e2⟩ | ⟨r2, e2, _, _⟩ | ⟨v, k, hs, _, _⟩
      · rw [e2] at h; simp at h
      · rw [e2] at h; simp at h
      · have e3 := readTL_of_split (r := ⟨natEnc (Name.encLen n) ++ Name.encBody n, 0⟩) (v := v) (n := k)
          (by simpa [BR.rest] using hs)
        rw [e3] at e; cases e
    · have hs' : TLSplit (natEnc (Name.encLen n) ++ Name.encBody n) v k := by simpa [BR.rest] using hs
      obtain ⟨hv, r', hr'⟩ := (nameFromBytes_shape hs' hm).mp h
      have hk := hs'.le_length
      have hg : (⟨7 :: (natEnc (Name.encLen n) ++ Name.encBody n), 1 + k⟩ : BR).Good := ⟨by simp at hk ⊢; omega, hm⟩
      have hcov := readNameLoop_cover _ _ _ _ hg hr'
      rw [BR.rest_length] at hcov
      have htl := hs'.tlLen_le
      have hv64 := hs'.lt
      have hge := tlv_length_ge n
      have hlen : (natEnc (Name.encLen n) ++ Name.encBody n).length = natLen (Name.encLen n) + Name.encLen n := by
        rw [List.length_append, natEnc_length, ← Name.encLen_eq]
      simp only [List.length_cons, hlen] at hcov hm hk hv
      have hvv : v + k = natLen (Name.encLen n) + Name.encLen n := by
        by_cases hv3 : v < 2 ^ 63
        · rw [toInt_of_lt hv3] at hv; omega
        · rw [toInt_neg (by omega) hv64] at hv; omega
      have hnl : natLen (Name.encLen n) ≤ tlLen (Name.encLen n) := by
        by_cases h : Name.encLen n ≤ 0xfc
        · rw [natLen_eq_tlLen h]; omega
        · exact Nat.le_of_lt (natLen_lt_tlLen (by omega))
      constructor
      · intro c hc
        apply Classical.byContradiction
        intro hcl
        have := hge.2 ⟨c, hc, by omega⟩
        have := tlLen_mono (x := Name.encLen n) (y := v) (by omega)
        omega
      · apply Classical.byContradiction
        intro hcl
        have h1 := natLen_lt_tlLen (x := Name.encLen n) (by omega)
        have := tlLen_mono (x := Name.encLen n) (y := v) (by omega)
        omega
  · intro ⟨hs, htot⟩
    have hsplit : TLSplit (natEnc (Name.encLen n) ++ Name.encBody n) (Name.encLen n) (tlLen (Name.encLen n)) := by
      rw [natEnc_eq_tlEnc htot]; exact tlSplit_tlEnc (by omega) _
    rw [bytes_cons] at hm hf ⊢
    rw [nameFromBytes_shape hsplit hm]
    refine ⟨?_, _, readNameLoop_enc n ⟨_, _⟩ fuel ?_ ?_ ?_ ?_⟩
    · rw [toInt_of_lt (by omega), List.length_append, natEnc_length, natLen_eq_tlLen htot, ← Name.encLen_eq]; omega
    · refine ⟨?_, hm⟩
      have := hsplit.le_length
      simp only [List.length_cons]; omega
    · have h : (7 :: (natEnc (Name.encLen n) ++ Name.encBody n)) = (7 :: natEnc (Name.encLen n)) ++ Name.encBody n := rfl
      have h2 : 1 + tlLen (Name.encLen n) = (7 :: natEnc (Name.encLen n)).length := by
        rw [List.length_cons, natEnc_length, natLen_eq_tlLen htot]; omega
      rw [BR.rest, h, h2, List.drop_left]
    · intro c hc; exact ⟨ht c hc, hs c hc⟩
    · have h1 : n.length ≤ (Name.encBody n).length := by
        clear hf hsplit htot hm hs ht
        induction n with
        | nil => simp
        | cons c n ih =>
          have := c.encLen_ge
          rw [Name.encBody, List.length_append, Component.enc_length, List.length_cons]; omega
      simp only [List.length_cons, List.length_append] at hf
      omega

/-- C10, injectivity on such names. -/
theorem C10_name_encoding_injective_partial (n m : Name) (hn : ∀ c ∈ n, c.typ < 2 ^ 64) (hm : ∀ c ∈ m, c.typ < 2 ^ 64)
    (sn : Name.Small n) (sm : Name.Small m) (h : Name.bytes n = Name.bytes m) : n = m := by
  have hsz : ∀ k : Name, Name.Small k → (Name.bytes k).length < 2 ^ 62 := by
    intro k hk
    have h2 := hk.2
    rw [bytes_cons, List.length_cons, List.length_append, natEnc_length, natLen_eq_tlLen hk.2, ← Name.encLen_eq]
    have := tlLen_le (Name.encLen k)
    omega
  have e1 := (C10_name_roundtrip_partial n hn (hsz n sn) _ (Nat.lt_succ_self _)).mpr sn
  have e2 := (C10_name_roundtrip_partial m hm (hsz m sm) _ (Nat.lt_succ_self _)).mpr sm
  rw [h, e2] at e1
  simpa using e1.symm

example : Name.Small [⟨8, [97]⟩, ⟨0x36, [1]⟩] ∧ Name.bytes [⟨8, [97]⟩, ⟨0x36, [1]⟩] = [7, 6, 8, 1, 97, 0x36, 1, 1] := by
  unfold Name.Small; decide

/-- Some pairs of bytes, `0x08 0x00`, repeated. -/
def pairs : Nat → Bytes
  | 0 => []
  | n + 1 => [8, 0] ++ pairs n

theorem pairs_length (n : Nat) : (pairs n).length = 2 * n := by
  induction n with
  | zero => rfl
  | succ n ih => rw [pairs, List.length_append, ih]; simp; omega

theorem encBody_pairs (n : Nat) : Name.encBody (List.replicate n ⟨8, []⟩) = pairs n := by
  induction n with
  | zero => rfl
  | succ n ih => rw [List.replicate_succ, Name.encBody, ih, pairs]; rfl

/-- C10 fails: the encoding of names is not injective.  A one-component name and a name of 129 components have the same
bytes. -/
theorem C10_name_encoding_injective_violated :
    let n : Name := [⟨8, pairs 128⟩]
    let m : Name := ⟨8, [0]⟩ :: List.replicate 128 ⟨8, []⟩
    n ≠ m ∧ Name.bytes n = Name.bytes m := by
  intro n m
  refine ⟨by intro h; simp [n, m] at h, ?_⟩
  have hb : Name.encBody n = Name.encBody m := by
    simp only [n, m, Name.encBody, encBody_pairs, Component.enc, pairs_length, List.append_nil]
    rfl
  rw [bytes_cons, bytes_cons, Name.encLen_eq, Name.encLen_eq, hb]

/-! ### C11 -/

/-- C11 (termination): one round of `ReadName`'s loop per byte suffices, for any bytes. -/
theorem C11_name_terminates (buf : Bytes) (hm : buf.length < 2 ^ 62) (fuel : Nat) (hf : buf.length < fuel) :
    nameFromBytes fuel buf ≠ none := by
  intro h
  unfold nameFromBytes at h
  rcases readTL_cases (BR.new buf) with ⟨_, e⟩ | ⟨r', e, _, _⟩ | ⟨v, k, hs, e, _⟩
  · rw [e] at h; simp at h
  · rw [e] at h; simp at h
  · rw [e] at h
    simp only at h
    split at h
    · simp at h
    · rcases readTL_cases ((BR.new buf).adv k) with ⟨_, e⟩ | ⟨r', e, _, _⟩ | ⟨v2, k2, hs2, e2, _⟩
      · rw [e] at h; simp at h
      · rw [e] at h; simp at h
      · rw [e2] at h
        simp only at h
        have hg : (((BR.new buf).adv k).adv k2).Good := ((BR.Good.new hm).adv hs.le_length).adv hs2.le_length
        obtain ⟨x, r3, hx, _⟩ := readNameLoop_ends fuel _ hg (by rw [BR.rest_length]; simp [BR.adv, BR.new]; omega)
        rw [hx] at h
        cases x with
        | ok n => simp only at h; split at h <;> simp at h
        | err e => simp at h
        | panic => simp at h

/-- C11 (no crash), as far as it holds: the decoders panic only on bytes that contain a TLV whose length field is at
least `2^62`. -/
theorem C11_decode_no_panic_partial (buf : Bytes) (hm : buf.length < 2 ^ 62) :
    (componentFromBytes buf = .panic → HugeLength buf) ∧
    (∀ fuel, buf.length < fuel → nameFromBytes fuel buf = some .panic → HugeLength buf) := by
  constructor
  · intro h
    unfold componentFromBytes at h
    rcases readComponent_cases (BR.new buf) (.new hm) with ⟨_, e⟩ | ⟨r1, hne, e⟩ | ⟨t', n1, l, n2, s1, s2, hh⟩
    · rw [e] at h; cases h
    · rw [e] at h; cases h
    · rcases hh with ⟨hle, e⟩ | ⟨hbig, r1, e⟩
      · rw [e] at h; cases h
      · refine ⟨0, t', n1, l, n2, by simpa using s1.parseTL, by simpa using s2.parseTL, ?_⟩
        have a := s2.le_length
        have b := s1.le_length
        simp only [BR.rest_new, List.length_drop, BR.new_pos] at a b hbig
        omega
  · intro fuel hf h
    unfold nameFromBytes at h
    rcases readTL_cases (BR.new buf) with ⟨_, e⟩ | ⟨r', e, _, _⟩ | ⟨v, k, hs, e, _⟩
    · rw [e] at h; simp at h
    · rw [e] at h; simp at h
    · rw [e] at h
      simp only at h
      split at h
      · simp at h
      · rcases readTL_cases ((BR.new buf).adv k) with ⟨_, e⟩ | ⟨r', e, _, _⟩ | ⟨v2, k2, hs2, e2, _⟩
        · rw [e] at h; simp at h
        · rw [e] at h; simp at h
        · rw [e2] at h
          simp only at h
          have hg : (((BR.new buf).adv k).adv k2).Good := ((BR.Good.new hm).adv hs.le_length).adv hs2.le_length
          obtain ⟨x, r3, hx, hp, _⟩ := readNameLoop_ends fuel _ hg (by rw [BR.rest_length]; simp [BR.adv, BR.new]; omega)
          rw [hx] at h
          cases x with
          | ok n => simp only at h; split at h <;> simp at h
          | err e => simp at h
          | panic => exact hp rfl

theorem beVal_take_mem {t : Bytes} (h : 2 ^ 62 ≤ beVal (t.take 4) ∨ 2 ^ 62 ≤ beVal (t.take 2)) : False := by
  rcases h with h | h
  · have h1 := beVal_lt (t.take 4)
    have h2 : 256 ^ (t.take 4).length ≤ 256 ^ 4 := Nat.pow_le_pow_right (by decide) (by simp; omega)
    omega
  · have h1 := beVal_lt (t.take 2)
    have h2 : 256 ^ (t.take 2).length ≤ 256 ^ 2 := Nat.pow_le_pow_right (by decide) (by simp; omega)
    omega

theorem hugeLength_mem {s : Bytes} (h : HugeLength s) : (0xff : UInt8) ∈ s := by
  obtain ⟨p, t, n1, l, n2, _, e2, hl⟩ := h
  have hs : TLSplit (s.drop (p + n1)) l n2 := by
    rcases readTL_cases ⟨s.drop (p + n1), 0⟩ with ⟨h0, _⟩ | ⟨_, _, e, _⟩ | ⟨v', n', hs, _, e⟩
    · simp only [BR.rest, List.drop_zero] at h0
      rw [h0] at e2; simp [parseTL] at e2
    · simp only [BR.rest, List.drop_zero] at e
      rw [e] at e2; cases e2
    · simp only [BR.rest, List.drop_zero] at e hs
      rw [e] at e2
      simp only [Res.ok.injEq, Prod.mk.injEq] at e2
      rw [← e2.1, ← e2.2]; exact hs
  have : (0xff : UInt8) ∈ s.drop (p + n1) := by
    generalize s.drop (p + n1) = u at hs
    cases hs with
    | one b t h => have := b.toNat_lt; omega
    | two t h => exact absurd (.inr hl) beVal_take_mem
    | four t h => exact absurd (.inl hl) beVal_take_mem
    | eight t h => simp
  exact List.mem_of_mem_drop this

/-- C11, a simple sufficient condition: bytes without `0xff` never crash a decoder. -/
theorem C11_decode_no_ff_partial (buf : Bytes) (hm : buf.length < 2 ^ 62) (hff : (0xff : UInt8) ∉ buf) :
    componentFromBytes buf ≠ .panic ∧ ∀ fuel, buf.length < fuel → nameFromBytes fuel buf ≠ some .panic := by
  have h := C11_decode_no_panic_partial buf hm
  exact ⟨fun e => hff (hugeLength_mem (h.1 e)), fun f hf e => hff (hugeLength_mem (h.2 f hf e))⟩

example : (0xff : UInt8) ∉ ([7, 3, 8, 1, 97] : Bytes) := by decide

/-- C11 fails: ten bytes from the network crash `ComponentFromBytes` (and `ReadComponent`, `ReadName`). -/
theorem C11_component_panics : componentFromBytes [8, 0xff, 0xff, 0xff, 0xff, 0xff, 0xff, 0xff, 0xff, 0xff] = .panic := by
  have hg : (BR.new [8, 0xff, 0xff, 0xff, 0xff, 0xff, 0xff, 0xff, 0xff, 0xff]).Good := .new (by decide)
  have s1 : TLSplit ([8, 0xff, 0xff, 0xff, 0xff, 0xff, 0xff, 0xff, 0xff, 0xff] : Bytes) 8 1 := .one 8 _ (by decide)
  have s2 : TLSplit ([0xff, 0xff, 0xff, 0xff, 0xff, 0xff, 0xff, 0xff, 0xff] : Bytes) (2 ^ 64 - 1) 9 :=
    .eight _ (by decide)
  have e1 := readTL_of_split (r := BR.new [8, 0xff, 0xff, 0xff, 0xff, 0xff, 0xff, 0xff, 0xff, 0xff]) s1
  rcases readComponent_cases _ hg with ⟨h0, e⟩ | ⟨r1, hne, e⟩ | ⟨t', n1, l, n2, s1', s2', hh⟩
  · simp at h0
  · exfalso
    have e2 := readTL_of_split (r := (BR.new [8, 0xff, 0xff, 0xff, 0xff, 0xff, 0xff, 0xff, 0xff, 0xff]).adv 1) s2
    have e2' := RM.onErr_ok (f := fun e => if e = .eof then .unexpectedEof else e) e2
    have hg2 : (((BR.new [8, 0xff, 0xff, 0xff, 0xff, 0xff, 0xff, 0xff, 0xff, 0xff]).adv 1).adv 9).Good :=
      ⟨by decide, by decide⟩
    unfold readComponent at e
    rw [RM.bind_ok e1, RM.bind_ok e2'] at e
    rcases BR.readBuf_cases hg2 (l := 2 ^ 64 - 1) (by omega) with ⟨hl, _⟩ | ⟨_, hl, _⟩ | ⟨_, r', e3⟩
    · exact absurd hl (by decide)
    · exact absurd hl (by decide)
    · rw [RM.bind_panic e3] at e; cases e
  · obtain ⟨rfl, rfl⟩ := s1'.det s1
    obtain ⟨rfl, rfl⟩ := s2'.det s2
    rcases hh with ⟨hle, e⟩ | ⟨hbig, r1, e⟩
    · exact absurd hle (by decide)
    · unfold componentFromBytes; rw [e]

/-! ### C12 -/

/-- C12: `Compare` on components and patterns is a total order, 0 exactly when `Equal`, and a component comes before a
pattern. Components are ordered by type, then length, then value; patterns by type, then tag. -/
theorem C12_component_compare (a b c : CompPat) :
    (a.compare b = -1 ∨ a.compare b = 0 ∨ a.compare b = 1) ∧
    (a.compare b = 0 ↔ a.equal b = true) ∧ (a.equal b = true ↔ a = b) ∧
    (b.compare a = - a.compare b) ∧
    (a.compare b ≤ 0 → b.compare c ≤ 0 → a.compare c ≤ 0) ∧
    (∀ x t g, (CompPat.comp x).compare (.pat t g) = -1) ∧
    (∀ t g t' g', (CompPat.pat t g).compare (.pat t' g') < 0 ↔ t < t' ∨ (t = t' ∧ g < g')) ∧
    (∀ x y : Component, (CompPat.comp x).compare (.comp y) < 0 ↔
      x.typ < y.typ ∨ (x.typ = y.typ ∧
        (x.val.length < y.val.length ∨ (x.val.length = y.val.length ∧ x.val < y.val)))) := by
  have h := CompPat.compare_isCompare
  refine ⟨h.range a b, by rw [h.zero, CompPat.equal_iff], CompPat.equal_iff a b, h.neg a b, ?_, fun _ _ _ => rfl, ?_, ?_⟩
  rotate_left
  · intro t g t' g'
    have := bytesCompare_lt_iff g g'
    simp only [CompPat.compare]
    split
    · split <;> omega
    · rename_i he
      have he : t = t' := by omega
      subst he; simp [this]
  · intro x y
    have := bytesCompare_lt_iff x.val y.val
    simp only [CompPat.compare, Component.compare]
    split
    · split <;> omega
    · rename_i he
      have he : x.typ = y.typ := by omega
      split
      · split <;> omega
      · rename_i hl
        have hl : x.val.length = y.val.length := by omega
        simp [this, he, hl]
  intro h1 h2
  by_cases e1 : a.compare b = 0
  · rw [(h.zero a b).mp e1]; exact h2
  · by_cases e2 : b.compare c = 0
    · rw [← (h.zero b c).mp e2]; exact h1
    · exact Int.le_of_lt (h.trans a b c (by omega) (by omega))

example : (CompPat.comp ⟨8, [2]⟩).compare (.comp ⟨8, [1, 1]⟩) = -1 ∧ (CompPat.comp ⟨9, []⟩).compare (.comp ⟨8, [1]⟩) = 1 := by
  decide

/-! ### C13 -/

/-- C13: `Name.Compare` is the lexicographic order of the correct encodings of the components, that is, the canonical
order of NDN. -/
theorem C13_name_compare_canonical (a b : Name) (ha : ∀ c ∈ a, c.typ < 2 ^ 64 ∧ c.val.length < 2 ^ 64)
    (hb : ∀ c ∈ b, c.typ < 2 ^ 64 ∧ c.val.length < 2 ^ 64) :
    (Name.compare a b = -1 ↔ a.flatMap Component.tlv < b.flatMap Component.tlv) ∧
    (Name.compare a b = 0 ↔ a = b) ∧
    (Name.compare a b = 1 ↔ b.flatMap Component.tlv < a.flatMap Component.tlv) ∧
    (Name.compare a b = 0 ↔ Name.equal a b = true) := by
  have h := Component.compare_isCompare.listCompare
  have hr := h.range a b
  have hz := h.zero a b
  have hn := h.neg a b
  have k1 := fun hh : listCompare Component.compare a b < 0 => Name.lt_of_compare ha hb hh
  have k2 := fun hh : listCompare Component.compare b a < 0 => Name.lt_of_compare hb ha hh
  have irr : ∀ x : Bytes, ¬ x < x := List.lt_irrefl
  have asym : ∀ x y : Bytes, x < y → ¬ y < x := fun x y h1 h2 => irr x (List.lt_trans h1 h2)
  have heq : Name.equal a b = true ↔ a = b := by
    unfold Name.equal
    split
    · rename_i hl
      simp only [Bool.false_eq_true, false_iff]
      rintro rfl; exact hl rfl
    · rename_i hl
      rw [allEqual_iff Component.equal_iff]
      exact ⟨fun hp => hp.eq_of_length (Classical.not_not.mp hl), fun e => e ▸ List.prefix_rfl⟩
  unfold Name.compare
  refine ⟨⟨fun e => k1 (by omega), fun hlt => ?_⟩, hz, ⟨fun e => k2 (by omega), fun hlt => ?_⟩, hz.trans heq.symm⟩
  · rcases hr with hr | hr | hr
    · exact hr
    · rw [hz.mp hr] at hlt; exact absurd hlt (irr _)
    · exact absurd hlt (asym _ _ (k2 (by omega)))
  · rcases hr with hr | hr | hr
    · exact absurd hlt (asym _ _ (k1 (by omega)))
    · rw [hz.mp hr] at hlt; exact absurd hlt (irr _)
    · exact hr

/-- C13: names and name patterns are totally ordered by `Compare`. -/
theorem C13_name_compare_total : IsCompare Name.compare ∧ IsCompare NamePattern.compare :=
  ⟨Component.compare_isCompare.listCompare, CompPat.compare_isCompare.listCompare⟩

example : Name.compare [⟨8, [98]⟩] [⟨8, [97, 97]⟩] = -1 ∧
    ([⟨8, [98]⟩] : Name).flatMap Component.tlv < ([⟨8, [97, 97]⟩] : Name).flatMap Component.tlv := by decide

/-! ### C14 -/

theorem Name.isPrefix_iff (n m : Name) : Name.isPrefix n m = true ↔ n <+: m := by
  unfold Name.isPrefix
  split
  · rename_i h
    simp only [Bool.false_eq_true, false_iff]
    intro hp; have := hp.length_le; omega
  · exact allEqual_iff Component.equal_iff n m

theorem NamePattern.isPrefix_iff (n m : NamePattern) : NamePattern.isPrefix n m = true ↔ n <+: m := by
  unfold NamePattern.isPrefix
  split
  · rename_i h
    simp only [Bool.false_eq_true, false_iff]
    intro hp; have := hp.length_le; omega
  · exact allEqual_iff CompPat.equal_iff n m

/-- C13 for patterns: `Equal` is equality, `Compare` is 0 exactly then, and two patterns that are equal have the same length and are prefixes of each other. -/
theorem C13_pattern_equal (a b : NamePattern) :
    (NamePattern.equal a b = true ↔ a = b) ∧ (NamePattern.compare a b = 0 ↔ NamePattern.equal a b = true) ∧
    (NamePattern.equal a b = true ↔ NamePattern.isPrefix a b = true ∧ NamePattern.isPrefix b a = true) := by
  have he : NamePattern.equal a b = true ↔ a = b := by
    unfold NamePattern.equal
    split
    · rename_i h
      simp only [Bool.false_eq_true, false_iff]
      intro e
      exact h (by rw [e])
    · rename_i h
      rw [allEqual_iff CompPat.equal_iff]
      exact ⟨fun hp => hp.eq_of_length (by omega), fun e => by rw [e]; exact List.prefix_rfl⟩
  refine ⟨he, ?_, ?_⟩
  · rw [he]; exact CompPat.compare_isCompare.listCompare.zero a b
  · rw [he, NamePattern.isPrefix_iff, NamePattern.isPrefix_iff]
    exact ⟨fun e => by rw [e]; exact ⟨List.prefix_rfl, List.prefix_rfl⟩, fun ⟨h1, h2⟩ => h1.eq_of_length (Nat.le_antisymm h1.length_le h2.length_le)⟩

example : NamePattern.equal [.comp ⟨8, [65]⟩] [.comp ⟨8, [65]⟩, .pat 8 [97]] = false ∧ NamePattern.equal [.pat 8 [97]] [.pat 8 [97]] = true := by decide

theorem listCompare_prefix {α : Type} {cmp : α → α → Int} (h : IsCompare cmp) {a b : List α} (hp : a <+: b) :
    listCompare cmp a b ≤ 0 := by
  obtain ⟨t, rfl⟩ := hp
  induction a with
  | nil => cases t <;> simp [listCompare]
  | cons x a ih => simp [listCompare, h.refl, ih]

/-- C14: `IsPrefix` holds exactly for extensions; it is a partial order with the empty name least; a prefix never
compares greater; two prefixes of one name are comparable. -/
theorem C14_is_prefix (a b c : Name) :
    (Name.isPrefix a b = true ↔ ∃ t, b = a ++ t) ∧
    Name.isPrefix a a = true ∧ Name.isPrefix [] a = true ∧
    (Name.isPrefix a b = true → Name.isPrefix b a = true → a = b) ∧
    (Name.isPrefix a b = true → Name.isPrefix b c = true → Name.isPrefix a c = true) ∧
    (Name.isPrefix a b = true → Name.compare a b ≤ 0) ∧
    (Name.isPrefix a c = true → Name.isPrefix b c = true → Name.isPrefix a b = true ∨ Name.isPrefix b a = true) := by
  simp only [Name.isPrefix_iff]
  refine ⟨⟨fun ⟨t, h⟩ => ⟨t, h.symm⟩, fun ⟨t, h⟩ => ⟨t, h.symm⟩⟩, List.prefix_rfl, List.nil_prefix, ?_,
    fun h1 h2 => h1.trans h2, fun h => listCompare_prefix Component.compare_isCompare h,
    fun h1 h2 => List.prefix_or_prefix_of_prefix h1 h2⟩
  intro h1 h2
  exact h1.eq_of_length (Nat.le_antisymm h1.length_le h2.length_le)

/-- C14 for name patterns. -/
theorem C14_is_prefix_pattern (a b c : NamePattern) :
    (NamePattern.isPrefix a b = true ↔ ∃ t, b = a ++ t) ∧
    (NamePattern.isPrefix a b = true → NamePattern.isPrefix b a = true → a = b) ∧
    (NamePattern.isPrefix a b = true → NamePattern.isPrefix b c = true → NamePattern.isPrefix a c = true) ∧
    (NamePattern.isPrefix a b = true → NamePattern.compare a b ≤ 0) ∧
    (NamePattern.isPrefix a c = true → NamePattern.isPrefix b c = true →
      NamePattern.isPrefix a b = true ∨ NamePattern.isPrefix b a = true) := by
  simp only [NamePattern.isPrefix_iff]
  refine ⟨⟨fun ⟨t, h⟩ => ⟨t, h.symm⟩, fun ⟨t, h⟩ => ⟨t, h.symm⟩⟩, ?_,
    fun h1 h2 => h1.trans h2, fun h => listCompare_prefix CompPat.compare_isCompare h,
    fun h1 h2 => List.prefix_or_prefix_of_prefix h1 h2⟩
  intro h1 h2
  exact h1.eq_of_length (Nat.le_antisymm h1.length_le h2.length_le)

example : Name.isPrefix [⟨8, [1]⟩] [⟨8, [1]⟩, ⟨8, [2]⟩] = true ∧ Name.isPrefix [⟨8, [1]⟩] [⟨9, [1]⟩, ⟨8, [2]⟩] = false := by
  decide

end Ndn
