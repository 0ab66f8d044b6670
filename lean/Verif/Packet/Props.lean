import Verif.Packet.PacketLemmas
import Verif.Packet.DataLemmas

/-! # Properties of the packet parsers: C22, C23, C24, C26, C29 -/

namespace Ndn.Packet
open Ndn.Codec Ndn.Codec.Schema

/-! ## C23, C24 -/

/-- C23 fails: `ReadPacket`, `ReadInterest` and `ReadData` run forever on these ten bytes. -/
theorem C23_readPacket_diverges (sha : Bytes → Bytes) (fuel : Nat) :
    readPacket sha fuel (BR.new loopBytes) = none ∧ readInterest sha fuel (BR.new loopBytes) = none ∧ readData fuel (BR.new loopBytes) = none := by
  have h : parsePacket false fuel (BR.new loopBytes) = none := loopBytes_spin false _ (by decide) _ _ fuel
  exact ⟨by unfold readPacket; rw [h]; rfl, by unfold readInterest; rw [h]; rfl, by unfold readData; rw [h]; rfl⟩

/-- C23, C24: `ReadPacket`, `ReadInterest` and `ReadData` return a packet or an error, and take at most as many rounds as the buffer has
bytes, on every buffer in which no TLV number is `2^43` or more.  Missing: the other buffers (`C23_readPacket_diverges`,
`C24_readPacket_panics`). -/
theorem C24_readPacket_total_partial (sha : Bytes → Bytes) (buf : Bytes) (hm : buf.length < 2 ^ 62) (hc : Calm buf) (fuel : Nat)
    (hf : buf.length < fuel) :
    (∃ x, readPacket sha fuel (BR.new buf) = some (.ok x)) ∧ (∃ x, readInterest sha fuel (BR.new buf) = some (.ok x)) ∧
      ∃ x, readData fuel (BR.new buf) = some (.ok x) := by
  have h := parsePacket_tot false (BR.new buf) (.new hm) hc fuel hf
  exact ⟨finishParse_tot h _, finishParse_tot h _, finishParse_tot h _⟩

/-- a bare Data that is cut off, and an Interest with an element of unknown type -/
example : Calm [6, 200, 7, 3, 8, 1, 65] ∧ Calm [5, 9, 7, 3, 8, 1, 65, 40, 2, 1, 2] := ⟨calm_no_ff (by decide), calm_no_ff (by decide)⟩

/-- twelve bytes: an Interest with a name of length `2^64 - 1` -/
def panicBytes : Bytes := [5, 10, 7, 0xff, 0xff, 0xff, 0xff, 0xff, 0xff, 0xff, 0xff, 0xff]

theorem readTL_at9 {buf : Bytes} {pos : Nat} {t : Bytes} (h : buf.drop pos = 0xff :: t) (ht : 8 ≤ t.length) :
    BR.readTL ⟨buf, pos⟩ = (.ok (beVal (t.take 8)), ⟨buf, pos + 9⟩) :=
  readTL_of_split (r := ⟨buf, pos⟩) (by unfold BR.rest; simp only; rw [h]; exact .eight t ht)

/-- C24 fails: `ReadPacket` panics on these twelve bytes (it asks for a slice that cannot be allocated), and so does `ReadInterest`. -/
theorem C24_readPacket_panics (sha : Bytes → Bytes) (fuel : Nat) (hf : 2 ≤ fuel) :
    readPacket sha fuel (BR.new panicBytes) = some .panic ∧ readInterest sha fuel (BR.new panicBytes) = some .panic := by
  obtain ⟨f, rfl⟩ : ∃ f, fuel = f + 1 + 1 := ⟨fuel - 2, by omega⟩
  have e9 := readTL_at9 (buf := [7, 0xff, 0xff, 0xff, 0xff, 0xff, 0xff, 0xff, 0xff, 0xff]) (pos := 1)
    (t := [0xff, 0xff, 0xff, 0xff, 0xff, 0xff, 0xff, 0xff]) rfl (by decide)
  have e8 : beVal (List.take 8 ([0xff, 0xff, 0xff, 0xff, 0xff, 0xff, 0xff, 0xff] : Bytes)) = 2 ^ 64 - 1 := by decide
  rw [e8] at e9
  have h : ∃ r, parseInterest false (f + 1 + 1) {} ⟨[7, 0xff, 0xff, 0xff, 0xff, 0xff, 0xff, 0xff, 0xff, 0xff], 0⟩ = some (.panic, r) := by
    simp [parseInterest, interestSlots, flagSlot, readIntName, ordParse, ordLoop, readTL_at, ordInner, knows, argSlot, markSlot, elemSlot, sigSlot,
      e9, maxAlloc, PR.map, Res.map]
  obtain ⟨r, h⟩ := h
  unfold panicBytes
  constructor
  · eval_packet [h]
  · eval_packet [h]

/-! ## C22 -/

/-- what `ReadData` makes of a Data whose elements are `its` -/
theorem readData_items {v : DataV} {b : DataB} (hb : v.Bodies b) (hv : v.InRange) (hn : v.name.isSome) {its : List It}
    (hfit : Fitting 7 dataTypes b.items its) (hl : (bytesOf its).length < 2 ^ 43) {F : Nat} (hF : (bytesOf its).length + 1 < F) :
    ∃ cov, readData F (BR.new (tlv 6 (bytesOf its))) = some (.ok (.ok (v, cov))) ∧
      (its = b.items → cov = if b.sigValue.isSome then [bytesOf b.signed] else []) := by
  obtain ⟨st, r', h1, h2, h3⟩ := parseData_items hb hv hfit hl (by omega : _ < F) {}
  obtain ⟨r, h4⟩ := packet_data (by omega) (by omega) h1
  refine ⟨st.2.sigCovered, ?_, fun e => ?_⟩
  · unfold readData
    rw [h4]
    simp only [finishParse]
    subst h2
    rw [if_neg (by cases h : st.1.name <;> simp_all)]
  · have := h3 e; rw [this]; simp

/-- C22 for Data: elements of unrecognised, non-critical types do not change the result of `ReadData`, wherever they are put into the
Data's fields, as long as they take up no round that the parser needs for a later field (`Fitting`), and anywhere in the nested
elements (`DataV.Bodies`).  Missing: the other places, see `C22_violated`. -/
theorem C22_data_unknown_ignored_partial (v : DataV) (b : DataB) (hb : v.Bodies b) (hv : v.InRange) (hn : v.name.isSome) (its : List It)
    (hfit : Fitting 7 dataTypes b.items its) (hl : (bytesOf its).length < 2 ^ 43) (F : Nat) (hF : (bytesOf its).length + 1 < F) :
    ∃ cov, readData F (BR.new (tlv 6 (bytesOf its))) = some (.ok (.ok (v, cov))) := by
  obtain ⟨cov, h, _⟩ := readData_items hb hv hn hfit hl hF
  exact ⟨cov, h⟩

/-- a Data with a name and content, with unknown elements before, between and behind them -/
example : Fitting 7 dataTypes (DataV.bodies { name := some [⟨8, [65]⟩], content := some [[1, 2]] }).items
    [⟨none, 32, [9]⟩, ⟨some 2, 7, [8, 1, 65]⟩, ⟨none, 40, []⟩, ⟨some 4, 0x15, [1, 2]⟩, ⟨none, 34, [1]⟩] :=
  ⟨by decide, rfl, by
    intro x hx hs
    simp only [List.mem_cons, List.not_mem_nil, or_false] at hx
    rcases hx with rfl | rfl | rfl | rfl | rfl
    · decide
    · exact absurd hs (by decide)
    · decide
    · exact absurd hs (by decide)
    · decide⟩

/-- what `ReadInterest` makes of an Interest whose elements are `its` -/
theorem readInterest_items {sha : Bytes → Bytes} {v : InterestV} {b : InterestB} (hb : v.Bodies b) (hv : v.InRange) {its : List It}
    (hfit : Fitting 15 interestTypes b.items its) (hl : (bytesOf its).length < 2 ^ 43) {F : Nat} (hF : (bytesOf its).length + 1 < F) :
    ∃ ctx : InterestCtx, readInterest sha F (BR.new (tlv 5 (bytesOf its))) =
        some (.ok (match checkInterest sha v ctx with | some e => .error e | none => .ok (v, ctx.sigCovered))) ∧
      (HeadClean its → ctx.digestCovered = [(bytesOf its).drop (bytesOf b.head).length]) ∧
      (its = b.items → ctx.sigCovered = nameCover v ++ (if b.sigValue.isSome then [bytesOf b.params] else [])) := by
  obtain ⟨st, r', h1, h2, h3, h5⟩ := parseInterest_items hb hv hfit hl (by omega : _ < F) {}
  obtain ⟨r, h4⟩ := packet_interest (by omega) (by omega) h1
  refine ⟨st.2, ?_, h3, fun e => ?_⟩
  · unfold readInterest
    rw [h4]
    simp only [finishParse]
    subst h2
    rfl
  · have := h5 e; rw [this]; simp

/-- the checks of an Interest, stated without the code: it has a name; with parameters, its last component is the digest of `covered`; it
has no signature without parameters -/
structure InterestV.Valid (sha : Bytes → Bytes) (v : InterestV) (covered : Bytes) : Prop where
  named : v.name.isSome
  digest : v.appParam.isSome → ∃ n, v.name = some (n ++ [⟨2, sha covered⟩])
  params : v.sigValue.isSome → v.appParam.isSome

theorem checkInterest_valid {sha : Bytes → Bytes} {v : InterestV} {ctx : InterestCtx} (h : v.Valid sha ctx.digestCovered.flatten) :
    checkInterest sha v ctx = none := by
  obtain ⟨h1, h2, h3⟩ := h
  unfold checkInterest
  cases hn : v.name with
  | none => rw [hn] at h1; exact absurd h1 (by simp)
  | some name =>
    simp only
    cases ha : v.appParam with
    | none =>
      cases hs : v.sigValue with
      | none => rfl
      | some s => exact absurd (h3 (by rw [hs]; rfl)) (by rw [ha]; simp)
    | some a =>
      obtain ⟨n, hn'⟩ := h2 (by rw [ha]; rfl)
      rw [hn] at hn'
      injection hn' with hn'
      subst hn'
      simp [typParamsDigest]

/-- C22 for Interests: the same for `ReadInterest`.  An Interest with application parameters must have no unrecognised element before them
(`HeadClean`), and as its last component the digest of the bytes from the parameters on, including the unrecognised elements. -/
theorem C22_interest_unknown_ignored_partial (sha : Bytes → Bytes) (v : InterestV) (b : InterestB) (hb : v.Bodies b) (hv : v.InRange)
    (its : List It) (hok : v.Valid sha ((bytesOf its).drop (bytesOf b.head).length)) (hhead : v.appParam.isSome → HeadClean its)
    (hfit : Fitting 15 interestTypes b.items its) (hl : (bytesOf its).length < 2 ^ 43) (F : Nat) (hF : (bytesOf its).length + 1 < F) :
    ∃ cov, readInterest sha F (BR.new (tlv 5 (bytesOf its))) = some (.ok (.ok (v, cov))) := by
  obtain ⟨ctx, h1, h2, _⟩ := readInterest_items (sha := sha) hb hv hfit hl hF
  refine ⟨ctx.sigCovered, ?_⟩
  rw [h1]
  by_cases ha : v.appParam.isSome = true
  · rw [checkInterest_valid (by rw [h2 (hhead ha)]; simpa using hok)]
  · rw [checkInterest_valid ⟨hok.named, fun h => absurd h ha, hok.params⟩]

/-- an Interest with a name and a lifetime, with unknown elements -/
example : Fitting 15 interestTypes (InterestV.bodies { name := some [⟨8, [65]⟩], mustBeFresh := true, nonce := some 7 }).items
    [⟨none, 32, [9]⟩, ⟨none, 32, [9]⟩, ⟨some 2, 7, [8, 1, 65]⟩, ⟨none, 40, []⟩, ⟨some 4, 0x12, []⟩, ⟨none, 34 + 16, [1]⟩, ⟨some 6, 0x0a, [0, 0, 0, 7]⟩] :=
  ⟨by decide, rfl, by
    intro x hx hs
    simp only [List.mem_cons, List.not_mem_nil, or_false] at hx
    rcases hx with rfl | rfl | rfl | rfl | rfl | rfl | rfl
    · decide
    · decide
    · exact absurd hs (by decide)
    · decide
    · exact absurd hs (by decide)
    · decide
    · exact absurd hs (by decide)⟩

/-- C22 fails: with an unrecognised element between the name and the meta information, `ReadData` loses the meta information.  The same
happens between any two fields that are neighbours in the definition of the packet, because the unrecognised element takes up the
parser's round for the second one. -/
theorem C22_violated :
    (∃ m cov, readData 10 (BR.new [6, 4, 7, 0, 20, 0]) = some (.ok (.ok ({ name := some [], metaInfo := some m }, cov)))) ∧
      ∃ cov, readData 10 (BR.new [6, 6, 7, 0, 32, 0, 20, 0]) = some (.ok (.ok ({ name := some [], metaInfo := none }, cov))) := by
  have h1 : parseData false 10 {} ⟨[7, 0, 20, 0], 0⟩ =
      some (.ok ({ name := some [], metaInfo := some (none, none, none, ()) }, { sigCoverStart := 0 }), ⟨[7, 0, 20, 0], 4⟩) := by
    eval_parse
  have h2 : parseData false 10 {} ⟨[7, 0, 32, 0, 20, 0], 0⟩ =
      some (.ok ({ name := some [], metaInfo := none }, { sigCoverStart := 0 }), ⟨[7, 0, 32, 0, 20, 0], 6⟩) := by
    eval_parse
  constructor
  · exact ⟨(none, none, none, ()), [], by eval_packet [h1]⟩
  · exact ⟨[], by eval_packet [h2]⟩

/-! ## C26 -/

/-- C26: an Interest whose elements are in order, whatever its values, and with unrecognised elements behind its parameters (but not before
them), is accepted with application parameters only if its last component is the digest of all bytes from the parameters on.
Missing: Interests with elements out of order or unrecognised elements before the parameters, see `C26_violated`. -/
theorem C26_params_digest_partial (sha : Bytes → Bytes) (v : InterestV) (b : InterestB) (hb : v.Bodies b) (hv : v.InRange)
    (its : List It) (hhead : HeadClean its)
    (hfit : Fitting 15 interestTypes b.items its) (hl : (bytesOf its).length < 2 ^ 43) (F : Nat) (hF : (bytesOf its).length + 1 < F)
    (v' : InterestV) (cov : Wire) (hr : readInterest sha F (BR.new (tlv 5 (bytesOf its))) = some (.ok (.ok (v', cov))))
    (ha : v'.appParam.isSome) :
    ∃ n, v'.name = some (n ++ [⟨2, sha ((bytesOf its).drop (bytesOf b.head).length)⟩]) := by
  obtain ⟨ctx, h1, h2, _⟩ := readInterest_items (sha := sha) hb hv hfit hl hF
  rw [h1] at hr
  have h2 := h2 hhead
  injection hr with hr
  injection hr with hr
  cases hc : checkInterest sha v ctx with
  | some e => rw [hc] at hr; exact (nomatch hr)
  | none =>
    rw [hc] at hr
    injection hr with hr
    injection hr with hr _
    subst hr
    unfold checkInterest at hc
    cases hn : v.name with
    | none => rw [hn] at hc; exact (nomatch hc)
    | some name =>
      rw [hn] at hc
      simp only [ha, if_true] at hc
      obtain ⟨a, ha'⟩ := Option.isSome_iff_exists.mp ha
      rw [if_neg (by rw [ha']; simp)] at hc
      cases hg : name.getLast? with
      | none => rw [hg] at hc; exact (nomatch hc)
      | some c =>
        rw [hg] at hc
        simp only at hc
        by_cases ht : c.typ = typParamsDigest
        · rw [if_neg (by simpa using ht)] at hc
          by_cases hv' : c.val = sha ctx.digestCovered.flatten
          · obtain ⟨n, rfl⟩ := List.getLast?_eq_some_iff.mp hg
            refine ⟨n, ?_⟩
            rw [h2] at hv'
            have : c = ⟨2, sha ((bytesOf its).drop (bytesOf b.head).length)⟩ := by
              cases c; simp only at ht hv'; subst ht; rw [hv']; simp [typParamsDigest]
            rw [this]
          · rw [if_neg hv'] at hc; exact (nomatch hc)
        · rw [if_pos (by simpa using ht)] at hc; exact (nomatch hc)

/-- an Interest with a parameters digest, a lifetime of 0.001 s, empty parameters and, behind them, an element of unknown type -/
example (d : Bytes) : HeadClean [⟨some 2, 7, Name.encBody [⟨2, d⟩]⟩, ⟨some 7, 0x0c, [1]⟩, ⟨some 11, 0x24, []⟩, ⟨none, 40, []⟩] :=
  .inr ⟨by simp, .inr ⟨by simp, .inl rfl⟩⟩

/-! ## C29 -/

/-- C29: if two Data packets with signature values, whose elements are in order, without unrecognised elements among the fields (there may be
some in the nested elements), report the same covered bytes, then they have the same name, meta information, content and signature
info.  Missing: packets without a signature value and buffers with several Data, see `C29_violated` and `C29_signed_violated`; elements out
of order and unrecognised elements among the fields. -/
theorem C29_signed_bytes_partial (v v' : DataV) (b b' : DataB) (hb : v.Bodies b) (hb' : v'.Bodies b') (hv : v.InRange) (hv' : v'.InRange)
    (hl : (bytesOf b.items).length < 2 ^ 43) (hl' : (bytesOf b'.items).length < 2 ^ 43)
    (F : Nat) (hF : (bytesOf b.items).length + 1 < F) (hF' : (bytesOf b'.items).length + 1 < F)
    (x x' : DataV) (cov cov' : Wire) (h : readData F (BR.new (tlv 6 (bytesOf b.items))) = some (.ok (.ok (x, cov))))
    (h' : readData F (BR.new (tlv 6 (bytesOf b'.items))) = some (.ok (.ok (x', cov'))))
    (hs : x.sigValue.isSome) (hs' : x'.sigValue.isSome) (hc : cov.flatten = cov'.flatten) :
    x.name = x'.name ∧ x.metaInfo = x'.metaInfo ∧ x.content = x'.content ∧ x.sigInfo = x'.sigInfo := by
  have key : ∀ (v : DataV) (b : DataB) (hb : v.Bodies b) (hv : v.InRange) (hl : (bytesOf b.items).length < 2 ^ 43)
      (hF : (bytesOf b.items).length + 1 < F) (x : DataV) (cov : Wire)
      (h : readData F (BR.new (tlv 6 (bytesOf b.items))) = some (.ok (.ok (x, cov)))) (hs : x.sigValue.isSome),
      ∃ st r, parseData false F {} (BR.new cov.flatten) = some (.ok st, r) ∧ st.1 = { x with sigValue := none } := by
    intro v b hb hv hl hF x cov h hs
    have hclean : ∀ b : DataB, Fitting 7 dataTypes b.items b.items := by
      intro b
      refine ⟨?_, ?_, ?_⟩
      · obtain ⟨a1, a2, a3, a4, a5⟩ := b
        cases a1 <;> cases a2 <;> cases a3 <;> cases a4 <;> cases a5 <;> simp [DataB.items, DataB.signed, ownIt, Fits]
      · obtain ⟨a1, a2, a3, a4, a5⟩ := b
        cases a1 <;> cases a2 <;> cases a3 <;> cases a4 <;> cases a5 <;> simp [DataB.items, DataB.signed, ownIt, owns]
      · intro x hx hn
        obtain ⟨j, g1, _⟩ := (data_items_incr b).ge x hx
        rw [hn] at g1; exact (nomatch g1)
    obtain ⟨st, r', h1, h2, h3⟩ := parseData_items hb hv (hclean b) hl (by omega : _ < F) {}
    obtain ⟨r, h4⟩ := packet_data (by omega) (by omega) h1
    unfold readData at h
    rw [h4] at h
    simp only [finishParse] at h
    by_cases hn : st.1.name.isNone = true
    · rw [if_pos hn] at h; injection h with h; injection h with h; exact (nomatch h)
    · rw [if_neg hn] at h
      injection h with h; injection h with h; injection h with h; injection h with hx hcov
      subst hx
      rw [h2] at hs
      have h5 := h3 rfl
      rw [if_pos ((optBody_isSome hb.sigValue).symm.trans hs)] at h5
      have h6 : cov.flatten = bytesOf b.signed := by rw [← hcov, h5]; simp
      have e : b.signed = (DataB.items { b with sigValue := none }) := by
        show b.signed = b.signed ++ []
        rw [List.append_nil]
      rw [h6, e, h2]
      have hlen : (bytesOf (DataB.items { b with sigValue := none })).length ≤ (bytesOf b.items).length := by
        rw [← e, DataB.items, bytesOf_append, List.length_append]; omega
      obtain ⟨st', r'', g1, g2, _⟩ := parseData_items (v := { v with sigValue := none }) (b := { b with sigValue := none })
        ⟨hb.name, hb.metaInfo, hb.content, hb.sigInfo, trivial⟩ ⟨hv.name, hv.metaInfo, hv.content, hv.sigInfo, trivial⟩
        (hclean _) (by omega) (by omega : _ < F) {}
      exact ⟨st', r'', g1, g2⟩
  obtain ⟨st, r, h1, h2⟩ := key v b hb hv hl hF x cov h hs
  obtain ⟨st', r', h1', h2'⟩ := key v' b' hb' hv' hl' hF' x' cov' h' hs'
  rw [hc, h1'] at h1
  injection h1 with h1
  injection h1 with h1 _
  injection h1 with h1
  rw [h1, h2] at h2'
  injection h2' with a1 a2 a3 a4 _
  exact ⟨a1, a2, a3, a4⟩

theorem signedData_parse : parseData false 10 {} ⟨[7, 3, 8, 1, 65, 21, 2, 1, 2, 23, 1, 5], 0⟩ =
      some (.ok ({ name := some [⟨8, [65]⟩], content := some [[1, 2]], sigValue := some [[5]] },
        { sigCovered := [[7, 3, 8, 1, 65, 21, 2, 1, 2]] }), ⟨[7, 3, 8, 1, 65, 21, 2, 1, 2, 23, 1, 5], 12⟩) := by
  eval_parse

/-- a signed Data: its packet is accepted -/
example : readData 10 (BR.new (DataV.enc { name := some [⟨8, [65]⟩], content := some [[1], [2]], sigValue := some [[5]] })) =
    some (.ok (.ok ({ name := some [⟨8, [65]⟩], content := some [[1, 2]], sigValue := some [[5]] }, [[7, 3, 8, 1, 65, 21, 2, 1, 2]]))) := by
  have e : DataV.enc { name := some [⟨8, [65]⟩], content := some [[1], [2]], sigValue := some [[5]] } =
    [6, 12, 7, 3, 8, 1, 65, 21, 2, 1, 2, 23, 1, 5] := by rfl
  rw [e]
  eval_packet [signedData_parse]

theorem plainData_parse : parseData false 10 {} ⟨[7, 0], 0⟩ = some (.ok ({ name := some [] }, {}), ⟨[7, 0], 2⟩) := by eval_parse

theorem plainData_parse' : parseData false 10 {} ⟨[7, 3, 8, 1, 65], 0⟩ =
    some (.ok ({ name := some [⟨8, [65]⟩] }, {}), ⟨[7, 3, 8, 1, 65], 5⟩) := by
  eval_parse

/-- C29 fails: `ReadData` accepts a Data without a signature value and reports that nothing is covered, whatever its name is. -/
theorem C29_violated : ∃ v v', readData 10 (BR.new [6, 2, 7, 0]) = some (.ok (.ok (v, []))) ∧
    readData 10 (BR.new [6, 5, 7, 3, 8, 1, 65]) = some (.ok (.ok (v', []))) ∧ v.name ≠ v'.name :=
  ⟨{ name := some [] }, { name := some [⟨8, [65]⟩] }, by eval_packet [plainData_parse], by eval_packet [plainData_parse'], by simp⟩

theorem twoData_parse1 : parseData false 10 {} ⟨[32, 0, 32, 0, 7, 3, 8, 1, 65], 0⟩ =
    some (.ok ({ name := some [⟨8, [65]⟩] }, { sigCoverStart := 9 }), ⟨[32, 0, 32, 0, 7, 3, 8, 1, 65], 9⟩) := by
  eval_parse

theorem twoData_parse2 (x : UInt8) : parseData false 10 { sigCoverStart := 9 } ⟨[32, 0, 32, 0, 7, 3, 8, 1, x, 21, 1, 99, 23, 1, 5], 0⟩ =
    some (.ok ({ name := some [⟨8, [x]⟩], content := some [[99]], sigValue := some [[5]] }, { sigCoverStart := 15, sigCovered := [[21, 1, 99]] }),
      ⟨[32, 0, 32, 0, 7, 3, 8, 1, x, 21, 1, 99, 23, 1, 5], 15⟩) := by
  eval_parse

/-- two Data in one buffer, each with two elements of an unrecognised type first; the second one, named `/x`, has content and a signature
value -/
def twoData (x : UInt8) : Bytes :=
  [6, 9, 32, 0, 32, 0, 7, 3, 8, 1, 65, 6, 15, 32, 0, 32, 0, 7, 3, 8, 1, x, 21, 1, 99, 23, 1, 5]

/-- C29 fails also for Data with a signature value: `ReadData` returns the second Data of this buffer, with its signature value, and
reports that only the content is covered, whatever the name is.  The unrecognised elements take up the round in which the parser
marks the start of the covered bytes, and the marker is left over from the first Data. -/
theorem C29_signed_violated (x : UInt8) :
    readData 10 (BR.new (twoData x)) =
      some (.ok (.ok ({ name := some [⟨8, [x]⟩], content := some [[99]], sigValue := some [[5]] }, [[21, 1, 99]]))) := by
  unfold twoData
  eval_packet [twoData_parse1, twoData_parse2]

end Ndn.Packet
