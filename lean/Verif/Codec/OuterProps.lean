import Verif.Codec.OuterWrap

/-!
# C97: the encoder that the code generator emits for a model whose fields are structs with `nocopy`

`Packet` is such a model: each of its fields is an Interest, a Data or an LpPacket, with an encoder of its own.  `MakeInterest` and `MakeData` encode packets with
one of these present, and go on to use the places that the inner encoder has told, with the wire of the outer one: "Since PacketEncoder only adds a TL,
Interest_encoder.SignatureValue_wireIdx is still valid" (spec.go:466, and 327 for Data).  This is what is proved here, for all models of this kind: the wire is
that of the inner encoder, with the type and length in front of its first buffer; the other buffers are the same, in the same places; the indices and
positions that the inner encoder tells are those that it would tell on its own; and the covered parts have the same bytes, although they are now slices of
the buffers of the outer wire.

What is missing: models that have other fields beside such structs, and values with more than one present.
-/

namespace Ndn.Codec.Gen

theorem splice_at_header (h b : Bytes) (pos : Nat) (d : Bytes) : splice (h ++ b) (h.length + pos) d = h ++ splice b pos d := by
  simp only [splice, List.take_append, List.drop_append]
  rw [List.take_of_length_le (by omega), List.drop_of_length_le (l := h) (by omega)]
  simp only [List.append_assoc, List.nil_append, Nat.add_sub_cancel_left]
  congr 4
  omega

theorem backPart_bytes {h b : Bytes} {bs : List Bytes} {rest : List Nat} (hl : bs.map List.length = rest) (q : Part) :
    (backPart (.own 0) h.length (freshWire 1 rest) q).bytes ((h ++ b) :: bs) = q.bytes (b :: bs) := by
  obtain ⟨r, lo, hi⟩ := q
  unfold backPart Part.bytes
  cases r with
  | nil => rfl
  | given x => rfl
  | own k =>
    cases k with
    | zero =>
      simp only [Ref.mem, List.getElem?_cons_zero, Option.getD_some]
      rw [List.take_append, List.take_of_length_le (by omega), Nat.add_sub_cancel, List.drop_append, List.drop_of_length_le (by omega), List.nil_append,
        Nat.add_sub_cancel]
    | succ k =>
      simp only [Ref.mem, List.getElem?_cons_succ]
      rw [freshWire_get, ← hl, List.getElem?_map]
      cases hk : bs[k]? with
      | none => simp
      | some x =>
        simp only [Option.map_some, Option.getD_some]
        by_cases hx : 0 < x.length
        · rw [if_pos hx, Nat.add_comm 1 k]
          simp [hk]
        · have : x = [] := List.eq_nil_of_length_eq_zero (by omega)
          rw [if_neg hx, this]

theorem piece_tail {h b : Bytes} {bs : List Bytes} {w : List Ref} (hw : ∀ r ∈ w, r ≠ .own 0) :
    w.map (Ref.piece ((h ++ b) :: bs)) = w.map (Ref.piece (b :: bs)) := by
  refine List.map_congr_left fun r hr => ?_
  cases r with
  | nil => rfl
  | given x => rfl
  | own k =>
    cases k with
    | zero => exact absurd rfl (hw _ hr)
    | succ k => rfl

theorem kept_tail : ∀ {k : Nat} {l : List Nat} {w : List Ref}, 0 < k → List.Forall₂ KeptRef w (freshWire k l) → ∀ r ∈ w, r ≠ .own 0
  | _, [], _, _, h, r, hr => by cases h; cases hr
  | k, n :: l, _, hk, h, r, hr => by
    cases h with
    | cons h1 h2 =>
      cases hr with
      | head =>
        rcases h1 with rfl | ⟨b, rfl⟩
        · split
          · intro e; cases e; omega
          · intro e; cases e
        · intro e; cases e
      | tail _ hr => exact kept_tail (k := k + 1) (by omega) h2 r hr

/-- **C97**: in a model whose fields are all structs with `nocopy`, if one of them is present, and its own encoder encodes it to a wire that is not of length 0,
then the encoder of the model gives that wire, with the type and the length of the field in front of the first buffer, which is one of those that the encoder
has made; and tells the same indices, positions and covered bytes. -/
theorem C97_wrap_partial {ms : List TModel} {fuel : Nat} {t t0 : Txt} {m : TModel} {pre post : List Field} {f : Field} {kvs kv0 : List (Txt × GV)}
    {est : Txt → Txt → Nat} {need : Txt → Txt → Bool} {r : Signed} (hm : (ms.find? fun m => m.name == t) = some m) (hfs : m.fields = pre ++ f :: post)
    (hcls : ∀ g ∈ m.fields, ∃ t, g.cls = .struct t true) (hc : f.cls = .struct t0 true) (hnd : (m.fields.map Field.name).Nodup)
    (hf : lookup f.name kvs = some (.ptr (.struct kv0))) (hn : ∀ g ∈ pre ++ post, lookup g.name kvs = some .nil)
    (hr : runSigned ms fuel t0 (.ptr (.struct kv0)) (est f.name) (need f.name) = .ok r) (h0 : 0 < r.length) (hs : r.length + 18 < 2 ^ 64)
    (hs' : ∀ b, r.wire.head? = some (.own b) → b.length + 18 < 2 ^ 64) :
    ∃ p b w, runOuter ms fuel t (.ptr (.struct kvs)) est need = .ok p ∧ r.wire = .own b :: w ∧
      p.wire = .own (tlEnc f.num ++ tlEnc r.length ++ b) :: w ∧ p.length = (tlEnc f.num ++ tlEnc r.length).length + r.length ∧
      p.idx f.name = r.idx ∧ p.pos f.name = r.pos ∧ p.covered f.name = r.covered := by
  simp only [runSigned] at hr
  cases hm0 : ms.find? fun m => m.name == t0 with
  | none => rw [hm0] at hr; cases hr
  | some m0 =>
  rw [hm0] at hr
  obtain ⟨ss, hi, hr⟩ := bind_inv hr
  obtain ⟨ss', hi', rfl⟩ := map_inv hr
  have hinit : innerOf ms fuel t0 true (SS.entry (.ptr (.struct kv0)) (est f.name) (need f.name)) = .ok ss := by
    simp only [innerOf, hm0, if_true]; exact hi
  have hinto : innerOf ms fuel t0 false ss.again = .ok ss' := by
    simp only [innerOf, hm0]; exact hi'
  have hpt : Points ss.ns.s := init_points ⟨kv0, rfl⟩ hi
  obtain ⟨hinv, hne⟩ := into_inv (callOf_keepsLength ms fuel) (ss := ss.again) rfl rfl hi'
  obtain ⟨p0, rest, hpl⟩ : ∃ p0 rest, ss.ns.ownPlan = p0 :: rest := by
    cases h : ss.ns.ownPlan with
    | nil => exact absurd (by show freshWire 0 ss.ns.ownPlan = []; rw [h]; rfl) hne
    | cons a l => exact ⟨a, l, rfl⟩
  have hlens : ss.again.ns.blocks.map List.length = p0 :: rest := by
    show (ss.ns.ownPlan.map fun n => List.replicate n (0 : UInt8)).map List.length = _
    rw [hpl, List.map_map]
    exact List.map_id'' (fun n => by simp) _
  rw [hlens] at hinv
  have hwire0 : ss.again.ns.wire = (if 0 < p0 then Ref.own 0 else .nil) :: freshWire 1 rest := by
    show freshWire 0 ss.ns.ownPlan = _
    rw [hpl]; rfl
  -- the wire of the inner encoder
  obtain ⟨b, bs, hbb⟩ : ∃ b bs, ss'.ns.blocks = b :: bs := by
    have := hinv.lens
    cases h : ss'.ns.blocks with
    | nil => rw [h] at this; cases this
    | cons b bs => exact ⟨b, bs, rfl⟩
  have hbl := hinv.lens
  rw [hbb] at hbl
  simp only [List.map_cons, List.cons.injEq] at hbl
  obtain ⟨r0, rs, hw⟩ : ∃ r0 rs, ss'.ns.wire = r0 :: rs := by
    have := hinv.head
    rw [hwire0] at this
    cases h : ss'.ns.wire with
    | nil => rw [h] at this; cases this
    | cons r0 rs => exact ⟨r0, rs, rfl⟩
  have hr0 : r0 = if 0 < p0 then Ref.own 0 else .nil := by
    have := hinv.head
    rw [hwire0, hw] at this
    simpa using this
  have hp0 : r0.piece (b :: bs) = .own b := by
    by_cases hp : 0 < p0
    · rw [hr0, if_pos hp]; rfl
    · have : b = [] := List.eq_nil_of_length_eq_zero (by omega)
      rw [hr0, if_neg hp, this]; rfl
  have htail : ∀ r ∈ rs, r ≠ .own 0 := by
    have := hinv.wire
    rw [hwire0, hw] at this
    cases this with
    | cons _ h => exact kept_tail (by decide) h
  have hrw : (Signed.ofStates ss ss').wire = .own b :: rs.map (Ref.piece (b :: bs)) := by
    show ss'.ns.wire.map (Ref.piece ss'.ns.blocks) = _
    rw [hw, hbb, List.map_cons, hp0]
  have hb18 := hs' b (by rw [hrw]; rfl)
  have hL : ss.ns.s.cells [.key .length] = (Signed.ofStates ss ss').length := rfl
  have hhl : (header f (Signed.ofStates ss ss').length).length ≤ 18 := by
    have h9 : ∀ n, (tlEnc n).length ≤ 9 := fun n => by
      unfold tlEnc
      split <;> [skip; split <;> [skip; split]] <;> simp
    have h1 := h9 f.num
    have h2 := h9 (Signed.ofStates ss ss').length
    rw [header, List.length_append]; omega
  generalize hLL : (Signed.ofStates ss ss').length = L at *
  -- the outer encoder
  have hnd' : ∀ g ∈ pre ++ post, g.name ≠ f.name := by
    rw [hfs] at hnd
    simp only [List.map_append, List.map_cons, List.nodup_append, List.nodup_cons, List.mem_map, List.mem_cons] at hnd
    intro g hg
    rcases List.mem_append.1 hg with hg | hg
    · exact hnd.2.2 _ ⟨g, hg, rfl⟩ _ (.inl rfl)
    · exact fun e => hnd.2.1.1 ⟨g, hg, e⟩
  have hab : ∀ g ∈ pre ++ post, (∃ t, g.cls = .struct t true) ∧ lookup g.name kvs = some .nil := fun g hg =>
    ⟨hcls g (by rw [hfs]; simp only [List.mem_append, List.mem_cons] at hg ⊢; tauto), hn g hg⟩
  have hab' : ∀ g ∈ pre ++ post, (∃ t, g.cls = .struct t true) ∧ lookup g.name (setField f.name (ss.ns.s.vars .value) kvs) = some .nil := fun g hg =>
    ⟨(hab g hg).1, by rw [lookup_setField_other (hnd' g hg)]; exact (hab g hg).2⟩
  obtain ⟨os, e1, hI⟩ := outer_init (call := callOf ms fuel) (inner := innerOf ms fuel) (pre := pre) (post := post) (est := est) (need := need) (kvs := kvs)
    hc (fun g hg => hab g (List.mem_append_left _ hg)) (fun g hg => hab g (List.mem_append_right _ hg)) hnd' hf hinit hpt hL h0 (by omega) hpl (by omega)
  obtain ⟨os', b', bs', e2, hb', hB, hW, hS⟩ := outer_into (call := callOf ms fuel) (inner := innerOf ms fuel) hI hc
    (fun g hg => hab' g (List.mem_append_left _ hg)) (fun g hg => hab' g (List.mem_append_right _ hg)) (lookup_setField hf) hpt h0 (by omega)
    (by simp [setAt]) hpl hinto hinv
  rw [hbb] at hb'
  cases hb'
  refine ⟨Outer.ofStates os os', b, rs.map (Ref.piece (b :: bs)), ?_, hrw, ?_, ?_, ?_, ?_, ?_⟩
  · simp only [runOuter, hm, hfs, e1, Res.bind, e2, Res.map]
  · show os'.ns.wire.map (Ref.piece os'.ns.blocks) = _
    rw [hB, hW, hw, List.map_cons, List.drop_succ_cons, List.drop_zero, piece_tail htail]
    rfl
  · show os.ns.s.cells [.key .length] = _
    rw [hI.cells, cellsOf_own]; rfl
  · show (os'.sub f.name).idx = _
    rw [hS]; rfl
  · show (os'.sub f.name).at' = _
    rw [hS]; rfl
  · funext c
    show ((os'.sub f.name).covered c).map (Part.bytes os'.ns.blocks) = (ss'.covered c).map (Part.bytes ss'.ns.blocks)
    rw [hS, hB, hbb, List.map_map]
    exact List.map_congr_left fun q _ => backPart_bytes hbl.2 q

/-- **C97, nothing present**: if all fields are absent, then `Encode` panics, at `wire[wireIdx]` of an empty wire. -/
theorem C97_none_panics {ms : List TModel} {fuel : Nat} {t : Txt} {m : TModel} {kvs : List (Txt × GV)} {est : Txt → Txt → Nat} {need : Txt → Txt → Bool}
    (hm : (ms.find? fun m => m.name == t) = some m) (hcls : ∀ g ∈ m.fields, ∃ t, g.cls = .struct t true) (hn : ∀ g ∈ m.fields, lookup g.name kvs = some .nil) :
    runOuter ms fuel t (.ptr (.struct kvs)) est need = .panic := by
  have ha : Absent kvs m.fields := fun g hg => ⟨hcls g hg, hn g hg⟩
  simp only [runOuter, hm]
  generalize hos : OS.entry (.ptr (.struct kvs)) est need = os0
  have hv0 : os0.ns.s.vars .value = .ptr (.struct kvs) := by rw [← hos]; rfl
  have he0 : os0.ns.s.vars .encoder = .ref [] := by rw [← hos]; rfl
  have hb0 : os0.ns.buf = .nil := by rw [← hos]; rfl
  have hp0 : os0.ns.plan = [] := by rw [← hos]; rfl
  have hv1 : ∀ ns : NS, ns.s.vars .value = .ptr (.struct kvs) → ∀ pl a, (ns.planning pl a).s.vars .value = .ptr (.struct kvs) := fun ns h pl a => by
    simpa [NS.planning, upd] using h
  unfold initOuterBody
  rw [oexec_append, oexec_append, oexec_append, oexec_append, oexec_append, skip_init ha hv0]
  simp only [Res.bind]
  rw [oexec_plain, nexec_plain, exec_of]
  have e2 : (NS.through os0.ns { os0.ns.s with vars := upd os0.ns.s.vars .l (.num 0) }) = .ok (os0.ns.planning [] 0) := by
    simp only [NS.through, hb0, if_true, NS.planning, hp0]
  simp only [Atom.exec, Ex.eval, Res.bind, Ty.conv, Res.map, Nat.zero_mod, e2]
  rw [skip_length hb0 he0 hv0 (by decide) ha]
  simp only
  let ns2 : NS := { os0.ns with s := { os0.ns.s with cells := updCell os0.ns.s.cells [.key .length] 0 } }
  have e4 : (NCode.ofPlain (.of (.setKey .length (.var .l))) ++ .of .makePlan ++ .of (.zeroL true)).exec (callOf ms fuel) (os0.ns.planning [] 0) =
      .ok (ns2.planning [] 0) := by
    rw [nexec_append, nexec_append, nexec_plain, exec_of]
    have hev : (os0.ns.planning [] 0).s.vars .encoder = .ref [] := by simpa [NS.planning, upd] using he0
    have hlv : (os0.ns.planning [] 0).s.vars .l = .num 0 := by simp [NS.planning, upd]
    have hbv : (os0.ns.planning [] 0).buf = .nil := hb0
    simp only [Atom.exec, Ex.evalNum, Ex.eval, hlv, Res.bind, hev, NS.through, hbv, if_true]
    rw [nexec_of]
    simp only [NAtom.exec]
    rw [nexec_of]
    simp only [NAtom.exec, NS.planning, upd_upd, ns2, hb0]
  rw [oexec_plain, e4]
  simp only [Res.map]
  rw [skip_plan (os := ⟨ns2.planning [] 0, os0.sub⟩) ha (hv1 ns2 hv0 [] 0)]
  simp only
  rw [oexec_plain, nexec_append]
  have hlv : (ns2.planning [] 0).s.vars .l = .num 0 := by simp [NS.planning, upd]
  simp only [NCode.exec, Cond.eval, Ex.evalNum, Ex.eval, hlv, Res.bind, Res.map, Nat.lt_irrefl, decide_false, Bool.false_eq_true, if_false]
  rw [nexec_of]
  simp only [NAtom.exec]
  unfold intoOuterBody
  rw [oexec_append, oexec_plain, nexec_append, nexec_append, nexec_of]
  simp only [NAtom.exec, Res.bind]
  rw [nexec_of]
  rfl

end Ndn.Codec.Gen
