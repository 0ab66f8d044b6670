import Verif.Codec.SignedRunLemmas

/-! # Running the emitted encoder of a model with a signature: the passes (lemmas) -/

namespace Ndn.Codec.Gen

/-! ## Cells -/

theorem ReadyAll.congr' (ms : List TModel) : ∀ (fs : Fields) (fields : List Field) (v : fs.V) (cells cells' : Path → Nat) (p : Path),
    (∀ f ∈ fields, ∀ q, Under f.name p q → cells' q = cells q) → ReadyAll ms fs fields v cells p → ReadyAll ms fs fields v cells' p
  | .nil, _, _, _, _, _, _, _ => by simp only [ReadyAll]
  | .flag t rest, fields, (b, vs), cells, cells', p, h, r => by
    simp only [ReadyAll] at r ⊢
    rintro f l rfl
    exact ReadyAll.congr' ms rest l vs _ _ p (fun g hg => h g (by simp [hg])) (r f l rfl)
  | .cons t .req e rest, fields, (v, vs), cells, cells', p, h, r => by
    simp only [ReadyAll] at r ⊢
    rintro f l rfl
    exact ⟨Ready.congr ms e _ _ v _ _ p (h f (by simp)) (r f l rfl).1, ReadyAll.congr' ms rest l vs _ _ p (fun g hg => h g (by simp [hg])) (r f l rfl).2⟩
  | .cons t .opt e rest, fields, (none, vs), cells, cells', p, h, r => by
    simp only [ReadyAll] at r ⊢
    rintro f l rfl
    exact ReadyAll.congr' ms rest l vs _ _ p (fun g hg => h g (by simp [hg])) (r f l rfl)
  | .cons t .opt e rest, fields, (some v, vs), cells, cells', p, h, r => by
    simp only [ReadyAll] at r ⊢
    rintro f l rfl
    exact ⟨Ready.congr ms e _ _ v _ _ p (h f (by simp)) (r f l rfl).1, ReadyAll.congr' ms rest l vs _ _ p (fun g hg => h g (by simp [hg])) (r f l rfl).2⟩
  | .cons t .seq e rest, fields, (xs, vs), cells, cells', p, h, r => by
    simp only [ReadyAll] at r ⊢
    rintro f l rfl
    obtain ⟨⟨r1, r2⟩, r3⟩ := r f l rfl
    refine ⟨⟨?_, fun t sub hc i x hx => ?_⟩, ReadyAll.congr' ms rest l vs _ _ p (fun g hg => h g (by simp [hg])) r3⟩
    · rw [h f (by simp) _ ⟨.sub f.name, by simp, List.suffix_refl _⟩]; exact r1
    · exact Ready.congr ms e _ _ x _ _ _ (fun q hq => h f (by simp) q (under_sub hq)) (r2 t sub hc i x hx)

theorem allFields_append (g : Field → Code) : ∀ a b : List Field, allFields g (a ++ b) = allFields g a ++ allFields g b
  | [], b => rfl
  | f :: a, b => by
    simp only [List.cons_append, allFields, allFields_append g a b]
    have assoc : ∀ x y z : Code, x ++ (y ++ z) = x ++ y ++ z := by
      intro x y z
      show x.append (y.append z) = (x.append y).append z
      induction x with
      | done => rfl
      | _ => simp only [Code.append]; congr
    exact assoc _ _ _

theorem InitsAll.append {call : Call} {p : Path} {kvs : List (Txt × GV)} {a b : List Field} {c d : Code} {R Q : (Path → Nat) → Prop}
    (hc : InitsAll call p kvs c a R) (hd : InitsAll call p kvs d b Q) (hn : ∀ f ∈ a, ∀ g ∈ b, f.name ≠ g.name)
    (hR : ∀ C C', (∀ f ∈ a, ∀ q, Under f.name p q → C' q = C q) → R C → R C') : InitsAll call p kvs (c ++ d) (a ++ b) fun C => R C ∧ Q C := by
  intro s h1 h2
  obtain ⟨C1, e1, e2, e3⟩ := hc s h1 h2
  obtain ⟨C2, e4, e5, e6⟩ := hd { s with cells := C1 } h1 h2
  refine ⟨C2, ?_, ?_, ?_, e6⟩
  · rw [exec_append, e1]
    exact e4
  · intro q hq
    rw [e5 q fun ⟨g, hg, hu⟩ => hq ⟨g, by simp [hg], hu⟩]
    exact e2 q fun ⟨g, hg, hu⟩ => hq ⟨g, by simp [hg], hu⟩
  · refine hR C1 C2 (fun f hf q hq => e5 q ?_) e3
    rintro ⟨g, hg, hu⟩
    exact hn f hf g hg (hq.inj hu)

theorem not_under_est {f s : Txt} {p : Path} : ¬ Under f p (.key (.est s) :: p) := by
  rintro ⟨k, h1, hk⟩
  have e := suffix_eq hk (List.suffix_refl _) (by simp)
  simp only [List.cons.injEq, Acc.key.injEq, and_true] at e
  subst e
  simp at h1

/-! ## Fields other than the signature -/

section
variable {call : Call} {cells : Path → Nat} {p : Path} {kvs : List (Txt × GV)}

theorem block_init {T : List Txt} {fields : List Field} (hq : ∀ f ∈ fields, keep f = true ∨ Aside T f) {ss : SS} {ns' : NS}
    (h : (allNoCopy (fun f => .ofPlain (initCode f.name f.cls)) (fields.filter keep)).exec call ss.ns = .ok ns') :
    ∃ ss', (allSigned (fun f => initSigned f.name f.cls) fields).exec call ss = .ok ss' ∧ ss'.ns = ns' ∧ Keeps T ss ss' :=
  block (P := fun _ => True) (fun _ hk => kept_init hk) (fun _ _ _ _ _ _ => trivial) fields (fun f hf => (hq f hf).imp_right fun h => aside_init h) ss ns' trivial h

theorem block_length {T : List Txt} {fields : List Field} (hq : ∀ f ∈ fields, keep f = true ∨ Aside T f) {ss : SS} {ns' : NS}
    (h : (allNoCopy (fun f => .ofPlain (lengthCode f.name f.num f.cls)) (fields.filter keep)).exec call ss.ns = .ok ns') :
    ∃ ss', (allSigned (fun f => lengthSigned f.name f.num f.cls) fields).exec call ss = .ok ss' ∧ ss'.ns = ns' ∧ Keeps T ss ss' :=
  block (P := fun _ => True) (fun _ hk => kept_length hk) (fun _ _ _ _ _ _ => trivial) fields (fun f hf => (hq f hf).imp_right fun h => aside_length h) ss ns' trivial h

theorem block_plan {T : List Txt} {fields : List Field} (hq : ∀ f ∈ fields, keep f = true ∨ Aside T f) {ss : SS} {ns' : NS}
    (h : (allNoCopy (fun f => planCode f.name f.num f.cls) (fields.filter keep)).exec call ss.ns = .ok ns') :
    ∃ ss', (allSigned (fun f => planSigned f.name f.num f.cls) fields).exec call ss = .ok ss' ∧ ss'.ns = ns' ∧ Keeps T ss ss' :=
  block (P := fun _ => True) (fun _ hk => kept_plan hk) (fun _ _ _ _ _ _ => trivial) fields (fun f hf => (hq f hf).imp_right fun h => aside_plan h) ss ns' trivial h

theorem block_into {T : List Txt} {fields : List Field} (hq : ∀ f ∈ fields, keep f = true ∨ Aside T f) {ss : SS} {ns' : NS}
    (h : (allNoCopy (fun f => intoNoCopy f.name f.num f.cls) (fields.filter keep)).exec call ss.ns = .ok ns') :
    ∃ ss', (allSigned (fun f => intoSigned f.name f.num f.cls) fields).exec call ss = .ok ss' ∧ ss'.ns = ns' ∧ Keeps T ss ss' :=
  block (P := fun _ => True) (fun _ hk => kept_into hk) (fun _ _ _ _ _ _ => trivial) fields (fun f hf => (hq f hf).imp_right fun h => aside_into h) ss ns' trivial h

/-! ## The signature -/

/-- the type and the length of the signature -/
def sigHead (n E : Nat) : Bytes := tlEnc n ++ tlEnc E

theorem sigHead_pos (n E : Nat) : 0 < (sigHead n E).length := List.length_pos_iff.2 (tlEnc_ne _ _)

theorem hasEst_eval {f : Txt} {E : Nat} (hE : cells (.key (.est f) :: p) = E) {s : S} (h1 : s.cells = cells) (h2 : s.vars .encoder = .ref p) :
    (hasEst f).eval s = .ok (decide (0 < E)) := by
  simp [hasEst, Cond.eval, Ex.evalNum, Ex.eval, h1, h2, hE, Res.bind, Res.map]

theorem signature_length {f m cov : Txt} {n E : Nat} {nc : Bool} (hE : cells (.key (.est f) :: p) = E) (ss : SS) (ns : NS) (pl : List Nat) (a : Nat)
    (hs : ss.ns = ns.planning pl a) (hb : ns.buf = .nil) (h1 : ns.s.cells = cells) (h2 : ns.s.vars .encoder = .ref p)
    (h3 : ns.s.vars .value = .ptr (.struct kvs)) (hl : a + ((sigHead n E).length + E) < 2 ^ 64) :
    (lengthSigned f n (.signature m cov nc)).exec call ss =
      .ok { ss with ns := ns.planning pl (a + if 0 < E then (sigHead n E).length + E else 0) } := by
  have hA : Adds call cells p kvs (typeNumLen n ++ naturalLen (.own (.est f)) true ++ .of (.inc .l (.own (.est f)))) ((sigHead n E).length + E) :=
    (((Adds.typeNum n).append (Adds.natural (.own hE) true)).append (Adds.inc (.own hE))).congr (by simp [sigHead, tlEnc_length])
  simp only [lengthSigned, SCode.exec]
  rw [hasEst_eval hE (by rw [hs]; exact h1) (by rw [hs]; simpa [NS.planning, upd] using h2)]
  simp only [Res.bind]
  by_cases h0 : 0 < E
  · simp only [h0, decide_true, if_true]
    rw [sexec_plain_ok (ns := ns.planning pl (a + ((sigHead n E).length + E)))]
    rw [hs]
    exact planning_plain hA ns pl a hb h1 h2 h3 hl
  · simp only [h0, decide_false, Bool.false_eq_true, if_false, Nat.add_zero]
    rw [← hs]

/-- the places of the signature and what is after it, in the plan -/
def signedPlan (n E : Nat) (pl : List Nat) (a : Nat) : List Nat := if 0 < E then pl ++ [a + (sigHead n E).length, 0] else pl

theorem signature_plan {f m cov : Txt} {n E : Nat} {nc : Bool} (hE : cells (.key (.est f) :: p) = E) (ss : SS) (ns : NS) (pl : List Nat) (a : Nat)
    (hs : ss.ns = ns.planning pl a) (hb : ns.buf = .nil) (h1 : ns.s.cells = cells) (h2 : ns.s.vars .encoder = .ref p)
    (h3 : ns.s.vars .value = .ptr (.struct kvs)) (hl : a + (sigHead n E).length < 2 ^ 64) :
    (planSigned f n (.signature m cov nc)).exec call ss = .ok { ss with
      ns := ns.planning (signedPlan n E pl a) (if 0 < E then 0 else a)
      idx := if 0 < E then setAt ss.idx f ((pl.length + 1 : Nat) : Int) else ss.idx } := by
  have hA : Adds call cells p kvs (typeNumLen n ++ naturalLen (.own (.est f)) true) (sigHead n E).length :=
    ((Adds.typeNum n).append (Adds.natural (.own hE) true)).congr (by simp [sigHead, tlEnc_length])
  simp only [planSigned, SCode.exec]
  rw [hasEst_eval hE (by rw [hs]; exact h1) (by rw [hs]; simpa [NS.planning, upd] using h2)]
  simp only [Res.bind]
  by_cases h0 : 0 < E
  · simp only [h0, decide_true, if_true, signedPlan]
    have e1 : (NCode.ofPlain (typeNumLen n ++ naturalLen (.own (.est f)) true) ++ switchPlan).exec call ss.ns =
        .ok (ns.planning (pl ++ [a + (sigHead n E).length]) 0) := by
      rw [hs, nexec_append, planning_plain hA ns pl a hb h1 h2 h3 hl]
      simp only [Res.bind]
      rw [planning_switch]
    rw [sexec_append, sexec_append, sexec_plain_ok e1]
    simp only [Res.bind]
    rw [sexec_of]
    simp only [SAtom.exec]
    rw [sexec_plain_ok (ns := ns.planning (pl ++ [a + (sigHead n E).length, 0]) 0)]
    · simp [NS.planning]
    · show switchPlan.exec call (ns.planning _ _) = _
      rw [planning_switch]
      simp
  · simp only [h0, decide_false, Bool.false_eq_true, if_false, signedPlan]
    rw [← hs]

/-! ## What is covered -/

/-- the memory of the entries that are done -/
theorem refs_mem : ∀ (done : List Piece) (pre post : List Bytes),
    (refsOf pre.length done).map (Ref.mem (pre ++ (done.map Piece.block ++ post))) = done.map Piece.bytes
  | [], _, _ => rfl
  | .own x :: a, pre, post => by
    have := refs_mem a (pre ++ [x]) post
    simp only [List.length_append, List.length_cons, List.length_nil, List.append_assoc, List.cons_append, List.nil_append, Nat.zero_add] at this
    simp only [refsOf, List.map_cons, Piece.block, List.cons_append, this, List.cons.injEq, and_true]
    by_cases hx : x = []
    · simp [hx, Ref.mem, Piece.bytes]
    · simp [hx, Ref.mem, Piece.bytes]
  | .given x :: a, pre, post => by
    have := refs_mem a (pre ++ [[]]) post
    simp only [List.length_append, List.length_cons, List.length_nil, List.append_assoc, List.cons_append, List.nil_append, Nat.zero_add] at this
    simp only [refsOf, List.map_cons, Piece.block, List.cons_append, this, Ref.mem, Piece.bytes]

theorem refs_mem' (done : List Piece) (post : List Bytes) :
    (refsOf 0 done).map (Ref.mem (done.map Piece.block ++ post)) = done.map Piece.bytes := by
  simpa using refs_mem done [] post

theorem whole (blocks : List Bytes) : ∀ (mid pre post : List Ref),
    wholeParts blocks (pre ++ (mid ++ post)) (pre.length : Int) mid.length = .ok (mid.map fun r => ⟨r, 0, (r.mem blocks).length⟩)
  | [], pre, post => rfl
  | r :: mid, pre, post => by
    have ih := whole blocks mid (pre ++ [r]) post
    simp only [List.length_append, List.length_cons, List.length_nil, List.append_assoc, List.cons_append, List.nil_append, Nat.zero_add] at ih
    have h0 : entryAt (pre ++ (r :: mid ++ post)) (pre.length : Int) = .ok r := by simp [entryAt]
    simp only [List.length_cons, wholeParts, h0, Res.bind, List.map_cons]
    rw [show ((pre.length : Int) + 1) = ((pre.length + 1 : Nat) : Int) by omega]
    simp only [List.cons_append, ih, Res.map]

/-- the marker is in the first buffer -/
theorem cover_parts {ss : SS} {m : Txt} {done : List Piece} {acc hd : Bytes} {a : Nat} {tail : List Ref} {B : List Bytes}
    (hidx : ss.idx m = 0) (hmark : ss.mark m = (a : Int)) (hpos : ss.startPos = (acc.length : Int)) (hi : ss.ns.idx = done.length)
    (hw : ss.ns.wire = refsOf 0 done ++ tail) (hb : ss.ns.blocks = done.map Piece.block ++ (acc ++ hd) :: B) (hbuf : ss.ns.buf = .own done.length)
    (ha : a ≤ ((done.map Piece.bytes ++ [acc]).headD []).length) :
    ∃ parts, coverParts ss m = .ok parts ∧ ∀ B', (parts.map (Part.bytes (done.map Piece.block ++ (acc ++ hd) :: B'))).flatten =
      ((done.map Piece.bytes).flatten ++ acc).drop a := by
  have hmem : ∀ B', (Ref.own done.length).mem (done.map Piece.block ++ (acc ++ hd) :: B') = acc ++ hd := by
    intro B'
    rw [Ref.mem, List.getElem?_append_right (by simp)]
    simp
  cases done with
  | nil =>
    simp only [List.map_nil, List.nil_append, List.headD_cons] at ha
    refine ⟨[⟨.own 0, a, acc.length⟩], ?_, fun B' => ?_⟩
    · have h0 : sliceRef ss.ns.blocks ss.ns.buf (a : Int) (acc.length : Int) = .ok ⟨.own 0, a, acc.length⟩ := by
        have hm := hmem B
        rw [List.length_nil] at hm hbuf
        rw [hb, hbuf, sliceRef, hm, if_pos (by simp only [List.length_append]; omega)]
        simp
      have h1 : (0 : Int) = (([] : List Piece).length : Int) := rfl
      simp only [coverParts, hidx, hi, hmark, hpos, h0, if_pos h1, Res.map]
    · have hm := hmem B'
      rw [List.length_nil] at hm
      simp only [List.map_cons, List.flatten_cons, Part.bytes, hm]
      simp
  | cons d ds =>
    simp only [List.map_cons, List.cons_append, List.headD_cons] at ha
    obtain ⟨r, rs, hr⟩ : ∃ r rs, refsOf 0 (d :: ds) = r :: rs := by cases d <;> exact ⟨_, _, rfl⟩
    have hlen : rs.length = ds.length := by
      have := refsOf_length 0 (d :: ds)
      rw [hr] at this; simpa using this
    have hms : ∀ B', r.mem ((d :: ds).map Piece.block ++ (acc ++ hd) :: B') = d.bytes ∧
        rs.map (Ref.mem ((d :: ds).map Piece.block ++ (acc ++ hd) :: B')) = ds.map Piece.bytes := by
      intro B'
      have := refs_mem' (d :: ds) ((acc ++ hd) :: B')
      rw [hr] at this
      simpa only [List.map_cons, List.cons.injEq] using this
    refine ⟨⟨r, a, d.bytes.length⟩ :: ((rs.map fun r => ⟨r, 0, (r.mem ss.ns.blocks).length⟩) ++ [⟨.own (d :: ds).length, 0, acc.length⟩]), ?_, fun B' => ?_⟩
    · have h0 : sliceRef ss.ns.blocks r (a : Int) ((r.mem ss.ns.blocks).length : Int) = .ok ⟨r, a, d.bytes.length⟩ := by
        rw [hb, (hms B).1, sliceRef, (hms B).1, if_pos (by omega)]
        simp
      have h1 : sliceRef ss.ns.blocks ss.ns.buf 0 (acc.length : Int) = .ok ⟨.own (d :: ds).length, 0, acc.length⟩ := by
        rw [hb, hbuf, sliceRef, hmem B, if_pos (by simp only [List.length_append]; omega)]
        simp
      have h2 : entryAt ss.ns.wire 0 = .ok r := by rw [hw, hr]; simp [entryAt]
      have h3 := whole ss.ns.blocks rs [r] tail
      have h4 : ss.ns.wire = [r] ++ (rs ++ tail) := by rw [hw, hr]; simp
      have h5 : ¬ ((0 : Int) = ((d :: ds).length : Int)) := by simp only [List.length_cons]; omega
      have h6 : (((d :: ds).length : Int) - (0 + 1)).toNat = rs.length := by simp only [List.length_cons]; omega
      simp only [coverParts, hidx, hi, hmark, hpos, if_neg h5, h2, Res.bind, h0, h6]
      rw [← h4] at h3
      simp only [List.length_cons, List.length_nil, Nat.zero_add] at h3
      rw [show ((0 : Int) + 1) = ((1 : Nat) : Int) by rfl, h3]
      simp only [h1, Res.map]
    · obtain ⟨g1, g2⟩ := hms B'
      obtain ⟨_, g3⟩ := hms B
      have hP : ∀ r ∈ rs, Part.bytes ((d :: ds).map Piece.block ++ (acc ++ hd) :: B') ⟨r, 0, (r.mem ss.ns.blocks).length⟩ =
          r.mem ((d :: ds).map Piece.block ++ (acc ++ hd) :: B') := by
        intro r hr
        have h7 : r.mem ((d :: ds).map Piece.block ++ (acc ++ hd) :: B') = r.mem ss.ns.blocks := by
          have := g2.trans g3.symm
          rw [hb]
          exact (List.map_inj_left.1 this) r hr
        simp only [Part.bytes, h7, List.drop_zero, List.take_length]
      simp only [List.map_cons, List.map_append, List.map_map, List.flatten_cons, List.flatten_append, List.map_nil, List.flatten_nil, List.append_nil]
      have h8 : List.map (Part.bytes ((d :: ds).map Piece.block ++ (acc ++ hd) :: B') ∘ fun r => ⟨r, 0, (r.mem ss.ns.blocks).length⟩) rs = ds.map Piece.bytes := by
        rw [← g2]
        exact List.map_congr_left hP
      simp only [List.map_cons] at h8 g1 hmem
      rw [h8]
      have h9 := hmem B'
      simp only [Part.bytes, g1, h9, List.take_length, List.drop_zero]
      rw [List.take_left, List.append_assoc, List.drop_append_of_le_length ha]
      

/-- nothing is put into the buffer -/
theorem filling_skip {done : List Piece} {pl : List Nat} {ns : NS} (hf : Filling cells p kvs done [] (0 :: pl) ns) :
    ∃ ns', switchWire.exec call ns = .ok ns' ∧ Filling cells p kvs (done ++ [.own []]) [] pl ns' := by
  obtain ⟨ns', e1, e2, _⟩ := filling_switch (call := call) (done := done ++ [.own []]) (pl := pl) hf.cells hf.encoder hf.value (by simp [hf.idx]) (by
    rw [hf.wire, refsOf_append]
    simp [freshWire, refsOf]) (by
    rw [hf.blocks]
    simp only [curBlocks_nil, List.map_cons, List.map_append, List.append_assoc, List.map_nil, Piece.block, List.replicate_zero, List.cons_append, List.nil_append])
  exact ⟨ns', e1, e2⟩

theorem asInt_small {n : Nat} (h : n < 2 ^ 63) : asInt n = (n : Int) := by simp [asInt, h]

/-- the signature, in the wire -/
theorem signature_into {f m cov : Txt} {n E : Nat} {nc : Bool} (hE : cells (.key (.est f) :: p) = E) (h0 : 0 < E) {ss : SS} {done : List Piece} {acc : Bytes}
    {pl : List Nat} {a : Nat} (hf : Filling cells p kvs done acc ((acc.length + (sigHead n E).length) :: 0 :: pl) ss.ns)
    (hl : acc.length + (sigHead n E).length < 2 ^ 63) (hidx : ss.idx m = 0) (hmark : ss.mark m = (a : Int))
    (ha : a ≤ ((done.map Piece.bytes ++ [acc]).headD []).length) :
    ∃ ss' parts, (intoSigned f n (.signature m cov nc)).exec call ss = .ok ss' ∧
      Filling cells p kvs (done ++ [.own (acc ++ sigHead n E), .own []]) [] pl ss'.ns ∧ ss'.idx = ss.idx ∧
      ss'.covered = setAt ss.covered cov (ss.covered cov ++ parts) ∧
      ∀ B', (parts.map (Part.bytes (done.map Piece.block ++ (acc ++ sigHead n E) :: B'))).flatten = ((done.map Piece.bytes).flatten ++ acc).drop a := by
  have hP : Puts call cells p kvs (encodeTypeNum n ++ naturalEncode (.own (.est f)) true) (sigHead n E) :=
    ((Puts.typeNum n).append (Puts.natural (.own hE) true)).congr (by simp [sigHead])
  have hh := sigHead_pos n E
  obtain ⟨ns1, e1, e2⟩ := filling_plain hP hf (by simp) (by simp only [List.headD_cons]; omega)
  have hn : numVar ss .pos = acc.length := by simp [numVar, hf.pos]
  have hb := e2.blocks
  have hbuf := e2.buf
  simp only [curBlocks, curMem, List.headD_cons, List.length_append, Nat.sub_self, List.replicate_zero, List.append_nil] at hb
  rw [List.headD_cons, if_pos (show 0 < acc.length + (sigHead n E).length by omega)] at hbuf
  obtain ⟨parts, e3, e4⟩ := cover_parts (ss := { ss with startPos := (acc.length : Int), ns := ns1 }) (m := m) (a := a) hidx hmark rfl e2.idx e2.wire hb hbuf ha
  obtain ⟨ns2, e5, e6⟩ := filling_next (call := call) e2 (by simp) (by omega)
  obtain ⟨ns3, e7, e8⟩ := filling_skip (call := call) e6
  refine ⟨{ ss with startPos := (acc.length : Int), ns := ns3, covered := setAt ss.covered cov (ss.covered cov ++ parts) }, parts, ?_, by simpa using e8, rfl, rfl, e4⟩
  simp only [intoSigned, SCode.exec]
  rw [hasEst_eval hE hf.cells hf.encoder]
  simp only [Res.bind, h0, decide_true, if_true]
  rw [sexec_append, sexec_append, sexec_append, sexec_append, sexec_of]
  simp only [SAtom.exec, Res.bind, hn, asInt_small (show acc.length < 2 ^ 63 by omega)]
  rw [sexec_plain_ok (ss := { ss with startPos := (acc.length : Int) }) (ns := ns1) e1]
  simp only
  rw [sexec_of]
  simp only [SAtom.exec, e3, Res.map]
  rw [sexec_plain_ok (ns := ns2) e5]
  simp only
  rw [sexec_plain_ok (ns := ns3) e7]

/-- no signature -/
theorem signature_none {f m cov : Txt} {n : Nat} {nc : Bool} (hE : cells (.key (.est f) :: p) = 0) {ss : SS} (h1 : ss.ns.s.cells = cells)
    (h2 : ss.ns.s.vars .encoder = .ref p) : (intoSigned f n (.signature m cov nc)).exec call ss = .ok ss := by
  simp only [intoSigned, SCode.exec]
  rw [hasEst_eval hE h1 h2]
  simp [Res.bind]

/-- the entries at the end -/
theorem filling_end {done : List Piece} {acc : Bytes} {ns : NS} (hf : Filling cells p kvs done acc (if 0 < acc.length then [acc.length] else []) ns) :
    ns.wire.map (Ref.piece ns.blocks) = done ++ if 0 < acc.length then [.own acc] else [] := by
  rw [hf.wire, List.map_append, hf.blocks]
  have := refsOf_piece done [] (curBlocks acc (if 0 < acc.length then [acc.length] else []))
  simp only [List.length_nil, List.nil_append] at this
  rw [this]
  congr 1
  by_cases h : 0 < acc.length
  · simp only [if_pos h, freshWire, List.map_cons, List.map_nil, Ref.piece]
    rw [List.getElem?_append_right (by simp)]
    simp [curBlocks, curMem]
  · simp [if_neg h, freshWire]

end

end Ndn.Codec.Gen
