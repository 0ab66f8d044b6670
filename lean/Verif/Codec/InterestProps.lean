import Verif.Codec.InterestRun

/-!
# C96: what the emitted encoder of an Interest gives

A model with a name of the class `interestName` before the other fields, with a marker and a signature after it, as the Interest of the repository.  `Init`
takes a digest off the end of the name and puts a new one there, if told so; `EncodeInto` writes the name, keeps where the digest is, and has the name without
the digest as the first part that is signed.
-/

namespace Ndn.Codec.Gen

/-! ## Specification -/

/-- the model `m` has a name of the class `interestName` after arguments, and is otherwise as in `SignedModel` -/
structure InterestModel (ms : List TModel) (fuel : Nat) (m : TModel) (args : List Field) (nf : Field) (pre : List Field) (mk : Field) (mid : List Field) (sg : Field)
    (post : List Field) (cov : Txt) : Prop where
  fields : m.fields = args ++ nf :: (pre ++ mk :: (mid ++ sg :: post))
  nocopy : m.opts.noCopy = true
  names : (m.fields.map Field.name).Nodup
  arguments : ∀ f ∈ args, ∃ t, f.cls = .arg t
  name : nf.cls = .interestName cov
  marker : (∃ nc, mk.cls = .offset nc) ∨ ∃ a b nc, mk.cls = .range a b nc
  signature : ∃ nc, sg.cls = .signature mk.name cov nc
  others : ∀ f ∈ pre ++ (mid ++ post), f.cls.silent = true ∨ f.cls = .wire true ∨ (f.cls ≠ .wire false ∧ f.cls.plain (plainAt ms fuel) = true)
  early : ∀ f ∈ pre, f.cls ≠ .wire true

/-- `base` is the name `n` without the `ParametersSha256DigestComponent` that it may end with -/
def DigestFree (n base : Name) : Prop := (n = base ∧ ∀ c, base.getLast? = some c → c.typ ≠ 2) ∨ ∃ c : Component, c.typ = 2 ∧ n = base ++ [c]

/-- the name that is encoded: `base`, with a digest `d` if `need` -/
def nameWith (need : Bool) (base : Name) (d : Bytes) : Name := if need then base ++ [⟨2, d⟩] else base

/-- `copy(wire[i][pos:], d)` -/
def putDigest (w : List Piece) (i pos : Nat) (d : Bytes) : List Piece := w.set i (.own (splice ((w[i]?.map Piece.bytes).getD []) pos d))

/-! ## Lemmas -/

theorem trimDigest_eq {n base : Name} (h : DigestFree n base) : trimDigest n = base := by
  rcases h with ⟨rfl, h⟩ | ⟨c, hc, rfl⟩
  · unfold trimDigest
    cases hl : n.getLast? with
    | none => rfl
    | some c => simp [h c hl]
  · simp [trimDigest, hc]

theorem finalName_eq {n base : Name} (h : DigestFree n base) (need : Bool) : finalName need n = nameWith need base (List.replicate 32 0) := by
  simp only [finalName, nameWith, trimDigest_eq h]

theorem signedName_eq (need : Bool) (base : Name) (d : Bytes) : signedName need (nameWith need base d) = base := by
  cases need
  · rfl
  · show (base ++ [(⟨2, d⟩ : Component)]).dropLast = base
    simp

section
variable {ms : List TModel} {fuel : Nat} {m : TModel} {args pre mid post : List Field} {nf mk sg : Field} {cov : Txt}

/-- the name as one of the class `name` -/
def plainName (nf : Field) : Field := { nf with cls := .name }

/-- the model with the name as one of the class `name` -/
def asSigned (m : TModel) (args : List Field) (nf : Field) (rest : List Field) : TModel := { m with fields := args ++ plainName nf :: rest }

theorem InterestModel.toSigned (h : InterestModel ms fuel m args nf pre mk mid sg post cov) :
    SignedModel ms fuel (asSigned m args nf (pre ++ mk :: (mid ++ sg :: post))) (args ++ plainName nf :: pre) mk mid sg post cov where
  fields := by simp [asSigned]
  nocopy := h.nocopy
  names := by
    have := h.names
    rw [h.fields] at this
    simpa [asSigned, plainName] using this
  marker := h.marker
  signature := h.signature
  others := by
    intro f hf
    simp only [List.mem_append, List.mem_cons] at hf
    rcases hf with (hf | rfl | hf) | hf
    · obtain ⟨t, e⟩ := h.arguments f hf
      exact Or.inl (by rw [e]; rfl)
    · exact Or.inr (Or.inr ⟨by simp [plainName], rfl⟩)
    · exact h.others f (by simp [hf])
    · exact h.others f (by simp only [List.mem_append]; exact Or.inr hf)
  early := by
    intro f hf
    simp only [List.mem_append, List.mem_cons] at hf
    rcases hf with hf | rfl | hf
    · obtain ⟨t, e⟩ := h.arguments f hf
      rw [e]; simp
    · simp [plainName]
    · exact h.early f hf

theorem InterestModel.fresh (h : InterestModel ms fuel m args nf pre mk mid sg post cov) {f : Field} (hf : f ∈ pre ++ mk :: (mid ++ sg :: post)) : f.name ≠ nf.name := by
  have hn := h.names
  rw [h.fields, List.map_append, List.map_cons] at hn
  have := (List.nodup_cons.1 (List.nodup_append.1 hn).2.1).1
  intro e
  exact this (List.mem_map.2 ⟨f, hf, e⟩)

theorem InterestModel.away (h : InterestModel ms fuel m args nf pre mk mid sg post cov) {f : Field} (hf : f ∈ pre ++ mk :: (mid ++ sg :: post)) : f.away nf.name := by
  refine ⟨h.fresh hf, ?_, ?_⟩
  · intro c e
    have hf' := hf
    simp only [List.mem_append, List.mem_cons] at hf'
    rcases hf' with hf' | rfl | hf' | rfl | hf'
    · rcases h.others f (by simp [hf']) with x | x | x <;> simp [e, Cls.silent, Cls.plain] at x
    · rcases h.marker with ⟨_, x⟩ | ⟨_, _, _, x⟩ <;> rw [x] at e <;> cases e
    · rcases h.others f (by simp [hf']) with x | x | x <;> simp [e, Cls.silent, Cls.plain] at x
    · obtain ⟨_, x⟩ := h.signature; rw [x] at e; cases e
    · rcases h.others f (by simp [hf']) with x | x | x <;> simp [e, Cls.silent, Cls.plain] at x
  · intro m' c nc e
    have hf' := hf
    simp only [List.mem_append, List.mem_cons] at hf'
    rcases hf' with hf' | rfl | hf' | rfl | hf'
    · rcases h.others f (by simp [hf']) with x | x | x <;> simp [e, Cls.silent, Cls.plain] at x
    · rcases h.marker with ⟨_, x⟩ | ⟨_, _, _, x⟩ <;> rw [x] at e <;> cases e
    · rcases h.others f (by simp [hf']) with x | x | x <;> simp [e, Cls.silent, Cls.plain] at x
    · obtain ⟨_, x⟩ := h.signature
      rw [x] at e
      cases e
      exact h.fresh (by simp)
    · rcases h.others f (by simp [hf']) with x | x | x <;> simp [e, Cls.silent, Cls.plain] at x

theorem args_done {g : Field → SCode} (hg : ∀ f ∈ args, g f = .done) (call : Call) (ss : SS) : (allSigned g args).exec call ss = .ok ss := by
  induction args with
  | nil => rfl
  | cons f l ih =>
    simp only [allSigned]
    rw [sexec_append, hg f (by simp)]
    exact ih fun f hf => hg f (by simp [hf])

/-- the message of the model with the name -/
theorem holds_name (h : InterestModel ms fuel m args nf pre mk mid sg post cov) {fs1 : Fields} {v1 : fs1.V} {kvs : List (Txt × GV)}
    (h1 : Holds ms fuel pre fs1 v1 kvs) {n n' : Name} (hn : lookup nf.name kvs = some (.name n)) :
    Holds ms fuel (args ++ plainName nf :: pre) (.cons nf.num .opt .name fs1) (some n', v1) (setField nf.name (.name n') kvs) := by
  have hfil : (args ++ plainName nf :: pre).filter keep = plainName nf :: pre.filter keep := by
    rw [List.filter_append, List.filter_cons_of_pos (by rfl), List.filter_eq_nil_iff.2, List.nil_append]
    intro f hf
    obtain ⟨t, e⟩ := h.arguments f hf
    simp [keep, e]
  constructor
  · rw [hfil]
    simp only [schemaOf, plainName, Cls.elem, h1.schema]
  · rw [hfil]
    simp only [StandsAll]
    refine ⟨_, _, rfl, rfl, rfl, ⟨.name n', lookup_setField hn, rfl, rfl⟩, ?_⟩
    refine StandsAll.mono ms _ _ _ _ _ (fun f hf g hg => ?_) h1.stands
    rw [lookup_setField_other (h.fresh (by simp [(List.mem_filter.1 hf).1]))]
    exact hg

theorem holds_other (h : InterestModel ms fuel m args nf pre mk mid sg post cov) {l : List Field} (hl : ∀ f ∈ l, f ∈ pre ++ mk :: (mid ++ sg :: post))
    {fs : Fields} {v : fs.V} {kvs : List (Txt × GV)} (h1 : Holds ms fuel l fs v kvs) (g : GV) : Holds ms fuel l fs v (setField nf.name g kvs) := by
  refine ⟨h1.schema, StandsAll.mono ms _ _ _ _ _ (fun f hf x hx => ?_) h1.stands⟩
  rw [lookup_setField_other (h.fresh (hl f (List.mem_filter.1 hf).1))]
  exact hx

/-- the run of the model with the name as one of the class `name`, on the name as `Init` leaves it, tells the run of the model -/
theorem simulate (h : InterestModel ms fuel m args nf pre mk mid sg post cov) {kvs : List (Txt × GV)} {n : Name} (hn : lookup nf.name kvs = some (.name n))
    {est : Txt → Nat} {need : Txt → Bool} {n' : Name} (hn' : finalName (need nf.name) n = n') {e1 : Bytes} {ss ss' : SS}
    (hl : (Name.encBody n').length < 2 ^ 64)
    (R : Runs ms fuel (asSigned m args nf (pre ++ mk :: (mid ++ sg :: post))) (setField nf.name (.name n') kvs) est need (tlv nf.num (Name.encBody n') ++ e1) ss ss')
    (hc : ss.ns.s.cells [.key (.len nf.name)] = (Name.encBody n').length) :
    ∃ tt tt' p, runModel ms (fuel + 1) m (.ptr (.struct kvs)) est need = .ok (Signed.ofStates tt tt') ∧ tt.ns = ss.ns ∧ tt'.ns = ss'.ns ∧
      (∀ k, k ≠ nf.name → tt'.idx k = ss'.idx k) ∧ tt'.idx nf.name = 0 ∧ tt'.covered cov = p :: ss'.covered cov ∧
      p.ref = .own 0 ∧ p.lo = (tlEnc nf.num ++ tlEnc (Name.encBody n').length).length ∧ p.hi = p.lo + (Name.encBody (signedName (need nf.name) n')).length ∧
      (n' ≠ [] → tt'.at' nf.name = ((tlEnc nf.num ++ tlEnc (Name.encBody n').length).length + (Name.encBody n'.dropLast).length + 2 : Nat)) := by
  obtain ⟨rest, hrest⟩ : ∃ rest, rest = pre ++ mk :: (mid ++ sg :: post) := ⟨_, rfl⟩
  have hfields : m.fields = args ++ nf :: rest := by rw [hrest]; exact h.fields
  have haway : ∀ f ∈ rest, f.away nf.name := fun f hf => h.away (by rw [← hrest]; exact hf)
  rw [← hrest] at R
  -- `Init`
  have hI := R.init
  simp only [initOf, initSignedBody, asSigned] at hI
  rw [sexec_append, sexec_append, sexec_append, sexec_append, sexec_append] at hI
  simp only [bind_assoc] at hI
  obtain ⟨s1, i1, i2⟩ := bind_ok_inv hI
  rw [allSigned_append, args_done (fun f hf => by obtain ⟨t, e⟩ := h.arguments f hf; rw [e]; rfl), ok_bind] at i1
  simp only [allSigned] at i1
  rw [sexec_append] at i1
  obtain ⟨s0, i3, i4⟩ := bind_ok_inv i1
  obtain ⟨nsN, j1, j2⟩ := init_name (call := callOf ms (fuel + 1)) (covN := cov) (est := est) (need := need) hn (by rw [hn']; exact hl)
  rw [hn'] at j1
  have e0 : s0 = { SS.entry (.ptr (.struct (setField nf.name (.name n') kvs))) est need with ns := nsN } := by
    have : (initSigned (plainName nf).name (plainName nf).cls).exec (callOf ms (fuel + 1)) (SS.entry (.ptr (.struct (setField nf.name (.name n') kvs))) est need) = _ := j1
    rw [this] at i3
    cases i3
    rfl
  have r0 : Rel nf.name (-1) 0 cov [] need { SS.entry (.ptr (.struct kvs)) est need with ns := nsN, idx := setAt (fun _ => 0) nf.name (-1) } s0 := by
    rw [e0]
    refine ⟨rfl, rfl, ?_, fun _ _ => rfl, by simp [setAt], rfl, fun k => by simp [SS.entry], rfl, rfl⟩
    intro k hk
    simp [setAt, hk, SS.entry]
  obtain ⟨t1, k1, r1⟩ := code_rel _ (away_all fun f hf => init_away (haway f hf)) r0 i4
  have hI1 : (allSigned (fun f => initSigned f.name f.cls) m.fields).exec (callOf ms (fuel + 1)) (SS.entry (.ptr (.struct kvs)) est need) = .ok t1 := by
    rw [hfields, allSigned_append, args_done (fun f hf => by obtain ⟨t, e⟩ := h.arguments f hf; rw [e]; rfl), ok_bind]
    simp only [allSigned]
    rw [sexec_append, h.name, j2, ok_bind]
    exact k1
  have hcode : ∀ (g : Txt → Nat → Cls → SCode), (∀ t a b, g t a (.arg b) = .done) → (g nf.name nf.num (.interestName cov) = g nf.name nf.num .name) →
      ∀ ss, (allSigned (fun f => g f.name f.num f.cls) m.fields).exec (callOf ms (fuel + 1)) ss =
        (allSigned (fun f => g f.name f.num f.cls) (args ++ plainName nf :: rest)).exec (callOf ms (fuel + 1)) ss := by
    intro g hg hgn ss
    have hd : ∀ f ∈ args, g f.name f.num f.cls = .done := fun f hf => by obtain ⟨t, e⟩ := h.arguments f hf; rw [e]; exact hg _ _ _
    rw [hfields, allSigned_append, allSigned_append, args_done hd, ok_bind, ok_bind]
    simp only [allSigned]
    rw [h.name, hgn]
    rfl
  have hall : ∀ (g : Txt → Nat → Cls → SCode), (∀ t a b, g t a (.arg b) = .done) → (g nf.name nf.num .name).away nf.name →
      (∀ f ∈ rest, (g f.name f.num f.cls).away nf.name) → (allSigned (fun f => g f.name f.num f.cls) (args ++ plainName nf :: rest)).away nf.name := by
    intro g hg hgn hr
    refine away_all fun f hf => ?_
    simp only [List.mem_append, List.mem_cons] at hf
    rcases hf with hf | rfl | hf
    · obtain ⟨t, e⟩ := h.arguments f hf; rw [e, hg]; trivial
    · exact hgn
    · exact hr f hf
  obtain ⟨s2, i5, i6⟩ := bind_ok_inv i2
  obtain ⟨t2, k2, r2⟩ := code_rel _ (away_plain _) r1 i5
  obtain ⟨s3, i7, i8⟩ := bind_ok_inv i6
  obtain ⟨t3, k3, r3⟩ := code_rel _ (hall lengthSigned (fun _ _ _ => rfl) trivial fun f _ => length_away f) r2 i7
  obtain ⟨s4, i9, i10⟩ := bind_ok_inv i8
  obtain ⟨t4, k4, r4⟩ := code_rel _ (away_plain _) r3 i9
  obtain ⟨s5, i11, i12⟩ := bind_ok_inv i10
  obtain ⟨t5, k5, r5⟩ := code_rel _ (hall planSigned (fun _ _ _ => rfl) trivial fun f hf => plan_away (haway f hf)) r4 i11
  obtain ⟨tt, k6, r6⟩ := code_rel _ (away_plain _) r5 i12
  have hinit : initOf ms (fuel + 1) m (.ptr (.struct kvs)) est need = .ok tt := by
    simp only [initOf, initSignedBody]
    rw [sexec_append, sexec_append, sexec_append, sexec_append, sexec_append]
    simp only [bind_assoc]
    rw [hI1, ok_bind, k2, ok_bind, hcode lengthSigned (fun _ _ _ => rfl) rfl, k3, ok_bind, k4, ok_bind, hcode planSigned (fun _ _ _ => rfl) rfl, k5, ok_bind, k6]
  -- `EncodeInto`
  have hO := R.into
  simp only [intoSignedBody, asSigned] at hO
  rw [sexec_append] at hO
  obtain ⟨u1, o1, o2⟩ := bind_ok_inv hO
  have hroom := R.room
  have hsmall := R.small
  have htlv : 0 < (tlEnc nf.num).length := by
    have := sigHead_pos nf.num 0
    unfold tlEnc; split <;> [skip; split <;> [skip; split]] <;> simp
  obtain ⟨a, l, hpl⟩ : ∃ a l, ss.ns.ownPlan = a :: l := by
    cases hx : ss.ns.ownPlan with
    | nil => rw [hx] at hroom; simp only [tlv, List.length_append, List.headD_nil] at hroom; omega
    | cons a l => exact ⟨a, l, rfl⟩
  obtain ⟨ns1, x1, x2⟩ := into_start (call := callOf ms (fuel + 1)) (kvs := setField nf.name (.name n') kvs) (cells := ss.ns.s.cells) (n := a) (l := l)
  have hu1 : u1 = { ss.again with ns := ns1 } := by
    have : (SCode.ofPlain (NCode.of .startIdx ++ .of .startBuf ++ .ofPlain (.of (.decl .pos (.conv .uint (.num 0)))))).exec (callOf ms (fuel + 1)) ss.again =
        .ok { ss.again with ns := ns1 } := sexec_plain_ok (by simp only [SS.again, R.value, hpl]; exact x1)
    rw [this] at o1
    cases o1
    rfl
  have rA : Rel nf.name (-1) 0 cov [] need tt.again ss.again :=
    ⟨by simp only [SS.again, r6.ns], r6.mark, r6.idx, r6.at', r6.idxNm, r6.atNm, r6.covered, r6.startPos, r6.need⟩
  obtain ⟨w1, y1, rB⟩ := code_rel _ (away_plain _) rA o1
  rw [allSigned_append, args_done (fun f hf => by obtain ⟨t, e⟩ := h.arguments f hf; rw [e]; rfl), ok_bind] at o2
  simp only [allSigned] at o2
  rw [sexec_append] at o2
  obtain ⟨u2, o3, o4⟩ := bind_ok_inv o2
  rw [hpl, List.headD_cons] at hroom hsmall
  have hhd : 0 < a := by simp only [tlv, List.length_append] at hroom; omega
  have hmem : ns1.s.mem.length = a := by rw [x2.mem]; simp [curMem]
  have hat : At ss.ns.s.cells (setField nf.name (.name n') kvs) 0 0 ns1 :=
    ⟨x2.cells, x2.encoder, x2.value, x2.bufVar, x2.pos, by rw [x2.buf]; simp [hhd], by rw [hmem]; exact hsmall⟩
  have hblk : ns1.blocks ≠ [] := by rw [x2.blocks]; simp [curBlocks]
  have hnsu : u1.ns = ns1 := by rw [hu1]
  have hnsw : w1.ns = ns1 := by rw [rB.ns, hnsu]
  have hlk := lookup_setField (g := .name n') hn
  have hrm : (tlv nf.num (Name.encBody n')).length ≤ ns1.s.mem.length := by rw [hmem]; rw [List.length_append] at hroom; omega
  have f1 := (into_name (call := callOf ms (fuel + 1)) (covN := cov) (num := nf.num) (ss := u1) hlk hc (by rw [hnsu]; exact hat) (by rw [hnsu]; exact x2.idx)
    (by rw [hnsu]; exact hrm) (by rw [hnsu]; exact hblk)).1
  obtain ⟨pos, p, f2, p1, p2, p3, p4, p5⟩ := (into_name (call := callOf ms (fuel + 1)) (covN := cov) (num := nf.num) (ss := w1) hlk hc (by rw [hnsw]; exact hat)
    (by rw [hnsw]; exact x2.idx) (by rw [hnsw]; exact hrm) (by rw [hnsw]; exact hblk)).2
  have hu2 : u2 = { u1 with ns := u1.ns.wrote 0 0 (tlv nf.num (Name.encBody n')) } := by
    have : (intoSigned (plainName nf).name (plainName nf).num (plainName nf).cls).exec (callOf ms (fuel + 1)) u1 = _ := f1
    rw [this] at o3
    cases o3
    rfl
  have rC : Rel nf.name 0 (pos nf.name) cov [p] need { w1 with
      ns := w1.ns.wrote 0 0 (tlv nf.num (Name.encBody n')), idx := setAt w1.idx nf.name 0, at' := pos, nameFrom := p.lo, nameTo := p.hi
      covered := setAt w1.covered cov (w1.covered cov ++ [p]) } u2 := by
    rw [hu2]
    refine ⟨by simp only [rB.ns], rB.mark, ?_, ?_, by simp [setAt], rfl, ?_, rB.startPos, rB.need⟩
    · intro k hk
      simp only [setAt, hk, if_false]
      exact rB.idx k hk
    · intro k hk
      show pos k = u1.at' k
      rw [p4 k hk]
      exact rB.at' k hk
    · intro k
      have := rB.covered k
      simp only [ite_self, List.nil_append] at this
      simp only [setAt]
      by_cases hk : k = cov
      · subst hk
        simp only [if_true, this]
        have hz : u1.covered k = [] := by
          rw [hu1]
          show ss.covered k = []
          rw [R.clean]
        rw [hz]; rfl
      · simp only [hk, if_false, this, List.nil_append]
  obtain ⟨tt', y2, rD⟩ := code_rel _ (away_all fun f hf => into_away (haway f hf)) rC o4
  have hinto : (intoSignedBody m.fields).exec (callOf ms (fuel + 1)) tt.again = .ok tt' := by
    simp only [intoSignedBody]
    rw [sexec_append, y1, ok_bind, hfields, allSigned_append, args_done (fun f hf => by obtain ⟨t, e⟩ := h.arguments f hf; rw [e]; rfl), ok_bind]
    simp only [allSigned]
    rw [sexec_append, h.name, f2, ok_bind]
    exact y2
  refine ⟨tt, tt', p, by simp only [runModel, hinit, ok_bind, hinto, map_ok], r6.ns, rD.ns, rD.idx, rD.idxNm, ?_, p1, p2, ?_, ?_⟩
  · rw [rD.covered cov, if_pos rfl]; rfl
  · rw [p3, rB.need]
  · rw [rD.atNm]; exact p5

theorem digest_comp (d : Bytes) (hd : d.length = 32) : Name.encBody [(⟨2, d⟩ : Component)] = 2 :: 32 :: d := by
  simp only [Name.encBody, Component.enc, hd, List.append_nil]
  rw [show tlEnc 2 = [2] by decide, show natEnc 32 = [32] by decide]
  rfl

theorem nameWith_length (need : Bool) (base : Name) {d d' : Bytes} (hd : d.length = d'.length) :
    (Name.encBody (nameWith need base d)).length = (Name.encBody (nameWith need base d')).length := by
  cases need
  · rfl
  · simp only [nameWith, if_true, encBody_append, List.length_append, Name.encBody, Component.enc, hd, List.length_nil]

/-- what is written over the zeros is the value of the last component -/
theorem digest_front {num : Nat} {base : Name} {b tail e1 F d : Bytes} (hd : d.length = 32)
    (hb : tlv num (Name.encBody (base ++ [(⟨2, List.replicate 32 0⟩ : Component)])) ++ e1 <+: b)
    (ht : b ++ tail = tlv num (Name.encBody (base ++ [(⟨2, List.replicate 32 0⟩ : Component)])) ++ F) :
    splice b ((tlEnc num ++ tlEnc (Name.encBody (base ++ [(⟨2, List.replicate 32 0⟩ : Component)])).length).length + (Name.encBody base).length + 2) d ++ tail =
      tlv num (Name.encBody (base ++ [(⟨2, d⟩ : Component)])) ++ F := by
  have hz := digest_comp (List.replicate 32 0) (by simp)
  have hlen : (Name.encBody (base ++ [(⟨2, d⟩ : Component)])).length = (Name.encBody (base ++ [(⟨2, List.replicate 32 0⟩ : Component)])).length :=
    nameWith_length true base (by simp [hd])
  obtain ⟨y, rfl⟩ := hb
  generalize hH : tlEnc num ++ tlEnc (Name.encBody (base ++ [(⟨2, List.replicate 32 0⟩ : Component)])).length = H at *
  have e1' : tlv num (Name.encBody (base ++ [(⟨2, List.replicate 32 0⟩ : Component)])) = H ++ Name.encBody base ++ [2, 32] ++ List.replicate 32 0 := by
    rw [tlv, hH, encBody_append, hz]; simp
  have e2' : tlv num (Name.encBody (base ++ [(⟨2, d⟩ : Component)])) = H ++ Name.encBody base ++ [2, 32] ++ d := by
    rw [tlv, hlen, hH, encBody_append, digest_comp d hd]; simp
  rw [e1'] at ht ⊢
  rw [e2']
  rw [List.append_assoc, List.append_assoc] at ht
  have ht' := List.append_cancel_left ht
  rw [← ht']
  have hl : H.length + (Name.encBody base).length + 2 = (H ++ Name.encBody base ++ [2, 32]).length := by simp only [List.length_append, List.length_cons, List.length_nil]
  rw [hl]
  generalize H ++ Name.encBody base ++ [2, 32] = P
  simp only [splice, List.append_assoc]
  rw [List.take_left, List.drop_append, List.drop_eq_nil_of_le (by omega), List.nil_append, Nat.add_sub_cancel_left, hd,
    show List.drop 32 (List.replicate 32 (0 : UInt8) ++ (e1 ++ y)) = e1 ++ y from by
      have := List.drop_left (l₁ := List.replicate 32 (0 : UInt8)) (l₂ := e1 ++ y)
      rwa [List.length_replicate] at this]
  simp

/-- what both kinds of run have in common -/
theorem interest_run {t : Txt} (hm : (ms.find? fun m => m.name == t) = some m) (h : InterestModel ms fuel m args nf pre mk mid sg post cov)
    {kvs : List (Txt × GV)} {n base : Name} (hn : lookup nf.name kvs = some (.name n)) (hb : DigestFree n base) {est : Txt → Nat} {need : Txt → Bool} {fs1 : Fields} {v1 : fs1.V}
    {ss ss' : SS} (hl : (Name.encBody (nameWith (need nf.name) base (List.replicate 32 0))).length < 2 ^ 64)
    (R : Runs ms fuel (asSigned m args nf (pre ++ mk :: (mid ++ sg :: post))) (setField nf.name (.name (nameWith (need nf.name) base (List.replicate 32 0))) kvs) est need
      (Fields.enc (.cons nf.num .opt .name fs1) (some (nameWith (need nf.name) base (List.replicate 32 0)), v1)) ss ss')
    (hr : ReadyAll ms (.cons nf.num .opt .name fs1) ((args ++ plainName nf :: pre).filter keep) (some (nameWith (need nf.name) base (List.replicate 32 0)), v1)
      ss.ns.s.cells []) :
    ∃ r, runSigned ms (fuel + 1) t (.ptr (.struct kvs)) est need = .ok r ∧ r.wire = (Signed.ofStates ss ss').wire ∧ r.length = (Signed.ofStates ss ss').length ∧
      (∀ k, k ≠ nf.name → r.idx k = (Signed.ofStates ss ss').idx k) ∧ r.idx nf.name = 0 ∧
      (r.covered cov).flatten = Name.encBody base ++ ((Signed.ofStates ss ss').covered cov).flatten ∧
      (nameWith (need nf.name) base (List.replicate 32 0) ≠ [] → r.pos nf.name =
        ((tlEnc nf.num ++ tlEnc (Name.encBody (nameWith (need nf.name) base (List.replicate 32 0))).length).length +
          (Name.encBody (nameWith (need nf.name) base (List.replicate 32 0)).dropLast).length + 2 : Nat)) ∧
      ∃ b w, r.wire = .own b :: w ∧ (need nf.name = true → ∀ d tail F : Bytes, d.length = 32 →
        b ++ tail = tlv nf.num (Name.encBody (base ++ [(⟨2, List.replicate 32 0⟩ : Component)])) ++ F →
        splice b (r.pos nf.name).toNat d ++ tail = tlv nf.num (Name.encBody (base ++ [(⟨2, d⟩ : Component)])) ++ F) := by
  have hfil : (args ++ plainName nf :: pre).filter keep = plainName nf :: pre.filter keep := by
    rw [List.filter_append, List.filter_cons_of_pos (by rfl), List.filter_eq_nil_iff.2, List.nil_append]
    intro f hf
    obtain ⟨t, e⟩ := h.arguments f hf
    simp [keep, e]
  have hcell : ss.ns.s.cells [.key (.len nf.name)] = (Name.encBody (nameWith (need nf.name) base (List.replicate 32 0))).length := by
    have := (hr _ _ hfil).1
    exact this
  have henc : Fields.enc (.cons nf.num .opt .name fs1) (some (nameWith (need nf.name) base (List.replicate 32 0)), v1) =
      tlv nf.num (Name.encBody (nameWith (need nf.name) base (List.replicate 32 0))) ++ fs1.enc v1 := by
    simp only [Fields.enc, Fields.elems, List.flatten_cons]
    rfl
  rw [henc] at R
  obtain ⟨tt, tt', p, g1, g2, g3, g4, g5, g6, p1, p2, p3, p4⟩ := simulate h hn (finalName_eq hb _) hl R hcell
  obtain ⟨b, l, w, f1, f2, f3⟩ := R.first (by
    intro e
    have := congrArg List.length e
    have hp : 0 < (tlEnc nf.num).length := by
      unfold tlEnc; split <;> [skip; split <;> [skip; split]] <;> simp
    simp only [tlv, List.length_append, List.length_nil] at this
    omega)
  have hw : (Signed.ofStates tt tt').wire = (Signed.ofStates ss ss').wire := by simp only [Signed.ofStates, g3]
  refine ⟨Signed.ofStates tt tt', by simp only [runSigned, hm]; exact g1, hw, by simp only [Signed.ofStates, g2], g4, g5, ?_, p4, b, w, by rw [hw]; exact f3, ?_⟩
  · simp only [Signed.ofStates, g3, g6, List.map_cons, List.flatten_cons, List.append_cancel_right_eq, Part.bytes, p1, Ref.mem, f1, List.getElem?_cons_zero, Option.getD_some]
    rw [p3, p2, signedName_eq]
    obtain ⟨y, hy⟩ := f2
    obtain ⟨z, hz⟩ : ∃ z, Name.encBody (nameWith (need nf.name) base (List.replicate 32 0)) = Name.encBody base ++ z := by
      cases need nf.name
      · exact ⟨[], by simp [nameWith]⟩
      · exact ⟨_, by simp only [nameWith, if_true, encBody_append]; rfl⟩
    rw [← hy]
    simp only [tlv]
    generalize tlEnc nf.num ++ tlEnc (Name.encBody (nameWith (need nf.name) base (List.replicate 32 0))).length = H
    rw [hz]
    simp only [List.append_assoc]
    rw [← List.length_append, ← List.append_assoc H, List.take_left, List.drop_left]
  · intro hneed d tail F hd ht
    have hne : nameWith (need nf.name) base (List.replicate 32 0) = base ++ [(⟨2, List.replicate 32 0⟩ : Component)] := by rw [hneed]; rfl
    rw [hne] at f2 p4
    have hp : (Signed.ofStates tt tt').pos nf.name = _ := p4 (by simp)
    rw [hp, Int.toNat_natCast, List.dropLast_concat]
    exact digest_front hd f2 ht

end

/-! ## The property -/

section
variable {ms : List TModel} {fuel : Nat} {m : TModel} {args pre mid post : List Field} {nf mk sg : Field} {cov : Txt}

/-- with the place of the digest -/
theorem interest_signed {t : Txt} (hm : (ms.find? fun m => m.name == t) = some m) (h : InterestModel ms fuel m args nf pre mk mid sg post cov)
    {fs1 fs2 fs3 : Fields} {v1 : fs1.V} {v2 : fs2.V} {v3 : fs3.V} {kvs : List (Txt × GV)} {n base : Name} (hn : lookup nf.name kvs = some (.name n)) (hb : DigestFree n base)
    (h1 : Holds ms fuel pre fs1 v1 kvs) (h2 : Holds ms fuel mid fs2 v2 kvs) (h3 : Holds ms fuel post fs3 v3 kvs) {est : Txt → Nat} {need : Txt → Bool} {E : Nat}
    (hE : est sg.name = E) (h0 : 0 < E)
    (hl : (tlv nf.num (Name.encBody (nameWith (need nf.name) base (List.replicate 32 0))) ++ fs1.enc v1 ++ fs2.enc v2 ++ tlEnc sg.num ++ tlEnc E ++
      fs3.enc v3).length + E < 2 ^ 63) :
    ∃ r front back, runSigned ms (fuel + 1) t (.ptr (.struct kvs)) est need = .ok r ∧ r.wire = front ++ .own [] :: back ∧ r.idx sg.name = (front.length : Int) ∧
      (front.map Piece.bytes).flatten =
        tlv nf.num (Name.encBody (nameWith (need nf.name) base (List.replicate 32 0))) ++ fs1.enc v1 ++ fs2.enc v2 ++ tlEnc sg.num ++ tlEnc E ∧
      (back.map Piece.bytes).flatten = fs3.enc v3 ∧ givenOf r.wire = callerBuffers fs1 v1 ++ callerBuffers fs2 v2 ++ callerBuffers fs3 v3 ∧
      (r.covered cov).flatten = Name.encBody base ++ fs2.enc v2 ∧ r.idx nf.name = 0 ∧
      r.length = (tlv nf.num (Name.encBody (nameWith (need nf.name) base (List.replicate 32 0))) ++ fs1.enc v1 ++ fs2.enc v2 ++ tlEnc sg.num ++ tlEnc E ++
        fs3.enc v3).length + E ∧
      (front = closed (items fs2 v2) (tlv nf.num (Name.encBody (nameWith (need nf.name) base (List.replicate 32 0))) ++ fs1.enc v1) ++
        [.own (openBuf (items fs2 v2) (tlv nf.num (Name.encBody (nameWith (need nf.name) base (List.replicate 32 0))) ++ fs1.enc v1) ++ (tlEnc sg.num ++ tlEnc E))] ∧
        back = layout (items fs3 v3) []) ∧
      (nameWith (need nf.name) base (List.replicate 32 0) ≠ [] → r.pos nf.name =
        ((tlEnc nf.num ++ tlEnc (Name.encBody (nameWith (need nf.name) base (List.replicate 32 0))).length).length +
          (Name.encBody (nameWith (need nf.name) base (List.replicate 32 0)).dropLast).length + 2 : Nat)) ∧
      ∃ b w, r.wire = .own b :: w ∧ (need nf.name = true → ∀ d tail F : Bytes, d.length = 32 →
        b ++ tail = tlv nf.num (Name.encBody (base ++ [(⟨2, List.replicate 32 0⟩ : Component)])) ++ F →
        splice b (r.pos nf.name).toNat d ++ tail = tlv nf.num (Name.encBody (base ++ [(⟨2, d⟩ : Component)])) ++ F) := by
  have hs := h.toSigned
  have henc : Fields.enc (.cons nf.num .opt .name fs1) (some (nameWith (need nf.name) base (List.replicate 32 0)), v1) =
      tlv nf.num (Name.encBody (nameWith (need nf.name) base (List.replicate 32 0))) ++ fs1.enc v1 := by
    simp only [Fields.enc, Fields.elems, List.flatten_cons]
    rfl
  obtain ⟨ss, ss', front, back, R, hr, e2, e3, e4, e5, e6, e7, e8, e9⟩ := runs_signed hs (holds_name h h1 (n' := nameWith (need nf.name) base (List.replicate 32 0)) hn)
    (holds_other h (fun f hf => by simp [hf]) h2 _) (holds_other h (fun f hf => by simp [hf]) h3 _) hE h0 (by rw [henc]; exact hl) need
  rw [henc] at e4 e8 e9
  have hl' : (Name.encBody (nameWith (need nf.name) base (List.replicate 32 0))).length < 2 ^ 64 := by
    simp only [tlv, List.length_append] at hl; omega
  obtain ⟨r, g1, g2, g3, g4, g5, g6, g7⟩ := interest_run hm h hn hb hl' R hr
  refine ⟨r, front, back, g1, by rw [g2]; exact e2, by rw [g4 _ (h.fresh (by simp))]; exact e3, e4, e5, by rw [g2]; exact e6, by rw [g6, e7], g5, by rw [g3]; exact e8, e9, g7⟩

/-- **C96, the encoder**: for a model with a name that may need a digest, a marker and a signature with an estimated length, the wire has the name without the
digest it came with, with 32 zeros for the digest if needed, and the other fields, and an empty buffer for the signature; what is covered is the components of
the name without the digest, and what is between the marker and the signature. -/
theorem C96_encode_partial {t : Txt} (hm : (ms.find? fun m => m.name == t) = some m) (h : InterestModel ms fuel m args nf pre mk mid sg post cov)
    {fs1 fs2 fs3 : Fields} {v1 : fs1.V} {v2 : fs2.V} {v3 : fs3.V} {kvs : List (Txt × GV)} {n base : Name} (hn : lookup nf.name kvs = some (.name n)) (hb : DigestFree n base)
    (h1 : Holds ms fuel pre fs1 v1 kvs) (h2 : Holds ms fuel mid fs2 v2 kvs) (h3 : Holds ms fuel post fs3 v3 kvs) {est : Txt → Nat} {need : Txt → Bool} {E : Nat}
    (hE : est sg.name = E) (h0 : 0 < E)
    (hl : (tlv nf.num (Name.encBody (nameWith (need nf.name) base (List.replicate 32 0))) ++ fs1.enc v1 ++ fs2.enc v2 ++ tlEnc sg.num ++ tlEnc E ++
      fs3.enc v3).length + E < 2 ^ 63) :
    ∃ r front back, runSigned ms (fuel + 1) t (.ptr (.struct kvs)) est need = .ok r ∧ r.wire = front ++ .own [] :: back ∧ r.idx sg.name = (front.length : Int) ∧
      (front.map Piece.bytes).flatten =
        tlv nf.num (Name.encBody (nameWith (need nf.name) base (List.replicate 32 0))) ++ fs1.enc v1 ++ fs2.enc v2 ++ tlEnc sg.num ++ tlEnc E ∧
      (back.map Piece.bytes).flatten = fs3.enc v3 ∧ givenOf r.wire = callerBuffers fs1 v1 ++ callerBuffers fs2 v2 ++ callerBuffers fs3 v3 ∧
      (r.covered cov).flatten = Name.encBody base ++ fs2.enc v2 ∧ r.idx nf.name = 0 ∧
      r.length = (tlv nf.num (Name.encBody (nameWith (need nf.name) base (List.replicate 32 0))) ++ fs1.enc v1 ++ fs2.enc v2 ++ tlEnc sg.num ++ tlEnc E ++
        fs3.enc v3).length + E := by
  obtain ⟨r, front, back, e1, e2, e3, e4, e5, e6, e7, e8, e9, _⟩ := interest_signed hm h hn hb h1 h2 h3 hE h0 hl
  exact ⟨r, front, back, e1, e2, e3, e4, e5, e6, e7, e8, e9⟩

/-- **C96, signed**: with a signature of the estimated length in its buffer and a digest in its place, if one is needed, the wire has the bytes of the message. -/
theorem C96_signed_partial {t : Txt} (hm : (ms.find? fun m => m.name == t) = some m) (h : InterestModel ms fuel m args nf pre mk mid sg post cov)
    {fs1 fs2 fs3 : Fields} {v1 : fs1.V} {v2 : fs2.V} {v3 : fs3.V} {kvs : List (Txt × GV)} {n base : Name} (hn : lookup nf.name kvs = some (.name n)) (hb : DigestFree n base)
    (h1 : Holds ms fuel pre fs1 v1 kvs) (h2 : Holds ms fuel mid fs2 v2 kvs) (h3 : Holds ms fuel post fs3 v3 kvs) {est : Txt → Nat} {need : Txt → Bool} {E : Nat}
    (hE : est sg.name = E) (h0 : 0 < E)
    (hl : (tlv nf.num (Name.encBody (nameWith (need nf.name) base (List.replicate 32 0))) ++ fs1.enc v1 ++ fs2.enc v2 ++ tlEnc sg.num ++ tlEnc E ++
      fs3.enc v3).length + E < 2 ^ 63) :
    ∃ r, runSigned ms (fuel + 1) t (.ptr (.struct kvs)) est need = .ok r ∧ r.idx nf.name = 0 ∧ 0 < r.idx sg.name ∧ (r.covered cov).flatten = Name.encBody base ++ fs2.enc v2 ∧
      givenOf r.wire = callerBuffers fs1 v1 ++ callerBuffers fs2 v2 ++ callerBuffers fs3 v3 ∧
      ∀ sig d : Bytes, sig.length = E → d.length = 32 →
        ((if need nf.name then putDigest (r.wire.set (r.idx sg.name).toNat (.given sig)) (r.idx nf.name).toNat (r.pos nf.name).toNat d
          else r.wire.set (r.idx sg.name).toNat (.given sig)).map Piece.bytes).flatten =
            tlv nf.num (Name.encBody (nameWith (need nf.name) base d)) ++ fs1.enc v1 ++ fs2.enc v2 ++ tlv sg.num sig ++ fs3.enc v3 ∧
        r.length = (tlv nf.num (Name.encBody (nameWith (need nf.name) base d)) ++ fs1.enc v1 ++ fs2.enc v2 ++ tlv sg.num sig ++ fs3.enc v3).length := by
  obtain ⟨r, front, back, e1, e2, e3, e4, e5, e6, e7, e8, e9, _, _, b, w, e10, e11⟩ := interest_signed hm h hn hb h1 h2 h3 hE h0 hl
  have hfr : 0 < front.length := by
    cases front with
    | nil =>
      have := congrArg List.length e4
      have hp := sigHead_pos sg.num E
      simp only [sigHead, List.map_nil, List.flatten_nil, List.length_append, List.length_nil] at this hp
      omega
    | cons => simp
  refine ⟨r, e1, e8, by omega, e7, e6, fun sig d hsig hd => ⟨?_, ?_⟩⟩
  · have hset : r.wire.set (r.idx sg.name).toNat (.given sig) = front ++ .given sig :: back := by
      rw [e2, e3, Int.toNat_natCast, List.set_append_right _ _ (Nat.le_refl _), Nat.sub_self, List.set_cons_zero]
    cases hneed : need nf.name with
    | false =>
      simp only [Bool.false_eq_true, if_false]
      rw [hset]
      rw [hneed] at e4
      simp only [List.map_append, List.map_cons, List.flatten_append, List.flatten_cons, e4, e5, Piece.bytes, tlv, hsig]
      simp [nameWith]
    | true =>
      simp only [if_true]
      rw [hset, e8]
      rw [hneed] at e4
      obtain ⟨front', hf⟩ : ∃ front', front = .own b :: front' := by
        cases front with
        | nil =>
          simp only [List.map_nil, List.flatten_nil] at e4
          have := congrArg List.length e4
          have hp := sigHead_pos sg.num E
          simp only [sigHead, List.length_append, List.length_nil] at this hp
          omega
        | cons x front' =>
          rw [e2] at e10
          simp only [List.cons_append, List.cons.injEq] at e10
          exact ⟨front', by rw [e10.1]⟩
      subst hf
      simp only [putDigest, List.cons_append, Int.toNat_zero, List.getElem?_cons_zero, Option.map_some, Option.getD_some, List.set_cons_zero, Piece.bytes, List.map_cons,
        List.map_append, List.flatten_cons, List.flatten_append, e5]
      simp only [List.map_cons, List.flatten_cons, Piece.bytes, List.append_assoc] at e4
      have := e11 hneed d _ _ hd e4
      rw [← List.append_assoc, this]
      simp [tlv, hsig, nameWith]
  · rw [e9]
    have := nameWith_length (need nf.name) base (d := d) (d' := List.replicate 32 0) (by simp [hd])
    simp only [tlv, List.length_append, hsig, this]
    omega

/-- **C96, without a signature**: the same with an estimated length of 0; what is covered is then the components of the name alone. -/
theorem C96_unsigned_partial {t : Txt} (hm : (ms.find? fun m => m.name == t) = some m) (h : InterestModel ms fuel m args nf pre mk mid sg post cov)
    {fs1 fs2 fs3 : Fields} {v1 : fs1.V} {v2 : fs2.V} {v3 : fs3.V} {kvs : List (Txt × GV)} {n base : Name} (hn : lookup nf.name kvs = some (.name n)) (hb : DigestFree n base)
    (h1 : Holds ms fuel pre fs1 v1 kvs) (h2 : Holds ms fuel mid fs2 v2 kvs) (h3 : Holds ms fuel post fs3 v3 kvs) {est : Txt → Nat} {need : Txt → Bool}
    (hE : est sg.name = 0)
    (hl : (tlv nf.num (Name.encBody (nameWith (need nf.name) base (List.replicate 32 0))) ++ fs1.enc v1 ++ fs2.enc v2 ++ fs3.enc v3).length +
      (tlEnc sg.num).length < 2 ^ 62) :
    ∃ r, runSigned ms (fuel + 1) t (.ptr (.struct kvs)) est need = .ok r ∧ r.idx nf.name = 0 ∧ r.idx sg.name = -1 ∧ (r.covered cov).flatten = Name.encBody base ∧
      givenOf r.wire = callerBuffers fs1 v1 ++ callerBuffers fs2 v2 ++ callerBuffers fs3 v3 ∧
      ∀ d : Bytes, d.length = 32 →
        ((if need nf.name then putDigest r.wire (r.idx nf.name).toNat (r.pos nf.name).toNat d else r.wire).map Piece.bytes).flatten =
          tlv nf.num (Name.encBody (nameWith (need nf.name) base d)) ++ fs1.enc v1 ++ fs2.enc v2 ++ fs3.enc v3 ∧
        r.length = (tlv nf.num (Name.encBody (nameWith (need nf.name) base d)) ++ fs1.enc v1 ++ fs2.enc v2 ++ fs3.enc v3).length := by
  have hs := h.toSigned
  have henc : Fields.enc (.cons nf.num .opt .name fs1) (some (nameWith (need nf.name) base (List.replicate 32 0)), v1) =
      tlv nf.num (Name.encBody (nameWith (need nf.name) base (List.replicate 32 0))) ++ fs1.enc v1 := by
    simp only [Fields.enc, Fields.elems, List.flatten_cons]
    rfl
  obtain ⟨ss, ss', R, hr, e2, e3, e4, e5, e6, _⟩ := runs_unsigned hs (holds_name h h1 (n' := nameWith (need nf.name) base (List.replicate 32 0)) hn)
    (holds_other h (fun f hf => by simp [hf]) h2 _) (holds_other h (fun f hf => by simp [hf]) h3 _) hE (by rw [henc]; exact hl)
    (by
      rw [henc]
      intro e
      have := congrArg List.length e
      have hp : 0 < (tlEnc nf.num).length := by
        unfold tlEnc; split <;> [skip; split <;> [skip; split]] <;> simp
      simp only [tlv, List.length_append, List.length_nil] at this
      omega) need
  rw [henc] at e2 e6
  have hl' : (Name.encBody (nameWith (need nf.name) base (List.replicate 32 0))).length < 2 ^ 64 := by
    simp only [tlv, List.length_append] at hl; omega
  obtain ⟨r, g1, g2, g3, g4, g5, g6, _, b, w, g7, g8⟩ := interest_run hm h hn hb hl' R hr
  refine ⟨r, g1, g5, by rw [g4 _ (h.fresh (by simp))]; exact e4, by rw [g6, e5]; simp, by rw [g2]; exact e3, fun d hd => ⟨?_, ?_⟩⟩
  · rw [← g2] at e2
    cases hneed : need nf.name with
    | false =>
      simp only [Bool.false_eq_true, if_false]
      rw [e2, hneed]
      rfl
    | true =>
      rw [hneed, g7] at e2
      simp only [if_true, putDigest, g5, g7, Int.toNat_zero, List.getElem?_cons_zero, Option.map_some, Option.getD_some, List.set_cons_zero, Piece.bytes, List.map_cons,
        List.flatten_cons, List.append_assoc] at e2 ⊢
      exact g8 hneed d _ _ hd e2
  · rw [g3, e6]
    have := nameWith_length (need nf.name) base (d := d) (d' := List.replicate 32 0) (by simp [hd])
    simp only [tlv, List.length_append, this]

/-- without a signature: the buffers and the place of the digest -/
theorem interest_layout {t : Txt} (hm : (ms.find? fun m => m.name == t) = some m) (h : InterestModel ms fuel m args nf pre mk mid sg post cov)
    {fs1 fs2 fs3 : Fields} {v1 : fs1.V} {v2 : fs2.V} {v3 : fs3.V} {kvs : List (Txt × GV)} {n base : Name} (hn : lookup nf.name kvs = some (.name n)) (hb : DigestFree n base)
    (h1 : Holds ms fuel pre fs1 v1 kvs) (h2 : Holds ms fuel mid fs2 v2 kvs) (h3 : Holds ms fuel post fs3 v3 kvs) {est : Txt → Nat} {need : Txt → Bool}
    (hE : est sg.name = 0)
    (hl : (tlv nf.num (Name.encBody (nameWith (need nf.name) base (List.replicate 32 0))) ++ fs1.enc v1 ++ fs2.enc v2 ++ fs3.enc v3).length +
      (tlEnc sg.num).length < 2 ^ 62) :
    ∃ r, runSigned ms (fuel + 1) t (.ptr (.struct kvs)) est need = .ok r ∧ r.idx sg.name = -1 ∧ (r.covered cov).flatten = Name.encBody base ∧
      r.length = (tlv nf.num (Name.encBody (nameWith (need nf.name) base (List.replicate 32 0))) ++ fs1.enc v1 ++ fs2.enc v2 ++ fs3.enc v3).length ∧
      r.wire = layout (.own (tlv nf.num (Name.encBody (nameWith (need nf.name) base (List.replicate 32 0)))) :: (items fs1 v1 ++ items fs2 v2 ++ items fs3 v3)) [] ∧
      (nameWith (need nf.name) base (List.replicate 32 0) ≠ [] → r.pos nf.name =
        ((tlEnc nf.num ++ tlEnc (Name.encBody (nameWith (need nf.name) base (List.replicate 32 0))).length).length +
          (Name.encBody (nameWith (need nf.name) base (List.replicate 32 0)).dropLast).length + 2 : Nat)) := by
  have hs := h.toSigned
  have henc : Fields.enc (.cons nf.num .opt .name fs1) (some (nameWith (need nf.name) base (List.replicate 32 0)), v1) =
      tlv nf.num (Name.encBody (nameWith (need nf.name) base (List.replicate 32 0))) ++ fs1.enc v1 := by
    simp only [Fields.enc, Fields.elems, List.flatten_cons]
    rfl
  obtain ⟨ss, ss', R, hr, e2, e3, e4, e5, e6, e7⟩ := runs_unsigned hs (holds_name h h1 (n' := nameWith (need nf.name) base (List.replicate 32 0)) hn)
    (holds_other h (fun f hf => by simp [hf]) h2 _) (holds_other h (fun f hf => by simp [hf]) h3 _) hE (by rw [henc]; exact hl)
    (by
      rw [henc]
      intro e
      have := congrArg List.length e
      have hp : 0 < (tlEnc nf.num).length := by
        unfold tlEnc; split <;> [skip; split <;> [skip; split]] <;> simp
      simp only [tlv, List.length_append, List.length_nil] at this
      omega) need
  rw [henc] at e6
  have hl' : (Name.encBody (nameWith (need nf.name) base (List.replicate 32 0))).length < 2 ^ 64 := by
    simp only [tlv, List.length_append] at hl; omega
  obtain ⟨r, g1, g2, g3, g4, g5, g6, g7, _⟩ := interest_run hm h hn hb hl' R hr
  exact ⟨r, g1, by rw [g4 _ (h.fresh (by simp))]; exact e4, by rw [g6, e5]; simp, by rw [g3, e6], by rw [g2, e7]; rfl, g7⟩

end

end Ndn.Codec.Gen
