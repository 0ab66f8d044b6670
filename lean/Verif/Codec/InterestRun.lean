import Verif.Codec.SignedRunProps

/-!
# Lemmas about the name of an Interest

The statements for the name of an Interest do what those for a name do, on the name as `Init` leaves it, and keep three more places: which buffer the name is
in, where its digest is, and the part that is signed.  The other statements do not see these places.
-/

namespace Ndn.Codec.Gen

/-! ## Statements that do not see the places of the name -/

/-- the statement does not see the places of the name `nm` -/
def SAtom.away (nm : Txt) : SAtom → Prop
  | .noIdx f => f ≠ nm
  | .markLen _ => True
  | .planIdx f => f ≠ nm
  | .markIdx f => f ≠ nm
  | .markPos f => f ≠ nm
  | .startPos => True
  | .cover m _ => m ≠ nm
  | _ => False

def SCode.away (nm : Txt) : SCode → Prop
  | .done => True
  | .plain _ k => k.away nm
  | .atom a k => a.away nm ∧ k.away nm
  | .cond _ b k => b.away nm ∧ k.away nm
  | .heads _ _ _ => False
  | .last _ _ _ _ _ => False

/-- the two states differ in the places of the name `nm` only, which in the first are `i`, `a`, and the parts `extra` of `cov` -/
structure Rel (nm : Txt) (i a : Int) (cov : Txt) (extra : List Part) (nd : Txt → Bool) (ss ss' : SS) : Prop where
  ns : ss.ns = ss'.ns
  mark : ss.mark = ss'.mark
  idx : ∀ k, k ≠ nm → ss.idx k = ss'.idx k
  at' : ∀ k, k ≠ nm → ss.at' k = ss'.at' k
  idxNm : ss.idx nm = i
  atNm : ss.at' nm = a
  covered : ∀ k, ss.covered k = (if k = cov then extra else []) ++ ss'.covered k
  startPos : ss.startPos = ss'.startPos
  need : ss.need = nd

section
variable {nm cov : Txt} {i a : Int} {extra : List Part} {nd : Txt → Bool} {call : Call}

theorem setAt_rel {f g : Txt → Int} (h : ∀ k, k ≠ nm → f k = g k) (m : Txt) (x : Int) : ∀ k, k ≠ nm → setAt f m x k = setAt g m x k := by
  intro k hk; simp only [setAt]; split
  · rfl
  · exact h k hk

theorem setAt_away {α : Type} {f : Txt → α} {m : Txt} (h : m ≠ nm) (x : α) : setAt f m x nm = f nm := by simp [setAt, Ne.symm h]

theorem coverParts_rel {ss ss' : SS} (h : Rel nm i a cov extra nd ss ss') {m : Txt} (hm : m ≠ nm) : coverParts ss m = coverParts ss' m := by
  simp only [coverParts, h.ns, h.mark, h.idx m hm, h.startPos]

theorem numVar_rel {ss ss' : SS} (h : Rel nm i a cov extra nd ss ss') (v : Var) : numVar ss v = numVar ss' v := by simp only [numVar, h.ns]

theorem atom_rel {x : SAtom} (hx : x.away nm) {ss ss' t' : SS} (h : Rel nm i a cov extra nd ss ss') (he : x.exec ss' = .ok t') :
    ∃ t, x.exec ss = .ok t ∧ Rel nm i a cov extra nd t t' := by
  cases x with
  | noIdx f =>
    cases he
    exact ⟨_, rfl, h.ns, h.mark, setAt_rel h.idx _ _, h.at', by simpa only [setAt_away hx] using h.idxNm, h.atNm, h.covered, h.startPos, h.need⟩
  | markLen f =>
    cases he
    exact ⟨_, rfl, h.ns, by simp only [h.mark, numVar_rel h], h.idx, h.at', h.idxNm, h.atNm, h.covered, h.startPos, h.need⟩
  | planIdx f =>
    cases he
    exact ⟨_, rfl, h.ns, h.mark, by simp only [h.ns]; exact setAt_rel h.idx _ _, h.at', by simpa only [setAt_away hx] using h.idxNm, h.atNm, h.covered,
      h.startPos, h.need⟩
  | markIdx f =>
    cases he
    exact ⟨_, rfl, h.ns, h.mark, by simp only [h.ns]; exact setAt_rel h.idx _ _, h.at', by simpa only [setAt_away hx] using h.idxNm, h.atNm, h.covered,
      h.startPos, h.need⟩
  | markPos f =>
    cases he
    exact ⟨_, rfl, h.ns, h.mark, h.idx, by simp only [numVar_rel h]; exact setAt_rel h.at' _ _, h.idxNm, by simpa only [setAt_away hx] using h.atNm,
      h.covered, h.startPos, h.need⟩
  | startPos =>
    cases he
    exact ⟨_, rfl, h.ns, h.mark, h.idx, h.at', h.idxNm, h.atNm, h.covered, by simp only [numVar_rel h], h.need⟩
  | cover m c =>
    simp only [SAtom.exec] at he ⊢
    rw [coverParts_rel h hx]
    cases hc : coverParts ss' m with
    | ok l =>
      rw [hc] at he
      cases he
      refine ⟨_, rfl, h.ns, h.mark, h.idx, h.at', h.idxNm, h.atNm, ?_, h.startPos, h.need⟩
      intro k
      simp only [setAt]
      split
      · rename_i hk; subst hk; rw [h.covered k, List.append_assoc]
      · exact h.covered k
    | err e => rw [hc] at he; cases he
    | panic => rw [hc] at he; cases he
  | _ => exact hx.elim

theorem code_rel : ∀ (c : SCode), c.away nm → ∀ {ss ss' t' : SS}, Rel nm i a cov extra nd ss ss' → c.exec call ss' = .ok t' →
    ∃ t, c.exec call ss = .ok t ∧ Rel nm i a cov extra nd t t'
  | .done, _, ss, ss', t', h, he => by cases he; exact ⟨ss, rfl, h⟩
  | .plain c k, hc, ss, ss', t', h, he => by
    simp only [SCode.exec] at he ⊢
    obtain ⟨u', h1, h2⟩ := bind_ok_inv he
    rw [h.ns]
    cases hx : c.exec call ss'.ns with
    | ok ns =>
      rw [hx] at h1
      cases h1
      obtain ⟨t, h3, h4⟩ := code_rel k hc (ss := { ss with ns := ns }) (ss' := { ss' with ns := ns }) ⟨rfl, h.mark, h.idx, h.at', h.idxNm, h.atNm, h.covered, h.startPos, h.need⟩ h2
      exact ⟨t, h3, h4⟩
    | err e => rw [hx] at h1; cases h1
    | panic => rw [hx] at h1; cases h1
  | .atom x k, hc, ss, ss', t', h, he => by
    simp only [SCode.exec] at he ⊢
    obtain ⟨u', h1, h2⟩ := bind_ok_inv he
    obtain ⟨u, h3, h4⟩ := atom_rel hc.1 h h1
    rw [h3]
    exact code_rel k hc.2 h4 h2
  | .cond c b k, hc, ss, ss', t', h, he => by
    simp only [SCode.exec] at he ⊢
    obtain ⟨x, h1, h2⟩ := bind_ok_inv he
    obtain ⟨u', h3, h4⟩ := bind_ok_inv h2
    rw [h.ns, h1]
    simp only [Res.bind]
    cases x with
    | true =>
      obtain ⟨u, h5, h6⟩ := code_rel b hc.1 h h3
      simp only [if_true]
      rw [h5]
      exact code_rel k hc.2 h6 h4
    | false =>
      cases h3
      exact code_rel k hc.2 h h4
  | .heads _ _ _, hc, _, _, _, _, _ => hc.elim
  | .last _ _ _ _ _, hc, _, _, _, _, _ => hc.elim

theorem away_append {c d : SCode} (hc : c.away nm) (hd : d.away nm) : (c ++ d).away nm := by
  show (c.append d).away nm
  induction c with
  | done => exact hd
  | plain c k ih => exact ih hc
  | atom x k ih => exact ⟨hc.1, ih hc.2⟩
  | cond c b k _ ih => exact ⟨hc.1, ih hc.2⟩
  | heads _ _ _ => exact hc.elim
  | last _ _ _ _ _ => exact hc.elim

theorem away_plain (c : NCode) : (SCode.ofPlain c).away nm := trivial

theorem away_all {g : Field → SCode} {l : List Field} (h : ∀ f ∈ l, (g f).away nm) : (allSigned g l).away nm := by
  induction l with
  | nil => trivial
  | cons f l ih => exact away_append (h f (by simp)) (ih fun f hf => h f (by simp [hf]))

/-- the field does not use the places of the name `nm` -/
def Field.away (nm : Txt) (f : Field) : Prop := f.name ≠ nm ∧ (∀ c, f.cls ≠ .interestName c) ∧ ∀ m c nc, f.cls = .signature m c nc → m ≠ nm

theorem init_away {f : Field} (h : f.away nm) : (initSigned f.name f.cls).away nm := by
  cases hc : f.cls <;> first | trivial | exact ⟨h.1, trivial⟩ | exact absurd hc (h.2.1 _)

theorem length_away (f : Field) : (lengthSigned f.name f.num f.cls).away nm := by
  cases f.cls <;> trivial

theorem plan_away {f : Field} (h : f.away nm) : (planSigned f.name f.num f.cls).away nm := by
  cases hc : f.cls <;> first | trivial | exact ⟨⟨h.1, trivial⟩, trivial⟩

theorem into_away {f : Field} (h : f.away nm) : (intoSigned f.name f.num f.cls).away nm := by
  cases hc : f.cls <;> first | trivial | exact ⟨h.1, h.1, trivial⟩ | exact absurd hc (h.2.1 _) | exact ⟨⟨trivial, h.2.2 _ _ _ hc, trivial⟩, trivial⟩

/-! ## Setting a member -/

theorem lookup_setField {f : Txt} {g x : GV} : ∀ {kvs : List (Txt × GV)}, lookup f kvs = some x → lookup f (setField f g kvs) = some g
  | [], h => by cases h
  | (k, y) :: l, h => by
    simp only [lookup] at h
    simp only [setField]
    by_cases hk : k = f
    · simp [hk, lookup]
    · simp only [hk, if_false] at h ⊢
      simp only [lookup, hk, if_false]
      exact lookup_setField h

theorem lookup_setField_other {f k : Txt} {g : GV} (hk : k ≠ f) : ∀ kvs : List (Txt × GV), lookup k (setField f g kvs) = lookup k kvs
  | [] => rfl
  | (j, y) :: l => by
    simp only [setField]
    by_cases hj : j = f
    · subst hj
      simp [lookup, Ne.symm hk]
    · simp only [hj, if_false, lookup, lookup_setField_other hk l]

theorem setField_setField {f : Txt} {g g' : GV} : ∀ kvs : List (Txt × GV), setField f g' (setField f g kvs) = setField f g' kvs
  | [] => rfl
  | (j, y) :: l => by
    simp only [setField]
    by_cases hj : j = f
    · simp [hj, setField]
    · simp only [hj, if_false, setField, setField_setField l]

theorem entry_value (g g' : GV) (p : Path) (off : Nat) : upd (entry g p off) .value g' = entry g' p off := by
  funext v; cases v <;> simp [upd, entry]

/-- the name as `Init` leaves it -/
def finalName (need : Bool) (n : Name) : Name := if need then trimDigest n ++ [⟨2, List.replicate 32 0⟩] else trimDigest n

/-! ## `Init` -/

/-- the state of `Init` before the length of the name is computed -/
def atName (est : Txt → Nat) (need : Txt → Bool) (f : Txt) (idx : Txt → Int) (kvs : List (Txt × GV)) : SS :=
  ⟨⟨⟨updCell (estCells est) [.key (.len f)] 0, [], entry (.ptr (.struct kvs)) [] 0⟩, .nil, [], [], 0, [], []⟩, fun _ => 0, idx, fun _ => 0, fun _ => [], 0, need,
    0, 0⟩

/-- `Init` of the name: as of a name, on the name as it leaves it -/
theorem init_name {f covN : Txt} {n : Name} {kvs : List (Txt × GV)} {est : Txt → Nat} {need : Txt → Bool} (hf : lookup f kvs = some (.name n))
    (hl : (Name.encBody (finalName (need f) n)).length < 2 ^ 64) :
    ∃ ns, (initSigned f .name).exec call (SS.entry (.ptr (.struct (setField f (.name (finalName (need f) n)) kvs))) est need) =
        .ok { SS.entry (.ptr (.struct (setField f (.name (finalName (need f) n)) kvs))) est need with ns := ns } ∧
      (initSigned f (.interestName covN)).exec call (SS.entry (.ptr (.struct kvs)) est need) =
        .ok { SS.entry (.ptr (.struct kvs)) est need with ns := ns, idx := setAt (fun _ => 0) f (-1) } := by
  have hf' : lookup f (setField f (.name (finalName (need f) n)) kvs) = some (.name (finalName (need f) n)) := lookup_setField hf
  generalize hkv : setField f (.name (finalName (need f) n)) kvs = kvs' at hf'
  have hsum : ((finalName (need f) n).map Component.encLen).sum < 2 ^ 64 := by
    rw [← Name.encLen_eq] at hl
    have : Name.encLen (finalName (need f) n) = ((finalName (need f) n).map Component.encLen).sum := by
      simp only [Name.encLen]
      rw [List.sum_eq_foldl, List.foldl_map]
    omega
  obtain ⟨C, e1, _, _⟩ := Inits.total (call := call) (p := []) (kvs := kvs') GV.comp Component.encLen (finalName (need f) n) hf' rfl
    (e := .size .c) (fun s x hx => by simp only [Ex.eval, hx]) hsum ⟨estCells est, [], entry (.ptr (.struct kvs')) [] 0⟩ (by simp [entry, upd]) (by simp [entry, upd])
  refine ⟨{ NS.entry (.ptr (.struct kvs')) (estCells est) [] [] [] with s := ⟨C, [], entry (.ptr (.struct kvs')) [] 0⟩ }, ?_, ?_⟩
  · simp only [initSigned, initCode]
    rw [sexec_plain, nexec_plain]
    simp only [Code.exec, SS.entry, NS.entry]
    rw [notNil_eval hf' _ (by simp [entry, upd]), e1]
    simp only [GV.isNil, Bool.not_false, Res.bind, if_true, Res.map]
    have : (Code.of (.setKey (.len f) (.num 0)) ++ Code.each .c (.field f) (.of (.incKey (.len f) (.conv .uint (.size .c)))) .done).decls = [] := rfl
    rw [this]
    simp only [leave, List.not_mem_nil, if_false, NS.through, if_true]
  · rw [exec_append, exec_of] at e1
    simp only [Atom.exec, Ex.evalNum, Ex.eval, Res.bind] at e1
    simp only [show entry (.ptr (.struct kvs')) [] 0 .encoder = .ref [] by simp [entry, upd]] at e1
    simp only [initSigned]
    rw [sexec_append, sexec_append, sexec_of]
    simp only [SAtom.exec, Res.bind, SS.entry, NS.entry]
    rw [sexec_plain, nexec_plain, exec_of]
    simp only [Atom.exec, Ex.evalNum, Ex.eval, Res.bind, show entry (.ptr (.struct kvs)) [] 0 .encoder = .ref [] by simp [entry, upd], NS.through, if_true,
      Res.map, SCode.exec]
    rw [notNil_eval hf _ (by simp [entry, upd])]
    simp only [GV.isNil, Bool.not_false, if_true]
    rw [sexec_append, sexec_append, sexec_of]
    simp only [SAtom.exec, SS.changeName, show entry (.ptr (.struct kvs)) [] 0 .value = .ptr (.struct kvs) by simp [entry, upd], hf, Res.bind, entry_value]
    rw [sexec_of]
    have hmid : ∀ idx, SAtom.exec (.addDigest f) (atName est need f idx (setField f (.name (trimDigest n)) kvs)) = .ok (atName est need f idx kvs') := by
      intro idx
      simp only [SAtom.exec, atName]
      by_cases hn : need f = true
      · simp only [hn, if_true, SS.changeName, show entry (.ptr (.struct (setField f (.name (trimDigest n)) kvs))) [] 0 .value =
          .ptr (.struct (setField f (.name (trimDigest n)) kvs)) by simp [entry, upd], lookup_setField hf, setField_setField, entry_value, ← hkv, finalName]
      · simp only [hn, Bool.false_eq_true, if_false, ← hkv, finalName]
    simp only [atName] at hmid
    rw [hmid]
    simp only
    rw [sexec_plain, nexec_plain, e1]
    simp only [NS.through, if_true, Res.map, Res.bind]

/-! ## `EncodeInto` -/

/-- `b` is written at `a` -/
def NS.wrote (ns : NS) (k a : Nat) (b : Bytes) : NS :=
  { ns with s := { ns.s with mem := splice ns.s.mem a b, vars := upd ns.s.vars .pos (.num (a + b.length)) }, blocks := ns.blocks.set k (splice ns.s.mem a b) }

/-- the buffer `k` is being filled and `pos` is `a` -/
structure At (cells : Path → Nat) (kvs : List (Txt × GV)) (k a : Nat) (ns : NS) : Prop where
  cells : ns.s.cells = cells
  encoder : ns.s.vars .encoder = .ref []
  value : ns.s.vars .value = .ptr (.struct kvs)
  bufVar : ns.s.vars .buf = .slice 0
  pos : ns.s.vars .pos = .num a
  buf : ns.buf = .own k
  small : ns.s.mem.length < 2 ^ 63

section
variable {cells : Path → Nat} {kvs : List (Txt × GV)} {k a : Nat} {ns : NS}

theorem At.wrote (h : At cells kvs k a ns) {b : Bytes} (hb : a + b.length ≤ ns.s.mem.length) : At cells kvs k (a + b.length) (ns.wrote k a b) := by
  constructor
  case cells => exact h.cells
  case encoder => simpa [NS.wrote, upd] using h.encoder
  case value => simpa [NS.wrote, upd] using h.value
  case bufVar => simpa [NS.wrote, upd] using h.bufVar
  case pos => simp [NS.wrote, upd]
  case buf => exact h.buf
  case small =>
    show (splice ns.s.mem a b).length < _
    rw [splice_length hb]
    exact h.small

theorem wrote_mem {b : Bytes} (hb : a + b.length ≤ ns.s.mem.length) : (ns.wrote k a b).s.mem.length = ns.s.mem.length := splice_length hb

theorem wrote_wrote {b c : Bytes} (hb : a + (b ++ c).length ≤ ns.s.mem.length) : (ns.wrote k a b).wrote k (a + b.length) c = ns.wrote k a (b ++ c) := by
  simp only [NS.wrote, splice_splice hb, upd_upd, List.set_set, List.length_append, Nat.add_assoc]

theorem puts_at {c : Code} {b : Bytes} (h : Puts call cells [] kvs c b) (ha : At cells kvs k a ns) (hb : a + b.length ≤ ns.s.mem.length) :
    (NCode.ofPlain c).exec call ns = .ok (ns.wrote k a b) := by
  have := ha.small
  rw [nexec_plain, h ns.s 0 a ha.cells ha.encoder ha.value ha.bufVar ha.pos (by omega) (by omega)]
  simp only [Res.bind, NS.through, ha.buf, Nat.zero_add, NS.wrote]

/-- one component -/
theorem comp_put {s : S} {off a : Nat} (h4 : s.vars .buf = .slice off) (h5 : s.vars .pos = .num a) (x : Component) (hm : off + a + x.enc.length ≤ s.mem.length)
    (hl : s.mem.length < 2 ^ 64) : withComp call (.of (.component .c)) (.comp x) s =
      .ok { s with mem := splice s.mem (off + a) x.enc, vars := upd s.vars .pos (.num (a + x.enc.length)) } := by
  unfold withComp
  rw [exec_of]
  simp only [Atom.exec, S.cursor, upd, h4, h5, Res.bind, if_true, reduceCtorEq, if_false]
  rw [Writes.component x (s.mem, off + a) hm]
  simp only [Res.map]
  rw [leave_vars _ _ _ .pos (.num (a + x.enc.length)) (by decide)]
  · intro u hu
    have huc : u ≠ .c := fun e => hu (by simp [e])
    simp only [upd, huc, if_false]
    rw [show off + a + x.enc.length - (off + a) = x.enc.length by omega, Nat.mod_eq_of_lt (by omega)]

/-- components, one after the other -/
theorem comps_put {s : S} {off a : Nat} (h4 : s.vars .buf = .slice off) (h5 : s.vars .pos = .num a) (l : Name) (hm : off + a + (Name.encBody l).length ≤ s.mem.length)
    (hl : s.mem.length < 2 ^ 64) : loop (fun _ g s => withComp call (.of (.component .c)) g s) 0 (List.map GV.comp l) s =
      .ok { s with mem := splice s.mem (off + a) (Name.encBody l), vars := upd s.vars .pos (.num (a + (Name.encBody l).length)) } := by
  rw [← encBody_flatten] at hm ⊢
  have hs : s = { s with vars := upd s.vars .pos (.num a) } := by rw [upd_self _ _ _ h5]
  conv => lhs; rw [hs]
  rw [loop_puts _ GV.comp Component.enc l s off a 0 ?_ hm hl]
  intro k x mem a' _ hm hl
  rw [comp_put (off := off) (a := a') (by simpa [upd] using h4) (by simp [upd]) x hm hl]
  simp only [upd_upd]

theorem ok_bind {α β : Type} (x : α) (f : α → Res β) : (Res.ok x).bind f = f x := rfl

theorem map_ok {α β : Type} (x : α) (f : α → β) : (Res.ok x).map f = .ok (f x) := rfl

theorem heads_at (h : At cells kvs k a ns) (l : Name) (hb : a + (Name.encBody l).length ≤ ns.s.mem.length) :
    (loop (fun _ g s => withComp call (.of (.component .c)) g s) 0 (List.map GV.comp l) ns.s).bind ns.through = .ok (ns.wrote k a (Name.encBody l)) := by
  have := h.small
  rw [comps_put (off := 0) h.bufVar h.pos l (by omega) (by omega)]
  simp only [Res.bind, NS.through, h.buf, Nat.zero_add, NS.wrote]

theorem comp_at (h : At cells kvs k a ns) (x : Component) (hb : a + x.enc.length ≤ ns.s.mem.length) :
    (withComp call (.of (.component .c)) (.comp x) ns.s).bind ns.through = .ok (ns.wrote k a x.enc) := by
  have := h.small
  rw [comp_put (off := 0) h.bufVar h.pos x (by omega) (by omega)]
  simp only [Res.bind, NS.through, h.buf, Nat.zero_add, NS.wrote]

theorem getLast_split {α : Type} (l : List α) : (l = [] ∧ l.getLast? = none) ∨ ∃ b x, l = b ++ [x] ∧ l.dropLast = b ∧ l.getLast? = some x := by
  rcases List.eq_nil_or_concat l with h | ⟨b, x, h⟩
  · left; subst h; simp
  · right; subst h; exact ⟨b, x, by simp, by simp, by simp⟩

theorem encBody_append (a b : Name) : Name.encBody (a ++ b) = Name.encBody a ++ Name.encBody b := by
  induction a with
  | nil => rfl
  | cons c a ih => simp [Name.encBody, ih]

/-- the bytes of the name that are signed -/
def signedName (need : Bool) (n : Name) : Name := if need then n.dropLast else n

/-- `EncodeInto` of the name -/
theorem into_name {f covN : Txt} {num : Nat} {n : Name} {ss : SS} (hf : lookup f kvs = some (.name n)) (hc : cells [.key (.len f)] = (Name.encBody n).length)
    (ha : At cells kvs 0 0 ss.ns) (hi : ss.ns.idx = 0) (hr : (tlv num (Name.encBody n)).length ≤ ss.ns.s.mem.length) (hb : ss.ns.blocks ≠ []) :
    (intoSigned f num .name).exec call ss = .ok { ss with ns := ss.ns.wrote 0 0 (tlv num (Name.encBody n)) } ∧
    ∃ a p, (intoSigned f num (.interestName covN)).exec call ss =
        .ok { ss with
          ns := ss.ns.wrote 0 0 (tlv num (Name.encBody n)), idx := setAt ss.idx f 0, at' := a, nameFrom := p.lo, nameTo := p.hi
          covered := setAt ss.covered covN (ss.covered covN ++ [p]) } ∧
      p.ref = .own 0 ∧ p.lo = (tlEnc num ++ tlEnc (Name.encBody n).length).length ∧ p.hi = p.lo + (Name.encBody (signedName (ss.need f) n)).length ∧
      (∀ k, k ≠ f → a k = ss.at' k) ∧ (n ≠ [] → a f = ((tlEnc num ++ tlEnc (Name.encBody n).length).length + (Name.encBody n.dropLast).length + 2 : Nat)) := by
  have hh : Puts call cells [] kvs (encodeTypeNum num ++ naturalEncode (.own (.len f)) true) (tlEnc num ++ tlEnc (Name.encBody n).length) :=
    ((Puts.typeNum num).append (Puts.natural (.own hc) true)).congr (by simp only [if_true])
  have hw : Puts call cells [] kvs (intoCode f num .name) (tlv num (Name.encBody n)) := by
    refine Puts.guarded hf (fun _ => rfl) (by simp only [decls_append, encodeTypeNum_decls]; rfl) ((hh.append (Puts.components hf)).congr ?_)
    simp only [tlv]
  have hsm := ha.small
  refine ⟨?_, ?_⟩
  · simp only [intoSigned, intoNoCopy]
    rw [sexec_plain, puts_at hw ha (by omega)]
    rfl
  · generalize hH : tlEnc num ++ tlEnc (Name.encBody n).length = H at hh
    have htlv : tlv num (Name.encBody n) = H ++ Name.encBody n := by rw [← hH]; rfl
    rw [htlv] at hr ⊢
    rw [List.length_append] at hr
    have e1 := puts_at hh ha (by omega)
    have a1 := ha.wrote (b := H) (by omega)
    have m1 := wrote_mem (ns := ss.ns) (k := 0) (a := 0) (b := H) (by omega)
    have hblk : ∀ b : Bytes, (ss.ns.blocks.set 0 b)[0]? = some b := by
      intro b
      cases hx : ss.ns.blocks with
      | nil => exact absurd hx hb
      | cons y l => rfl
    simp only [intoSigned, SCode.exec]
    rw [notNil_eval hf _ ha.value]
    simp only [ok_bind, GV.isNil, Bool.not_false, if_true]
    rw [sexec_append, sexec_append, sexec_plain, e1]
    simp only [map_ok, ok_bind]
    rw [sexec_of]
    have hv1 : (ss.ns.wrote 0 0 H).s.vars .pos = .num H.length := by simp [NS.wrote, upd]
    have hbody : (Name.encBody n.dropLast).length ≤ (Name.encBody n).length := by
      rcases getLast_split n with ⟨h1, _⟩ | ⟨b, x, h1, h2, _⟩
      · rw [h1]; simp
      · rw [h2, h1, encBody_append, List.length_append]; omega
    simp only [SAtom.exec, ok_bind, SCode.exec, numVar, hv1, fieldOfValue_eq a1.value hf, GV.elems]
    rw [show (List.map GV.comp n).dropLast = List.map GV.comp n.dropLast by rw [List.map_dropLast], heads_at a1 n.dropLast (by rw [m1]; omega),
      wrote_wrote (by rw [List.length_append]; omega)]
    simp only [map_ok, ok_bind]
    have a2 := ha.wrote (b := H ++ Name.encBody n.dropLast) (by rw [List.length_append]; omega)
    have m2 := wrote_mem (ns := ss.ns) (k := 0) (a := 0) (b := H ++ Name.encBody n.dropLast) (by rw [List.length_append]; omega)
    generalize hN2 : ss.ns.wrote 0 0 (H ++ Name.encBody n.dropLast) = ns2 at a2 m2 ⊢
    have hi2 : ns2.idx = 0 := by rw [← hN2]; exact hi
    rw [sexec_append, sexec_append, sexec_of]
    simp only [SAtom.exec, ok_bind, numVar, a2.pos]
    rw [sexec_of]
    simp only [SAtom.exec, SCode.exec, fieldOfValue_eq a2.value hf, GV.elems, ok_bind, hi2, Nat.zero_add]
    rw [List.getLast?_map]
    have hcov : ∀ (b : Bytes) (lo hi : Nat), b.length ≤ ss.ns.s.mem.length → lo ≤ hi → hi ≤ b.length →
        sliceRef (ss.ns.wrote 0 0 b).blocks (ss.ns.wrote 0 0 b).buf lo hi = .ok ⟨.own 0, lo, hi⟩ := by
      intro b lo hi h1 h2 h3
      simp only [sliceRef, NS.wrote, ha.buf, Ref.mem, hblk, Option.getD_some]
      rw [if_pos ⟨by omega, by omega, by rw [splice_length (by omega)]; omega⟩]
      simp
    rcases getLast_split n with ⟨h1, h2⟩ | ⟨b, x, h1, h2, h3⟩
    · subst h1
      have hN : ns2 = ss.ns.wrote 0 0 (H ++ Name.encBody []) := hN2.symm
      simp only [List.getLast?_nil, Option.map_none, ok_bind, List.dropLast_nil]
      rw [sexec_of]
      simp only [SAtom.exec]
      rw [hN, hcov _ _ _ (by rw [List.length_append]; omega) (by rw [List.length_append]; exact Nat.le_add_right _ _) (Nat.le_refl _)]
      simp only [map_ok, ok_bind]
      refine ⟨ss.at', ⟨.own 0, H.length, (H ++ Name.encBody []).length⟩, rfl, rfl, rfl, ?_, fun _ _ => rfl, fun h => absurd rfl h⟩
      simp [signedName, Name.encBody]
    · rw [h3]
      simp only [Option.map_some]
      have hx : (Name.encBody n) = Name.encBody n.dropLast ++ x.enc := by
        rw [h2]; conv => lhs; rw [h1]
        rw [encBody_append]; simp [Name.encBody]
      have hlx : (Name.encBody n).length = (Name.encBody n.dropLast).length + x.enc.length := by rw [hx, List.length_append]
      simp only [numVar, a2.pos]
      rw [comp_at a2 x (by rw [m2]; simp only [List.length_append]; omega), ← hN2, wrote_wrote (by simp only [List.length_append]; omega), List.append_assoc, ← hx]
      simp only [map_ok, ok_bind]
      have hv3 : (ss.ns.wrote 0 0 (H ++ Name.encBody n)).s.vars .pos = .num (H ++ Name.encBody n).length := by simp [NS.wrote, upd]
      have hmod : ((H ++ Name.encBody n.dropLast).length + 2) % 2 ^ 64 = H.length + (Name.encBody n.dropLast).length + 2 := by
        rw [Nat.mod_eq_of_lt (by rw [List.length_append]; omega), List.length_append]
      simp only [Nat.zero_add, hmod]
      by_cases hnd : ss.need f = true
      · simp only [SAtom.exec, hnd, if_true, ok_bind]
        rw [sexec_of]
        simp only [SAtom.exec]
        rw [hcov _ _ _ (by rw [List.length_append]; omega) (by rw [List.length_append]; omega) (by simp only [List.length_append]; omega)]
        refine ⟨_, ⟨.own 0, H.length, (H ++ Name.encBody n.dropLast).length⟩, rfl, rfl, rfl, ?_, ?_, ?_⟩
        · simp only [signedName, if_true, List.length_append]
        · intro k hk; simp [setAt, hk]
        · intro _; simp [setAt]
      · simp only [SAtom.exec, hnd, Bool.false_eq_true, if_false, numVar, hv3, ok_bind]
        rw [sexec_of]
        simp only [SAtom.exec]
        rw [hcov _ _ _ (by rw [List.length_append]; omega) (by rw [List.length_append]; omega) (Nat.le_refl _)]
        refine ⟨_, ⟨.own 0, H.length, (H ++ Name.encBody n).length⟩, rfl, rfl, rfl, ?_, ?_, ?_⟩
        · simp only [signedName, Bool.false_eq_true, if_false, List.length_append]
        · intro k hk; simp [setAt, hk]
        · intro _; simp [setAt]

end
end

end Ndn.Codec.Gen
