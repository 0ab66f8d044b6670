import Verif.Codec.ParseModels

/-!
# The statements of the emitted parser and the model of the parser: the loop and the method
-/

namespace Ndn.Codec.Gen

/-! ## One field of the wire -/

/-- the outcome of the `switch` for a known type -/
def Dispatched (ms : List TModel) (fs : Fields) (fields : List Field) (s : PS) (o : Out) : PR fs.St → Prop
  | none => o = .stuck
  | some (.panic, _) => o = .panic
  | some (.err x, _) => ∃ s', o = .next s' ∧ s'.err = some x ∧ s'.typ = s.typ
  | some (.ok st, r) => ∃ s', o = .next s' ∧ s'.err = none ∧ s'.rd = r ∧ r.Good ∧ StRel ms fs fields st s'.kvs s'.handledF ∧
      ∀ k, k ∉ fields.map Field.name → lookup k s'.kvs = lookup k s.kvs ∧ s'.handledF k = s.handledF k

theorem schemaOf_types {env : Txt → Option Fields} : ∀ (fields : List Field) (fs : Fields), schemaOf env fields = some fs → fs.types = fields.map Field.num
  | [], fs, h => by cases h; rfl
  | f :: l, fs, h => by
    rcases schemaOf_cons h with ⟨_, rest, h1, rfl⟩ | ⟨mode, e, rest, h1, h2, rfl⟩
    · simp [Fields.types, schemaOf_types l rest h1]
    · simp [Fields.types, schemaOf_types l rest h2]

/-- no case is for the type: the default is taken -/
theorem cases_default (E : Env) : ∀ (fields : List Field) (s : PS), s.typ ∉ fields.map Field.num →
    (casesCode fields).exec E s = (casesCode []).exec E s
  | [], _, _ => rfl
  | f :: l, s, h => by
    simp only [List.map_cons, List.mem_cons, not_or] at h
    rw [← cases_default E l s h.2]
    conv => lhs; rw [casesCode]
    split
    · simp only [P.exec, if_neg h.1]
    · rfl

theorem cases_skip (E : Env) {f : Field} {l : List Field} {s : PS} (h : s.typ ≠ f.num) : (casesCode (f :: l)).exec E s = (casesCode l).exec E s := by
  conv => lhs; rw [casesCode]
  split
  · simp only [P.exec, if_neg h]
  · rfl

theorem cases_take (E : Env) {f : Field} {l : List Field} {s : PS} (h : s.typ = f.num) (h0 : f.num ≠ 0) :
    (casesCode (f :: l)).exec E s =
      (readCode f.name f.cls).exec E { s with handled := true, handledF := fun g => if g = f.name then true else s.handledF g } := by
  conv => lhs; rw [casesCode]
  rw [if_pos h0]
  simp only [P.exec, P.all, if_pos h, Out.bind]

/-- the fields that follow do not see what the first one does -/
theorem StRel.after {ms : List TModel} {rest : Fields} {f : Field} {l : List Field} {st : rest.St} {s s' : PS} {g : GV} (hn : f.name ∉ l.map Field.name)
    (h : StRel ms rest l st s.kvs s.handledF) (hk : s'.kvs = setKv f.name g s.kvs)
    (hh : s'.handledF = fun k => if k = f.name then true else s.handledF k) : StRel ms rest l st s'.kvs s'.handledF := by
  refine StRel.congr ms rest l st _ _ _ _ (fun k hkm => ?_) h
  have hne : k ≠ f.name := by rintro rfl; exact hn hkm
  exact ⟨by rw [hk]; exact lookup_setKv_ne hne _ _, by rw [hh]; simp [hne]⟩

theorem dispatch_sim {ms : List TModel} {ic : Bool} {n : Nat} (E : Env) (hE : Calls ms ic E.fuel n E.call) : ∀ (fields : List Field) (fs : Fields),
    schemaOf (resolve ms n) fields = some fs → Named fields → (∀ f ∈ fields, f.num ≠ 0 ∧ f.cls.parsable (parsableAt ms n) = true) →
    ∀ (st : fs.St) (s : PS), s.err = none → s.rd.Good → StRel ms fs fields st s.kvs s.handledF → s.typ ∈ fields.map Field.num →
    Dispatched ms fs fields s ((casesCode fields).exec E s) (fs.dispatch ic E.fuel s.typ s.l st s.rd)
  | [], _, _, _, _, _, _, _, _, _, ht => by simp at ht
  | f :: l, fs, hf, hn, hp, st, s, he, hg, hr, ht => by
    have hn' := List.nodup_cons.1 hn
    have hp' : ∀ g ∈ l, g.num ≠ 0 ∧ g.cls.parsable (parsableAt ms n) = true := fun g hg => hp g (by simp [hg])
    obtain ⟨h0, hpf⟩ := hp f (by simp)
    obtain ⟨s1, hs1⟩ : ∃ s1 : PS, s1 = { s with handled := true, handledF := fun g => if g = f.name then true else s.handledF g } := ⟨_, rfl⟩
    have k1 : s1.err = none := by rw [hs1]; exact he
    have k2 : s1.rd = s.rd := by rw [hs1]
    have k3 : s1.l = s.l := by rw [hs1]
    have k4 : s1.typ = s.typ := by rw [hs1]
    have k5 : s1.kvs = s.kvs := by rw [hs1]
    have k6 : s1.handledF = fun g => if g = f.name then true else s.handledF g := by rw [hs1]
    have hframe : ∀ {s' : PS} {g : GV}, s'.kvs = setKv f.name g s1.kvs → s'.handledF = s1.handledF → ∀ k, k ∉ (f :: l).map Field.name →
        lookup k s'.kvs = lookup k s.kvs ∧ s'.handledF k = s.handledF k := by
      intro s' g h1 h2 k hk
      simp only [List.map_cons, List.mem_cons, not_or] at hk
      refine ⟨by rw [h1, k5]; exact lookup_setKv_ne hk.1 _ _, by rw [h2, k6]; simp [hk.1]⟩
    -- another field
    have hother : ∀ (rest : Fields) (st' : rest.St), schemaOf (resolve ms n) l = some rest → s.typ ≠ f.num → StRel ms rest l st' s.kvs s.handledF →
        Dispatched ms rest l s ((casesCode (f :: l)).exec E s) (rest.dispatch ic E.fuel s.typ s.l st' s.rd) := by
      intro rest st' h1 hne h2
      rw [cases_skip E hne]
      refine dispatch_sim E hE l rest h1 hn'.2 hp' st' s he hg h2 ?_
      simp only [List.map_cons, List.mem_cons] at ht
      exact ht.resolve_left hne
    rcases schemaOf_cons hf with ⟨hb, rest, h1, rfl⟩ | ⟨mode, e, rest, h1, h2, rfl⟩
    · obtain ⟨b, st⟩ := st
      simp only [StRel] at hr
      obtain ⟨f', l', hfl, r1, r2, r3, r4, r5⟩ := hr
      cases hfl
      show Dispatched ms (.flag f.num rest) (f :: l) s _ (if s.typ = f.num then some (.ok (true, st), s.rd)
        else PR.map (fun st' => (b, st')) (Fields.dispatch ic E.fuel rest s.typ s.l st s.rd))
      by_cases htyp : s.typ = f.num
      · rw [if_pos htyp, cases_take E htyp h0, ← hs1, hb]
        refine ⟨s1.put f.name (.bool true), rfl, k1, k2, hg, ?_, hframe rfl rfl⟩
        simp only [StRel]
        refine ⟨f, l, rfl, rfl, hb, by simp [PS.put, k6], fun _ => by simp [PS.put, lookup_setKv], ?_⟩
        exact StRel.after (g := .bool true) hn'.1 r5 (by simp [PS.put, k5]) (by simp [PS.put, k6])
      · rw [if_neg htyp]
        have := hother rest st h1 htyp r5
        rcases hq : Fields.dispatch ic E.fuel rest s.typ s.l st s.rd with _ | ⟨st' | x | _, r'⟩
        · rw [hq] at this; exact this
        · rw [hq] at this
          obtain ⟨s', a1, a2, a3, a4, a5, a6⟩ := this
          refine ⟨s', a1, a2, a3, a4, ?_, fun k hk => a6 k (by simp only [List.map_cons, List.mem_cons, not_or] at hk; exact hk.2)⟩
          obtain ⟨e1, e2⟩ := a6 f.name hn'.1
          simp only [StRel]
          exact ⟨f, l, rfl, rfl, hb, by rw [e2]; exact r3, by rw [e1]; exact r4, a5⟩
        · rw [hq] at this; exact this
        · rw [hq] at this; exact this
    · cases mode with
      | req =>
        obtain ⟨o, st⟩ := st
        simp only [StRel] at hr
        obtain ⟨f', l', hfl, r1, r3, r4, r5⟩ := hr
        cases hfl
        show Dispatched ms (.cons f.num .req e rest) (f :: l) s _ (if s.typ = f.num then PR.map (fun v => (Mode.store .req o v, st)) (Elem.read ic E.fuel e s.l s.rd)
          else PR.map (fun st' => (o, st')) (Fields.dispatch ic E.fuel rest s.typ s.l st s.rd))
        by_cases htyp : s.typ = f.num
        · rw [if_pos htyp, cases_take E htyp h0, ← hs1]
          have hy := one_yields E hE f.name hpf h1 (by decide) s1 k1 (by rw [k2]; exact hg)
          rw [k2, k3] at hy
          rcases hq : Elem.read ic E.fuel e s.l s.rd with _ | ⟨v | x | _, r'⟩
          · rw [hq] at hy; exact hy
          · rw [hq] at hy
            obtain ⟨s', g, c1, c2, c3, c4, c5, c6, c7, c8⟩ := hy
            refine ⟨s', c1, c2, c3, c4, ?_, hframe c5 c8⟩
            simp only [StRel, Mode.store]
            refine ⟨f, l, rfl, rfl, by rw [c8, k6]; simp, fun v' hv => ?_, StRel.after (g := g) hn'.1 r5 (by rw [c5, k5]) (by rw [c8, k6])⟩
            cases hv
            exact ⟨g, by rw [c5, lookup_setKv], c6⟩
          · rw [hq] at hy
            obtain ⟨s', c1, c2, c3, c4, c5⟩ := hy
            exact ⟨s', c1, c2, c3.trans k4⟩
          · rw [hq] at hy; exact hy
        · rw [if_neg htyp]
          have := hother rest st h2 htyp r5
          rcases hq : Fields.dispatch ic E.fuel rest s.typ s.l st s.rd with _ | ⟨st' | x | _, r'⟩
          · rw [hq] at this; exact this
          · rw [hq] at this
            obtain ⟨s', a1, a2, a3, a4, a5, a6⟩ := this
            refine ⟨s', a1, a2, a3, a4, ?_, fun k hk => a6 k (by simp only [List.map_cons, List.mem_cons, not_or] at hk; exact hk.2)⟩
            obtain ⟨e1, e2⟩ := a6 f.name hn'.1
            simp only [StRel]
            exact ⟨f, l, rfl, rfl, by rw [e2]; exact r3, by rw [e1]; exact r4, a5⟩
          · rw [hq] at this; exact this
          · rw [hq] at this; exact this
      | opt =>
        obtain ⟨o, st⟩ := st
        simp only [StRel] at hr
        obtain ⟨f', l', hfl, r1, r3, r4, r5⟩ := hr
        cases hfl
        show Dispatched ms (.cons f.num .opt e rest) (f :: l) s _ (if s.typ = f.num then PR.map (fun v => (Mode.store .opt o v, st)) (Elem.read ic E.fuel e s.l s.rd)
          else PR.map (fun st' => (o, st')) (Fields.dispatch ic E.fuel rest s.typ s.l st s.rd))
        by_cases htyp : s.typ = f.num
        · rw [if_pos htyp, cases_take E htyp h0, ← hs1]
          have hy := one_yields E hE f.name hpf h1 (by decide) s1 k1 (by rw [k2]; exact hg)
          rw [k2, k3] at hy
          rcases hq : Elem.read ic E.fuel e s.l s.rd with _ | ⟨v | x | _, r'⟩
          · rw [hq] at hy; exact hy
          · rw [hq] at hy
            obtain ⟨s', g, c1, c2, c3, c4, c5, c6, c7, c8⟩ := hy
            refine ⟨s', c1, c2, c3, c4, ?_, hframe c5 c8⟩
            simp only [StRel, Mode.store]
            refine ⟨f, l, rfl, rfl, by rw [c8, k6]; simp, fun v' hv => ?_, StRel.after (g := g) hn'.1 r5 (by rw [c5, k5]) (by rw [c8, k6])⟩
            cases hv
            exact ⟨g, by rw [c5, lookup_setKv], c6⟩
          · rw [hq] at hy
            obtain ⟨s', c1, c2, c3, c4, c5⟩ := hy
            exact ⟨s', c1, c2, c3.trans k4⟩
          · rw [hq] at hy; exact hy
        · rw [if_neg htyp]
          have := hother rest st h2 htyp r5
          rcases hq : Fields.dispatch ic E.fuel rest s.typ s.l st s.rd with _ | ⟨st' | x | _, r'⟩
          · rw [hq] at this; exact this
          · rw [hq] at this
            obtain ⟨s', a1, a2, a3, a4, a5, a6⟩ := this
            refine ⟨s', a1, a2, a3, a4, ?_, fun k hk => a6 k (by simp only [List.map_cons, List.mem_cons, not_or] at hk; exact hk.2)⟩
            obtain ⟨e1, e2⟩ := a6 f.name hn'.1
            simp only [StRel]
            exact ⟨f, l, rfl, rfl, by rw [e2]; exact r3, by rw [e1]; exact r4, a5⟩
          · rw [hq] at this; exact this
          · rw [hq] at this; exact this
      | seq =>
        obtain ⟨xs, st⟩ := st
        simp only [StRel] at hr
        obtain ⟨f', l', hfl, r1, ⟨ty, sub, r2, g0, gs, r3, r4, r6, r7⟩, r5⟩ := hr
        cases hfl
        show Dispatched ms (.cons f.num .seq e rest) (f :: l) s _ (if s.typ = f.num then PR.map (fun v => (Mode.store .seq xs v, st)) (Elem.read ic E.fuel e s.l s.rd)
          else PR.map (fun st' => (xs, st')) (Fields.dispatch ic E.fuel rest s.typ s.l st s.rd))
        by_cases htyp : s.typ = f.num
        · rw [if_pos htyp, cases_take E htyp h0, ← hs1]
          obtain ⟨ty', sub', mode', hc, hmode, hsub⟩ := seq_elem h1
          rw [r2] at hc; cases hc
          have hpsub : sub.parsable (parsableAt ms n) = true := by
            rw [r2] at hpf; simpa only [Cls.parsable] using hpf
          have hy := seq_yields E hE f.name ty hpsub hsub hmode s1 k1 (by rw [k2]; exact hg) (g0 := g0) (gs := gs) (by rw [k5]; exact r3) r4
          rw [k2, k3] at hy
          rw [r2]
          rcases hq : Elem.read ic E.fuel e s.l s.rd with _ | ⟨v | x | _, r'⟩
          · rw [hq] at hy; exact hy
          · rw [hq] at hy
            obtain ⟨s', g, c1, c2, c3, c4, c5, ⟨x, rfl, c6⟩, c7, c8⟩ := hy
            refine ⟨s', c1, c2, c3, c4, ?_, hframe c5 c8⟩
            simp only [StRel, Mode.store]
            refine ⟨f, l, rfl, rfl, ⟨ty, sub, r2, .arr (gs ++ [x]), gs ++ [x], by rw [c5, lookup_setKv], Or.inl rfl, by simp [r6], ?_⟩,
              StRel.after (g := .arr (gs ++ [x])) hn'.1 r5 (by rw [c5, k5]) (by rw [c8, k6])⟩
            intro i y g hy hg'
            by_cases hi : i < xs.length
            · rw [List.getElem?_append_left hi] at hy
              rw [List.getElem?_append_left (by omega)] at hg'
              exact r7 i y g hy hg'
            · have hi' : i = xs.length := by
                have := (List.getElem?_eq_some_iff.1 hy).1
                simp only [List.length_append, List.length_singleton] at this
                omega
              subst hi'
              rw [List.getElem?_append_right (Nat.le_refl _)] at hy
              rw [← r6, List.getElem?_append_right (Nat.le_refl _)] at hg'
              simp at hy hg'
              rw [← hy, ← hg']; exact c6
          · rw [hq] at hy
            obtain ⟨s', c1, c2, c3, c4, c5⟩ := hy
            exact ⟨s', c1, c2, c3.trans k4⟩
          · rw [hq] at hy; exact hy
        · rw [if_neg htyp]
          have := hother rest st h2 htyp r5
          rcases hq : Fields.dispatch ic E.fuel rest s.typ s.l st s.rd with _ | ⟨st' | x | _, r'⟩
          · rw [hq] at this; exact this
          · rw [hq] at this
            obtain ⟨s', a1, a2, a3, a4, a5, a6⟩ := this
            refine ⟨s', a1, a2, a3, a4, ?_, fun k hk => a6 k (by simp only [List.map_cons, List.mem_cons, not_or] at hk; exact hk.2)⟩
            obtain ⟨e1, e2⟩ := a6 f.name hn'.1
            simp only [StRel]
            exact ⟨f, l, rfl, rfl, ⟨ty, sub, r2, g0, gs, by rw [e1]; exact r3, r4, r6, r7⟩, a5⟩
          · rw [hq] at this; exact this
          · rw [hq] at this; exact this

/-! ## The loop -/

/-- the outcome of the loop -/
def Looped (ms : List TModel) (fs : Fields) (fields : List Field) (o : Out) : PR fs.St → Prop
  | none => o = .stuck
  | some (.panic, _) => o = .panic
  | some (.err x, _) => ∃ s', o = .ret .nil (some x) s'
  | some (.ok st, _) => ∃ s', o = .next s' ∧ StRel ms fs fields st s'.kvs s'.handledF

theorem skip_cases {l : Int} {r : BR} (hg : r.Good) :
    (∃ r', BR.skip l r = (.ok (), r') ∧ r'.Good) ∨ (∃ e r', BR.skip l r = (.err e, r')) := by
  simp only [BR.skip]
  split
  · exact .inr ⟨_, _, rfl⟩
  · split
    · exact .inr ⟨_, _, rfl⟩
    · exact .inl ⟨_, rfl, by simp only; omega, hg.2⟩

theorem loop_sim {ms : List TModel} {ic : Bool} {n : Nat} (E : Env) (hic : E.ic = ic) (hE : Calls ms ic E.fuel n E.call) {fields : List Field} {fs : Fields}
    (hf : schemaOf (resolve ms n) fields = some fs) (hn : Named fields)
    (hp : ∀ f ∈ fields, f.num ≠ 0 ∧ f.cls.parsable (parsableAt ms n) = true) :
    ∀ (k : Nat) (st : fs.St) (s : PS), s.rd.Good → StRel ms fs fields st s.kvs s.handledF →
    Looped ms fs fields (rounds ((roundCode fields).exec E) k s) (parseLoop ic (fun t => fs.types.contains t) (Fields.dispatch ic E.fuel fs) k st s.rd)
  | 0, st, s, hg, hr => rfl
  | k + 1, st, s, hg, hr => by
    rw [parseLoop]
    by_cases hend : s.rd.pos ≥ s.rd.buf.length
    · rw [if_pos hend]
      refine ⟨{ s with startPos := s.rd.pos }, ?_, hr⟩
      simp only [rounds, roundCode, P.all, P.exec, Out.bind, if_pos hend]
    · rw [if_neg hend]
      rcases tlBoth_cases s.rd hg with ⟨typ, r1, a1, a2, a3, a4⟩ | ⟨k1, e1, r1, a1, a2, a3, a4, a5⟩
      · rcases tlBoth_cases r1 a4 with ⟨l, r2, b1, b2, b3, b4⟩ | ⟨k2, e2, r2, b1, b2, b3, b4, b5⟩
        · obtain ⟨s1, hs1⟩ : ∃ s1 : PS, s1 = { s with startPos := s.rd.pos, typ := typ, l := l, err := none, rd := r2, handled := false } := ⟨_, rfl⟩
          have hround : (roundCode fields).exec E s = (P.all [.switch (casesCode fields), .ifUnhandled .skip, .ifErr .retFail]).exec E s1 := by
            rw [hs1]
            simp only [roundCode, tlvNumberDecode, P.all, P.exec, Out.bind, if_neg hend, a2, b2, Option.isSome_none, Bool.false_eq_true, if_false]
          have k1 : s1.err = none := by rw [hs1]
          have k2 : s1.rd = r2 := by rw [hs1]
          have k3 : s1.l = l := by rw [hs1]
          have k4 : s1.typ = typ := by rw [hs1]
          have k5 : s1.kvs = s.kvs := by rw [hs1]
          have k6 : s1.handledF = s.handledF := by rw [hs1]
          have hr1 : StRel ms fs fields st s1.kvs s1.handledF := by rw [k5, k6]; exact hr
          rw [a1]; simp only; rw [b1]; simp only
          by_cases hk : fs.types.contains typ = true
          · rw [if_pos hk]
            have htyp : s1.typ ∈ fields.map Field.num := by
              rw [k4, ← schemaOf_types fields fs hf]; simpa using hk
            have hd := dispatch_sim E hE fields fs hf hn hp st s1 k1 (by rw [k2]; exact b4) hr1 htyp
            rw [k2, k3, k4] at hd
            rcases hq : Fields.dispatch ic E.fuel fs typ l st r2 with _ | ⟨st' | x | _, r'⟩
            · rw [hq] at hd
              have hd' : (casesCode fields).exec E s1 = .stuck := hd
              simp only [rounds, hround, P.all, P.exec, hd', Out.bind]; rfl
            · rw [hq] at hd
              obtain ⟨s', d1, d2, d3, d4, d5, d6⟩ := hd
              have e1 : (roundCode fields).exec E s = .next s' := by
                rw [hround]
                simp [P.all, P.exec, d1, Out.bind, d2]
              have := loop_sim E hic hE hf hn hp k st' s' (by rw [d3]; exact d4) d5
              rw [d3] at this
              simpa only [rounds, e1] using this
            · rw [hq] at hd
              obtain ⟨s', d1, d2, d3⟩ := hd
              have e1 : (roundCode fields).exec E s = .ret .nil (some (.failToParse typ x)) s' := by
                rw [hround]
                simp [P.all, P.exec, d1, Out.bind, d2, d3, k4]
              exact ⟨s', by simp only [rounds, e1]⟩
            · rw [hq] at hd
              have hd' : (casesCode fields).exec E s1 = .panic := hd
              simp only [rounds, hround, P.all, P.exec, hd', Out.bind]; rfl
          · rw [if_neg hk]
            have htyp : s1.typ ∉ fields.map Field.num := by
              rw [k4, ← schemaOf_types fields fs hf]; simpa using hk
            have hd := cases_default E fields s1 htyp
            by_cases hcrit : (!ic && isCritical typ) = true
            · rw [if_pos hcrit]
              refine ⟨s1, ?_⟩
              have hd' : (casesCode fields).exec E s1 = .ret .nil (some (.unrecognized typ)) s1 := by
                rw [hd]
                have : (!E.ic && (decide (s1.typ ≤ 31) || s1.typ % 2 == 1)) = true := by rw [hic, k4]; exact hcrit
                simp only [casesCode, P.all, P.exec, if_pos this, Out.bind]
                rw [k4]
              simp only [rounds, hround, P.all, P.exec, hd', Out.bind]
            · rw [if_neg hcrit]
              have hcrit' : ¬ (!E.ic && (decide (s1.typ ≤ 31) || s1.typ % 2 == 1)) = true := by rw [hic, k4]; exact hcrit
              rcases skip_cases (l := toInt l) b4 with ⟨r3, c1, c2⟩ | ⟨e, r3, c1⟩
              · rw [c1]
                have e1 : (roundCode fields).exec E s = .next { s1 with handled := true, err := none, rd := r3 } := by
                  rw [hround]
                  simp only [P.all, P.exec, hd, casesCode, if_neg hcrit', Out.bind, k2, k3, c1, Res.asErr]
                  simp
                have := loop_sim E hic hE hf hn hp k st { s1 with handled := true, err := none, rd := r3 } c2 hr1
                simpa only [rounds, e1] using this
              · rw [c1]
                refine ⟨{ s1 with handled := true, err := some e, rd := r3 }, ?_⟩
                simp only [rounds, hround, P.all, P.exec, hd, casesCode, if_neg hcrit', Out.bind, k2, k3, c1, Res.asErr]
                simp [k4]
        · rw [a1]; simp only; rw [b1]
          refine ⟨{ s with startPos := s.rd.pos, typ := typ, l := k2, err := some e2, rd := r2 }, ?_⟩
          simp only [rounds, roundCode, tlvNumberDecode, P.all, P.exec, Out.bind, if_neg hend, a2, b2, Option.isSome_none, Bool.false_eq_true, if_false,
            Option.isSome_some, if_true, Option.map]
      · rw [a1]
        refine ⟨{ s with startPos := s.rd.pos, typ := k1, l := 0, err := some e1, rd := r1 }, ?_⟩
        simp only [rounds, roundCode, tlvNumberDecode, P.all, P.exec, Out.bind, if_neg hend, a2, Option.isSome_some, if_true, Option.map]

/-! ## The method -/

theorem decls_exec (E : Env) : ∀ (fields : List Field) (s : PS), ∃ h, (declsCode fields).exec E s = .next { s with handledF := h } ∧
    (∀ k, s.handledF k = false → h k = false) ∧ ∀ f ∈ fields, h f.name = false
  | [], s => ⟨s.handledF, rfl, fun _ h => h, by simp⟩
  | f :: l, s => by
    obtain ⟨h, h1, h2, h3⟩ := decls_exec E l { s with handledF := fun g => if g = f.name then false else s.handledF g }
    refine ⟨h, ?_, fun k hk => h2 k ?_, ?_⟩
    · simp only [declsCode, P.exec, Out.bind, h1]
    · simp only; split
      · rfl
      · exact hk
    · intro g hg
      rcases List.mem_cons.1 hg with rfl | hg
      · exact h2 _ (by simp)
      · exact h3 g hg

theorem zero_lookup {α : Type} (name : α → Txt) (val : α → GV) : ∀ (l : List α), (l.map name).Nodup → ∀ a ∈ l, lookup (name a) (l.map fun a => (name a, val a)) = some (val a)
  | [], _, _, h => by cases h
  | b :: l, hn, a, h => by
    have hn' := List.nodup_cons.1 hn
    rcases List.mem_cons.1 h with rfl | h
    · simp [lookup]
    · have hne : name b ≠ name a := fun e => hn'.1 (by rw [e]; exact List.mem_map_of_mem h)
      simp only [List.map_cons, lookup, if_neg hne]
      exact zero_lookup name val l hn'.2 a h

theorem init_rel (ms : List TModel) {env : Txt → Option Fields} {kvs : List (Txt × GV)} {h : Txt → Bool} : ∀ (fields : List Field) (fs : Fields),
    schemaOf env fields = some fs → (∀ f ∈ fields, lookup f.name kvs = some (zeroCls f.cls)) → (∀ f ∈ fields, h f.name = false) →
    StRel ms fs fields fs.init kvs h
  | [], fs, hf, _, _ => by cases hf; simp only [StRel]
  | f :: l, fs, hf, hk, hh => by
    have ih := fun rest (hr : schemaOf env l = some rest) => init_rel ms (kvs := kvs) (h := h) l rest hr (fun g hg => hk g (by simp [hg])) (fun g hg => hh g (by simp [hg]))
    rcases schemaOf_cons hf with ⟨hb, rest, h1, rfl⟩ | ⟨mode, e, rest, h1, h2, rfl⟩
    · simp only [StRel, Fields.init]
      exact ⟨f, l, rfl, rfl, hb, hh f (by simp), by simp, ih rest h1⟩
    · cases mode with
      | req =>
        simp only [StRel, Fields.init]
        exact ⟨f, l, rfl, rfl, hh f (by simp), fun v hv => (by cases hv), ih rest h2⟩
      | opt =>
        simp only [StRel, Fields.init]
        exact ⟨f, l, rfl, rfl, hh f (by simp), fun v hv => (by cases hv), ih rest h2⟩
      | seq =>
        obtain ⟨ty, sub, _, hc, _, _⟩ := seq_elem h1
        have := hk f (by simp)
        rw [hc] at this
        simp only [StRel, Fields.init]
        exact ⟨f, l, rfl, rfl, ⟨ty, sub, hc, .nil, [], this, Or.inr ⟨rfl, rfl⟩, rfl, fun i x g hx => by simp at hx⟩, ih rest h2⟩

theorem parse_sim (ms : List TModel) (ic : Bool) (fuel : Nat) : ∀ (n depth : Nat), n ≤ depth → Calls ms ic fuel n fun t r => parseOf ms ic fuel depth t (some r)
  | 0, _, _ => fun t fs hp _ => by simp [parsableAt] at hp
  | n + 1, 0, h => by omega
  | n + 1, depth + 1, h => by
    intro t fs hp hr r hg
    obtain ⟨m, n', hnn, hm, hn, hall⟩ := parsableAt_find hp
    cases hnn
    simp only [resolve, hm] at hr
    have hE := parse_sim ms ic fuel n depth (by omega)
    obtain ⟨E, hEdef⟩ : ∃ E : Env, E = ⟨fun t r => parseOf ms ic fuel depth t (some r), ic, fuel, m.fields.map fun f => (f.name, zeroCls f.cls)⟩ := ⟨_, rfl⟩
    have q1 : E.call = fun t r => parseOf ms ic fuel depth t (some r) := by rw [hEdef]
    have q2 : E.ic = ic := by rw [hEdef]
    have q3 : E.fuel = fuel := by rw [hEdef]
    have q4 : E.zero = m.fields.map fun f => (f.name, zeroCls f.cls) := by rw [hEdef]
    rw [← q1, ← q3] at hE
    obtain ⟨hd, d1, d2, d3⟩ := decls_exec E m.fields (start (some r))
    obtain ⟨s1, hs1⟩ : ∃ s1 : PS, s1 = { start (some r) with handledF := hd, progress := -1, kvs := E.zero, err := none, startPos := 0 } := ⟨_, rfl⟩
    have k2 : s1.rd = r := by rw [hs1]; rfl
    have hrel : StRel ms fs m.fields fs.init s1.kvs s1.handledF := by
      refine init_rel ms m.fields fs hr (fun f hf => ?_) (fun f hf => ?_)
      · rw [hs1]
        show lookup f.name E.zero = _
        rw [q4]
        exact zero_lookup Field.name (fun f => zeroCls f.cls) m.fields hn f hf
      · rw [hs1]; exact d3 f hf
    have hl := loop_sim E q2 hE hr hn hall fuel fs.init s1 (by rw [k2]; exact hg) hrel
    rw [k2, q3] at hl
    have hbody : (parseBody m).exec E (start (some r)) = (rounds ((roundCode m.fields).exec E) fuel s1).bind
        ((P.all [.setStart, .noErr, finishCode m.fields, .ifErr .retErr, .retValue]).exec E) := by
      rw [hs1]
      have d0 : (P.ifNilReader .retNil).exec E (start (some r)) = .next (start (some r)) := rfl
      simp only [parseBody, P.all]
      rw [P.exec, d0, Out.bind, P.exec, d1]
      simp only [P.exec, Out.bind, q3]
    have hpar : parseOf ms ic fuel (depth + 1) t (some r) = (match (parseBody m).exec E (start (some r)) with
        | .ret g e _ => .ret g e
        | .stuck => .stuck
        | _ => .panic) := by
      rw [hEdef]
      simp only [parseOf, hm]
      generalize P.exec _ _ _ = o
      cases o <;> rfl
    show Answers ms t fs (parseOf ms ic fuel (depth + 1) t (some r)) (fs.parse ic fuel r)
    rw [hpar, hbody]
    unfold Fields.parse
    rcases hq : parseLoop ic (fun t => fs.types.contains t) (Fields.dispatch ic fuel fs) fuel fs.init r with _ | ⟨st | x | _, r'⟩
    · rw [hq] at hl
      rw [show rounds ((roundCode m.fields).exec E) fuel s1 = .stuck from hl]
      rfl
    · rw [hq] at hl
      obtain ⟨s2, l1, l2⟩ := hl
      rw [l1]
      have hfin := finish_sim ms E m.fields fs hr hn st { s2 with startPos := s2.rd.pos, err := none } rfl l2
      simp only
      cases hv : fs.finish st with
      | ok v =>
        rw [hv] at hfin
        obtain ⟨s3, f1, f2, f3, _⟩ := hfin
        refine ⟨.ptr (.struct s3.kvs), ?_, m, s3.kvs, hm, rfl, f3⟩
        simp only [Out.bind, P.all, P.exec, f1, f2]
        simp
      | err x =>
        rw [hv] at hfin
        obtain ⟨s3, f1, f2⟩ := hfin
        simp only [Answers, Out.bind, P.all, P.exec, f1, f2]
        simp
      | panic => rw [hv] at hfin; exact absurd hfin id
    · rw [hq] at hl
      obtain ⟨s2, l1⟩ := hl
      rw [l1]
      rfl
    · rw [hq] at hl
      rw [show rounds ((roundCode m.fields).exec E) fuel s1 = .panic from hl]
      rfl

end Ndn.Codec.Gen
