import Verif.Codec.ParseFields
import Verif.Codec.RunProps

/-!
# The statements of the emitted parser and the model of the parser: whole models
-/

namespace Ndn.Codec.Gen

/-- a field class of the part of the generator that is covered, with references to the types that `ok` admits -/
def Cls.parsable (ok : Txt → Bool) : Cls → Bool
  | .natural _ => true
  | .fixedUint w _ => w == 1 || w == 2 || w == 4 || w == 8
  | .time _ => true
  | .binary => true
  | .string _ => true
  | .wire _ => true
  | .name => true
  | .bool => true
  | .struct t _ => ok t
  | .sequence _ sub => sub.parsable ok
  | _ => false

/-- the model called `t` and the models that it refers to are covered: no `ordered`, maps and fields of packets, fields have different names and type numbers
other than 0 -/
def parsableAt (ms : List TModel) : Nat → Txt → Bool
  | 0, _ => false
  | fuel + 1, t =>
    match ms.find? fun m => m.name == t with
    | some m => !m.opts.ordered && decide (m.fields.map Field.name).Nodup && m.fields.all fun f => f.num != 0 && f.cls.parsable (parsableAt ms fuel)
    | none => false

theorem parsableAt_find {ms : List TModel} {fuel : Nat} {t : Txt} (h : parsableAt ms fuel t = true) :
    ∃ m fuel', fuel = fuel' + 1 ∧ (ms.find? fun m => m.name == t) = some m ∧ Named m.fields ∧
      ∀ f ∈ m.fields, f.num ≠ 0 ∧ f.cls.parsable (parsableAt ms fuel') = true := by
  cases fuel with
  | zero => simp [parsableAt] at h
  | succ fuel =>
    simp only [parsableAt] at h
    split at h
    · rename_i m hm
      simp only [Bool.and_eq_true, decide_eq_true_eq, List.all_eq_true, bne_iff_ne] at h
      exact ⟨m, fuel, rfl, hm, h.1.2, h.2⟩
    · cases h

/-- what a call of `Parse` of the type `t` gives is the outcome of parsing -/
def Answers (ms : List TModel) (t : Txt) (fs : Fields) (c : Called) : PR fs.V → Prop
  | none => c = .stuck
  | some (.panic, _) => c = .panic
  | some (.err x, _) => c = .ret .nil (some x)
  | some (.ok v, _) => ∃ g, c = .ret g none ∧ StandsFor ms t fs v g

/-- `Parse` of the types with references of depth up to `n` does as it should -/
def Calls (ms : List TModel) (ic : Bool) (fuel n : Nat) (call : Txt → BR → Called) : Prop :=
  ∀ t fs, parsableAt ms n t = true → resolve ms n t = some fs → ∀ r : BR, r.Good → Answers ms t fs (call t r) (fs.parse ic fuel r)

theorem Yields.mono {α : Type} {Q Q' : α → GV → Prop} {f : Txt} {s : PS} {o : Out} {x : PR α} (h : ∀ v g, Q v g → Q' v g) (hy : Yields Q f s o x) :
    Yields Q' f s o x := by
  rcases x with _ | ⟨v | e | _, r⟩
  · exact hy
  · obtain ⟨s', g, a1, a2, a3, a4, a5, a6, a7⟩ := hy
    exact ⟨s', g, a1, a2, a3, a4, a5, h v g a6, a7⟩
  · exact hy
  · exact hy

theorem delegate_cases {l : Int} {r : BR} (hg : r.Good) :
    (∃ sub r', BR.delegate l r = (.ok sub, r') ∧ sub.Good ∧ r'.Good) ∨ (∃ r', BR.delegate l r = (.panic, r')) := by
  unfold BR.delegate
  split
  · exact .inl ⟨_, _, rfl, BR.Good.new (by simp), hg⟩
  · unfold BR.slice
    split
    · rename_i h
      split at h
      · cases h
        refine .inl ⟨_, _, rfl, BR.Good.new ?_, ?_, hg.2⟩
        · have := hg.2
          simp only [List.length_take, List.length_drop]
          omega
        · simp only; omega
      · cases h
    · exact .inr ⟨_, rfl⟩

theorem struct_yields {ms : List TModel} {ic : Bool} {n : Nat} (E : Env) (hE : Calls ms ic E.fuel n E.call) (f : Txt) {t : Txt} {nc : Bool} {fs : Fields}
    (hp : parsableAt ms n t = true) (hr : resolve ms n t = some fs) (s : PS) (hg : s.rd.Good) :
    Yields (Stands ms (.struct fs) (.struct t nc)) f s ((readCode f (.struct t nc)).exec E s) (Elem.read ic E.fuel (.struct fs) s.l s.rd) := by
  rcases delegate_cases (l := toInt s.l) hg with ⟨sub, r', hd, hs, hg'⟩ | ⟨r', hd⟩
  · have hc := hE t fs hp hr sub hs
    have e1 : (readCode f (.struct t nc)).exec E s = (match E.call t sub with
        | .ret g e => .next (({ s with err := e, rd := r' } : PS).put f g)
        | .panic => .panic
        | .stuck => .stuck) := by
      simp only [readCode, P.exec, hd]
      cases E.call t sub <;> rfl
    have e2 : Elem.read ic E.fuel (.struct fs) s.l s.rd = (match fs.parse ic E.fuel sub with
        | none => none
        | some (x, _) => some (x, r')) := by
      show (match BR.delegate (toInt s.l) s.rd with
        | (.ok sub, r1) =>
          match parseLoop ic (fun t => fs.types.contains t) (Fields.dispatch ic E.fuel fs) E.fuel fs.init sub with
          | none => none
          | some (.ok st, _) => some (fs.finish st, r1)
          | some (.err e, _) => some (.err e, r1)
          | some (.panic, _) => some (.panic, r1)
        | (.err e, r1) => some (.err e, r1)
        | (.panic, r1) => some (.panic, r1)) = _
      rw [hd]
      simp only [Fields.parse]
      rcases parseLoop ic (fun t => fs.types.contains t) (Fields.dispatch ic E.fuel fs) E.fuel fs.init sub with _ | ⟨_ | _ | _, _⟩ <;> rfl
    rw [e1, e2]
    rcases hq : fs.parse ic E.fuel sub with _ | ⟨v | e | _, r''⟩
    · rw [hq] at hc; rw [show E.call t sub = .stuck from hc]; rfl
    · rw [hq] at hc
      obtain ⟨g, h1, m, kvs, h2, rfl, h3⟩ := hc
      rw [h1]
      obtain ⟨m', _, _, hm', hn, _⟩ := parsableAt_find hp
      rw [h2] at hm'; cases hm'
      exact ⟨_, _, rfl, rfl, rfl, hg', rfl, ⟨t, nc, m, kvs, rfl, h2, hn, rfl, h3⟩, rfl, rfl⟩
    · rw [hq] at hc
      rw [show E.call t sub = .ret .nil (some e) from hc]
      exact ⟨_, rfl, rfl, rfl, rfl, fun _ => isSome_put⟩
    · rw [hq] at hc; rw [show E.call t sub = .panic from hc]; rfl
  · have e1 : (readCode f (.struct t nc)).exec E s = .panic := by simp only [readCode, P.exec, hd]
    have e2 : Elem.read ic E.fuel (.struct fs) s.l s.rd = some (.panic, r') := by
      show (match BR.delegate (toInt s.l) s.rd with
        | (.ok sub, r1) =>
          match parseLoop ic (fun t => fs.types.contains t) (Fields.dispatch ic E.fuel fs) E.fuel fs.init sub with
          | none => none
          | some (.ok st, _) => some (fs.finish st, r1)
          | some (.err e, _) => some (.err e, r1)
          | some (.panic, _) => some (.panic, r1)
        | (.err e, r1) => some (.err e, r1)
        | (.panic, r1) => some (.panic, r1)) = _
      simp only [hd]
      rfl
    rw [e1, e2]; rfl

/-- fields other than flags and sequences -/
theorem one_yields {ms : List TModel} {ic : Bool} {n : Nat} (E : Env) (hE : Calls ms ic E.fuel n E.call) (f : Txt) {c : Cls} {mode : Mode} {e : Elem}
    (hp : c.parsable (parsableAt ms n) = true) (h : c.elem (resolve ms n) = some (mode, e)) (hm : mode ≠ .seq) (s : PS) (he : s.err = none) (hg : s.rd.Good) :
    Yields (Stands ms e c) f s ((readCode f c).exec E s) (e.read ic E.fuel s.l s.rd) := by
  cases c with
  | struct t nc =>
    simp only [Cls.elem, Option.map_eq_some_iff, Prod.mk.injEq] at h
    obtain ⟨fs, h1, rfl, rfl⟩ := h
    exact struct_yields E hE f hp h1 s hg
  | natural o => simp only [Cls.elem, Option.some.injEq, Prod.mk.injEq] at h; obtain ⟨rfl, rfl⟩ := h
                 exact (natural_yields E f o s he hg).mono fun v g hv => ⟨o, rfl, hv⟩
  | fixedUint l o =>
    simp only [Cls.elem, Option.some.injEq, Prod.mk.injEq] at h; obtain ⟨rfl, rfl⟩ := h
    exact (fixed_yields E f o (by simpa [Cls.parsable, or_assoc] using hp) s he hg).mono fun v g hv => ⟨o, rfl, hv⟩
  | time o => simp only [Cls.elem, Option.some.injEq, Prod.mk.injEq] at h; obtain ⟨rfl, rfl⟩ := h
              exact (time_yields E f o s he hg).mono fun v g hv => ⟨o, rfl, hv⟩
  | string o => simp only [Cls.elem, Option.some.injEq, Prod.mk.injEq] at h; obtain ⟨rfl, rfl⟩ := h
                exact (string_yields E f o s hg).mono fun v g hv => ⟨o, rfl, hv⟩
  | binary => simp only [Cls.elem, Option.some.injEq, Prod.mk.injEq] at h; obtain ⟨rfl, rfl⟩ := h
              exact (binary_yields E f s hg).mono fun v g hv => ⟨rfl, hv⟩
  | name => simp only [Cls.elem, Option.some.injEq, Prod.mk.injEq] at h; obtain ⟨rfl, rfl⟩ := h
            exact (name_yields E f s he hg).mono fun v g hv => ⟨rfl, hv⟩
  | wire b => simp only [Cls.elem, Option.some.injEq, Prod.mk.injEq] at h; obtain ⟨rfl, rfl⟩ := h
              exact (wire_yields E f b s hg).mono fun v g hv => ⟨b, rfl, hv⟩
  | sequence t sub =>
    exfalso
    cases sub with
    | struct t nc => simp only [Cls.elem, Option.map_eq_some_iff, Prod.mk.injEq] at h; obtain ⟨_, _, e, _⟩ := h; exact hm e.symm
    | natural o => cases o <;> simp [Cls.elem] at h; exact hm h.1.symm
    | fixedUint l o => cases o <;> simp [Cls.elem] at h; exact hm h.1.symm
    | time o => cases o <;> simp [Cls.elem] at h; exact hm h.1.symm
    | string o => cases o <;> simp [Cls.elem] at h; exact hm h.1.symm
    | binary => simp [Cls.elem] at h; exact hm h.1.symm
    | name => simp [Cls.elem] at h; exact hm h.1.symm
    | wire b => simp [Cls.elem] at h; exact hm h.1.symm
    | _ => simp [Cls.elem] at h
  | _ => simp [Cls.elem] at h

/-- sequences: the element is appended -/
theorem seq_yields {ms : List TModel} {ic : Bool} {n : Nat} (E : Env) (hE : Calls ms ic E.fuel n E.call) (f ty : Txt) {sub : Cls} {mode : Mode} {e : Elem}
    (hp : sub.parsable (parsableAt ms n) = true) (h : sub.elem (resolve ms n) = some (mode, e)) (hm : mode ≠ .seq) (s : PS) (he : s.err = none)
    (hg : s.rd.Good) {g0 : GV} {gs : List GV} (h0 : lookup f s.kvs = some g0) (hs : IsSeq g0 gs) :
    Yields (fun v g => ∃ x, g = .arr (gs ++ [x]) ∧ Stands ms e sub v x) f s ((readCode f (.sequence ty sub)).exec E s) (e.read ic E.fuel s.l s.rd) := by
  obtain ⟨s1, hs1, hl1, hset, hrest⟩ : ∃ s1 : PS, (P.ifNilF f (.makeSeq f ty)).exec E s = .next s1 ∧ lookup f s1.kvs = some (.arr gs) ∧
      (∀ g, setKv f g s1.kvs = setKv f g s.kvs) ∧ s1.err = s.err ∧ s1.rd = s.rd ∧ s1.l = s.l ∧ s1.typ = s.typ ∧ s1.handledF = s.handledF := by
    rcases hs with rfl | ⟨rfl, rfl⟩
    · exact ⟨s, by simp [P.exec, h0], h0, fun _ => rfl, rfl, rfl, rfl, rfl, rfl⟩
    · exact ⟨s.put f (.arr []), by simp [P.exec, h0], by simp [PS.put, lookup_setKv], fun g => by simp [PS.put, setKv_setKv], rfl, rfl, rfl, rfl, rfl⟩
  obtain ⟨b1, b2, b3, b4, b5⟩ := hrest
  obtain ⟨s2, hs2⟩ : ∃ s2 : PS, s2 = { s1 with pseudo := [(f, zeroOf ty)], kvs := [(f, zeroOf ty)] } := ⟨_, rfl⟩
  have k1 : s2.rd = s.rd := by rw [hs2]; exact b2
  have k2 : s2.l = s.l := by rw [hs2]; exact b3
  have k3 : s2.typ = s.typ := by rw [hs2]; exact b4
  have k4 : s2.handledF = s.handledF := by rw [hs2]; exact b5
  have k5 : s2.kvs = [(f, zeroOf ty)] := by rw [hs2]
  have hy := one_yields E hE f hp h hm s2 (by rw [hs2]; exact b1.trans he) (by rw [k1]; exact hg)
  have e1 : (readCode f (.sequence ty sub)).exec E s =
      ((match (readCode f sub).exec E s2 with
        | .next s' => Out.next { s' with kvs := s1.kvs, pseudo := s'.kvs }
        | .brk s' => Out.brk { s' with kvs := s1.kvs, pseudo := s'.kvs }
        | o => o).bind ((P.appendF f).exec E)).bind (P.decProgress.exec E) := by
    rw [hs2]
    simp only [readCode, P.all, P.exec, Out.bind] at hs1 ⊢
    simp only [hs1]
    rcases (readCode f sub).exec E { s1 with pseudo := [(f, zeroOf ty)], kvs := [(f, zeroOf ty)] } with _ | _ | _ | _ | _ <;> rfl
  rw [e1]
  rw [k1, k2] at hy
  rcases hq : e.read ic E.fuel s.l s.rd with _ | ⟨v | x | _, r'⟩
  · rw [hq] at hy
    simp only [Yields] at hy ⊢
    rw [hy]; rfl
  · rw [hq] at hy
    obtain ⟨s', g, c1, c2, c3, c4, c5, c6, c7, c8⟩ := hy
    have c9 : lookup f s'.kvs = some g := by rw [c5]; simp [lookup_setKv]
    rw [c1]
    refine ⟨{ s' with kvs := setKv f (.arr (gs ++ [g])) s.kvs, pseudo := s'.kvs, progress := s'.progress - 1 }, .arr (gs ++ [g]), ?_, c2, c3, c4, rfl,
      ⟨g, rfl, c6⟩, c7.trans k3, c8.trans k4⟩
    simp [Out.bind, P.exec, hl1, c9, PS.put, hset]
  · rw [hq] at hy
    obtain ⟨s', c1, c2, c3, c4, c5⟩ := hy
    obtain ⟨g, c6⟩ := Option.isSome_iff_exists.1 (c5 (by simp [k5, lookup]))
    rw [c1]
    refine ⟨{ s' with kvs := setKv f (.arr (gs ++ [g])) s.kvs, pseudo := s'.kvs, progress := s'.progress - 1 }, ?_, c2, c3.trans k3, c4.trans k4,
      fun _ => by simp [lookup_setKv]⟩
    simp [Out.bind, P.exec, hl1, c6, PS.put, hset]
  · rw [hq] at hy
    simp only [Yields] at hy ⊢
    rw [hy]; rfl

/-! ## The state of the parser -/

/-- the variables `value` and `handled_…` are as the state of the model of the parser says -/
def StRel (ms : List TModel) : (fs : Fields) → List Field → fs.St → List (Txt × GV) → (Txt → Bool) → Prop
  | .nil, fields, _, _, _ => fields = []
  | .flag t rest, fields, (b, st), kvs, h =>
    ∃ f l, fields = f :: l ∧ f.num = t ∧ f.cls = .bool ∧ h f.name = b ∧ (b = true → lookup f.name kvs = some (.bool true)) ∧ StRel ms rest l st kvs h
  | .cons t .req e rest, fields, (o, st), kvs, h =>
    ∃ f l, fields = f :: l ∧ f.num = t ∧ h f.name = o.isSome ∧ (∀ v, o = some v → ∃ g, lookup f.name kvs = some g ∧ Stands ms e f.cls v g) ∧
      StRel ms rest l st kvs h
  | .cons t .opt e rest, fields, (o, st), kvs, h =>
    ∃ f l, fields = f :: l ∧ f.num = t ∧ h f.name = o.isSome ∧ (∀ v, o = some v → ∃ g, lookup f.name kvs = some g ∧ Stands ms e f.cls v g) ∧
      StRel ms rest l st kvs h
  | .cons t .seq e rest, fields, (xs, st), kvs, h =>
    ∃ f l, fields = f :: l ∧ f.num = t ∧ (∃ ty sub, f.cls = .sequence ty sub ∧ ∃ g gs, lookup f.name kvs = some g ∧ IsSeq g gs ∧ gs.length = xs.length ∧
      ∀ (i : Nat) (x : e.V) (g : GV), xs[i]? = some x → gs[i]? = some g → Stands ms e sub x g) ∧ StRel ms rest l st kvs h

theorem StRel.congr (ms : List TModel) : ∀ (fs : Fields) (fields : List Field) (st : fs.St) (kvs kvs' : List (Txt × GV)) (h h' : Txt → Bool),
    (∀ k ∈ fields.map Field.name, lookup k kvs' = lookup k kvs ∧ h' k = h k) → StRel ms fs fields st kvs h → StRel ms fs fields st kvs' h'
  | .nil, _, _, _, _, _, _, _, hr => by simpa only [StRel] using hr
  | .flag t rest, fields, (b, st), kvs, kvs', h, h', he, hr => by
    simp only [StRel] at hr ⊢
    obtain ⟨f, l, rfl, h1, h2, h3, h4, h5⟩ := hr
    obtain ⟨e1, e2⟩ := he f.name (by simp)
    exact ⟨f, l, rfl, h1, h2, by rw [e2]; exact h3, by rw [e1]; exact h4, StRel.congr ms rest l st kvs kvs' h h' (fun k hk => he k (by simp at hk ⊢; exact .inr hk)) h5⟩
  | .cons t .req e rest, fields, (b, st), kvs, kvs', h, h', he, hr => by
    simp only [StRel] at hr ⊢
    obtain ⟨f, l, rfl, h1, h3, h4, h5⟩ := hr
    obtain ⟨e1, e2⟩ := he f.name (by simp)
    exact ⟨f, l, rfl, h1, by rw [e2]; exact h3, by rw [e1]; exact h4, StRel.congr ms rest l st kvs kvs' h h' (fun k hk => he k (by simp at hk ⊢; exact .inr hk)) h5⟩
  | .cons t .opt e rest, fields, (b, st), kvs, kvs', h, h', he, hr => by
    simp only [StRel] at hr ⊢
    obtain ⟨f, l, rfl, h1, h3, h4, h5⟩ := hr
    obtain ⟨e1, e2⟩ := he f.name (by simp)
    exact ⟨f, l, rfl, h1, by rw [e2]; exact h3, by rw [e1]; exact h4, StRel.congr ms rest l st kvs kvs' h h' (fun k hk => he k (by simp at hk ⊢; exact .inr hk)) h5⟩
  | .cons t .seq e rest, fields, (b, st), kvs, kvs', h, h', he, hr => by
    simp only [StRel] at hr ⊢
    obtain ⟨f, l, rfl, h1, ⟨ty, sub, h2, g, gs, h3, h4⟩, h5⟩ := hr
    obtain ⟨e1, e2⟩ := he f.name (by simp)
    exact ⟨f, l, rfl, h1, ⟨ty, sub, h2, g, gs, by rw [e1]; exact h3, h4⟩,
      StRel.congr ms rest l st kvs kvs' h h' (fun k hk => he k (by simp at hk ⊢; exact .inr hk)) h5⟩

/-! ## After the loop -/

theorem skip_of_elem {env : Txt → Option Fields} {c : Cls} {mode : Mode} {e : Elem} (f : Txt) (n : Nat) (h : c.elem env = some (mode, e)) :
    skipCode f n c = (match mode with | .req => .errRequired f n | .opt => .setNil f | .seq => .note t!"sequence - skip") ∧
    (mode ≠ .seq → c.optional = (match mode with | .opt => true | _ => false)) := by
  cases c with
  | struct t nc =>
    simp only [Cls.elem, Option.map_eq_some_iff, Prod.mk.injEq] at h
    obtain ⟨fs, h1, rfl, rfl⟩ := h
    exact ⟨rfl, fun _ => rfl⟩
  | natural o => simp only [Cls.elem, Option.some.injEq, Prod.mk.injEq] at h; obtain ⟨rfl, rfl⟩ := h
                 cases o <;> exact ⟨rfl, fun _ => rfl⟩
  | fixedUint l o => simp only [Cls.elem, Option.some.injEq, Prod.mk.injEq] at h; obtain ⟨rfl, rfl⟩ := h
                     cases o <;> exact ⟨rfl, fun _ => rfl⟩
  | time o => simp only [Cls.elem, Option.some.injEq, Prod.mk.injEq] at h; obtain ⟨rfl, rfl⟩ := h
              cases o <;> exact ⟨rfl, fun _ => rfl⟩
  | string o => simp only [Cls.elem, Option.some.injEq, Prod.mk.injEq] at h; obtain ⟨rfl, rfl⟩ := h
                cases o <;> exact ⟨rfl, fun _ => rfl⟩
  | binary => simp only [Cls.elem, Option.some.injEq, Prod.mk.injEq] at h; obtain ⟨rfl, rfl⟩ := h
              exact ⟨rfl, fun _ => rfl⟩
  | name => simp only [Cls.elem, Option.some.injEq, Prod.mk.injEq] at h; obtain ⟨rfl, rfl⟩ := h
            exact ⟨rfl, fun _ => rfl⟩
  | wire b => simp only [Cls.elem, Option.some.injEq, Prod.mk.injEq] at h; obtain ⟨rfl, rfl⟩ := h
              exact ⟨rfl, fun _ => rfl⟩
  | sequence t sub =>
    have hm : mode = .seq := by
      cases sub with
      | struct t nc => simp only [Cls.elem, Option.map_eq_some_iff, Prod.mk.injEq] at h; obtain ⟨_, _, e, _⟩ := h; exact e.symm
      | natural o => cases o <;> simp [Cls.elem] at h; exact h.1.symm
      | fixedUint l o => cases o <;> simp [Cls.elem] at h; exact h.1.symm
      | time o => cases o <;> simp [Cls.elem] at h; exact h.1.symm
      | string o => cases o <;> simp [Cls.elem] at h; exact h.1.symm
      | binary => simp [Cls.elem] at h; exact h.1.symm
      | name => simp [Cls.elem] at h; exact h.1.symm
      | wire b => simp [Cls.elem] at h; exact h.1.symm
      | _ => simp [Cls.elem] at h
    subst hm
    exact ⟨rfl, fun h => absurd rfl h⟩
  | _ => simp [Cls.elem] at h

theorem finish_err (E : Env) : ∀ (fields : List Field) (s : PS), s.err.isSome → (finishCode fields).exec E s = .next s
  | [], s, _ => rfl
  | f :: l, s, h => by
    have hn : s.err.isNone = false := by cases hs : s.err <;> simp_all
    simp [finishCode, P.exec, Out.bind, hn, finish_err E l s h]

/-- the outcome of the statements after the loop -/
def Finished (ms : List TModel) (fs : Fields) (fields : List Field) (s : PS) (o : Out) : Res fs.V → Prop
  | .ok v => ∃ s', o = .next s' ∧ s'.err = none ∧ StandsAll ms fs fields v s'.kvs ∧ ∀ k, k ∉ fields.map Field.name → lookup k s'.kvs = lookup k s.kvs
  | .err e => ∃ s', o = .next s' ∧ s'.err = some e
  | .panic => False

theorem finish_sim (ms : List TModel) (E : Env) {env : Txt → Option Fields} : ∀ (fields : List Field) (fs : Fields), schemaOf env fields = some fs →
    Named fields → ∀ (st : fs.St) (s : PS), s.err = none → StRel ms fs fields st s.kvs s.handledF →
    Finished ms fs fields s ((finishCode fields).exec E s) (fs.finish st)
  | [], fs, hf, _, st, s, he, hr => by
    cases hf
    exact ⟨s, rfl, he, by simp only [StandsAll], fun _ _ => rfl⟩
  | f :: l, fs, hf, hn, st, s, he, hr => by
    have hn' := List.nodup_cons.1 hn
    -- what follows the first field
    have hrest : ∀ (rest : Fields) (st' : rest.St) (s1 : PS), schemaOf env l = some rest → s1.err = none →
        (∀ k, k ≠ f.name → lookup k s1.kvs = lookup k s.kvs) → s1.handledF = s.handledF → StRel ms rest l st' s.kvs s.handledF →
        Finished ms rest l s1 ((finishCode l).exec E s1) (rest.finish st') := by
      intro rest st' s1 h1 h2 h3 h4 h5
      refine finish_sim ms E l rest h1 hn'.2 st' s1 h2 (StRel.congr ms rest l st' _ _ _ _ (fun k hk => ?_) h5)
      refine ⟨h3 k ?_, by rw [h4]⟩
      rintro rfl
      exact hn'.1 hk
    have hframe : ∀ {s1 s' : PS}, (∀ k, k ≠ f.name → lookup k s1.kvs = lookup k s.kvs) → (∀ k, k ∉ l.map Field.name → lookup k s'.kvs = lookup k s1.kvs) →
        ∀ k, k ∉ (f :: l).map Field.name → lookup k s'.kvs = lookup k s.kvs := by
      intro s1 s' h1 h2 k hk
      simp only [List.map_cons, List.mem_cons, not_or] at hk
      rw [h2 k hk.2, h1 k hk.1]
    rcases schemaOf_cons hf with ⟨hb, rest, h1, rfl⟩ | ⟨mode, e, rest, h1, h2, rfl⟩
    · obtain ⟨b, st⟩ := st
      simp only [StRel] at hr
      obtain ⟨f', l', hfl, r1, r2, r3, r4, r5⟩ := hr
      cases hfl
      obtain ⟨s1, e1, e2, e3, e4, e5⟩ : ∃ s1 : PS, (P.ifUnhandledF f.name (skipCode f.name f.num f.cls)).exec E s = .next s1 ∧ s1.err = none ∧
          (∀ k, k ≠ f.name → lookup k s1.kvs = lookup k s.kvs) ∧ s1.handledF = s.handledF ∧ lookup f.name s1.kvs = some (.bool b) := by
        cases b with
        | false =>
          exact ⟨s.put f.name (.bool false), by simp [P.exec, r3, he, hb, skipCode], he, fun k hk => lookup_setKv_ne hk _ _, rfl, by simp [PS.put, lookup_setKv]⟩
        | true => exact ⟨s, by simp [P.exec, r3], he, fun _ _ => rfl, rfl, r4 rfl⟩
      have := hrest rest st s1 h1 e2 e3 e4 r5
      show Finished ms (.flag f.num rest) (f :: l) s (((P.ifUnhandledF f.name (skipCode f.name f.num f.cls)).exec E s).bind ((finishCode l).exec E))
        ((rest.finish st).map fun vs => (b, vs))
      rw [e1]
      cases hq : rest.finish st with
      | ok vs =>
        rw [hq] at this
        obtain ⟨s', a1, a2, a3, a4⟩ := this
        refine ⟨s', a1, a2, ?_, hframe e3 a4⟩
        simp only [StandsAll]
        exact ⟨f, l, rfl, rfl, hb, by rw [a4 _ hn'.1]; exact e5, a3⟩
      | err x => rw [hq] at this; exact this
      | panic => rw [hq] at this; exact this
    · cases mode with
      | req =>
        obtain ⟨o, st⟩ := st
        simp only [StRel] at hr
        obtain ⟨f', l', hfl, r1, r3, r4, r5⟩ := hr
        cases hfl
        obtain ⟨hsk, hopt⟩ := skip_of_elem f.name f.num h1
        cases o with
        | none =>
          show Finished ms _ _ s (((P.ifUnhandledF f.name (skipCode f.name f.num f.cls)).exec E s).bind ((finishCode l).exec E)) (.err .skipRequired)
          refine ⟨{ s with err := some .skipRequired }, ?_, rfl⟩
          rw [hsk]
          simp only [P.exec, r3, he, Option.isSome_none, Bool.not_false, Option.isNone_none, Bool.and_self, if_true, Out.bind]
          exact finish_err E l _ rfl
        | some v =>
          obtain ⟨g, r6, r7⟩ := r4 v rfl
          have e1 : (P.ifUnhandledF f.name (skipCode f.name f.num f.cls)).exec E s = .next s := by simp [P.exec, r3]
          have := hrest rest st s h2 he (fun _ _ => rfl) rfl r5
          show Finished ms (.cons f.num .req e rest) (f :: l) s (((P.ifUnhandledF f.name (skipCode f.name f.num f.cls)).exec E s).bind ((finishCode l).exec E))
            ((rest.finish st).map fun vs => (v, vs))
          rw [e1]
          cases hq : rest.finish st with
          | ok vs =>
            rw [hq] at this
            obtain ⟨s', a1, a2, a3, a4⟩ := this
            refine ⟨s', a1, a2, ?_, hframe (fun _ _ => rfl) a4⟩
            simp only [StandsAll]
            exact ⟨f, l, rfl, rfl, hopt (by decide), ⟨g, by rw [a4 _ hn'.1]; exact r6, r7⟩, a3⟩
          | err x => rw [hq] at this; exact this
          | panic => rw [hq] at this; exact this
      | opt =>
        obtain ⟨o, st⟩ := st
        simp only [StRel] at hr
        obtain ⟨f', l', hfl, r1, r3, r4, r5⟩ := hr
        cases hfl
        obtain ⟨hsk, hopt⟩ := skip_of_elem f.name f.num h1
        show Finished ms (.cons f.num .opt e rest) (f :: l) s (((P.ifUnhandledF f.name (skipCode f.name f.num f.cls)).exec E s).bind ((finishCode l).exec E))
          ((rest.finish st).map fun vs => (o, vs))
        cases o with
        | none =>
          have e1 : (P.ifUnhandledF f.name (skipCode f.name f.num f.cls)).exec E s = .next (s.put f.name .nil) := by
            rw [hsk]; simp [P.exec, r3, he]
          have e3 : ∀ k, k ≠ f.name → lookup k (s.put f.name .nil).kvs = lookup k s.kvs := fun k hk => lookup_setKv_ne hk _ _
          have := hrest rest st (s.put f.name .nil) h2 he e3 rfl r5
          rw [e1]
          cases hq : rest.finish st with
          | ok vs =>
            rw [hq] at this
            obtain ⟨s', a1, a2, a3, a4⟩ := this
            refine ⟨s', a1, a2, ?_, hframe e3 a4⟩
            simp only [StandsAll]
            exact ⟨f, l, rfl, rfl, hopt (by decide), by rw [a4 _ hn'.1]; simp [PS.put, lookup_setKv], a3⟩
          | err x => rw [hq] at this; exact this
          | panic => rw [hq] at this; exact this
        | some v =>
          obtain ⟨g, r6, r7⟩ := r4 v rfl
          have e1 : (P.ifUnhandledF f.name (skipCode f.name f.num f.cls)).exec E s = .next s := by simp [P.exec, r3]
          have := hrest rest st s h2 he (fun _ _ => rfl) rfl r5
          rw [e1]
          cases hq : rest.finish st with
          | ok vs =>
            rw [hq] at this
            obtain ⟨s', a1, a2, a3, a4⟩ := this
            refine ⟨s', a1, a2, ?_, hframe (fun _ _ => rfl) a4⟩
            simp only [StandsAll]
            exact ⟨f, l, rfl, rfl, hopt (by decide), ⟨g, by rw [a4 _ hn'.1]; exact r6, r7⟩, a3⟩
          | err x => rw [hq] at this; exact this
          | panic => rw [hq] at this; exact this
      | seq =>
        obtain ⟨xs, st⟩ := st
        simp only [StRel] at hr
        obtain ⟨f', l', hfl, r1, ⟨ty, sub, r2, g, gs, r3, r4⟩, r5⟩ := hr
        cases hfl
        have e1 : (P.ifUnhandledF f.name (skipCode f.name f.num f.cls)).exec E s = .next s := by
          rw [(skip_of_elem f.name f.num h1).1]
          simp only [P.exec]
          split <;> rfl
        have := hrest rest st s h2 he (fun _ _ => rfl) rfl r5
        show Finished ms (.cons f.num .seq e rest) (f :: l) s (((P.ifUnhandledF f.name (skipCode f.name f.num f.cls)).exec E s).bind ((finishCode l).exec E))
          ((rest.finish st).map fun vs => (xs, vs))
        rw [e1]
        cases hq : rest.finish st with
        | ok vs =>
          rw [hq] at this
          obtain ⟨s', a1, a2, a3, a4⟩ := this
          refine ⟨s', a1, a2, ?_, hframe (fun _ _ => rfl) a4⟩
          simp only [StandsAll]
          exact ⟨f, l, rfl, rfl, ⟨ty, sub, r2, g, gs, by rw [a4 _ hn'.1]; exact r3, r4⟩, a3⟩
        | err x => rw [hq] at this; exact this
        | panic => rw [hq] at this; exact this

end Ndn.Codec.Gen
