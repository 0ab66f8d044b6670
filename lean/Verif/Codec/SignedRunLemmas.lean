import Verif.Codec.RunSigned
import Verif.Codec.NoCopyProps

/-! # Running the emitted encoder of a model with a signature (lemmas) -/

namespace Ndn.Codec.Gen

theorem sexec_append (call : Call) (a b : SCode) : ∀ ss, (a ++ b).exec call ss = (a.exec call ss).bind (b.exec call) := by
  show ∀ ss, (a.append b).exec call ss = _
  induction a with
  | done => intro ss; rfl
  | plain c k ih => intro ss; simp only [SCode.append, SCode.exec, bind_assoc]; congr 1; funext s1; exact ih s1
  | atom x k ih => intro ss; simp only [SCode.append, SCode.exec, bind_assoc]; congr 1; funext s1; exact ih s1
  | cond c d k _ ih => intro ss; simp only [SCode.append, SCode.exec, bind_assoc]; congr 1; funext t; congr 1; funext s1; exact ih s1
  | heads f b k ih => intro ss; simp only [SCode.append, SCode.exec, bind_assoc]; congr 1; funext g; congr 1; funext l; congr 1; funext s1; exact ih s1
  | last f x b y k ih => intro ss; simp only [SCode.append, SCode.exec, bind_assoc]; congr 1; funext g; congr 1; funext l; congr 1; funext s1; exact ih s1

theorem sexec_of (call : Call) (a : SAtom) (ss : SS) : (SCode.of a).exec call ss = a.exec ss := bind_ok _

theorem sexec_plain (call : Call) (c : NCode) (ss : SS) : (SCode.ofPlain c).exec call ss = (c.exec call ss.ns).map fun ns => { ss with ns := ns } := bind_ok _

theorem sexec_plain_ok {call : Call} {c : NCode} {ss : SS} {ns : NS} (h : c.exec call ss.ns = .ok ns) :
    (SCode.ofPlain c).exec call ss = .ok { ss with ns := ns } := by rw [sexec_plain, h]; rfl

theorem allSigned_append (g : Field → SCode) (a b : List Field) (call : Call) (ss : SS) :
    (allSigned g (a ++ b)).exec call ss = ((allSigned g a).exec call ss).bind ((allSigned g b).exec call) := by
  induction a generalizing ss with
  | nil => rfl
  | cons f a ih =>
    simp only [List.cons_append, allSigned]
    rw [sexec_append, sexec_append, bind_assoc]
    congr 1; funext s1; exact ih s1

theorem allNoCopy_append (g : Field → NCode) (a b : List Field) (call : Call) (ns : NS) :
    (allNoCopy g (a ++ b)).exec call ns = ((allNoCopy g a).exec call ns).bind ((allNoCopy g b).exec call) := by
  induction a generalizing ns with
  | nil => rfl
  | cons f a ih =>
    simp only [List.cons_append, allNoCopy]
    rw [nexec_append, nexec_append, bind_assoc]
    congr 1; funext s1; exact ih s1

theorem bind_ok_inv {α β : Type} {x : Res α} {f : α → Res β} {b : β} (h : x.bind f = .ok b) : ∃ a, x = .ok a ∧ f a = .ok b := by
  cases x with
  | ok a => exact ⟨a, rfl, h⟩
  | err e => cases h
  | panic => cases h

/-! ## Fields that are not encoded -/

/-- the fields that are encoded and are not signatures -/
def keep (f : Field) : Bool :=
  match f.cls with
  | .arg _ => false
  | .offset _ => false
  | .range _ _ _ => false
  | .signature _ _ _ => false
  | .interestName _ => false
  | _ => true

/-- the markers `T` and what is covered are as before -/
def Keeps (T : List Txt) (ss ss' : SS) : Prop := (∀ k ∈ T, ss'.mark k = ss.mark k ∧ ss'.idx k = ss.idx k) ∧ ss'.covered = ss.covered

theorem Keeps.refl (T : List Txt) (ss : SS) : Keeps T ss ss := ⟨fun _ _ => ⟨rfl, rfl⟩, rfl⟩

theorem Keeps.trans {T : List Txt} {a b c : SS} (h : Keeps T a b) (h' : Keeps T b c) : Keeps T a c :=
  ⟨fun k hk => ⟨(h'.1 k hk).1.trans (h.1 k hk).1, (h'.1 k hk).2.trans (h.1 k hk).2⟩, h'.2.trans h.2⟩

theorem Keeps.mono {T U : List Txt} {a b : SS} (h : Keeps T a b) (hu : ∀ k ∈ U, k ∈ T) : Keeps U a b := ⟨fun k hk => h.1 k (hu k hk), h.2⟩

/-- the code changes nothing but markers other than `T` -/
def Harmless (call : Call) (T : List Txt) (P : NS → Prop) (c : SCode) : Prop := ∀ ss, P ss.ns → ∃ ss', c.exec call ss = .ok ss' ∧ ss'.ns = ss.ns ∧ Keeps T ss ss'

theorem Harmless.done {call : Call} {T : List Txt} {P : NS → Prop} : Harmless call T P .done := fun ss _ => ⟨ss, rfl, rfl, .refl _ _⟩

theorem setAt_other {α : Type} (f : Txt → α) {k j : Txt} (a : α) (h : j ≠ k) : setAt f k a j = f j := by simp [setAt, h]

theorem setAt_same {α : Type} (f : Txt → α) (k : Txt) (a : α) : setAt f k a k = a := by simp [setAt]

/-- a marker that is not one of `T` -/
def Aside (T : List Txt) (f : Field) : Prop := (∃ t, f.cls = .arg t) ∨ ((∃ nc, f.cls = .offset nc) ∨ ∃ a b nc, f.cls = .range a b nc) ∧ f.name ∉ T

theorem aside_init {call : Call} {T : List Txt} {P : NS → Prop} {f : Field} (h : Aside T f) : Harmless call T P (initSigned f.name f.cls) := by
  rcases h with ⟨t, h⟩ | ⟨⟨nc, h⟩ | ⟨a, b, nc, h⟩, _⟩ <;> rw [h] <;> exact .done

theorem aside_plan {call : Call} {T : List Txt} {P : NS → Prop} {f : Field} (h : Aside T f) : Harmless call T P (planSigned f.name f.num f.cls) := by
  rcases h with ⟨t, h⟩ | ⟨⟨nc, h⟩ | ⟨a, b, nc, h⟩, _⟩ <;> rw [h] <;> exact .done

theorem ne_of_aside {T : List Txt} {k f : Txt} (hk : k ∈ T) (hf : f ∉ T) : k ≠ f := fun e => hf (e ▸ hk)

theorem aside_length {call : Call} {T : List Txt} {P : NS → Prop} {f : Field} (h : Aside T f) : Harmless call T P (lengthSigned f.name f.num f.cls) := by
  rcases h with ⟨t, h⟩ | ⟨⟨nc, h⟩ | ⟨a, b, nc, h⟩, hn⟩ <;> rw [h]
  · exact .done
  all_goals
    intro ss _
    exact ⟨_, sexec_of _ _ _, rfl, fun k hk => ⟨setAt_other _ _ (ne_of_aside hk hn), rfl⟩, rfl⟩

theorem aside_into {call : Call} {T : List Txt} {P : NS → Prop} {f : Field} (h : Aside T f) : Harmless call T P (intoSigned f.name f.num f.cls) := by
  rcases h with ⟨t, h⟩ | ⟨⟨nc, h⟩ | ⟨a, b, nc, h⟩, hn⟩ <;> rw [h]
  · exact .done
  all_goals
    intro ss _
    exact ⟨{ ss with idx := setAt ss.idx f.name ss.ns.idx, at' := setAt ss.at' f.name (asInt (numVar ss .pos)) }, rfl, rfl,
      fun k hk => ⟨rfl, setAt_other _ _ (ne_of_aside hk hn)⟩, rfl⟩

theorem kept_init {f : Field} (h : keep f = true) : initSigned f.name f.cls = .ofPlain (.ofPlain (initCode f.name f.cls)) := by
  unfold keep at h; unfold initSigned; split <;> simp_all

theorem kept_length {f : Field} (h : keep f = true) : lengthSigned f.name f.num f.cls = .ofPlain (.ofPlain (lengthCode f.name f.num f.cls)) := by
  unfold keep at h; unfold lengthSigned; split <;> simp_all

theorem kept_plan {f : Field} (h : keep f = true) : planSigned f.name f.num f.cls = .ofPlain (planCode f.name f.num f.cls) := by
  unfold keep at h; unfold planSigned; split <;> simp_all

theorem kept_into {f : Field} (h : keep f = true) : intoSigned f.name f.num f.cls = .ofPlain (intoNoCopy f.name f.num f.cls) := by
  unfold keep at h; unfold intoSigned; split <;> simp_all

/-- fields without signature: what the statements of the encoded ones do -/
theorem block {call : Call} {T : List Txt} {P : NS → Prop} {X : Field → SCode} {X' : Field → NCode} (hX : ∀ f, keep f = true → X f = .ofPlain (X' f))
    (hP : ∀ f ns ns', keep f = true → P ns → (X' f).exec call ns = .ok ns' → P ns') :
    ∀ (fields : List Field), (∀ f ∈ fields, keep f = true ∨ Harmless call T P (X f)) → ∀ (ss : SS) (ns' : NS), P ss.ns →
      (allNoCopy X' (fields.filter keep)).exec call ss.ns = .ok ns' →
      ∃ ss', (allSigned X fields).exec call ss = .ok ss' ∧ ss'.ns = ns' ∧ Keeps T ss ss'
  | [], _, ss, ns', _, h => ⟨ss, rfl, by simpa [allNoCopy, NCode.exec] using h, .refl _ _⟩
  | f :: fields, hq, ss, ns', hp, h => by
    have hq' : ∀ g ∈ fields, keep g = true ∨ Harmless call T P (X g) := fun g hg => hq g (by simp [hg])
    simp only [allSigned]
    rw [sexec_append]
    by_cases hk : keep f = true
    · rw [List.filter_cons_of_pos hk, allNoCopy, nexec_append] at h
      obtain ⟨ns1, h1, h2⟩ := bind_ok_inv h
      rw [hX f hk, sexec_plain_ok h1]
      obtain ⟨ss', e1, e2, e3⟩ := block hX hP fields hq' { ss with ns := ns1 } ns' (hP f _ _ hk hp h1) h2
      exact ⟨ss', e1, e2, e3⟩
    · rw [List.filter_cons_of_neg hk] at h
      obtain ⟨ss1, e1, e2, e3⟩ := (hq f (by simp)).resolve_left hk ss hp
      rw [e1]
      obtain ⟨ss', e4, e5, e6⟩ := block hX hP fields hq' ss1 ns' (by rw [e2]; exact hp) (by rw [e2]; exact h)
      exact ⟨ss', e4, e5, e3.trans e6⟩

/-! ## Fields one by one -/

/-- what holds for each field by itself -/
theorem each_field (ms : List TModel) {kvs : List (Txt × GV)} (R : (fs : Fields) → List Field → fs.V → Prop)
    (hflag : ∀ t rest f l b vs, R (.flag t rest) (f :: l) (b, vs) → R (.flag t .nil) [f] (b, ()) ∧ R rest l vs)
    (hreq : ∀ t e rest f l v vs, R (.cons t .req e rest) (f :: l) (v, vs) → R (.cons t .req e .nil) [f] (v, ()) ∧ R rest l vs)
    (hopt : ∀ t e rest f l v vs, R (.cons t .opt e rest) (f :: l) (v, vs) → R (.cons t .opt e .nil) [f] (v, ()) ∧ R rest l vs)
    (hseq : ∀ t e rest f l v vs, R (.cons t .seq e rest) (f :: l) (v, vs) → R (.cons t .seq e .nil) [f] (v, ()) ∧ R rest l vs)
    (Q : Field → Item → Prop) (hQ : ∀ (fs : Fields) (f : Field) (v : fs.V) (it : Item), R fs [f] v → StandsAll ms fs [f] v kvs → items fs v = [it] →
      ((items fs v).map Item.bytes).flatten = it.bytes → Q f it) :
    ∀ (fs : Fields) (fields : List Field) (v : fs.V), R fs fields v → StandsAll ms fs fields v kvs → List.Forall₂ Q fields (items fs v)
  | .nil, fields, v, _, hs => by simp only [StandsAll] at hs; subst hs; exact .nil
  | .flag t rest, fields, (b, vs), hr, hs => by
    simp only [StandsAll] at hs
    obtain ⟨f, l, rfl, h1, h2, h3, hs⟩ := hs
    have h := hflag t rest f l b vs hr
    refine .cons (hQ (.flag t .nil) f (b, ()) _ h.1 ?_ rfl (by simp [items])) (each_field ms R hflag hreq hopt hseq Q hQ rest l vs h.2 hs)
    simp only [StandsAll]; exact ⟨f, [], rfl, h1, h2, h3, rfl⟩
  | .cons t .req e rest, fields, (v, vs), hr, hs => by
    simp only [StandsAll] at hs
    obtain ⟨f, l, rfl, h1, h2, h3, hs⟩ := hs
    have h := hreq t e rest f l v vs hr
    refine .cons (hQ (.cons t .req e .nil) f (v, ()) _ h.1 ?_ rfl (by simp [items])) (each_field ms R hflag hreq hopt hseq Q hQ rest l vs h.2 hs)
    simp only [StandsAll]; exact ⟨f, [], rfl, h1, h2, h3, rfl⟩
  | .cons t .opt e rest, fields, (none, vs), hr, hs => by
    simp only [StandsAll] at hs
    obtain ⟨f, l, rfl, h1, h2, h3, hs⟩ := hs
    have h := hopt t e rest f l none vs hr
    refine .cons (hQ (.cons t .opt e .nil) f (none, ()) _ h.1 ?_ rfl (by simp [items])) (each_field ms R hflag hreq hopt hseq Q hQ rest l vs h.2 hs)
    simp only [StandsAll]; exact ⟨f, [], rfl, h1, h2, h3, rfl⟩
  | .cons t .opt e rest, fields, (some v, vs), hr, hs => by
    simp only [StandsAll] at hs
    obtain ⟨f, l, rfl, h1, h2, h3, hs⟩ := hs
    have h := hopt t e rest f l (some v) vs hr
    refine .cons (hQ (.cons t .opt e .nil) f (some v, ()) _ h.1 ?_ rfl (by simp [items])) (each_field ms R hflag hreq hopt hseq Q hQ rest l vs h.2 hs)
    simp only [StandsAll]; exact ⟨f, [], rfl, h1, h2, h3, rfl⟩
  | .cons t .seq e rest, fields, (xs, vs), hr, hs => by
    simp only [StandsAll] at hs
    obtain ⟨f, l, rfl, h1, h2, hs⟩ := hs
    have h := hseq t e rest f l xs vs hr
    refine .cons (hQ (.cons t .seq e .nil) f (xs, ()) _ h.1 ?_ rfl (by simp [items])) (each_field ms R hflag hreq hopt hseq Q hQ rest l vs h.2 hs)
    simp only [StandsAll]; exact ⟨f, [], rfl, h1, h2, rfl⟩

section
variable {call : Call} {cells : Path → Nat} {p : Path} {kvs : List (Txt × GV)}

theorem code_done (c : Code) : c ++ Code.done = c := by
  show c.append .done = c
  induction c with
  | done => rfl
  | _ => simp only [Code.append]; congr

/-- the first pass over each field -/
theorem each_length (ms : List TModel) (fs : Fields) (fields : List Field) (v : fs.V) (hs : StandsAll ms fs fields v kvs)
    (hr : ReadyAll ms fs fields v cells p) (hw : fs.Widths) (hl : (fs.elems v).flatten.length < 2 ^ 64) :
    List.Forall₂ (fun f it => Adds call cells p kvs (lengthCode f.name f.num f.cls) (Item.bytes it).length) fields (items fs v) := by
  refine each_field ms (fun fs fields v => ReadyAll ms fs fields v cells p ∧ fs.Widths ∧ (fs.elems v).flatten.length < 2 ^ 64) ?_ ?_ ?_ ?_ _ ?_ fs fields v
    ⟨hr, hw, hl⟩ hs
  · rintro t rest f l b vs ⟨h1, h2, h3⟩
    simp only [Fields.elems, List.flatten_append, List.length_append] at h3
    simp only [ReadyAll] at h1
    refine ⟨⟨?_, trivial, ?_⟩, h1 f l rfl, h2, by omega⟩
    · simp only [ReadyAll]; intro _ _ _; trivial
    · simp only [Fields.elems, List.append_nil]; omega
  · rintro t e rest f l v vs ⟨h1, h2, h3⟩
    simp only [Fields.elems, List.flatten_cons, List.length_append] at h3
    simp only [ReadyAll] at h1
    refine ⟨⟨?_, ⟨h2.1, trivial⟩, ?_⟩, (h1 f l rfl).2, h2.2, by omega⟩
    · simp only [ReadyAll]; intro _ _ e; cases e; exact ⟨(h1 f l rfl).1, trivial⟩
    · simp only [Fields.elems, List.flatten_cons, List.flatten_nil, List.append_nil]; omega
  · rintro t e rest f l (_ | v) vs ⟨h1, h2, h3⟩
    · simp only [Fields.elems] at h3
      simp only [ReadyAll] at h1
      refine ⟨⟨?_, ⟨h2.1, trivial⟩, ?_⟩, h1 f l rfl, h2.2, h3⟩
      · simp only [ReadyAll]; intro _ _ e; trivial
      · simp [Fields.elems]
    · simp only [Fields.elems, List.flatten_cons, List.length_append] at h3
      simp only [ReadyAll] at h1
      refine ⟨⟨?_, ⟨h2.1, trivial⟩, ?_⟩, (h1 f l rfl).2, h2.2, by omega⟩
      · simp only [ReadyAll]; intro _ _ e; cases e; exact ⟨(h1 f l rfl).1, trivial⟩
      · simp only [Fields.elems, List.flatten_cons, List.flatten_nil, List.append_nil]; omega
  · rintro t e rest f l xs vs ⟨h1, h2, h3⟩
    simp only [Fields.elems, List.flatten_append, List.length_append] at h3
    simp only [ReadyAll] at h1
    refine ⟨⟨?_, ⟨h2.1, trivial⟩, ?_⟩, (h1 f l rfl).2, h2.2, by omega⟩
    · simp only [ReadyAll]; intro _ _ e; cases e; exact ⟨(h1 f l rfl).1, trivial⟩
    · simp only [Fields.elems, List.append_nil]; omega
  · rintro fs f v it ⟨h1, h2, h3⟩ hs hit hb
    have := all_adds (call := call) ms fs [f] v hs h1 h2 h3
    simp only [allFields, code_done] at this
    refine this.congr ?_
    rw [← hb, items_bytes, Fields.enc]

/-- `Init` of each field changes cells only -/
theorem each_init (ms : List TModel) (d : Nat) (hg : GoodInit ms call d) (fs : Fields) (fields : List Field) (v : fs.V) (hs : StandsAll ms fs fields v kvs)
    (hw : fs.Widths) (hd : Fields.depth fs ≤ d) (hl : (fs.elems v).flatten.length < 2 ^ 64) :
    List.Forall₂ (fun f (_ : Item) => ∀ s : S, s.vars .encoder = .ref p → s.vars .value = .ptr (.struct kvs) →
      ∃ C, (initCode f.name f.cls).exec call s = .ok { s with cells := C }) fields (items fs v) := by
  refine each_field ms (fun fs fields v => fs.Widths ∧ Fields.depth fs ≤ d ∧ (fs.elems v).flatten.length < 2 ^ 64) ?_ ?_ ?_ ?_ _ ?_ fs fields v
    ⟨hw, hd, hl⟩ hs
  · rintro t rest f l b vs ⟨h2, h4, h3⟩
    simp only [Fields.elems, List.flatten_append, List.length_append] at h3
    simp only [Fields.depth] at h4
    refine ⟨⟨trivial, by simp [Fields.depth], ?_⟩, h2, h4, by omega⟩
    simp only [Fields.elems, List.append_nil]; omega
  · rintro t e rest f l v vs ⟨h2, h4, h3⟩
    simp only [Fields.elems, List.flatten_cons, List.length_append] at h3
    simp only [Fields.depth] at h4
    refine ⟨⟨⟨h2.1, trivial⟩, by simp only [Fields.depth]; omega, ?_⟩, h2.2, by omega, by omega⟩
    simp only [Fields.elems, List.flatten_cons, List.flatten_nil, List.append_nil]; omega
  · rintro t e rest f l (_ | v) vs ⟨h2, h4, h3⟩
    · simp only [Fields.elems] at h3
      simp only [Fields.depth] at h4
      exact ⟨⟨⟨h2.1, trivial⟩, by simp only [Fields.depth]; omega, by simp [Fields.elems]⟩, h2.2, by omega, h3⟩
    · simp only [Fields.elems, List.flatten_cons, List.length_append] at h3
      simp only [Fields.depth] at h4
      refine ⟨⟨⟨h2.1, trivial⟩, by simp only [Fields.depth]; omega, ?_⟩, h2.2, by omega, by omega⟩
      simp only [Fields.elems, List.flatten_cons, List.flatten_nil, List.append_nil]; omega
  · rintro t e rest f l xs vs ⟨h2, h4, h3⟩
    simp only [Fields.elems, List.flatten_append, List.length_append] at h3
    simp only [Fields.depth] at h4
    refine ⟨⟨⟨h2.1, trivial⟩, by simp only [Fields.depth]; omega, ?_⟩, h2.2, by omega, by omega⟩
    simp only [Fields.elems, List.append_nil]; omega
  · rintro fs f v it ⟨h2, h4, h3⟩ hs hit hb s e1 e2
    obtain ⟨C, e3, _⟩ := all_inits (p := p) ms d hg fs [f] v (by simp [Named]) hs h2 h4 h3 s e1 e2
    simp only [allFields, code_done] at e3
    exact ⟨C, e3⟩

/-- `Init` of all fields, one statement after the other -/
theorem init_all {fields : List Field} (hf : ∀ f ∈ fields, ∀ s : S, s.vars .encoder = .ref p → s.vars .value = .ptr (.struct kvs) →
      ∃ C, (initCode f.name f.cls).exec call s = .ok { s with cells := C }) : ∀ (ns : NS) (C : Path → Nat), ns.buf = .nil → ns.s.vars .encoder = .ref p →
    ns.s.vars .value = .ptr (.struct kvs) → (allFields (fun f => initCode f.name f.cls) fields).exec call ns.s = .ok { ns.s with cells := C } →
    (allNoCopy (fun f => .ofPlain (initCode f.name f.cls)) fields).exec call ns = .ok { ns with s := { ns.s with cells := C } } := by
  induction fields with
  | nil =>
    intro ns C hb h1 h2 h
    simp only [allFields, Code.exec, Res.ok.injEq] at h
    simp only [allNoCopy, NCode.exec]
    rw [← h]
  | cons f l ih =>
    intro ns C hb h1 h2 h
    obtain ⟨C1, e1⟩ := hf f (by simp) ns.s h1 h2
    rw [allFields, exec_append, e1] at h
    simp only [Res.bind] at h
    rw [allNoCopy, nexec_append, nexec_plain, e1]
    have e2 : ns.through { ns.s with cells := C1 } = .ok { ns with s := { ns.s with cells := C1 } } := by simp [NS.through, hb]
    simp only [Res.bind, e2]
    exact ih (fun g hg => hf g (by simp [hg])) { ns with s := { ns.s with cells := C1 } } C hb h1 h2 h

/-- the first pass over fields -/
theorem length_all : ∀ {fields : List Field} {its : List Item},
    List.Forall₂ (fun f it => Adds call cells p kvs (lengthCode f.name f.num f.cls) (Item.bytes it).length) fields its → ∀ (ns : NS) (pl : List Nat) (a : Nat),
    ns.buf = .nil → ns.s.cells = cells → ns.s.vars .encoder = .ref p → ns.s.vars .value = .ptr (.struct kvs) →
    a + (its.map Item.bytes).flatten.length < 2 ^ 64 →
    (allNoCopy (fun f => .ofPlain (lengthCode f.name f.num f.cls)) fields).exec call (ns.planning pl a) =
      .ok (ns.planning pl (a + (its.map Item.bytes).flatten.length))
  | _, _, .nil, ns, pl, a, _, _, _, _, _ => by simp [allNoCopy, NCode.exec]
  | _ :: _, it :: its, .cons hf hr, ns, pl, a, hb, h1, h2, h3, h4 => by
    simp only [List.map_cons, List.flatten_cons, List.length_append] at h4 ⊢
    rw [allNoCopy, nexec_append, planning_plain hf ns pl a hb h1 h2 h3 (by omega)]
    simp only [Res.bind]
    rw [length_all hr ns pl _ hb h1 h2 h3 (by omega), Nat.add_assoc]

/-! ## Parts of the wire -/

/-- the lengths of the buffers that are complete after the items -/
def closePlan : List Item → Nat → List Nat
  | [], _ => []
  | .own b :: r, a => closePlan r (a + b.length)
  | .wire h w :: r, a => (a + h.length) :: ((w.map fun _ => 0) ++ closePlan r 0)

/-- and the bytes that are in the one after them -/
def openLen : List Item → Nat → Nat
  | [], a => a
  | .own b :: r, a => openLen r (a + b.length)
  | .wire _ _ :: r, _ => openLen r 0

/-- the buffers that are complete after the items -/
def closed : List Item → Bytes → List Piece
  | [], _ => []
  | .own b :: r, acc => closed r (acc ++ b)
  | .wire h w :: r, acc => .own (acc ++ h) :: (w.map .given ++ closed r [])

/-- and what is in the one after them -/
def openBuf : List Item → Bytes → Bytes
  | [], acc => acc
  | .own b :: r, acc => openBuf r (acc ++ b)
  | .wire _ _ :: r, _ => openBuf r []

theorem openBuf_length : ∀ (its : List Item) (acc : Bytes), (openBuf its acc).length = openLen its acc.length
  | [], _ => rfl
  | .own b :: r, acc => by simp [openBuf, openLen, openBuf_length r]
  | .wire _ _ :: r, acc => by simp [openBuf, openLen, openBuf_length r]

theorem closed_length : ∀ (its : List Item) (acc : Bytes), (closed its acc).length = (closePlan its acc.length).length
  | [], _ => rfl
  | .own b :: r, acc => by simp [closed, closePlan, closed_length r]
  | .wire _ _ :: r, acc => by simp [closed, closePlan, closed_length r]

theorem planOf_append : ∀ (a b : List Item) (n : Nat), planOf (a ++ b) n = closePlan a n ++ planOf b (openLen a n)
  | [], b, n => rfl
  | .own x :: r, b, n => by simp [planOf, closePlan, openLen, planOf_append r]
  | .wire h w :: r, b, n => by simp [planOf, closePlan, openLen, planOf_append r]

theorem planOf_close (a : List Item) (n : Nat) : planOf a n = closePlan a n ++ if 0 < openLen a n then [openLen a n] else [] := by
  have := planOf_append a [] n
  rwa [List.append_nil, planOf] at this

theorem layout_append : ∀ (a b : List Item) (acc : Bytes), layout (a ++ b) acc = closed a acc ++ layout b (openBuf a acc)
  | [], b, n => rfl
  | .own x :: r, b, n => by simp [layout, closed, openBuf, layout_append r]
  | .wire h w :: r, b, n => by simp [layout, closed, openBuf, layout_append r]

theorem layout_close (a : List Item) (acc : Bytes) : layout a acc = closed a acc ++ if 0 < (openBuf a acc).length then [.own (openBuf a acc)] else [] := by
  have := layout_append a [] acc
  rwa [List.append_nil, layout] at this

theorem closed_bytes (a : List Item) (acc : Bytes) : ((closed a acc).map Piece.bytes).flatten ++ openBuf a acc = acc ++ (a.map Item.bytes).flatten := by
  rw [← layout_bytes, layout_close, List.map_append, List.flatten_append]
  split
  · simp [Piece.bytes]
  · rename_i h; simp [List.length_eq_zero_iff.1 (show (openBuf a acc).length = 0 by omega)]

theorem closed_given (a : List Item) (acc : Bytes) : givenOf (closed a acc) = (a.map Item.given).flatten := by
  rw [← layout_given a acc, layout_close, givenOf, givenOf, List.filterMap_append]
  split <;> simp

theorem openLen_le : ∀ (its : List Item) (a : Nat), openLen its a ≤ a + ownLen its
  | [], a => by simp [openLen]
  | .own b :: r, a => by have := openLen_le r (a + b.length); simp only [openLen, ownLen, List.map_cons, List.sum_cons, Item.len] at this ⊢; omega
  | .wire h w :: r, a => by have := openLen_le r 0; simp only [openLen, ownLen, List.map_cons, List.sum_cons, Item.len] at this ⊢; omega

theorem closePlan_le (its : List Item) (a n : Nat) (h : n ∈ closePlan its a) : n ≤ a + ownLen its :=
  plan_le its a n (by rw [planOf_close]; simp [h])

theorem ownLen_append (a b : List Item) : ownLen (a ++ b) = ownLen a + ownLen b := by simp [ownLen]

/-- the second pass over fields -/
theorem planning_block : ∀ {fields : List Field} {its : List Item}, List.Forall₂ (FieldOK call cells p kvs) fields its → ∀ (ns : NS) (pl : List Nat) (a : Nat),
    ns.buf = .nil → ns.s.cells = cells → ns.s.vars .encoder = .ref p → ns.s.vars .value = .ptr (.struct kvs) → a + ownLen its < 2 ^ 64 →
    (allNoCopy (fun f => planCode f.name f.num f.cls) fields).exec call (ns.planning pl a) = .ok (ns.planning (pl ++ closePlan its a) (openLen its a))
  | _, _, .nil, ns, pl, a, hb, h1, h2, h3, h4 => by simp [allNoCopy, NCode.exec, closePlan, openLen]
  | f :: fields, it :: its, .cons hf hr, ns, pl, a, hb, h1, h2, h3, h4 => by
    simp only [ownLen, List.map_cons, List.sum_cons] at h4
    have e1 := planning_field hf ns pl a hb h1 h2 h3 (by omega)
    rw [allNoCopy, nexec_append, e1]
    cases it with
    | own b =>
      simp only [Res.bind]
      rw [planning_block hr ns pl (a + b.length) hb h1 h2 h3 (by simp only [Item.len] at h4; simp only [ownLen]; omega)]
      rfl
    | wire hd w =>
      simp only [Res.bind]
      rw [planning_block hr ns _ 0 hb h1 h2 h3 (by simp only [ownLen]; omega)]
      simp [closePlan, openLen]

/-- one field into the wire -/
theorem filling_field {f : Field} {it : Item} (hok : FieldOK call cells p kvs f it) (hne : ∀ h w, it = .wire h w → h ≠ []) {done : List Piece} {acc : Bytes}
    {pl : List Nat} {ns : NS} (hf : Filling cells p kvs done acc (closePlan [it] acc.length ++ pl) ns) (hp : openLen [it] acc.length ≤ pl.headD 0)
    (hl : acc.length + it.len < 2 ^ 64) (hm : pl.headD 0 < 2 ^ 64) :
    ∃ ns', (intoNoCopy f.name f.num f.cls).exec call ns = .ok ns' ∧ Filling cells p kvs (done ++ closed [it] acc) (openBuf [it] acc) pl ns' := by
  cases it with
  | own b =>
    simp only [closePlan, List.nil_append, openLen, closed, List.append_nil, openBuf] at hf hp ⊢
    rcases hok with ⟨hc, _, hP⟩ | ⟨hc, rfl, hn⟩
    · rw [intoNoCopy_plain hc]
      exact filling_plain hP hf hp hm
    · refine ⟨ns, ?_, by rwa [List.append_nil]⟩
      rw [hc]
      simp only [intoNoCopy, NCode.exec]
      rw [notNil_eval hn _ hf.value]
      simp [Res.bind, GV.isNil]
  | wire hd w =>
    simp only [closePlan, List.append_nil, List.cons_append, openLen, closed, openBuf, Item.len] at hf hp hl ⊢
    obtain ⟨hc, hw, _, hP⟩ := hok
    obtain ⟨ns1, e1, e2⟩ := filling_plain hP hf (by simp) (by simpa using hl)
    have hpos : 0 < acc.length + hd.length := by
      have : 0 < hd.length := List.length_pos_iff.2 (hne hd w rfl)
      omega
    obtain ⟨ns2, e3, e4⟩ := filling_next (call := call) e2 (by simp) hpos
    obtain ⟨ns3, e5, e6⟩ := filling_given (call := call) (fun g ns => (((NCode.of .putW ++ switchWire).exec call { ns with s := { ns.s with vars := upd ns.s.vars .w g } }).map
      (NS.leave (.w :: (NCode.of .putW ++ switchWire).decls) ns))) (fun b ns => rfl) w _ _ ns2 e4
    have e7 := filling_leave (ns0 := ns) e6 [] (by simp)
    refine ⟨NS.leave [] ns ns3, ?_, by simpa using e7⟩
    rw [hc]
    simp only [intoNoCopy, NCode.exec]
    rw [notNil_eval hw _ hf.value]
    simp only [Res.bind, GV.isNil, Bool.not_false, if_true]
    rw [nexec_append, nexec_append, e1]
    simp only [Res.bind]
    rw [e3]
    have hd0 : (NCode.ofPlain (encodeTypeNum f.num ++ naturalEncode (Ex.own (Key.len f.name)) true) ++ switchWire ++
        NCode.range true f.name (NCode.of NAtom.putW ++ switchWire) NCode.done).decls = [] := by
      simp [ndecls_append, NCode.ofPlain, NCode.decls, decls_append, encodeTypeNum_decls, switchWire, NCode.of, naturalEncode, Code.decls]
    rw [hd0]
    have e11 : (NCode.range true f.name (NCode.of NAtom.putW ++ switchWire) NCode.done).exec call ns2 = .ok ns3 := by
      simp only [NCode.exec]
      rw [fieldOfValue_eq e4.value hw]
      exact congrArg (fun r => Res.bind r (fun x => Res.ok x)) e5
    simp only
    rw [e11]
    rfl

theorem closePlan_cons (it : Item) (its : List Item) (a : Nat) : closePlan (it :: its) a = closePlan [it] a ++ closePlan its (openLen [it] a) := by
  cases it <;> simp [closePlan, openLen]

theorem openLen_cons (it : Item) (its : List Item) (a : Nat) : openLen (it :: its) a = openLen its (openLen [it] a) := by cases it <;> rfl

theorem closed_cons (it : Item) (its : List Item) (acc : Bytes) : closed (it :: its) acc = closed [it] acc ++ closed its (openBuf [it] acc) := by
  cases it <;> simp [closed, openBuf]

theorem openBuf_cons (it : Item) (its : List Item) (acc : Bytes) : openBuf (it :: its) acc = openBuf its (openBuf [it] acc) := by cases it <;> rfl

/-- the buffer that is being filled has room for what is still to come -/
theorem room : ∀ (its : List Item) (a : Nat) (pl : List Nat), openLen its a ≤ pl.headD 0 → a ≤ (closePlan its a ++ pl).headD 0
  | [], a, pl, h => by simpa [closePlan, openLen] using h
  | .own b :: r, a, pl, h => by
    have := room r (a + b.length) pl h
    simp only [closePlan]; omega
  | .wire h w :: r, a, pl, _ => by simp [closePlan]

/-- fields into the wire -/
theorem filling_block : ∀ {fields : List Field} {its : List Item}, List.Forall₂ (FieldOK call cells p kvs) fields its →
    (∀ h w, Item.wire h w ∈ its → h ≠ []) → ∀ (done : List Piece) (acc : Bytes) (pl : List Nat) (ns : NS), acc.length + ownLen its < 2 ^ 64 → pl.headD 0 < 2 ^ 64 →
    openLen its acc.length ≤ pl.headD 0 → Filling cells p kvs done acc (closePlan its acc.length ++ pl) ns →
    ∃ ns', (allNoCopy (fun f => intoNoCopy f.name f.num f.cls) fields).exec call ns = .ok ns' ∧
      Filling cells p kvs (done ++ closed its acc) (openBuf its acc) pl ns'
  | _, _, .nil, _, done, acc, pl, ns, _, _, _, hf => ⟨ns, rfl, by simpa [closed, openBuf, closePlan] using hf⟩
  | f :: fields, it :: its, .cons hok hr, hne, done, acc, pl, ns, hl, hm, hp, hf => by
    have hl' : acc.length + it.len + ownLen its < 2 ^ 64 := by
      have : ownLen (it :: its) = it.len + ownLen its := by simp [ownLen]
      omega
    have hopen : openLen [it] acc.length ≤ acc.length + it.len := by cases it <;> simp [openLen, Item.len]
    rw [closePlan_cons, List.append_assoc] at hf
    rw [openLen_cons] at hp
    have hr1 := room its (openLen [it] acc.length) pl hp
    obtain ⟨ns1, e1, e2⟩ := filling_field hok (fun h w e => hne h w (by simp [e])) hf hr1 (by omega) (by
      cases hc : closePlan its (openLen [it] acc.length) with
      | nil => simpa using hm
      | cons x l =>
        have := closePlan_le its (openLen [it] acc.length) x (by simp [hc])
        simp only [List.cons_append, List.headD_cons]
        omega)
    rw [← openBuf_length] at hp e2
    obtain ⟨ns2, e3, e4⟩ := filling_block hr (fun h w hm => hne h w (by simp [hm])) (done ++ closed [it] acc) (openBuf [it] acc) pl ns1
      (by rw [openBuf_length]; omega) hm hp e2
    refine ⟨ns2, by rw [allNoCopy, nexec_append, e1]; exact e3, ?_⟩
    rw [closed_cons, openBuf_cons it its, ← List.append_assoc]
    exact e4

end

end Ndn.Codec.Gen
