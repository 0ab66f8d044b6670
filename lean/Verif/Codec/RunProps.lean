import Verif.Codec.RunReady
import Verif.Codec.FrontProps

/-!
# C90: what the emitted encoder writes

`Verif/Codec/Emit.lean` has the statements that the generator writes for a model, `Verif/Codec/Run.lean` what they do.  The theorems here say that running
them gives the bytes of the message, which `Verif/Codec/Spec.lean` defines from the schema without any of this.
-/

namespace Ndn.Codec.Gen

/-- a field class of the part of the generator that is covered, with references to the types that `ok` admits -/
def Cls.plain (ok : Txt → Bool) : Cls → Bool
  | .natural _ => true
  | .fixedUint w _ => w == 1 || w == 2 || w == 4 || w == 8
  | .time _ => true
  | .binary => true
  | .string _ => true
  | .wire nc => !nc
  | .name => true
  | .bool => true
  | .struct t nc => !nc && ok t
  | .sequence _ sub => sub.plain ok
  | _ => false

/-- the model called `t` and the models that it refers to are covered: no `nocopy`, maps and fields of packets, and fields have different names -/
def plainAt (ms : List TModel) : Nat → Txt → Bool
  | 0, _ => false
  | fuel + 1, t =>
    match ms.find? fun m => m.name == t with
    | some m => !m.opts.noCopy && decide (m.fields.map Field.name).Nodup && m.fields.all fun f => f.cls.plain (plainAt ms fuel)
    | none => false

theorem plainAt_find {ms : List TModel} {fuel : Nat} {t : Txt} (h : plainAt ms fuel t = true) :
    ∃ m fuel', fuel = fuel' + 1 ∧ (ms.find? fun m => m.name == t) = some m ∧ Named m.fields ∧ ∀ f ∈ m.fields, f.cls.plain (plainAt ms fuel') = true := by
  cases fuel with
  | zero => simp [plainAt] at h
  | succ fuel =>
    simp only [plainAt] at h
    split at h
    · rename_i m hm
      simp only [Bool.and_eq_true, decide_eq_true_eq, List.all_eq_true] at h
      exact ⟨m, fuel, rfl, hm, h.1.2, h.2⟩
    · cases h

/-! ## Depth and widths -/

theorem elem_depth {env : Txt → Option Fields} {n : Nat} (henv : ∀ t fs, env t = some fs → Fields.depth fs < n) {c : Cls} {mode : Mode} {e : Elem}
    (h : c.elem env = some (mode, e)) : Elem.depth e ≤ n := by
  cases c with
  | struct t nc =>
    simp only [Cls.elem, Option.map_eq_some_iff, Prod.mk.injEq] at h
    obtain ⟨fs, h1, _, rfl⟩ := h
    exact henv t fs h1
  | sequence t sub =>
    cases sub with
    | struct t nc =>
      simp only [Cls.elem, Option.map_eq_some_iff, Prod.mk.injEq] at h
      obtain ⟨fs, h1, _, rfl⟩ := h
      exact henv t fs h1
    | natural o => cases o <;> simp [Cls.elem] at h; simp [← h.2, Elem.depth]
    | fixedUint l o => cases o <;> simp [Cls.elem] at h; simp [← h.2, Elem.depth]
    | time o => cases o <;> simp [Cls.elem] at h; simp [← h.2, Elem.depth]
    | string o => cases o <;> simp [Cls.elem] at h; simp [← h.2, Elem.depth]
    | binary => simp [Cls.elem] at h; simp [← h.2, Elem.depth]
    | name => simp [Cls.elem] at h; simp [← h.2, Elem.depth]
    | wire b => simp [Cls.elem] at h; simp [← h.2, Elem.depth]
    | _ => simp [Cls.elem] at h
  | natural o => simp [Cls.elem] at h; simp [← h.2, Elem.depth]
  | fixedUint l o => simp [Cls.elem] at h; simp [← h.2, Elem.depth]
  | time o => simp [Cls.elem] at h; simp [← h.2, Elem.depth]
  | string o => simp [Cls.elem] at h; simp [← h.2, Elem.depth]
  | binary => simp [Cls.elem] at h; simp [← h.2, Elem.depth]
  | name => simp [Cls.elem] at h; simp [← h.2, Elem.depth]
  | wire b => simp [Cls.elem] at h; simp [← h.2, Elem.depth]
  | _ => simp [Cls.elem] at h

/-- the shapes of a schema -/
theorem schemaOf_cons {env : Txt → Option Fields} {f : Field} {l : List Field} {fs : Fields} (h : schemaOf env (f :: l) = some fs) :
    (f.cls = .bool ∧ ∃ rest, schemaOf env l = some rest ∧ fs = .flag f.num rest) ∨
    (∃ mode e rest, f.cls.elem env = some (mode, e) ∧ schemaOf env l = some rest ∧ fs = .cons f.num mode e rest) := by
  by_cases hb : f.cls = .bool
  · left
    simp only [schemaOf, hb, Option.map_eq_some_iff] at h
    obtain ⟨rest, h1, h2⟩ := h
    exact ⟨hb, rest, h1, h2.symm⟩
  · right
    simp only [schemaOf] at h
    split at h
    · rename_i m e rest h1 h2
      cases h
      exact ⟨m, e, rest, h1, h2, rfl⟩
    · cases h

theorem schemaOf_depth {env : Txt → Option Fields} {n : Nat} (henv : ∀ t fs, env t = some fs → Fields.depth fs < n) : ∀ (l : List Field) (fs : Fields),
    schemaOf env l = some fs → Fields.depth fs ≤ n
  | [], fs, h => by cases h; simp [Fields.depth]
  | f :: l, fs, h => by
    rcases schemaOf_cons h with ⟨_, rest, h1, rfl⟩ | ⟨mode, e, rest, h1, h2, rfl⟩
    · exact schemaOf_depth henv l rest h1
    · simp only [Fields.depth]
      have := schemaOf_depth henv l rest h2
      have := elem_depth henv h1
      omega

theorem resolve_depth (ms : List TModel) : ∀ (fuel : Nat) (t : Txt) (fs : Fields), resolve ms fuel t = some fs → Fields.depth fs < fuel
  | 0, _, _, h => by cases h
  | fuel + 1, t, fs, h => by
    simp only [resolve] at h
    split at h
    · exact Nat.lt_succ_of_le (schemaOf_depth (resolve_depth ms fuel) _ _ h)
    · cases h

theorem elem_widths {env : Txt → Option Fields} {ok : Txt → Bool} (henv : ∀ t fs, ok t = true → env t = some fs → fs.Widths) {c : Cls} {mode : Mode}
    {e : Elem} (hp : c.plain ok = true) (h : c.elem env = some (mode, e)) : e.Widths := by
  have hw : ∀ {l : Nat}, (l == 1 || l == 2 || l == 4 || l == 8) = true → l = 1 ∨ l = 2 ∨ l = 4 ∨ l = 8 := by
    intro l h; simpa [or_assoc] using h
  cases c with
  | struct t nc =>
    simp only [Cls.elem, Option.map_eq_some_iff, Prod.mk.injEq] at h
    obtain ⟨fs, h1, _, rfl⟩ := h
    simp only [Cls.plain, Bool.and_eq_true] at hp
    exact henv t fs hp.2 h1
  | sequence t sub =>
    simp only [Cls.plain] at hp
    cases sub with
    | struct t nc =>
      simp only [Cls.elem, Option.map_eq_some_iff, Prod.mk.injEq] at h
      obtain ⟨fs, h1, _, rfl⟩ := h
      simp only [Cls.plain, Bool.and_eq_true] at hp
      exact henv t fs hp.2 h1
    | natural o => cases o <;> simp [Cls.elem] at h; simp [← h.2, Elem.Widths]
    | fixedUint l o => cases o <;> simp [Cls.elem] at h; rw [← h.2]; exact hw hp
    | time o => cases o <;> simp [Cls.elem] at h; simp [← h.2, Elem.Widths]
    | string o => cases o <;> simp [Cls.elem] at h; simp [← h.2, Elem.Widths]
    | binary => simp [Cls.elem] at h; simp [← h.2, Elem.Widths]
    | name => simp [Cls.elem] at h; simp [← h.2, Elem.Widths]
    | wire b => simp [Cls.elem] at h; simp [← h.2, Elem.Widths]
    | _ => simp [Cls.elem] at h
  | natural o => simp [Cls.elem] at h; simp [← h.2, Elem.Widths]
  | fixedUint l o => simp [Cls.elem] at h; rw [← h.2]; exact hw hp
  | time o => simp [Cls.elem] at h; simp [← h.2, Elem.Widths]
  | string o => simp [Cls.elem] at h; simp [← h.2, Elem.Widths]
  | binary => simp [Cls.elem] at h; simp [← h.2, Elem.Widths]
  | name => simp [Cls.elem] at h; simp [← h.2, Elem.Widths]
  | wire b => simp [Cls.elem] at h; simp [← h.2, Elem.Widths]
  | _ => simp [Cls.elem] at h

theorem schemaOf_widths {env : Txt → Option Fields} {ok : Txt → Bool} (henv : ∀ t fs, ok t = true → env t = some fs → fs.Widths) :
    ∀ (l : List Field) (fs : Fields), (∀ f ∈ l, f.cls.plain ok = true) → schemaOf env l = some fs → fs.Widths
  | [], fs, _, h => by cases h; exact trivial
  | f :: l, fs, hp, h => by
    have hp' : ∀ g ∈ l, g.cls.plain ok = true := fun g hg => hp g (by simp [hg])
    rcases schemaOf_cons h with ⟨_, rest, h1, rfl⟩ | ⟨mode, e, rest, h1, h2, rfl⟩
    · exact schemaOf_widths henv l rest hp' h1
    · exact ⟨elem_widths henv (hp f (by simp)) h1, schemaOf_widths henv l rest hp' h2⟩

theorem resolve_widths (ms : List TModel) : ∀ (fuel : Nat) (t : Txt) (fs : Fields), plainAt ms fuel t = true → resolve ms fuel t = some fs → fs.Widths
  | 0, _, _, _, h => by cases h
  | fuel + 1, t, fs, hp, h => by
    obtain ⟨m, fuel', hf, hm, _, hall⟩ := plainAt_find hp
    cases hf
    simp only [resolve, hm] at h
    exact schemaOf_widths (resolve_widths ms fuel) _ _ hall h

/-! ## Every message has a Go value -/

theorem lookup_skip {f n : Txt} {g : GV} {kvs : List (Txt × GV)} (h : n ≠ f) : lookup f ((n, g) :: kvs) = lookup f kvs := by simp [lookup, h]

theorem StandsAll.weaken (ms : List TModel) (n : Txt) (g : GV) : ∀ (fs : Fields) (fields : List Field) (v : fs.V) (kvs : List (Txt × GV)),
    n ∉ fields.map Field.name → StandsAll ms fs fields v kvs → StandsAll ms fs fields v ((n, g) :: kvs)
  | .nil, _, _, _, _, h => by simpa only [StandsAll] using h
  | .flag t rest, fields, (b, vs), kvs, hn, h => by
    simp only [StandsAll] at h ⊢
    obtain ⟨f, l, rfl, h1, h2, h3, h4⟩ := h
    simp only [List.map_cons, List.mem_cons, not_or] at hn
    exact ⟨f, l, rfl, h1, h2, by rw [lookup_skip hn.1]; exact h3, StandsAll.weaken ms n g rest l vs kvs hn.2 h4⟩
  | .cons t .req e rest, fields, (v, vs), kvs, hn, h => by
    simp only [StandsAll] at h ⊢
    obtain ⟨f, l, rfl, h1, h2, ⟨g', h3, h3'⟩, h4⟩ := h
    simp only [List.map_cons, List.mem_cons, not_or] at hn
    exact ⟨f, l, rfl, h1, h2, ⟨g', by rw [lookup_skip hn.1]; exact h3, h3'⟩, StandsAll.weaken ms n g rest l vs kvs hn.2 h4⟩
  | .cons t .opt e rest, fields, (none, vs), kvs, hn, h => by
    simp only [StandsAll] at h ⊢
    obtain ⟨f, l, rfl, h1, h2, h3, h4⟩ := h
    simp only [List.map_cons, List.mem_cons, not_or] at hn
    exact ⟨f, l, rfl, h1, h2, by rw [lookup_skip hn.1]; exact h3, StandsAll.weaken ms n g rest l vs kvs hn.2 h4⟩
  | .cons t .opt e rest, fields, (some v, vs), kvs, hn, h => by
    simp only [StandsAll] at h ⊢
    obtain ⟨f, l, rfl, h1, h2, ⟨g', h3, h3'⟩, h4⟩ := h
    simp only [List.map_cons, List.mem_cons, not_or] at hn
    exact ⟨f, l, rfl, h1, h2, ⟨g', by rw [lookup_skip hn.1]; exact h3, h3'⟩, StandsAll.weaken ms n g rest l vs kvs hn.2 h4⟩
  | .cons t .seq e rest, fields, (xs, vs), kvs, hn, h => by
    simp only [StandsAll] at h ⊢
    obtain ⟨f, l, rfl, h1, ⟨ty, sub, h2, g', gs, h3, h3'⟩, h4⟩ := h
    simp only [List.map_cons, List.mem_cons, not_or] at hn
    exact ⟨f, l, rfl, h1, ⟨ty, sub, h2, g', gs, by rw [lookup_skip hn.1]; exact h3, h3'⟩, StandsAll.weaken ms n g rest l vs kvs hn.2 h4⟩

/-- a value for a field that is not a sequence -/
theorem stands_one (ms : List TModel) {fuel : Nat} (ih : ∀ t fs, plainAt ms fuel t = true → resolve ms fuel t = some fs → ∀ v : fs.V,
      ∃ m kvs, (ms.find? fun m => m.name == t) = some m ∧ Named m.fields ∧ StandsAll ms fs m.fields v kvs)
    {c : Cls} {mode : Mode} {e : Elem} (hp : c.plain (plainAt ms fuel) = true) (h : c.elem (resolve ms fuel) = some (mode, e)) (hm : mode ≠ .seq) :
    (∀ v : e.V, ∃ g, Stands ms e c v g) ∧ c.optional = (match mode with | .opt => true | _ => false) := by
  cases c with
  | struct t nc =>
    simp only [Cls.elem, Option.map_eq_some_iff, Prod.mk.injEq] at h
    obtain ⟨fs, h1, rfl, rfl⟩ := h
    simp only [Cls.plain, Bool.and_eq_true, Bool.not_eq_true'] at hp
    obtain ⟨rfl, hp⟩ := hp
    refine ⟨fun v => ?_, rfl⟩
    obtain ⟨m, kvs, h3, h4, h5⟩ := ih t fs hp h1 v
    exact ⟨_, t, _, m, kvs, rfl, h3, h4, rfl, h5⟩
  | natural o => simp only [Cls.elem, Option.some.injEq, Prod.mk.injEq] at h; obtain ⟨rfl, rfl⟩ := h
                 exact ⟨fun v => ⟨_, o, rfl, rfl⟩, by cases o <;> rfl⟩
  | fixedUint l o => simp only [Cls.elem, Option.some.injEq, Prod.mk.injEq] at h; obtain ⟨rfl, rfl⟩ := h
                     exact ⟨fun v => ⟨_, o, rfl, rfl⟩, by cases o <;> rfl⟩
  | time o => simp only [Cls.elem, Option.some.injEq, Prod.mk.injEq] at h; obtain ⟨rfl, rfl⟩ := h
              exact ⟨fun v => ⟨_, o, rfl, rfl⟩, by cases o <;> rfl⟩
  | string o => simp only [Cls.elem, Option.some.injEq, Prod.mk.injEq] at h; obtain ⟨rfl, rfl⟩ := h
                exact ⟨fun v => ⟨_, o, rfl, rfl⟩, by cases o <;> rfl⟩
  | binary => simp only [Cls.elem, Option.some.injEq, Prod.mk.injEq] at h; obtain ⟨rfl, rfl⟩ := h
              exact ⟨fun v => ⟨_, rfl, rfl⟩, rfl⟩
  | name => simp only [Cls.elem, Option.some.injEq, Prod.mk.injEq] at h; obtain ⟨rfl, rfl⟩ := h
            exact ⟨fun v => ⟨_, rfl, rfl⟩, rfl⟩
  | wire b => simp only [Cls.elem, Option.some.injEq, Prod.mk.injEq] at h; obtain ⟨rfl, rfl⟩ := h
              simp only [Cls.plain, Bool.not_eq_true'] at hp; subst hp
              exact ⟨fun v => ⟨_, _, rfl, rfl⟩, rfl⟩
  | sequence t sub =>
    exfalso
    cases sub with
    | struct t nc => simp only [Cls.elem, Option.map_eq_some_iff, Prod.mk.injEq] at h; obtain ⟨_, _, e, _⟩ := h; exact hm e.symm
    | natural o => cases o <;> simp [Cls.elem] at h; exact hm h.1.symm
    | fixedUint l o => cases o <;> simp [Cls.elem] at h; exact hm h.1.symm
    | time o => cases o <;> simp [Cls.elem] at h; exact hm h.1.symm
    | string o => cases o <;> simp [Cls.elem] at h; exact hm h.1.symm
    | binary => simp [Cls.elem] at h; exact hm h.1.symm
    | name => simp [Cls.elem] at h; exact hm h.1.symm
    | wire b => simp [Cls.elem] at h; exact hm h.1.symm
    | _ => simp [Cls.elem] at h
  | _ => simp [Cls.elem] at h

/-- a sequence is a sequence of what its sub-field is -/
theorem seq_elem {env : Txt → Option Fields} {c : Cls} {e : Elem} (h : c.elem env = some (.seq, e)) :
    ∃ ty sub mode, c = .sequence ty sub ∧ mode ≠ .seq ∧ sub.elem env = some (mode, e) := by
  cases c with
  | sequence t sub =>
    refine ⟨t, sub, ?_⟩
    cases sub with
    | struct t nc =>
      simp only [Cls.elem, Option.map_eq_some_iff, Prod.mk.injEq] at h
      obtain ⟨fs, h1, _, rfl⟩ := h
      exact ⟨.opt, rfl, by decide, by simp [Cls.elem, h1]⟩
    | natural o => cases o <;> simp [Cls.elem] at h; subst h; exact ⟨.req, rfl, by decide, rfl⟩
    | fixedUint l o => cases o <;> simp [Cls.elem] at h; subst h; exact ⟨.req, rfl, by decide, rfl⟩
    | time o => cases o <;> simp [Cls.elem] at h; subst h; exact ⟨.req, rfl, by decide, rfl⟩
    | string o => cases o <;> simp [Cls.elem] at h; subst h; exact ⟨.req, rfl, by decide, rfl⟩
    | binary => simp [Cls.elem] at h; subst h; exact ⟨.opt, rfl, by decide, rfl⟩
    | name => simp [Cls.elem] at h; subst h; exact ⟨.opt, rfl, by decide, rfl⟩
    | wire b => simp [Cls.elem] at h; subst h; exact ⟨.opt, rfl, by decide, rfl⟩
    | _ => simp [Cls.elem] at h
  | natural o => cases o <;> simp [Cls.elem] at h
  | fixedUint l o => cases o <;> simp [Cls.elem] at h
  | time o => cases o <;> simp [Cls.elem] at h
  | string o => cases o <;> simp [Cls.elem] at h
  | _ => simp [Cls.elem] at h

theorem list_choice {α β : Type} {P : α → β → Prop} (h : ∀ a, ∃ b, P a b) : ∀ l : List α, ∃ l' : List β, l'.length = l.length ∧
    ∀ (i : Nat) a b, l[i]? = some a → l'[i]? = some b → P a b
  | [] => ⟨[], rfl, fun i a b h => by simp at h⟩
  | a :: l => by
    obtain ⟨l', h1, h2⟩ := list_choice h l
    obtain ⟨b, hb⟩ := h a
    refine ⟨b :: l', by simp [h1], fun i x y hx hy => ?_⟩
    cases i with
    | zero => simp at hx hy; subst hx; subst hy; exact hb
    | succ i => exact h2 i x y (by simpa using hx) (by simpa using hy)

theorem stands_fields (ms : List TModel) {fuel : Nat} (ih : ∀ t fs, plainAt ms fuel t = true → resolve ms fuel t = some fs → ∀ v : fs.V,
      ∃ m kvs, (ms.find? fun m => m.name == t) = some m ∧ Named m.fields ∧ StandsAll ms fs m.fields v kvs) :
    ∀ (fields : List Field) (fs : Fields), Named fields → (∀ f ∈ fields, f.cls.plain (plainAt ms fuel) = true) →
      schemaOf (resolve ms fuel) fields = some fs → ∀ v : fs.V, ∃ kvs, StandsAll ms fs fields v kvs
  | [], fs, _, _, h, v => by cases h; exact ⟨[], by simp only [StandsAll]⟩
  | f :: l, fs, hn, hp, h, v => by
    have hp' : ∀ g ∈ l, g.cls.plain (plainAt ms fuel) = true := fun g hg => hp g (by simp [hg])
    have hn' := List.nodup_cons.1 hn
    rcases schemaOf_cons h with ⟨hb, rest, h1, rfl⟩ | ⟨mode, e, rest, h1, h2, rfl⟩
    · obtain ⟨b, vs⟩ := v
      obtain ⟨kvs, hk⟩ := stands_fields ms ih l rest hn'.2 hp' h1 vs
      refine ⟨(f.name, .bool b) :: kvs, ?_⟩
      simp only [StandsAll]
      exact ⟨f, l, rfl, rfl, hb, by simp [lookup], StandsAll.weaken ms _ _ rest l vs kvs hn'.1 hk⟩
    · cases mode with
      | req =>
        obtain ⟨v, vs⟩ := v
        obtain ⟨kvs, hk⟩ := stands_fields ms ih l rest hn'.2 hp' h2 vs
        obtain ⟨hs, ho⟩ := stands_one ms ih (hp f (by simp)) h1 (by decide)
        obtain ⟨g, hg⟩ := hs v
        refine ⟨(f.name, g) :: kvs, ?_⟩
        simp only [StandsAll]
        exact ⟨f, l, rfl, rfl, ho, ⟨g, by simp [lookup], hg⟩, StandsAll.weaken ms _ _ rest l vs kvs hn'.1 hk⟩
      | opt =>
        obtain ⟨v, vs⟩ := v
        obtain ⟨kvs, hk⟩ := stands_fields ms ih l rest hn'.2 hp' h2 vs
        obtain ⟨hs, ho⟩ := stands_one ms ih (hp f (by simp)) h1 (by decide)
        cases v with
        | none =>
          refine ⟨(f.name, .nil) :: kvs, ?_⟩
          simp only [StandsAll]
          exact ⟨f, l, rfl, rfl, ho, by simp [lookup], StandsAll.weaken ms _ _ rest l vs kvs hn'.1 hk⟩
        | some v =>
          obtain ⟨g, hg⟩ := hs v
          refine ⟨(f.name, g) :: kvs, ?_⟩
          simp only [StandsAll]
          exact ⟨f, l, rfl, rfl, ho, ⟨g, by simp [lookup], hg⟩, StandsAll.weaken ms _ _ rest l vs kvs hn'.1 hk⟩
      | seq =>
        obtain ⟨xs, vs⟩ := v
        obtain ⟨kvs, hk⟩ := stands_fields ms ih l rest hn'.2 hp' h2 vs
        obtain ⟨ty, sub, mode, hc, hmode, hsub⟩ := seq_elem h1
        have hpf := hp f (by simp)
        rw [hc] at hpf
        obtain ⟨hs, _⟩ := stands_one ms ih (c := sub) (by simpa only [Cls.plain] using hpf) hsub hmode
        obtain ⟨gs, hl, hgs⟩ := list_choice hs xs
        refine ⟨(f.name, .arr gs) :: kvs, ?_⟩
        simp only [StandsAll]
        exact ⟨f, l, rfl, rfl, ⟨ty, sub, hc, .arr gs, gs, by simp [lookup], Or.inl rfl, hl, hgs⟩, StandsAll.weaken ms _ _ rest l vs kvs hn'.1 hk⟩

theorem stands_exists (ms : List TModel) : ∀ (fuel : Nat) (t : Txt) (fs : Fields), plainAt ms fuel t = true → resolve ms fuel t = some fs → ∀ v : fs.V,
    ∃ m kvs, (ms.find? fun m => m.name == t) = some m ∧ Named m.fields ∧ StandsAll ms fs m.fields v kvs
  | 0, _, _, _, h, _ => by cases h
  | fuel + 1, t, fs, hp, h, v => by
    obtain ⟨m, fuel', hf, hm, hn, hall⟩ := plainAt_find hp
    cases hf
    simp only [resolve, hm] at h
    obtain ⟨kvs, hk⟩ := stands_fields ms (stands_exists ms fuel) m.fields fs hn hall h v
    exact ⟨m, kvs, hm, hn, hk⟩

/-! ## The property -/

/-- the Go value `g` stands for the message `v` of the type `t` -/
def StandsFor (ms : List TModel) (t : Txt) (fs : Fields) (v : fs.V) (g : GV) : Prop :=
  ∃ m kvs, (ms.find? fun m => m.name == t) = some m ∧ g = .ptr (.struct kvs) ∧ StandsAll ms fs m.fields v kvs

/-- **C90, every message can be given to the encoder** -/
theorem C90_represented {ms : List TModel} {fuel : Nat} {t : Txt} {fs : Fields} (hp : plainAt ms fuel t = true) (h : resolve ms fuel t = some fs) (v : fs.V) :
    ∃ g, StandsFor ms t fs v g := by
  obtain ⟨m, kvs, h1, _, h2⟩ := stands_exists ms fuel t fs hp h v
  exact ⟨_, m, kvs, h1, rfl, h2⟩

/-- **C90, the emitted encoder**: for every model that the generator can be given, within what is covered, and every Go value that stands for a message,
the statements that the generator writes for `Init` and `EncodeInto` run without a panic and give the bytes of the message -/
theorem C90_encode_partial {ms : List TModel} {fuel : Nat} {t : Txt} {fs : Fields} (hp : plainAt ms fuel t = true) (h : resolve ms fuel t = some fs)
    {v : fs.V} {g : GV} (hg : StandsFor ms t fs v g) (hl : (fs.enc v).length < 2 ^ 64) : runEncode ms fuel t g = .ok (fs.enc v) := by
  obtain ⟨m, kvs, hm, rfl, hs⟩ := hg
  obtain ⟨m', fuel', rfl, hm', hn, _⟩ := plainAt_find hp
  rw [hm] at hm'; cases hm'
  have hw := resolve_widths ms _ t fs hp h
  have hd := resolve_depth ms _ t fs h
  obtain ⟨g1, g2⟩ := good_call ms (fuel' + 1)
  obtain ⟨C, e1, _, e3, e4⟩ := g1 fs t m v kvs hd hm hn hs hw hl [] (fun _ => 0) []
  have e5 := g2 fs t m v kvs hd hm hs hw [] C 0 (List.replicate (fs.enc v).length 0) e4 (by simp [Fields.enc]) (by simpa using hl)
  simp only [runEncode, e1, Res.bind, e3]
  rw [show (fs.elems v).flatten = fs.enc v from rfl] at e5 ⊢
  rw [e5]
  simp [Res.map, splice]

/-! ## Nil in a sequence -/

/-- the elements of a Go slice, some of which may be nil -/
def StandsSome (ms : List TModel) (e : Elem) (sub : Cls) : Option e.V → GV → Prop
  | none, g => g = .nil
  | some x, g => Stands ms e sub x g

/-- the bytes of an element -/
def someTlv (n : Nat) (e : Elem) : Option e.V → Bytes
  | none => []
  | some x => tlv n (e.body x)

theorem someTlv_flatten (n : Nat) (e : Elem) : ∀ xs : List (Option e.V),
    (xs.map (someTlv n e)).flatten = Fields.enc (.cons n .seq e .nil) (xs.filterMap id, ())
  | [] => rfl
  | none :: xs => by
    simp only [List.map_cons, List.flatten_cons, someTlv, List.nil_append, someTlv_flatten n e xs]; rfl
  | some x :: xs => by
    simp only [List.map_cons, List.flatten_cons, someTlv, someTlv_flatten n e xs]; rfl

/-- **C90, nil in a sequence**: the elements of a sequence that are nil are left out without a word, so that what is read back has fewer elements.  A nil
`enc.Name` and a nil `[]byte` are such elements, although elsewhere they are the empty name and no bytes. -/
theorem C90_nil_violated {ms : List TModel} {fuel : Nat} {t ty : Txt} {m : TModel} {f : Field} {sub : Cls} {e : Elem}
    (hp : plainAt ms fuel t = true) (hm : (ms.find? fun m => m.name == t) = some m) (hf : m.fields = [f]) (hc : f.cls = .sequence ty sub)
    (ho : sub.optional = true) (hr : resolve ms fuel t = some (.cons f.num .seq e .nil)) {xs : List (Option e.V)} {gs : List GV}
    (hlen : gs.length = xs.length) (hs : ∀ (i : Nat) x g, xs[i]? = some x → gs[i]? = some g → StandsSome ms e sub x g)
    (hl : (Fields.enc (.cons f.num .seq e .nil) (xs.filterMap id, ())).length < 2 ^ 64) :
    runEncode ms fuel t (.ptr (.struct [(f.name, .arr gs)])) = .ok (Fields.enc (.cons f.num .seq e .nil) (xs.filterMap id, ())) := by
  obtain ⟨m', fuel', rfl, hm', hn, hall⟩ := plainAt_find hp
  rw [hm] at hm'; cases hm'
  have hw := (resolve_widths ms _ t _ hp hr).1
  have hd : Elem.depth e ≤ fuel' := by
    have := resolve_depth ms _ t _ hr
    simp only [Fields.depth] at this; omega
  obtain ⟨g1, g2⟩ := good_call ms fuel'
  rw [← someTlv_flatten] at hl ⊢
  have hz : (xs.map (someTlv f.num e)).flatten = ((xs.zip gs).map fun z => someTlv f.num e z.1).flatten := by
    conv => lhs; rw [← zip_fst hlen, List.map_map]
    rfl
  rw [hz] at hl ⊢
  have hsnd : (xs.zip gs).map (fun z : Option e.V × GV => z.2) = gs := zip_snd hlen
  have hb : ∀ x, some x ∈ xs → (e.body x).length < 2 ^ 64 := by
    intro x hx
    rw [← hz] at hl
    exact body_le (t := f.num) (List.mem_map.2 ⟨some x, hx, rfl⟩) hl
  let kvs : List (Txt × GV) := [(f.name, .arr gs)]
  have hlk : lookup f.name kvs = some (.arr gs) := by simp [kvs, lookup]
  let R : Option e.V × GV → (Path → Nat) → Path → Prop := fun z C q => match z.1 with
    | none => True
    | some x => Ready ms e sub f.name x C q
  have hinit := Inits.sequence (call := callOf ms fuel') (p := []) (kvs := kvs) (t := ty) (sub := sub) (fun z : Option e.V × GV => z.2) R (xs.zip gs) hlk
    (by rw [hsnd]; exact Or.inl rfl) (by
      rintro ⟨x, g⟩ C C' q h r
      cases x with
      | none => trivial
      | some x => exact Ready.congr ms e sub f.name x C C' q h r) (by
      rintro i ⟨x, g⟩ hi
      obtain ⟨i1, i2⟩ := zip_get hi
      have := hs i x g i1 i2
      cases x with
      | none => cases this; exact nil_inits ho (by simp [lookup])
      | some x => exact elem_inits ms fuel' g1 e sub f.name x g this (by simp [lookup]) hw hd (hb x (List.mem_of_getElem? i1)))
  obtain ⟨C, e1, e2, e3, e4⟩ := hinit ⟨fun _ => 0, [], entry (.ptr (.struct kvs)) [] 0⟩ (by simp [entry, upd]) (by simp [entry, upd])
  have hadds := Adds.general (call := callOf ms fuel') (cells := C) (p := []) (kvs := kvs) (t := ty) (c := lengthCode f.name f.num sub)
    (fun z : Option e.V × GV => z.2) (fun z => (someTlv f.num e z.1).length) (xs.zip gs) hlk (by rw [hsnd]; exact Or.inl rfl) e3
    (lengthCode_decls _ _ _) (by
      rintro i ⟨x, g⟩ hi
      obtain ⟨i1, i2⟩ := zip_get hi
      have h1 := hs i x g i1 i2
      have h2 := e4 i _ hi
      cases x with
      | none => cases h1; exact nil_adds ho (by simp [lookup])
      | some x => exact elem_adds ms e sub f.name f.num x g h1 h2 (by simp [lookup]) hw (hb x (List.mem_of_getElem? i1)))
  rw [← length_map_flatten] at hadds
  have hputs := fun C' => Puts.general (call := callOf ms fuel') (cells := updCell C [.key .length] C') (p := []) (kvs := kvs) (t := ty)
    (c := intoCode f.name f.num sub) (fun z : Option e.V × GV => z.2) (fun z => someTlv f.num e z.1) (xs.zip gs) hlk
    (by rw [hsnd]; exact Or.inl rfl) (by rw [← e3]; simp [updCell]) (intoCode_decls _ _ _) (by
      rintro i ⟨x, g⟩ hi
      obtain ⟨i1, i2⟩ := zip_get hi
      have h1 := hs i x g i1 i2
      have h2 := e4 i _ hi
      cases x with
      | none => cases h1; exact nil_puts ho (by simp [lookup])
      | some x =>
        refine elem_puts ms fuel' g2 e sub f.name f.num x g h1 (Ready.congr ms e sub f.name x C _ _ (fun q hq => ?_) h2) (by simp [lookup]) hw hd
        have : q ≠ [.key .length] := fun e => not_under_length (p := []) (f := f.name) (e ▸ under_sub hq)
        simp [updCell, this])
  have e5 : callOf ms (fuel' + 1) t true (.ptr (.struct kvs)) [] 0 (fun _ => 0) [] =
      .ok (updCell C [.key .length] ((xs.zip gs).map fun z => someTlv f.num e z.1).flatten.length, []) := by
    have e6 := hadds ⟨C, [], upd (entry (.ptr (.struct kvs)) [] 0) .l (.num 0)⟩ 0 rfl (by simp [entry, upd]) (by simp [entry, upd]) (by simp [upd]) (by omega)
    simp only [callOf, hm, if_true, initBody, hf, allFields, hc]
    rw [exec_append, exec_append, exec_append, exec_append, e1]
    simp only [Res.bind, Code.exec]
    rw [exec_of]
    simp only [Atom.exec, Ex.eval, Res.bind, Ty.conv, Res.map, Nat.zero_mod]
    rw [exec_append]
    simp only [lengthCode]
    rw [e6]
    simp only [Res.bind, Code.exec]
    rw [exec_of]
    simp only [Atom.exec, Ex.evalNum, Ex.eval, Res.bind]
    simp [upd, entry]
  have e7 := hputs ((xs.zip gs).map fun z => someTlv f.num e z.1).flatten.length
    ⟨updCell C [.key .length] ((xs.zip gs).map fun z => someTlv f.num e z.1).flatten.length,
      List.replicate ((xs.zip gs).map fun z => someTlv f.num e z.1).flatten.length 0, upd (entry (.ptr (.struct kvs)) [] 0) .pos (.num 0)⟩ 0 0 rfl
    (by simp [entry, upd]) (by simp [entry, upd]) (by simp [entry, upd]) (by simp [upd]) (by simp) (by simpa using hl)
  simp only [runEncode]
  rw [show [(f.name, GV.arr gs)] = kvs from rfl, e5]
  simp only [Res.bind, callOf, hm, Bool.false_eq_true, if_false, intoBody, hf, allFields, hc]
  rw [exec_append, exec_of]
  simp only [Atom.exec, Ex.eval, Res.bind, Ty.conv, Res.map, Nat.zero_mod]
  rw [exec_append]
  simp only [intoCode]
  rw [show updCell C [Acc.key Key.length] ((xs.zip gs).map fun z => someTlv f.num e z.1).flatten.length [Acc.key Key.length] =
    ((xs.zip gs).map fun z => someTlv f.num e z.1).flatten.length by simp [updCell], e7]
  simp [Res.bind, Code.exec, splice]

/-! ## Examples -/

/-- the models of a package -/
def modelsOf (src : List DeclSrc) : List TModel :=
  match processAll asWritten src with
  | .ok ms => ms
  | _ => []

def exampleEntry (id : Bytes) (n : Nat) : GV := .ptr (.struct [(t!"NodeId", .bytes id), (t!"SeqNo", .num n)])

/-- `StateVec` of /repo/pkg/schema/svs/tlv.go, with structs in a sequence -/
example : plainAt (modelsOf svsSource) 3 t!"StateVec" = true ∧
    resolve (modelsOf svsSource) 3 t!"StateVec" =
      some (.cons 0xca .seq (.struct (.cons 0x07 .opt .bin (.cons 0xcc .req .nat .nil))) .nil) ∧
    runEncode (modelsOf svsSource) 3 t!"StateVec" (.ptr (.struct [(t!"Entries", .arr [exampleEntry [65] 300, exampleEntry [] 1])])) =
      .ok [0xca, 7, 0x07, 1, 65, 0xcc, 2, 1, 44, 0xca, 5, 0x07, 0, 0xcc, 1, 1] := by decide +kernel

/-- the Go value of the last example stands for the message -/
example : StandsFor (modelsOf svsSource) t!"StateVec" (.cons 0xca .seq (.struct (.cons 0x07 .opt .bin (.cons 0xcc .req .nat .nil))) .nil)
    ([(some [65], ((300 : Nat), ())), (some [], ((1 : Nat), ()))], ()) (.ptr (.struct [(t!"Entries", .arr [exampleEntry [65] 300, exampleEntry [] 1])])) := by
  refine ⟨((modelsOf svsSource).find? fun m => m.name == t!"StateVec").getD ⟨[], {}, []⟩, _, by decide +kernel, rfl, ?_⟩
  have hm : ((modelsOf svsSource).find? fun m => m.name == t!"StateVec").getD ⟨[], {}, []⟩ =
      ⟨t!"StateVec", {}, [⟨t!"Entries", 0xca, .sequence t!"*StateVecEntry" (.struct t!"StateVecEntry" false)⟩]⟩ := by decide +kernel
  have he : ((modelsOf svsSource).find? fun m => m.name == t!"StateVecEntry") =
      some ⟨t!"StateVecEntry", {}, [⟨t!"NodeId", 0x07, .binary⟩, ⟨t!"SeqNo", 0xcc, .natural false⟩]⟩ := by decide +kernel
  have h1 : ∀ (id : Bytes) (n : Nat), Stands (modelsOf svsSource) (.struct (.cons 0x07 .opt .bin (.cons 0xcc .req .nat .nil)))
      (.struct t!"StateVecEntry" false) (some id, (n, ())) (exampleEntry id n) := by
    intro id n
    refine ⟨_, _, _, _, rfl, he, by unfold Named; decide, rfl, ?_⟩
    simp only [StandsAll]
    exact ⟨_, _, rfl, rfl, rfl, ⟨_, rfl, rfl, rfl⟩, _, _, rfl, rfl, rfl, ⟨_, rfl, false, rfl, rfl⟩, rfl⟩
  rw [hm]
  simp only [StandsAll]
  refine ⟨_, _, rfl, rfl, ⟨_, _, rfl, _, _, rfl, Or.inl rfl, rfl, ?_⟩, rfl⟩
  rintro (_ | _ | i) x g hx hg
  · cases hx; cases hg; exact h1 _ _
  · cases hx; cases hg; exact h1 _ _
  · cases hx

/-- two different `Links` of spec_2022/definitions.go with the same bytes: a nil name is left out -/
example : plainAt (modelsOf specSource) 2 t!"Links" = true ∧ resolve (modelsOf specSource) 2 t!"Links" = some (.cons 0x07 .seq .name .nil) ∧
    runEncode (modelsOf specSource) 2 t!"Links" (.ptr (.struct [(t!"Names", .arr [.nil, .name [⟨8, [65]⟩]])])) = .ok [7, 3, 8, 1, 65] ∧
    runEncode (modelsOf specSource) 2 t!"Links" (.ptr (.struct [(t!"Names", .arr [.name [⟨8, [65]⟩]])])) = .ok [7, 3, 8, 1, 65] ∧
    runEncode (modelsOf specSource) 2 t!"Links" (.ptr (.struct [(t!"Names", .arr [.name [], .name [⟨8, [65]⟩]])])) = .ok [7, 0, 7, 3, 8, 1, 65] := by
  decide +kernel

end Ndn.Codec.Gen
