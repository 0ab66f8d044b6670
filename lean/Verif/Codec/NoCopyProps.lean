import Verif.Codec.NoCopyLemmas
import Verif.Codec.RunProps

/-!
# C94: what the emitted encoder of a model with `nocopy` gives

`Verif/Codec/EmitNoCopy.lean` has the statements that the generator writes for a model with `nocopy`, `Verif/Codec/RunNoCopy.lean` what they do.  The theorems
here say that running them gives a wire with the bytes of the message, which `Verif/Codec/Spec.lean` defines from the schema, and that the buffers of the
caller are in it as they were given.
-/

namespace Ndn.Codec.Gen

/-! ## Specification -/

/-- the buffers that the caller has put into the wire fields of a message, in order -/
def callerBuffers : (fs : Fields) → fs.V → List Bytes
  | .nil, _ => []
  | .flag _ rest, (_, vs) => callerBuffers rest vs
  | .cons _ .req _ rest, (_, vs) => callerBuffers rest vs
  | .cons _ .opt .wire rest, (w, vs) => Option.getD (α := Wire) w [] ++ callerBuffers rest vs
  | .cons _ .opt .nat rest, (_, vs) => callerBuffers rest vs
  | .cons _ .opt (.fixed _ _) rest, (_, vs) => callerBuffers rest vs
  | .cons _ .opt .time rest, (_, vs) => callerBuffers rest vs
  | .cons _ .opt .bin rest, (_, vs) => callerBuffers rest vs
  | .cons _ .opt .str rest, (_, vs) => callerBuffers rest vs
  | .cons _ .opt .name rest, (_, vs) => callerBuffers rest vs
  | .cons _ .opt (.struct _) rest, (_, vs) => callerBuffers rest vs
  | .cons _ .seq _ rest, (_, vs) => callerBuffers rest vs

/-- the buffers of a wire that are the caller's -/
def givenOf (wire : List Piece) : List Bytes := wire.filterMap fun
  | .given b => some b
  | .own _ => none

/-- the model called `t` has `nocopy`, and it and the models that it refers to are covered: wire fields, and what `plainAt` covers -/
def noCopyAt (ms : List TModel) : Nat → Txt → Bool
  | 0, _ => false
  | fuel + 1, t =>
    match ms.find? fun m => m.name == t with
    | some m => m.opts.noCopy && decide (m.fields.map Field.name).Nodup && m.fields.all fun f =>
        match f.cls with
        | .wire nc => nc
        | c => c.plain (plainAt ms fuel)
    | none => false

/-! ## Fields as pieces -/

/-- what a field that is there adds -/
def itemOf (t : Nat) : (e : Elem) → e.V → Item
  | .wire, (w : Wire) => .wire (tlEnc t ++ tlEnc w.flatten.length) w
  | .nat, v => .own (tlv t (Elem.body .nat v))
  | .fixed a b, v => .own (tlv t (Elem.body (.fixed a b) v))
  | .time, v => .own (tlv t (Elem.body .time v))
  | .bin, v => .own (tlv t (Elem.body .bin v))
  | .str, v => .own (tlv t (Elem.body .str v))
  | .name, v => .own (tlv t (Elem.body .name v))
  | .struct fs, v => .own (tlv t (Elem.body (.struct fs) v))

def items : (fs : Fields) → fs.V → List Item
  | .nil, _ => []
  | .flag t rest, (b, vs) => .own (if b then tlv t [] else []) :: items rest vs
  | .cons t .req e rest, (v, vs) => .own (tlv t (Elem.body e v)) :: items rest vs
  | .cons _ .opt _ rest, (none, vs) => .own [] :: items rest vs
  | .cons t .opt e rest, (some v, vs) => itemOf t e v :: items rest vs
  | .cons t .seq e rest, (l, vs) => .own (l.map fun v => tlv t (Elem.body e v)).flatten :: items rest vs

/-- the bytes of a field -/
def Item.bytes : Item → Bytes
  | .own b => b
  | .wire h w => h ++ w.flatten

theorem itemOf_bytes (t : Nat) (e : Elem) (v : e.V) : (itemOf t e v).bytes = tlv t (Elem.body e v) := by cases e <;> rfl

theorem items_bytes : ∀ (fs : Fields) (v : fs.V), ((items fs v).map Item.bytes).flatten = fs.enc v
  | .nil, _ => rfl
  | .flag t rest, (b, vs) => by
    simp only [items, List.map_cons, List.flatten_cons, items_bytes rest vs, Item.bytes, Fields.enc, Fields.elems, List.flatten_append]
    cases b <;> simp
  | .cons t .req e rest, (v, vs) => by
    simp only [items, List.map_cons, List.flatten_cons, items_bytes rest vs, Item.bytes, Fields.enc, Fields.elems]
  | .cons _ .opt _ rest, (none, vs) => by
    simp only [items, List.map_cons, List.flatten_cons, items_bytes rest vs, Item.bytes, Fields.enc, Fields.elems, List.nil_append]
  | .cons t .opt e rest, (some v, vs) => by
    simp only [items, List.map_cons, List.flatten_cons, items_bytes rest vs, itemOf_bytes, Fields.enc, Fields.elems]
  | .cons t .seq e rest, (l, vs) => by
    simp only [items, List.map_cons, List.flatten_cons, items_bytes rest vs, Item.bytes, Fields.enc, Fields.elems, List.flatten_append]

theorem layout_bytes : ∀ (its : List Item) (acc : Bytes), ((layout its acc).map Piece.bytes).flatten = acc ++ (its.map Item.bytes).flatten
  | [], acc => by
    simp only [layout]; split
    · simp [Piece.bytes]
    · simp [List.length_eq_zero_iff.1 (show acc.length = 0 by omega)]
  | .own b :: r, acc => by simp [layout, layout_bytes r, Item.bytes]
  | .wire h w :: r, acc => by
    simp only [layout, List.map_cons, List.map_append, List.map_map, List.flatten_cons, List.flatten_append, layout_bytes r, Item.bytes, Piece.bytes]
    have : (List.map (Piece.bytes ∘ Piece.given) w) = w := by simp [Function.comp_def, Piece.bytes]
    rw [this]
    simp

theorem layout_length : ∀ (its : List Item) (acc : Bytes), (layout its acc).length = (planOf its acc.length).length
  | [], acc => by simp only [layout, planOf]; split <;> rfl
  | .own b :: r, acc => by simp [layout, planOf, layout_length r]
  | .wire h w :: r, acc => by simp [layout, planOf, layout_length r]

theorem given_map (w : Wire) (l : List Piece) : givenOf (w.map .given ++ l) = w ++ givenOf l := by
  induction w with
  | nil => rfl
  | cons b w ih =>
    simp only [List.map_cons, List.cons_append, givenOf, List.filterMap_cons] at ih ⊢
    rw [ih]

/-- the buffers of the caller -/
def Item.given : Item → List Bytes
  | .own _ => []
  | .wire _ w => w

theorem layout_given : ∀ (its : List Item) (acc : Bytes), givenOf (layout its acc) = (its.map Item.given).flatten
  | [], acc => by simp only [layout]; split <;> simp [givenOf]
  | .own b :: r, acc => by simp [layout, layout_given r, Item.given]
  | .wire h w :: r, acc => by
    simp only [layout, List.map_cons, List.flatten_cons, Item.given]
    rw [← layout_given r [], ← given_map]
    simp [givenOf]

theorem items_given : ∀ (fs : Fields) (v : fs.V), ((items fs v).map Item.given).flatten = callerBuffers fs v
  | .nil, _ => rfl
  | .flag t rest, (b, vs) => by simp [items, callerBuffers, Item.given, items_given rest vs]
  | .cons t .req e rest, (v, vs) => by simp [items, callerBuffers, Item.given, items_given rest vs]
  | .cons _ .opt e rest, (none, vs) => by
    have := items_given rest vs
    cases e <;> simp only [items, callerBuffers, Item.given, List.map_cons, List.flatten_cons, this, List.nil_append] <;> rfl
  | .cons t .opt e rest, (some v, vs) => by
    have := items_given rest vs
    cases e <;> simp only [items, itemOf, callerBuffers, Item.given, List.map_cons, List.flatten_cons, this, List.nil_append]
    exact congrArg (List.append (show List Bytes from v)) this
  | .cons t .seq e rest, (l, vs) => by simp [items, callerBuffers, Item.given, items_given rest vs]

theorem tlEnc_ne (t : Nat) (l : Bytes) : tlEnc t ++ l ≠ [] := by
  intro h
  have := congrArg List.length h
  simp only [List.length_append, tlEnc_length, List.length_nil] at this
  have := tlLen_pos t
  omega

theorem items_head : ∀ (fs : Fields) (v : fs.V) (h : Bytes) (w : Wire), Item.wire h w ∈ items fs v → h ≠ []
  | .nil, _, h, w, hm => by simp [items] at hm
  | .flag t rest, (b, vs), h, w, hm => by
    simp only [items, List.mem_cons, reduceCtorEq, false_or] at hm; exact items_head rest vs h w hm
  | .cons t .req e rest, (v, vs), h, w, hm => by
    simp only [items, List.mem_cons, reduceCtorEq, false_or] at hm; exact items_head rest vs h w hm
  | .cons _ .opt e rest, (none, vs), h, w, hm => by
    simp only [items, List.mem_cons, reduceCtorEq, false_or] at hm; exact items_head rest vs h w hm
  | .cons t .opt e rest, (some v, vs), h, w, hm => by
    simp only [items, List.mem_cons] at hm
    rcases hm with hm | hm
    · cases e <;> simp only [itemOf, reduceCtorEq] at hm
      cases hm; exact tlEnc_ne _ _
    · exact items_head rest vs h w hm
  | .cons t .seq e rest, (l, vs), h, w, hm => by
    simp only [items, List.mem_cons, reduceCtorEq, false_or] at hm; exact items_head rest vs h w hm

theorem layout_own : ∀ (its : List Item) (acc : Bytes), (∀ h w, Item.wire h w ∈ its → h ≠ []) → ∀ b, Piece.own b ∈ layout its acc → b ≠ []
  | [], acc, _, b, hm => by
    simp only [layout] at hm
    split at hm <;> simp at hm
    subst hm
    rename_i h; intro e; subst e; simp at h
  | .own x :: r, acc, hne, b, hm => layout_own r _ (fun h w hm => hne h w (by simp [hm])) b hm
  | .wire h w :: r, acc, hne, b, hm => by
    simp only [layout, List.mem_cons, Piece.own.injEq, List.mem_append, List.mem_map, reduceCtorEq, and_false, exists_false, false_or] at hm
    rcases hm with rfl | hm
    · have := hne h w (by simp); simp [this]
    · exact layout_own r _ (fun h w hm => hne h w (by simp [hm])) b hm

/-- the first buffer is the encoder's -/
theorem layout_first : ∀ (its : List Item) (acc : Bytes), layout its acc = [] ∨ ∃ b l, layout its acc = .own b :: l
  | [], acc => by simp only [layout]; split; exact Or.inr ⟨_, _, rfl⟩; exact Or.inl rfl
  | .own x :: r, acc => layout_first r _
  | .wire h w :: r, acc => Or.inr ⟨_, _, rfl⟩

theorem layout_nil (fs : Fields) (v : fs.V) : layout (items fs v) [] = [] ↔ fs.enc v = [] := by
  have hb := layout_bytes (items fs v) []
  rw [items_bytes, List.nil_append] at hb
  constructor
  · intro h; rw [h] at hb; exact hb.symm
  · intro h
    rcases layout_first (items fs v) [] with h1 | ⟨b, l, h1⟩
    · exact h1
    · exfalso
      have := layout_own (items fs v) [] (items_head fs v) b (by simp [h1])
      rw [h1, h] at hb
      simp only [List.map_cons, List.flatten_cons, List.append_eq_nil_iff, Piece.bytes] at hb
      exact this hb.1

theorem ownLen_le : ∀ its : List Item, ownLen its ≤ ((its.map Item.bytes).flatten).length
  | [] => by simp [ownLen]
  | it :: r => by
    have := ownLen_le r
    simp only [ownLen, List.map_cons, List.sum_cons, List.flatten_cons, List.length_append] at this ⊢
    have : it.len ≤ it.bytes.length := by cases it <;> simp [Item.len, Item.bytes]
    omega

/-! ## The code of the fields -/

section
variable {call : Call} {cells : Path → Nat} {p : Path} {kvs : List (Txt × GV)}

theorem fields_ok (ms : List TModel) (d : Nat) (hg : GoodInto ms call d) : ∀ (fs : Fields) (fields : List Field) (v : fs.V), StandsAll ms fs fields v kvs →
    ReadyAll ms fs fields v cells p → fs.Widths → Fields.depth fs ≤ d → (fs.elems v).flatten.length < 2 ^ 64 →
    (∀ f ∈ fields, f.cls ≠ .wire false) → List.Forall₂ (FieldOK call cells p kvs) fields (items fs v)
  | .nil, fields, v, hs, _, _, _, _, _ => by
    simp only [StandsAll] at hs; subst hs; exact .nil
  | .flag t rest, fields, (b, vs), hs, hr, hw, hd, hl, hc' => by
    simp only [StandsAll] at hs
    obtain ⟨f, l, rfl, rfl, hc, hf, hs⟩ := hs
    simp only [ReadyAll] at hr
    simp only [Fields.elems, List.flatten_append, List.length_append] at hl
    refine .cons (Or.inl ⟨by rw [hc]; simp, ?_, ?_⟩) (fields_ok ms d hg rest l vs hs (hr f l rfl) hw hd (by omega) fun g hg => hc' g (by simp [hg]))
    · simp only [hc]; exact (flag_adds hf).congr (by cases b <;> simp)
    · simp only [hc]; exact (flag_puts hf).congr (by cases b <;> simp)
  | .cons t .req e rest, fields, (v, vs), hs, hr, hw, hd, hl, hc' => by
    simp only [StandsAll] at hs
    obtain ⟨f, l, rfl, rfl, hopt, ⟨g, hf, hgv⟩, hs⟩ := hs
    simp only [ReadyAll] at hr
    simp only [Fields.depth] at hd
    simp only [Fields.elems, List.flatten_cons, List.length_append] at hl
    refine .cons (Or.inl ⟨fun h => (by rw [h] at hopt; cases hopt), ?_, ?_⟩)
      (fields_ok ms d hg rest l vs hs (hr f l rfl).2 hw.2 (by omega) (by omega) fun g hg => hc' g (by simp [hg]))
    · exact elem_adds ms e f.cls f.name f.num v g hgv (hr f l rfl).1 hf hw.1 (by rw [tlv_length] at hl; omega)
    · exact elem_puts ms d hg e f.cls f.name f.num v g hgv (hr f l rfl).1 hf hw.1 (by omega)
  | .cons t .opt e rest, fields, (none, vs), hs, hr, hw, hd, hl, hc' => by
    simp only [StandsAll] at hs
    obtain ⟨f, l, rfl, rfl, hc, hf, hs⟩ := hs
    simp only [ReadyAll] at hr
    simp only [Fields.depth] at hd
    simp only [Fields.elems] at hl
    refine .cons ?_ (fields_ok ms d hg rest l vs hs (hr f l rfl) hw.2 (by omega) hl fun g hg => hc' g (by simp [hg]))
    by_cases h : f.cls = .wire true
    · exact Or.inr ⟨h, rfl, hf⟩
    · exact Or.inl ⟨h, nil_adds hc hf, nil_puts hc hf⟩
  | .cons t .opt e rest, fields, (some v, vs), hs, hr, hw, hd, hl, hc' => by
    simp only [StandsAll] at hs
    obtain ⟨f, l, rfl, rfl, _, ⟨g, hf, hgv⟩, hs⟩ := hs
    simp only [ReadyAll] at hr
    simp only [Fields.depth] at hd
    simp only [Fields.elems, List.flatten_cons, List.length_append] at hl
    refine .cons ?_ (fields_ok ms d hg rest l vs hs (hr f l rfl).2 hw.2 (by omega) (by omega) fun g hg => hc' g (by simp [hg]))
    have hA := elem_adds (call := call) ms e f.cls f.name f.num v g hgv (hr f l rfl).1 hf hw.1 (by rw [tlv_length] at hl; omega)
    have hP := elem_puts ms d hg e f.cls f.name f.num v g hgv (hr f l rfl).1 hf hw.1 (by omega)
    cases e with
    | wire =>
      have hrr := (hr f l rfl).1
      simp only [Ready] at hrr
      obtain ⟨nc, hnc, rfl⟩ := hgv
      refine ⟨?_, hf, ?_, ?_⟩
      · have := hc' f (by simp)
        rw [hnc] at this ⊢
        cases nc
        · exact absurd rfl this
        · rfl
      · exact ((Adds.typeNum f.num).append (Adds.natural (.own hrr) true)).congr (by simp [List.length_append, tlEnc_length])
      · exact ((Puts.typeNum f.num).append (Puts.natural (.own hrr) true)).congr (by simp)
    | nat => obtain ⟨o, ho, _⟩ := hgv; exact Or.inl ⟨by rw [ho]; simp, hA, hP⟩
    | fixed w b => obtain ⟨o, ho, _⟩ := hgv; exact Or.inl ⟨by rw [ho]; simp, hA, hP⟩
    | time => obtain ⟨o, ho, _⟩ := hgv; exact Or.inl ⟨by rw [ho]; simp, hA, hP⟩
    | bin => obtain ⟨ho, _⟩ := hgv; exact Or.inl ⟨by rw [ho]; simp, hA, hP⟩
    | str => obtain ⟨o, ho, _⟩ := hgv; exact Or.inl ⟨by rw [ho]; simp, hA, hP⟩
    | name => obtain ⟨ho, _⟩ := hgv; exact Or.inl ⟨by rw [ho]; simp, hA, hP⟩
    | struct fs => obtain ⟨_, _, _, _, ho, _⟩ := hgv; exact Or.inl ⟨by rw [ho]; simp, hA, hP⟩
  | .cons t .seq e rest, fields, (xs, vs), hs, hr, hw, hd, hl, hc' => by
    simp only [StandsAll] at hs
    obtain ⟨f, l, rfl, rfl, ⟨ty, sub, hc, hx⟩, hs⟩ := hs
    simp only [ReadyAll] at hr
    simp only [Fields.depth] at hd
    simp only [Fields.elems, List.flatten_append, List.length_append] at hl
    have hs1 : StandsAll ms (.cons f.num .seq e .nil) [f] (xs, ()) kvs := by
      simp only [StandsAll]; exact ⟨f, [], rfl, rfl, ⟨ty, sub, hc, hx⟩, rfl⟩
    have hr1 : ReadyAll ms (.cons f.num .seq e .nil) [f] (xs, ()) cells p := by
      simp only [ReadyAll]; rintro f' l' e'; cases e'; exact ⟨(hr f l rfl).1, trivial⟩
    have hA := all_adds (call := call) ms (.cons f.num .seq e .nil) [f] (xs, ()) hs1 hr1 ⟨hw.1, trivial⟩ (by simp only [Fields.elems, List.append_nil]; omega)
    have hP := all_puts ms d hg (.cons f.num .seq e .nil) [f] (xs, ()) hs1 hr1 ⟨hw.1, trivial⟩ (by simp only [Fields.depth]; omega)
    have happ : ∀ c : Code, c ++ Code.done = c := by
      intro c
      show c.append .done = c
      induction c with
      | done => rfl
      | _ => simp only [Code.append]; congr
    simp only [allFields, happ, Fields.elems, List.append_nil] at hA hP
    exact .cons (Or.inl ⟨by rw [hc]; simp, hA, hP⟩)
      (fields_ok ms d hg rest l vs hs (hr f l rfl).2 hw.2 (by omega) (by omega) fun g hg => hc' g (by simp [hg]))

end

/-! ## Models -/

theorem noCopyAt_find {ms : List TModel} {fuel : Nat} {t : Txt} (h : noCopyAt ms fuel t = true) :
    ∃ m fuel', fuel = fuel' + 1 ∧ (ms.find? fun m => m.name == t) = some m ∧ Named m.fields ∧
      ∀ f ∈ m.fields, f.cls = .wire true ∨ (f.cls ≠ .wire false ∧ f.cls.plain (plainAt ms fuel') = true) := by
  cases fuel with
  | zero => simp [noCopyAt] at h
  | succ fuel =>
    simp only [noCopyAt] at h
    split at h
    · rename_i m hm
      simp only [Bool.and_eq_true, decide_eq_true_eq, List.all_eq_true] at h
      refine ⟨m, fuel, rfl, hm, h.1.2, fun f hf => ?_⟩
      have := h.2 f hf
      split at this
      · rename_i nc hc; left; rw [hc, this]
      · rename_i hc; exact Or.inr ⟨fun e => hc _ e, this⟩
    · cases h

/-- a field with its wires copied -/
def soften (f : Field) : Field := match f.cls with
  | .wire _ => { f with cls := .wire false }
  | _ => f

theorem soften_name (f : Field) : (soften f).name = f.name := by unfold soften; split <;> rfl

theorem soften_num (f : Field) : (soften f).num = f.num := by unfold soften; split <;> rfl

theorem soften_bool (f : Field) : (soften f).cls = .bool ↔ f.cls = .bool := by
  unfold soften; split
  · rename_i h; rw [h]; simp
  · exact Iff.rfl

theorem soften_optional (f : Field) : (soften f).cls.optional = f.cls.optional := by
  unfold soften; split
  · rename_i h; rw [h]; rfl
  · rfl

theorem soften_elem (env : Txt → Option Fields) (f : Field) : (soften f).cls.elem env = f.cls.elem env := by
  unfold soften; split
  · rename_i h; rw [h]; rfl
  · rfl

theorem soften_seq {f : Field} {ty : Txt} {sub : Cls} (h : (soften f).cls = .sequence ty sub) : f.cls = .sequence ty sub := by
  unfold soften at h; split at h
  · simp at h
  · exact h

theorem soften_schema (env : Txt → Option Fields) : ∀ l : List Field, schemaOf env (l.map soften) = schemaOf env l
  | [] => rfl
  | f :: l => by
    have ih := soften_schema env l
    by_cases hb : f.cls = .bool
    · have h1 := (soften_bool f).2 hb
      simp only [List.map_cons, schemaOf, hb, h1, ih, soften_num]
    · have h1 : (soften f).cls ≠ .bool := fun h => hb ((soften_bool f).1 h)
      simp only [List.map_cons, schemaOf, ih, soften_num, soften_elem]

theorem soften_plain {ok : Txt → Bool} {f : Field} (h : f.cls = .wire true ∨ (f.cls ≠ .wire false ∧ f.cls.plain ok = true)) :
    (soften f).cls.plain ok = true := by
  unfold soften
  rcases h with h | h
  · rw [h]; rfl
  · split
    · rfl
    · exact h.2

theorem Stands.soften {ms : List TModel} {e : Elem} {f : Field} {v : e.V} {g : GV} (h : Stands ms e (soften f).cls v g) : Stands ms e f.cls v g := by
  by_cases hw : ∃ nc, f.cls = .wire nc
  · obtain ⟨nc, hw⟩ := hw
    have hs : (Gen.soften f).cls = .wire false := by unfold Gen.soften; rw [hw]
    rw [hs] at h
    cases e with
    | wire => obtain ⟨_, _, rfl⟩ := h; exact ⟨nc, hw, rfl⟩
    | nat => obtain ⟨_, h, _⟩ := h; cases h
    | fixed a b => obtain ⟨_, h, _⟩ := h; cases h
    | time => obtain ⟨_, h, _⟩ := h; cases h
    | bin => obtain ⟨h, _⟩ := h; cases h
    | str => obtain ⟨_, h, _⟩ := h; cases h
    | name => obtain ⟨h, _⟩ := h; cases h
    | struct fs => obtain ⟨_, _, _, _, h, _⟩ := h; cases h
  · have hs : Gen.soften f = f := by
      unfold Gen.soften; split
      · exact absurd ⟨_, ‹_›⟩ hw
      · rfl
    rwa [hs] at h

theorem map_cons_inv {f : Field} {l : List Field} : ∀ {fields : List Field}, fields.map soften = f :: l → ∃ f' l', fields = f' :: l' ∧ f = soften f' ∧ l = l'.map soften
  | [], h => by cases h
  | f' :: l', h => by simp only [List.map_cons, List.cons.injEq] at h; exact ⟨f', l', rfl, h.1.symm, h.2.symm⟩

theorem StandsAll.soften (ms : List TModel) : ∀ (fs : Fields) (fields : List Field) (v : fs.V) (kvs : List (Txt × GV)),
    StandsAll ms fs (fields.map soften) v kvs → StandsAll ms fs fields v kvs
  | .nil, fields, _, _, h => by simpa only [StandsAll, List.map_eq_nil_iff] using h
  | .flag t rest, fields, (b, vs), kvs, h => by
    simp only [StandsAll] at h ⊢
    obtain ⟨f, l, hfl, h1, h2, h3, h4⟩ := h
    obtain ⟨f', l', rfl, rfl, rfl⟩ := map_cons_inv hfl
    exact ⟨f', l', rfl, by rw [← h1, soften_num], (soften_bool f').1 h2, by rwa [soften_name] at h3, StandsAll.soften ms rest l' vs kvs h4⟩
  | .cons t .req e rest, fields, (v, vs), kvs, h => by
    simp only [StandsAll] at h ⊢
    obtain ⟨f, l, hfl, h1, h2, ⟨g, h3, h3'⟩, h4⟩ := h
    obtain ⟨f', l', rfl, rfl, rfl⟩ := map_cons_inv hfl
    exact ⟨f', l', rfl, by rw [← h1, soften_num], by rwa [soften_optional] at h2, ⟨g, by rwa [soften_name] at h3, h3'.soften⟩, StandsAll.soften ms rest l' vs kvs h4⟩
  | .cons t .opt e rest, fields, (none, vs), kvs, h => by
    simp only [StandsAll] at h ⊢
    obtain ⟨f, l, hfl, h1, h2, h3, h4⟩ := h
    obtain ⟨f', l', rfl, rfl, rfl⟩ := map_cons_inv hfl
    exact ⟨f', l', rfl, by rw [← h1, soften_num], by rwa [soften_optional] at h2, by rwa [soften_name] at h3, StandsAll.soften ms rest l' vs kvs h4⟩
  | .cons t .opt e rest, fields, (some v, vs), kvs, h => by
    simp only [StandsAll] at h ⊢
    obtain ⟨f, l, hfl, h1, h2, ⟨g, h3, h3'⟩, h4⟩ := h
    obtain ⟨f', l', rfl, rfl, rfl⟩ := map_cons_inv hfl
    exact ⟨f', l', rfl, by rw [← h1, soften_num], by rwa [soften_optional] at h2, ⟨g, by rwa [soften_name] at h3, h3'.soften⟩, StandsAll.soften ms rest l' vs kvs h4⟩
  | .cons t .seq e rest, fields, (xs, vs), kvs, h => by
    simp only [StandsAll] at h ⊢
    obtain ⟨f, l, hfl, h1, ⟨ty, sub, h2, g, gs, h3, h3'⟩, h4⟩ := h
    obtain ⟨f', l', rfl, rfl, rfl⟩ := map_cons_inv hfl
    exact ⟨f', l', rfl, by rw [← h1, soften_num], ⟨ty, sub, soften_seq h2, g, gs, by rwa [soften_name] at h3, h3'⟩, StandsAll.soften ms rest l' vs kvs h4⟩

theorem noCopy_widths (ms : List TModel) {fuel : Nat} {t : Txt} {fs : Fields} (hp : noCopyAt ms fuel t = true) (h : resolve ms fuel t = some fs) : fs.Widths := by
  obtain ⟨m, fuel', rfl, hm, _, hall⟩ := noCopyAt_find hp
  simp only [resolve, hm] at h
  rw [← soften_schema] at h
  refine schemaOf_widths (resolve_widths ms fuel') _ _ ?_ h
  intro f hf
  obtain ⟨f', hf', rfl⟩ := List.mem_map.1 hf
  exact soften_plain (hall f' hf')

/-! ## The property -/

/-- **C94, every message can be given to the encoder** -/
theorem C94_represented {ms : List TModel} {fuel : Nat} {t : Txt} {fs : Fields} (hp : noCopyAt ms fuel t = true) (h : resolve ms fuel t = some fs) (v : fs.V) :
    ∃ g, StandsFor ms t fs v g := by
  obtain ⟨m, fuel', rfl, hm, hn, hall⟩ := noCopyAt_find hp
  simp only [resolve, hm] at h
  rw [← soften_schema] at h
  obtain ⟨kvs, hk⟩ := stands_fields ms (stands_exists ms fuel') (m.fields.map soften) fs (by
    unfold Named at hn ⊢
    rw [List.map_map]
    rwa [show (Field.name ∘ soften) = Field.name from funext soften_name]) (by
    intro f hf
    obtain ⟨f', hf', rfl⟩ := List.mem_map.1 hf
    exact soften_plain (hall f' hf')) h v
  exact ⟨_, m, kvs, hm, rfl, StandsAll.soften ms fs m.fields v kvs hk⟩

/-- what `Init` leaves -/
theorem init_noCopy {ms : List TModel} {fuel : Nat} {t : Txt} {fs : Fields} (hp : noCopyAt ms fuel t = true) (h : resolve ms fuel t = some fs)
    {v : fs.V} {m : TModel} {kvs : List (Txt × GV)} (hm : (ms.find? fun m => m.name == t) = some m) (hs : StandsAll ms fs m.fields v kvs)
    (hl : (fs.enc v).length < 2 ^ 64) :
    ∃ ns, runInitNoCopy ms fuel t (.ptr (.struct kvs)) = .ok ns ∧ ns.ownPlan = planOf (items fs v) 0 ∧ ns.s.cells [.key .length] = (fs.enc v).length ∧
      List.Forall₂ (FieldOK (callOf ms fuel) ns.s.cells [] kvs) m.fields (items fs v) := by
  obtain ⟨m', fuel', hf', hm', hn, hall⟩ := noCopyAt_find hp
  rw [hm] at hm'; cases hm'
  have hw := noCopy_widths ms hp h
  have hd := resolve_depth ms _ t fs h
  obtain ⟨ih1, ih2⟩ := good_call ms fuel
  have hl' : (fs.elems v).flatten.length < 2 ^ 64 := hl
  obtain ⟨C, e1, e2, e3⟩ := all_inits (p := []) (kvs := kvs) ms fuel ih1 fs m.fields v hn hs hw (by omega) hl'
    ⟨fun _ => 0, [], entry (.ptr (.struct kvs)) [] 0⟩ (by simp [entry, upd]) (by simp [entry, upd])
  have e4 := all_adds (call := callOf ms fuel) (cells := C) (p := []) (kvs := kvs) ms fs m.fields v hs e3 hw hl'
    ⟨C, [], upd (entry (.ptr (.struct kvs)) [] 0) .l (.num 0)⟩ 0 rfl (by simp [entry, upd]) (by simp [entry, upd]) (by simp [upd]) (by omega)
  let C' := updCell C [.key .length] (fs.elems v).flatten.length
  have e5 : (initBody m.fields).exec (callOf ms fuel) ⟨fun _ => 0, [], entry (.ptr (.struct kvs)) [] 0⟩ =
      .ok ⟨C', [], upd (entry (.ptr (.struct kvs)) [] 0) .l (.num (fs.elems v).flatten.length)⟩ := by
    rw [initBody, exec_append, exec_append, exec_append, e1]
    simp only [Res.bind]
    rw [exec_of]
    simp only [Atom.exec, Ex.eval, Res.bind, Ty.conv, Res.map, Nat.zero_mod]
    rw [e4]
    simp only
    rw [exec_of]
    simp only [Atom.exec, Ex.evalNum, Ex.eval, Res.bind]
    simp [upd, upd_upd, entry, C']
  have hr : ReadyAll ms fs m.fields v C' [] := by
    refine ReadyAll.congr ms fs m.fields v C _ [] (fun f q hu => ?_) e3
    have h1 : q ≠ [.key .length] := fun e => not_under_length (p := []) (f := f) (e ▸ hu)
    simp only [C', updCell, h1, if_false]
  have hok := fields_ok (call := callOf ms fuel) (cells := C') (p := []) (kvs := kvs) ms fuel ih2 fs m.fields v hs hr hw (by omega) hl' (fun f hf => by
    rcases hall f hf with h | h
    · rw [h]; simp
    · exact h.1)
  let ns0 : NS := ⟨⟨C', [], entry (.ptr (.struct kvs)) [] 0⟩, .nil, [], [], 0, [], []⟩
  have hown : ownLen (items fs v) ≤ (fs.enc v).length := by
    have := ownLen_le (items fs v); rwa [items_bytes] at this
  obtain ⟨b, e6⟩ := planning_all hok ns0 [] 0 rfl rfl (by simp [ns0, entry, upd]) (by simp [ns0, entry, upd]) (by omega)
  refine ⟨{ ns0.planning (planOf (items fs v) 0) b with ownPlan := planOf (items fs v) 0 }, ?_, rfl, ?_, hok⟩
  · simp only [runInitNoCopy, hm, initNoCopyBody]
    rw [nexec_append, nexec_append, nexec_append, nexec_append, nexec_append, nexec_plain]
    have e7 : ((initBody m.fields).exec (callOf ms fuel) (NS.entry (.ptr (.struct kvs)) (fun _ => 0) [] [] []).s) = _ := e5
    rw [e7]
    simp only [Res.bind, NS.through, NS.entry, if_true]
    rw [nexec_of]
    simp only [NAtom.exec]
    rw [nexec_of]
    simp only [NAtom.exec, upd_upd]
    have e8 := e6
    rw [nexec_append] at e8
    have hns : ({ s := ⟨C', [], upd (entry (.ptr (.struct kvs)) [] 0) .l (.num 0)⟩, buf := .nil, blocks := [], wire := [], idx := 0, plan := [], ownPlan := [] } : NS) =
        ns0.planning [] 0 := rfl
    rw [hns]
    cases hx : (allNoCopy (fun f => planCode f.name f.num f.cls) m.fields).exec (callOf ms fuel) (ns0.planning [] 0) with
    | panic => rw [hx] at e8; cases e8
    | err e => rw [hx] at e8; cases e8
    | ok ns1 =>
      rw [hx] at e8
      simp only [Res.bind] at e8 ⊢
      rw [e8]
      simp only [List.nil_append]
      rw [nexec_of]
      rfl
  · simp [NS.planning, ns0, C', updCell, Fields.enc]

/-- **C94, the emitted encoder with `nocopy`**: for every model with `nocopy` that the generator can be given, within what is covered, and every Go value that
stands for a message with at least one byte, the statements that the generator writes run without a panic; the buffers of the wire together are the bytes of
the message, those of the caller are in it uncopied and in order, none of the others is empty, and `encoder.length` is the length of all. -/
theorem C94_encode_partial {ms : List TModel} {fuel : Nat} {t : Txt} {fs : Fields} (hp : noCopyAt ms fuel t = true) (h : resolve ms fuel t = some fs)
    {v : fs.V} {g : GV} (hg : StandsFor ms t fs v g) (hl : (fs.enc v).length < 2 ^ 64) (hne : fs.enc v ≠ []) :
    ∃ wire, runNoCopy ms fuel t g = .ok (wire, (fs.enc v).length) ∧ (wire.map Piece.bytes).flatten = fs.enc v ∧ givenOf wire = callerBuffers fs v ∧
      ∀ b, Piece.own b ∈ wire → b ≠ [] := by
  obtain ⟨m, kvs, hm, rfl, hs⟩ := hg
  obtain ⟨ns, e1, e2, e3, hok⟩ := init_noCopy hp h hm hs hl
  have hown : ownLen (items fs v) ≤ (fs.enc v).length := by
    have := ownLen_le (items fs v); rwa [items_bytes] at this
  refine ⟨layout (items fs v) [], ?_, ?_, ?_, ?_⟩
  · have hpl : planOf (items fs v) 0 ≠ [] := by
      intro h0
      have := layout_length (items fs v) []
      simp only [List.length_nil, h0, List.length_eq_zero_iff] at this
      exact hne ((layout_nil fs v).1 this)
    simp only [runNoCopy, e1, Res.bind, runIntoNoCopy, hm, e2]
    obtain ⟨n, l, hnl⟩ : ∃ n l, planOf (items fs v) 0 = n :: l := by
      cases hx : planOf (items fs v) 0 with
      | nil => exact absurd hx hpl
      | cons n l => exact ⟨n, l, rfl⟩
    have hinto : ∃ ns1, (NCode.of .startIdx ++ .of .startBuf ++ .ofPlain (.of (.decl .pos (.conv .uint (.num 0))))).exec (callOf ms fuel)
        (NS.entry (.ptr (.struct kvs)) ns.s.cells ((planOf (items fs v) 0).map fun n => List.replicate n 0) (freshWire 0 (planOf (items fs v) 0))
          (planOf (items fs v) 0)) = .ok ns1 ∧ Filling ns.s.cells [] kvs [] [] (planOf (items fs v) 0) ns1 := by
      rw [hnl]
      rw [nexec_append, nexec_append, nexec_of]
      simp only [NAtom.exec, Res.bind, NS.entry]
      rw [nexec_of]
      simp only [NAtom.exec, freshWire, List.getElem?_cons_zero]
      rw [nexec_plain, exec_of]
      simp only [Atom.exec, Ex.eval, Res.bind, Ty.conv, Res.map, Nat.zero_mod, NS.through, NS.setBuf]
      by_cases h0 : 0 < n
      · simp only [if_pos h0, Ref.mem, List.map_cons, List.getElem?_cons_zero, Option.getD_some, List.set_cons_zero]
        refine ⟨_, rfl, ?_⟩
        constructor
        case cells => rfl
        case encoder => simp [upd, entry]
        case value => simp [upd, entry]
        case bufVar => simp [upd]
        case pos => simp [upd]
        case idx => rfl
        case wire => simp [refsOf, freshWire, h0]
        case blocks => rw [curBlocks_nil]; rfl
        case buf => simp [h0]
        case mem => simp [curMem]
      · simp only [if_neg h0, Ref.mem, if_true]
        refine ⟨_, rfl, ?_⟩
        constructor
        case cells => rfl
        case encoder => simp [upd, entry]
        case value => simp [upd, entry]
        case bufVar => simp [upd]
        case pos => simp [upd]
        case idx => rfl
        case wire => simp [refsOf, freshWire, h0]
        case blocks => rw [curBlocks_nil]; rfl
        case buf => simp [h0]
        case mem => simp [curMem, show n = 0 by omega]
    obtain ⟨ns1, e4, e5⟩ := hinto
    obtain ⟨ns2, e6, e7⟩ := filling_all hok (items_head fs v) [] [] ns1 (by simp only [List.length_nil]; omega) e5
    rw [intoNoCopyBody, nexec_append, e4]
    simp only [Res.bind]
    rw [e6]
    simp only [Res.map, e7, e3, List.nil_append]
  · rw [layout_bytes, items_bytes]; rfl
  · rw [layout_given, items_given]
  · exact layout_own _ _ (items_head fs v)

/-- **C94, a message without bytes**: if no field is there, the plan has no buffers, and `buf := wire[wireIdx]` panics.  `Encode` of an encoder without
`nocopy` gives no bytes in this case (`C90_encode_partial`). -/
theorem C94_empty_panics {ms : List TModel} {fuel : Nat} {t : Txt} {fs : Fields} (hp : noCopyAt ms fuel t = true) (h : resolve ms fuel t = some fs)
    {v : fs.V} {g : GV} (hg : StandsFor ms t fs v g) (hz : fs.enc v = []) : runNoCopy ms fuel t g = .panic := by
  obtain ⟨m, kvs, hm, rfl, hs⟩ := hg
  obtain ⟨ns, e1, e2, _, _⟩ := init_noCopy hp h hm hs (by rw [hz]; decide)
  have hpl : planOf (items fs v) 0 = [] := by
    have := layout_length (items fs v) []
    rw [(layout_nil fs v).2 hz] at this
    exact List.length_eq_zero_iff.1 this.symm
  simp only [runNoCopy, e1, Res.bind, runIntoNoCopy, hm, e2, hpl, intoNoCopyBody]
  rw [nexec_append, nexec_append, nexec_append, nexec_of]
  simp only [NAtom.exec, Res.bind, NS.entry]
  rw [nexec_of]
  simp [NAtom.exec, freshWire, Res.map]

end Ndn.Codec.Gen
