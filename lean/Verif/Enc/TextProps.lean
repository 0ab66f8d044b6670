import Verif.Enc.TextLemmas
import Verif.Enc.OrderLemmas

set_option linter.unusedSimpArgs false

/-! Properties C15 - C18: text form of components and names, patterns. -/

namespace Ndn

/-! ### C15 -/

/-- C15: the canonical text gives every component back, whatever its bytes. -/
theorem C15_canonical_string (c : Component) (h1 : 1 ≤ c.typ) (h2 : c.typ ≤ 65535) :
    componentFromStr c.canonStr = .ok c := by
  obtain ⟨typ, val⟩ := c
  simp only at h1 h2
  unfold Component.canonStr
  simp only
  by_cases h8 : typ = 8
  · subst h8
    rw [if_neg (by simp), componentFromStr_none (not_mem_of fun b hb => (textToString_mem hb).1),
      textFromString_toString]
    rfl
  · rw [if_pos h8, List.append_assoc, List.singleton_append]
    exact componentFromStr_typed
      (not_mem_of fun b hb => (digit_props (formatUint_digits (by omega) b hb)).1)
      (not_mem_of fun b hb => (textToString_mem hb).1)
      (parseCompType_formatUint (by omega)) h1 h2 (textFromString_toString val)

/-- the two shapes of `String()` -/
theorem toStr_cases (c : Component) (ht : c.typ < 2 ^ 64) :
    (c.typ = 8 ∧ c.toStr = textToString c.val) ∨
    (∃ t f, c.toStr = t ++ 61 :: f.toString c.val ∧ parseCompType t = .ok (c.typ, f) ∧
      (∀ b ∈ t, b ≠ 61 ∧ b ≠ 47) ∧ (f = .dec → isNumberType c.typ)) := by
  unfold Component.toStr
  cases hc : convByType c.typ with
  | some p =>
    obtain ⟨name, f⟩ := p
    right
    obtain ⟨_, _, h3, _, h5, h6⟩ := conv_cases hc
    exact ⟨name, f, by simp, h6, h5, h3⟩
  | none =>
    simp only
    by_cases h8 : c.typ = 8
    · left; rw [if_neg (by simpa using h8)]; exact ⟨h8, rfl⟩
    · right
      rw [if_pos h8]
      refine ⟨formatUint c.typ, .text, by simp [ValFmt.toString], parseCompType_formatUint ht, ?_, by intro h; cases h⟩
      intro b hb
      have := digit_props (formatUint_digits ht b hb)
      exact ⟨this.1, this.2.1⟩

/-- A component whose number, if its type has the number convention, is in shortest form. -/
def NumberOk (c : Component) : Prop := isNumberType c.typ → ∃ x, x < 2 ^ 64 ∧ c.val = natEnc x

/-- C15: `String()` gives every component back too, provided numbers are in shortest form. -/
theorem C15_string (c : Component) (h1 : 1 ≤ c.typ) (h2 : c.typ ≤ 65535) (hn : NumberOk c) :
    componentFromStr c.toStr = .ok c := by
  rcases toStr_cases c (by omega) with ⟨h8, e⟩ | ⟨t, f, e, hp, ht, hf⟩
  · rw [e, componentFromStr_none (not_mem_of fun b hb => (textToString_mem hb).1), textFromString_toString]
    obtain ⟨typ, val⟩ := c
    simp only at h8
    subst h8; rfl
  · rw [e]
    exact componentFromStr_typed (not_mem_of fun b hb => (ht b hb).1) (not_mem_of fun b hb => (fmt_mem hb).1) hp h1 h2
      (fmt_roundtrip fun hd => hn (hf hd))

example : NumberOk ⟨0x32, [1, 0]⟩ ∧ (⟨0x32, [1, 0]⟩ : Component).toStr = ascii ['s', 'e', 'g', '=', '2', '5', '6'] ∧
    (⟨8, [0, 61, 97]⟩ : Component).canonStr = ascii ['%', '0', '0', '%', '3', 'D', 'a'] :=
  ⟨fun _ => ⟨256, by decide, by decide⟩, by decide, by decide⟩

/-! ### C16 -/

theorem toStr_noSlash (c : Component) (ht : c.typ < 2 ^ 64) : (47 : UInt8) ∉ c.toStr := by
  rcases toStr_cases c ht with ⟨_, e⟩ | ⟨t, f, e, _, hm, _⟩
  · rw [e]; exact not_mem_of fun b hb => (textToString_mem hb).2
  · rw [e]
    apply not_mem_of
    intro b hb
    rw [List.mem_append, List.mem_cons] at hb
    rcases hb with hb | rfl | hb
    · exact (hm b hb).2
    · decide
    · exact (fmt_mem hb).2

theorem toStr_eq_nil (c : Component) (ht : c.typ < 2 ^ 64) : c.toStr = [] ↔ (c.typ = 8 ∧ c.val.length = 0) := by
  rcases toStr_cases c ht with ⟨h8, e⟩ | ⟨t, f, e, hp, _, _⟩
  · rw [e, textToString_eq_nil]; simp [h8]
  · rw [e]
    constructor
    · intro h; simp at h
    · intro h
      exfalso
      have h8 : c.typ = 8 := h.1
      have : c.toStr = textToString c.val := by
        unfold Component.toStr
        rw [h8]
        simp [convByType]
      rw [this, textToString_eq_nil.mpr (List.length_eq_zero_iff.mp h.2)] at e
      simp at e

theorem splitOn_flatMap (ss : List Bytes) (h : ∀ s ∈ ss, (47 : UInt8) ∉ s) :
    splitOn 47 (ss.flatMap (fun s => 47 :: s)) = [] :: ss ∧
    splitOn 47 (ss.flatMap (fun s => 47 :: s) ++ [47]) = [] :: ss ++ [[]] := by
  have key : ∀ (ss : List Bytes) (s : Bytes), (47 : UInt8) ∉ s → (∀ s ∈ ss, (47 : UInt8) ∉ s) →
      splitOn 47 (s ++ ss.flatMap (fun s => 47 :: s)) = s :: ss ∧
      splitOn 47 (s ++ (ss.flatMap (fun s => 47 :: s) ++ [47])) = s :: (ss ++ [[]]) := by
    intro ss
    induction ss with
    | nil =>
      intro s hs _
      refine ⟨by simpa using splitOn_none hs, ?_⟩
      simp only [List.flatMap_nil, List.nil_append]
      rw [splitOn_append [] hs]; rfl
    | cons x ss ih =>
      intro s hs hh
      have := ih x (hh x (by simp)) (fun y hy => hh y (by simp [hy]))
      rw [List.flatMap_cons, List.cons_append, splitOn_append _ hs, this.1]
      refine ⟨rfl, ?_⟩
      rw [List.cons_append, splitOn_append _ hs, List.append_assoc, this.2]; rfl
  have := key ss [] (by simp) h
  simpa using this

/-- the pieces that `NameFromStr` sees in `name.String()` are the texts of the components -/
theorem nameFromStr_toStr (n : Name) (ht : ∀ c ∈ n, c.typ < 2 ^ 64) :
    nameFromStr (Name.toStr n) = mapRes componentFromStr (n.map Component.toStr) := by
  cases n with
  | nil => decide
  | cons c0 n0 =>
    generalize hn : c0 :: n0 = n at ht
    have hne : n ≠ [] := by rw [← hn]; simp
    have hlast : ∃ c, n.getLast? = some c ∧ c ∈ n := by
      refine ⟨n.getLast hne, List.getLast?_eq_some_getLast hne, List.getLast_mem hne⟩
    obtain ⟨cl, hcl, hmem⟩ := hlast
    have hflat : n.flatMap (fun c => 47 :: c.toStr) = (n.map Component.toStr).flatMap (fun s => 47 :: s) := by
      rw [List.flatMap_map]
    have hpos : ¬ (n.flatMap (fun c => 47 :: c.toStr)).length = 0 := by rw [← hn]; simp
    have hs : ∀ s ∈ n.map Component.toStr, (47 : UInt8) ∉ s := by
      intro s hs
      obtain ⟨c, hc, rfl⟩ := List.mem_map.mp hs
      exact toStr_noSlash c (ht c hc)
    have hsp := splitOn_flatMap (n.map Component.toStr) hs
    have hl : (n.map Component.toStr).getLast? = some cl.toStr := by
      rw [List.getLast?_map, hcl]; rfl
    have hnil := toStr_eq_nil cl (ht cl hmem)
    have hlen : 0 < n.length := List.length_pos_iff.mpr hne
    unfold Name.toStr
    simp only
    rw [if_neg hpos, hcl]
    simp only
    rw [hflat]
    by_cases hc : cl.typ = 8 ∧ cl.val.length = 0
    · rw [if_pos hc]
      unfold nameFromStr
      simp only
      rw [hsp.2]
      simp
    · rw [if_neg hc]
      have hne2 : cl.toStr ≠ [] := fun h => hc (hnil.mp h)
      unfold nameFromStr
      simp only
      rw [hsp.1]
      simp [hlen, hl, hcl, hne2]

theorem mapRes_ok {α β : Type} {f : α → Res β} {g : β → α} {l : List β} (h : ∀ b ∈ l, f (g b) = .ok b) :
    mapRes f (l.map g) = .ok l := by
  induction l with
  | nil => rfl
  | cons b l ih =>
    rw [List.map_cons, mapRes, h b (by simp), ih (fun c hc => h c (by simp [hc]))]
    rfl

/-- C16 for names whose component types are between 1 and 65535 and whose numbers are in shortest form.  Missing: the
other names, for which it is false (`C16_name_uri_violated`, `C16_name_uri_type_violated`). -/
theorem C16_name_uri_roundtrip_partial (n : Name) (ht : ∀ c ∈ n, 1 ≤ c.typ ∧ c.typ ≤ 65535) (hn : ∀ c ∈ n, NumberOk c) :
    nameFromStr (Name.toStr n) = .ok n := by
  rw [nameFromStr_toStr n (fun c hc => by have := (ht c hc).2; omega)]
  exact mapRes_ok fun c hc => C15_string c (ht c hc).1 (ht c hc).2 (hn c hc)

example : nameFromStr (Name.toStr [⟨8, []⟩, ⟨8, [47]⟩, ⟨0x36, [5]⟩, ⟨8, []⟩]) =
    .ok [⟨8, []⟩, ⟨8, [47]⟩, ⟨0x36, [5]⟩, ⟨8, []⟩] := by
  refine C16_name_uri_roundtrip_partial _ (by decide) ?_
  intro c hc
  simp only [List.mem_cons, List.not_mem_nil, or_false] at hc
  rcases hc with rfl | rfl | rfl | rfl
  · intro h; exact absurd h (by simp [isNumberType])
  · intro h; exact absurd h (by simp [isNumberType])
  · exact fun _ => ⟨5, by decide, by decide⟩
  · intro h; exact absurd h (by simp [isNumberType])

theorem toStr_injective {c d : Component} (hc : c.typ < 2 ^ 64) (hd : d.typ < 2 ^ 64) (nc : NumberOk c) (nd : NumberOk d)
    (h : c.toStr = d.toStr) : c = d := by
  have ext : ∀ {c d : Component}, c.typ = d.typ → c.val = d.val → c = d := by
    intro c d h1 h2; cases c; cases d; simp_all
  have no61 : ∀ (f : ValFmt) (v : Bytes), (61 : UInt8) ∉ f.toString v := fun f v => not_mem_of fun b hb => (fmt_mem hb).1
  rcases toStr_cases c hc with ⟨h8, e⟩ | ⟨t, f, e, hp, hm, hf⟩ <;>
    rcases toStr_cases d hd with ⟨h8', e'⟩ | ⟨t', f', e', hp', hm', hf'⟩
  · refine ext (h8.trans h8'.symm) ?_
    have := textFromString_toString c.val
    rw [← e, h, e', textFromString_toString] at this
    simpa using this.symm
  · exfalso
    have : (61 : UInt8) ∉ c.toStr := by rw [e]; exact no61 .text c.val
    rw [h, e'] at this; simp at this
  · exfalso
    have : (61 : UInt8) ∉ d.toStr := by rw [e']; exact no61 .text d.val
    rw [← h, e] at this; simp at this
  · rw [e, e'] at h
    have hs := congrArg (splitOn 61) h
    rw [splitOn_append _ (not_mem_of fun b hb => (hm b hb).1), splitOn_append _ (not_mem_of fun b hb => (hm' b hb).1),
      splitOn_none (no61 _ _), splitOn_none (no61 _ _)] at hs
    simp only [List.cons.injEq, and_true] at hs
    obtain ⟨ht, hv⟩ := hs
    rw [ht, hp'] at hp
    simp only [Res.ok.injEq, Prod.mk.injEq] at hp
    refine ext hp.1.symm ?_
    have r1 := fmt_roundtrip (f := f) (v := c.val) (fun h => nc (hf h))
    have r2 := fmt_roundtrip (f := f') (v := d.val) (fun h => nd (hf' h))
    rw [hp.2] at r2 hv
    rw [hv, r2] at r1
    simpa using r1.symm

/-- C16, injectivity: names of any types with numbers in shortest form have different URIs when they differ. -/
theorem C16_name_uri_injective_partial (n m : Name) (hn : ∀ c ∈ n, c.typ < 2 ^ 64) (hm : ∀ c ∈ m, c.typ < 2 ^ 64)
    (sn : ∀ c ∈ n, NumberOk c) (sm : ∀ c ∈ m, NumberOk c) (h : Name.toStr n = Name.toStr m) : n = m := by
  -- the list of component texts can be read off the URI
  have texts : ∀ k : Name, (∀ c ∈ k, c.typ < 2 ^ 64) →
      (let s := splitOn 47 (Name.toStr k)
       let s := if s.head? = some [] then s.drop 1 else s
       if s.length > 0 ∧ s.getLast? = some [] then s.dropLast else s) = k.map Component.toStr := by
    intro k hk
    -- reuse the computation with a parser that accepts everything
    have hne : k = [] ∨ k ≠ [] := Classical.em _
    rcases hne with rfl | hne
    · decide
    · have hflat : k.flatMap (fun c => 47 :: c.toStr) = (k.map Component.toStr).flatMap (fun s => 47 :: s) := by
        rw [List.flatMap_map]
      have hs : ∀ s ∈ k.map Component.toStr, (47 : UInt8) ∉ s := by
        intro s hs
        obtain ⟨c, hc, rfl⟩ := List.mem_map.mp hs
        exact toStr_noSlash c (hk c hc)
      have hsp := splitOn_flatMap (k.map Component.toStr) hs
      have hpos : ¬ (k.flatMap (fun c => 47 :: c.toStr)).length = 0 := by
        cases k with
        | nil => exact absurd rfl hne
        | cons c k => simp
      have hcl : k.getLast? = some (k.getLast hne) := List.getLast?_eq_some_getLast hne
      have hnil := toStr_eq_nil (k.getLast hne) (hk _ (List.getLast_mem hne))
      have hlen : 0 < k.length := List.length_pos_iff.mpr hne
      unfold Name.toStr
      simp only
      rw [if_neg hpos, hcl]
      simp only
      rw [hflat]
      by_cases hc : (k.getLast hne).typ = 8 ∧ (k.getLast hne).val.length = 0
      · rw [if_pos hc, hsp.2]; simp
      · rw [if_neg hc, hsp.1]
        have hne2 : (k.getLast hne).toStr ≠ [] := fun h => hc (hnil.mp h)
        simp [hlen, hcl, hne2]
  have e1 := texts n hn
  rw [h, texts m hm] at e1
  clear texts h
  induction n generalizing m with
  | nil => simpa using e1
  | cons c n ih =>
    cases m with
    | nil => simp at e1
    | cons d m =>
      simp only [List.map_cons, List.cons.injEq] at e1
      rw [toStr_injective (hn c (by simp)) (hm d (by simp)) (sn c (by simp)) (sm d (by simp)) e1.1.symm,
        ih m (fun c hc => hn c (by simp [hc])) (fun c hc => hm c (by simp [hc])) (fun c hc => sn c (by simp [hc]))
          (fun c hc => sm c (by simp [hc])) e1.2]

/-- C16 fails: two different names with the same URI (`/seg=1`), so URIs do not determine names. -/
theorem C16_name_uri_violated : ([⟨0x32, [1]⟩] : Name) ≠ [⟨0x32, [0, 1]⟩] ∧
    Name.toStr [⟨0x32, [1]⟩] = Name.toStr [⟨0x32, [0, 1]⟩] := by decide

/-- C16 fails: the URI of a name with a component of type 65536 is rejected. -/
theorem C16_name_uri_type_violated : nameFromStr (Name.toStr [⟨65536, [97]⟩]) = .err .format := by
  rw [nameFromStr_toStr _ (by simp)]
  have h : (⟨65536, [97]⟩ : Component).toStr = formatUint 65536 ++ 61 :: [97] := by decide
  rw [List.map_cons, mapRes, h, componentFromStr_eq (by decide) (by decide), parseCompType_formatUint (by omega)]
  simp only [Res.bind_ok]
  rw [toInt_of_lt (by omega), if_pos (by omega)]
  rfl

/-! ### C17 -/

theorem textLoop_no_panic : ∀ s, textLoop s ≠ .panic
  | [] => by simp [textLoop]
  | [b] => by
    have := textLoop_no_panic []
    simp only [textLoop]
    split
    · simp [consRes]
    · split <;> simp [consRes]
  | [b, x] => by
    have := textLoop_no_panic [x]
    cases hq : textLoop [x] <;> simp only [textLoop, hq, consRes] at this ⊢ <;> repeat' split
    all_goals first | (simp; done) | exact absurd hq this
  | b :: x :: y :: t => by
    have h1 := textLoop_no_panic t
    have h2 := textLoop_no_panic (x :: y :: t)
    rw [textLoop]
    have c1 : ∀ v, consRes v (textLoop t) ≠ .panic := by
      intro v; cases hq : textLoop t <;> simp [consRes] ; exact absurd hq h1
    have c2 : ∀ v, consRes v (textLoop (x :: y :: t)) ≠ .panic := by
      intro v; cases hq : textLoop (x :: y :: t) <;> simp [consRes] ; exact absurd hq h2
    split
    · exact c2 _
    · split
      · split
        · simp
        · exact c1 _
      · split
        · simp
        · exact c2 _

theorem hexFromString_no_panic : ∀ s, hexFromString s ≠ .panic
  | [] => by simp [hexFromString]
  | [b] => by simp [hexFromString]
  | x :: y :: t => by
    have h1 := hexFromString_no_panic t
    rw [hexFromString]
    cases hq : hexFromString t with
    | ok v => simp only; split <;> simp
    | err e => simp
    | panic => exact absurd hq h1

theorem fromString_no_panic (f : ValFmt) (s : Bytes) : f.fromString s ≠ .panic := by
  cases f with
  | text =>
    simp only [ValFmt.fromString, textFromString]; split
    · exact textLoop_no_panic s
    · simp
  | hex => exact hexFromString_no_panic s
  | dec => simp only [ValFmt.fromString]; split <;> simp

theorem parseCompType_panic {s : Bytes} : parseCompType s = .panic ↔ s = [] := by
  cases s with
  | nil => simp [parseCompType]
  | cons b t =>
    simp only [parseCompType]
    split
    · split <;> simp
    · split <;> simp

/-- the cases of splitting at `=` -/
theorem split_eq_cases (s : Bytes) :
    ((61 : UInt8) ∉ s ∧ splitOn 61 s = [s]) ∨
    (∃ t v, s = t ++ 61 :: v ∧ (61 : UInt8) ∉ t ∧ (61 : UInt8) ∉ v ∧ splitOn 61 s = [t, v]) ∨
    (∃ x y z r, splitOn 61 s = x :: y :: z :: r) := by
  have hj := splitOn_join 61 s
  have hm : ∀ x ∈ splitOn 61 s, (61 : UInt8) ∉ x := fun x hx => splitOn_mem hx
  match hs : splitOn 61 s with
  | [] => exact absurd hs (splitOn_ne_nil _ _)
  | [x] =>
    rw [hs] at hj hm
    have : x = s := by simpa [List.intercalate] using hj
    subst this
    exact .inl ⟨hm x (by simp), rfl⟩
  | [x, y] =>
    rw [hs] at hj hm
    refine .inr (.inl ⟨x, y, ?_, hm x (by simp), hm y (by simp), rfl⟩)
    simpa [List.intercalate, List.intersperse] using hj.symm
  | x :: y :: z :: r => exact .inr (.inr ⟨x, y, z, r, rfl⟩)

theorem textFromString_no_panic (s : Bytes) : textFromString s ≠ .panic := fromString_no_panic .text s

/-- C17 for components, exactly: `ComponentFromStr` panics on the strings that start with their only `=`, and on no
others.  (The property asks that it never panics: false, e.g. on `"="`.) -/
theorem C17_component_panics_iff_partial (s : Bytes) :
    componentFromStr s = .panic ↔ ∃ v, s = 61 :: v ∧ (61 : UInt8) ∉ v := by
  rcases split_eq_cases s with ⟨h, hs⟩ | ⟨t, v, rfl, ht, hv, hs⟩ | ⟨x, y, z, r, hs⟩
  · rw [componentFromStr_none h]
    have := textFromString_no_panic s
    constructor
    · intro e
      cases hq : textFromString s with
      | ok v => rw [hq] at e; cases e
      | err v => rw [hq] at e; cases e
      | panic => exact absurd hq this
    · rintro ⟨v, rfl, _⟩; simp at h
  · rw [componentFromStr_eq ht hv]
    constructor
    · intro e
      cases hp : parseCompType t with
      | ok p =>
        obtain ⟨typ, f⟩ := p
        rw [hp] at e
        simp only [Res.bind_ok] at e
        split at e
        · cases e
        · have := fromString_no_panic f v
          cases hq : f.fromString v with
          | ok w => rw [hq] at e; cases e
          | err w => rw [hq] at e; cases e
          | panic => exact absurd hq this
      | err er => rw [hp] at e; cases e
      | panic =>
        rw [parseCompType_panic] at hp
        subst hp
        exact ⟨v, rfl, hv⟩
    · rintro ⟨w, h, hw⟩
      have : t = [] := by
        cases t with
        | nil => rfl
        | cons b t =>
          simp only [List.cons_append, List.cons.injEq] at h
          exact absurd h.1 (by simp only [List.mem_cons, not_or] at ht; exact fun e => ht.1 e.symm)
      subst this
      rfl
  · constructor
    · intro e; unfold componentFromStr at e; rw [hs] at e; cases e
    · rintro ⟨v, rfl, hv⟩
      rw [show (61 :: v) = [] ++ 61 :: v from rfl, splitOn_append _ (by simp), splitOn_none hv] at hs
      simp at hs

theorem C17_component_panics : componentFromStr (ascii ['=', 'x']) = .panic := by decide

theorem drop_dropLast_eq {b : UInt8} {t : Bytes} (hl : (b :: t).getLast? = some 62) (hb : b ≠ 62) :
    ∃ m, t = m ++ [62] ∧ ((b :: t).drop 1).dropLast = m := by
  cases t with
  | nil => simp at hl; exact absurd hl hb
  | cons x t =>
    rw [List.getLast?_cons_cons] at hl
    have hne : (x :: t) ≠ [] := by simp
    rw [List.getLast?_eq_some_getLast hne] at hl
    refine ⟨(x :: t).dropLast, ?_, by simp⟩
    have := List.dropLast_concat_getLast hne
    simp only [Option.some.injEq] at hl
    rw [hl] at this; exact this.symm

/-- C17 for component patterns, exactly. -/
theorem C17_pattern_panics_iff_partial (s : Bytes) :
    compPatFromStr s = .panic ↔
      (∃ v, s = 61 :: v ∧ (61 : UInt8) ∉ v) ∨ (∃ v, s = 60 :: 61 :: v ++ [62] ∧ (61 : UInt8) ∉ v) := by
  have hmap : ∀ s : Bytes, (componentFromStr s).map CompPat.comp = .panic ↔ componentFromStr s = .panic := by
    intro s; cases componentFromStr s <;> simp [Res.map]
  cases s with
  | nil =>
    simp only [compPatFromStr]
    rw [hmap, C17_component_panics_iff_partial]; simp
  | cons b t =>
    by_cases hb : b = 60
    · subst hb
      simp only [compPatFromStr]
      rw [if_neg (by simp)]
      by_cases hl : (60 :: t).getLast? = some 62
      · rw [if_neg (by simpa using hl)]
        obtain ⟨m, rfl, hm⟩ := drop_dropLast_eq hl (by decide)
        rw [hm]
        rcases split_eq_cases m with ⟨h, hs⟩ | ⟨t, v, rfl, ht, hv, hs⟩ | ⟨x, y, z, r, hs⟩
        · rw [hs]
          simp only [reduceCtorEq, false_iff, not_or]
          refine ⟨by simp, ?_⟩
          rintro ⟨v, hv, hv2⟩
          simp only [List.cons_append, List.cons.injEq, true_and] at hv
          rw [← List.cons_append, List.append_cancel_right_eq] at hv
          rw [hv] at h; simp at h
        · rw [hs]
          simp only
          constructor
          · intro e
            cases hp : parseCompType t with
            | ok p => rw [hp] at e; cases e
            | err er => rw [hp] at e; cases e
            | panic =>
              rw [parseCompType_panic] at hp
              subst hp
              exact .inr ⟨v, by simp, hv⟩
          · rintro (⟨w, h, _⟩ | ⟨w, h, hw⟩)
            · simp at h
            · simp only [List.cons_append, List.cons.injEq, true_and] at h
              rw [← List.cons_append, List.append_cancel_right_eq] at h
              have : t = [] := by
                cases t with
                | nil => rfl
                | cons b t =>
                  simp only [List.cons_append, List.cons.injEq] at h
                  exact absurd h.1 (by simp only [List.mem_cons, not_or] at ht; exact fun e => ht.1 e.symm)
              subst this; rfl
        · rw [hs]
          simp only [reduceCtorEq, false_iff, not_or]
          refine ⟨by simp, ?_⟩
          rintro ⟨v, hv, hv2⟩
          simp only [List.cons_append, List.cons.injEq, true_and] at hv
          rw [← List.cons_append, List.append_cancel_right_eq] at hv
          rw [hv, show (61 :: v) = [] ++ 61 :: v from rfl, splitOn_append _ (by simp), splitOn_none hv2] at hs
          simp at hs
      · rw [if_pos hl]
        simp only [reduceCtorEq, false_iff, not_or]
        refine ⟨by simp, ?_⟩
        rintro ⟨v, hv, _⟩
        rw [hv] at hl
        exact hl (by rw [List.getLast?_append]; simp)
    · simp only [compPatFromStr]
      rw [if_pos hb, hmap, C17_component_panics_iff_partial]
      constructor
      · exact fun h => .inl h
      · rintro (h | ⟨v, h, _⟩)
        · exact h
        · simp at h; exact absurd h.1 hb

theorem mapRes_panic {α β : Type} {f : α → Res β} {l : List α} (h : mapRes f l = .panic) : ∃ a ∈ l, f a = .panic := by
  induction l with
  | nil => simp [mapRes] at h
  | cons a l ih =>
    rw [mapRes] at h
    cases hf : f a with
    | panic => exact ⟨a, by simp, hf⟩
    | err e => rw [hf] at h; cases h
    | ok b =>
      rw [hf] at h
      simp only [Res.bind_ok] at h
      cases hm : mapRes f l with
      | panic =>
        obtain ⟨x, hx, hp⟩ := ih hm
        exact ⟨x, by simp [hx], hp⟩
      | err e => rw [hm] at h; cases h
      | ok b => rw [hm] at h; cases h

/-- C17 for names: `NameFromStr` panics only if one of the pieces between slashes starts with its only `=`; in
particular it never panics on a string in which no `=` comes first or right after a slash. -/
theorem C17_name_no_panic_partial (s : Bytes) (h : nameFromStr s = .panic) :
    ∃ x ∈ splitOn 47 s, ∃ v, x = 61 :: v ∧ (61 : UInt8) ∉ v := by
  unfold nameFromStr at h
  obtain ⟨x, hx, hp⟩ := mapRes_panic h
  refine ⟨x, ?_, (C17_component_panics_iff_partial x).mp hp⟩
  revert hx
  generalize splitOn 47 s = l
  intro hx
  have h1 : ∀ l' : List Bytes, x ∈ (if l'.length > 0 ∧ l'.getLast? = some [] then l'.dropLast else l') → x ∈ l' := by
    intro l' hx
    split at hx
    · exact List.dropLast_subset _ hx
    · exact hx
  have h2 := h1 _ hx
  split at h2
  · exact List.mem_of_mem_drop h2
  · exact h2

theorem C17_name_panics : nameFromStr (ascii ['/', 'a', '/', '=', 'x']) = .panic := by decide

/-- C17 for name patterns: besides a piece on which `ComponentPatternFromStr` panics, the empty string. -/
theorem C17_name_pattern_no_panic_partial (s : Bytes) (h : namePatternFromStr s = .panic) :
    s = [] ∨ ∃ x ∈ splitOn 47 s, compPatFromStr x = .panic := by
  unfold namePatternFromStr at h
  simp only at h
  cases s with
  | nil => exact .inl rfl
  | cons b t =>
    right
    generalize hl : splitOn 47 (b :: t) = l at h
    have hsub : ∀ y ∈ (if l.head? = some [] then l.drop 1 else l), y ∈ l := by
      intro y hy
      split at hy
      · exact List.mem_of_mem_drop hy
      · exact hy
    generalize hl' : (if l.head? = some [] then l.drop 1 else l) = l' at h hsub
    cases hg : l'.getLast? with
    | none =>
      exfalso
      rw [List.getLast?_eq_none_iff] at hg
      subst hg
      have hne := splitOn_ne_nil 47 (b :: t)
      rw [hl] at hne
      split at hl'
      · rename_i hh
        cases l with
        | nil => exact hne rfl
        | cons x r =>
          simp only [List.drop_succ_cons, List.drop_zero] at hl'
          subst hl'
          simp at hh
          subst hh
          have := splitOn_join 47 (b :: t)
          rw [hl] at this
          simp [List.intercalate] at this
      · exact hne hl'
    | some x =>
      rw [hg] at h
      simp only at h
      obtain ⟨y, hy, hp⟩ := mapRes_panic h
      refine ⟨y, hsub y ?_, hp⟩
      split at hy
      · exact List.dropLast_subset _ hy
      · exact hy

theorem C17_name_pattern_panics : namePatternFromStr [] = .panic ∧ compPatFromStr (ascii ['<', '=', 'x', '>']) = .panic := by
  decide

/-- C17, types: a parsed component has a type between 1 and 65535, or at least `2^63` (where the check
`int(ret.Typ) > 0xffff` sees a negative number). -/
theorem C17_component_type_partial (s : Bytes) (c : Component) (h : componentFromStr s = .ok c) :
    (1 ≤ c.typ ∧ c.typ ≤ 65535) ∨ 2 ^ 63 ≤ c.typ := by
  rcases split_eq_cases s with ⟨hn, hs⟩ | ⟨t, v, rfl, ht, hv, hs⟩ | ⟨x, y, z, r, hs⟩
  · rw [componentFromStr_none hn] at h
    left
    cases hq : textFromString s with
    | ok v =>
      rw [hq] at h
      simp only [Res.map, Res.ok.injEq] at h
      subst h
      simp only
      omega
    | err e => rw [hq] at h; cases h
    | panic => rw [hq] at h; cases h
  · rw [componentFromStr_eq ht hv] at h
    cases hp : parseCompType t with
    | ok p =>
      obtain ⟨typ, f⟩ := p
      rw [hp] at h
      simp only [Res.bind_ok] at h
      split at h
      · cases h
      · rename_i hr
        cases hq : f.fromString v with
        | ok w =>
          rw [hq] at h
          simp only [Res.bind_ok, Res.ok.injEq] at h
          subst h
          simp only
          by_cases hbig : typ < 2 ^ 63
          · left; rw [toInt_of_lt hbig] at hr; omega
          · right; omega
        | err e => rw [hq] at h; cases h
        | panic => rw [hq] at h; cases h
    | err e => rw [hp] at h; cases h
    | panic => rw [hp] at h; cases h
  · unfold componentFromStr at h; rw [hs] at h; cases h

/-- C17 fails: `"9223372036854775808=x"` is accepted as a component of type `2^63`. -/
theorem C17_component_type_violated :
    componentFromStr (formatUint (2 ^ 63) ++ 61 :: ascii ['x']) = .ok ⟨2 ^ 63, ascii ['x']⟩ := by
  rw [componentFromStr_eq (not_mem_of fun b hb => (digit_props (formatUint_digits (by omega) b hb)).1) (by decide),
    parseCompType_formatUint (by omega)]
  simp only [Res.bind_ok]
  rw [toInt_neg (by omega) (by omega), if_neg (by omega)]
  rfl

example : formatUint (2 ^ 63) = ascii ['9','2','2','3','3','7','2','0','3','6','8','5','4','7','7','5','8','0','8'] := by
  decide

/-! ### C18 -/

/-- Component-wise match (specification). -/
inductive MatchAll : NamePattern → Name → Prop
  | nil : MatchAll [] []
  | cons {p : CompPat} {c : Component} {ps : NamePattern} {cs : Name} :
      p.isMatch c = true → MatchAll ps cs → MatchAll (p :: ps) (c :: cs)

/-- No tag stands for two different values. -/
def TagsConsistent (p : NamePattern) (n : Name) : Prop :=
  ∀ t1 t2 g c1 c2, (CompPat.pat t1 g, c1) ∈ p.zip n → (CompPat.pat t2 g, c2) ∈ p.zip n → c1.val = c2.val

theorem get_cons (m : Matching) (g h : Bytes) (v : Bytes) :
    Matching.get ((g, v) :: m) h = if g = h then some v else Matching.get m h := by
  unfold Matching.get
  rw [List.find?_cons]
  by_cases e : g = h
  · simp [e]
  · have : (g == h) = false := by simpa using e
    simp [e, this]

/-- what the collected matching contains -/
theorem match_get (p : NamePattern) (n : Name) (m0 : Matching) (h : MatchAll p n) :
    ∃ m, NamePattern.match' p n m0 = .ok m ∧
      ∀ g, (∃ t c, (CompPat.pat t g, c) ∈ p.zip n ∧ Matching.get m g = some c.val) ∨
        ((∀ t c, (CompPat.pat t g, c) ∉ p.zip n) ∧ Matching.get m g = Matching.get m0 g) := by
  induction h generalizing m0 with
  | nil => exact ⟨m0, rfl, fun g => .inr ⟨by simp, rfl⟩⟩
  | @cons q c ps cs _ _ ih =>
    obtain ⟨m, hm, hg⟩ := ih (q.match' c m0)
    refine ⟨m, hm, fun g => ?_⟩
    rcases hg g with ⟨t, d, hmem, hget⟩ | ⟨hno, hget⟩
    · exact .inl ⟨t, d, by simp [hmem], hget⟩
    · cases q with
      | comp x =>
        refine .inr ⟨?_, hget⟩
        intro t d hmem
        simp only [List.zip_cons_cons, List.mem_cons, Prod.mk.injEq, reduceCtorEq, false_and, false_or] at hmem
        exact hno t d hmem
      | pat t g' =>
        simp only [CompPat.match'] at hget
        rw [get_cons] at hget
        by_cases e : g' = g
        · subst e
          rw [if_pos rfl] at hget
          exact .inl ⟨t, c, by simp, hget⟩
        · rw [if_neg e] at hget
          refine .inr ⟨?_, hget⟩
          intro t' d hmem
          simp only [List.zip_cons_cons, List.mem_cons, Prod.mk.injEq, CompPat.pat.injEq] at hmem
          rcases hmem with ⟨⟨_, h⟩, _⟩ | hmem
          · exact e h.symm
          · exact hno t' d hmem

theorem fromMatching_ok (p : NamePattern) (n : Name) (m : Matching) (h : MatchAll p n)
    (hm : ∀ t g c, (CompPat.pat t g, c) ∈ p.zip n → Matching.get m g = some c.val) :
    NamePattern.fromMatching p m = .ok n := by
  induction h with
  | nil => rfl
  | @cons q c ps cs hq _ ih =>
    have h2 := ih (fun t g d hd => hm t g d (by simp [hd]))
    have h1 : q.fromMatching m = .ok c := by
      cases q with
      | comp x =>
        simp only [CompPat.isMatch] at hq
        rw [(Component.equal_iff x c).mp hq]; rfl
      | pat t g =>
        simp only [CompPat.isMatch, beq_iff_eq] at hq
        simp only [CompPat.fromMatching, hm t g c (by simp), hq]
    rw [NamePattern.fromMatching, h1, h2]; rfl

/-- C18: matching and then instantiating gives the name back. -/
theorem C18_match_then_instantiate (p : NamePattern) (n : Name) (m0 : Matching) (h : MatchAll p n)
    (hc : TagsConsistent p n) :
    ∃ m, NamePattern.match' p n m0 = .ok m ∧ NamePattern.fromMatching p m = .ok n := by
  obtain ⟨m, hm, hg⟩ := match_get p n m0 h
  refine ⟨m, hm, fromMatching_ok p n m h ?_⟩
  intro t g c hmem
  rcases hg g with ⟨t', d, hmem', hget⟩ | ⟨hno, _⟩
  · rw [hget, hc t' t g d c hmem' hmem]
  · exact absurd hmem (hno t c)

/-- C18: instantiating gives a name that the pattern matches, and collecting the tags again gives the same values. -/
theorem C18_instantiate_then_match (p : NamePattern) (m : Matching)
    (hcov : ∀ t g, CompPat.pat t g ∈ p → Matching.get m g ≠ none) :
    ∃ n, NamePattern.fromMatching p m = .ok n ∧ MatchAll p n ∧
      ∀ t g c, (CompPat.pat t g, c) ∈ p.zip n → Matching.get m g = some c.val := by
  induction p with
  | nil => exact ⟨[], rfl, .nil, by simp⟩
  | cons q ps ih =>
    obtain ⟨cs, h1, h2, h3⟩ := ih (fun t g hm => hcov t g (by simp [hm]))
    cases q with
    | comp x =>
      refine ⟨x :: cs, ?_, .cons ?_ h2, ?_⟩
      · rw [NamePattern.fromMatching, h1]; rfl
      · simp only [CompPat.isMatch]; exact (Component.equal_iff x x).mpr rfl
      · intro t g c hmem
        simp only [List.zip_cons_cons, List.mem_cons, Prod.mk.injEq, reduceCtorEq, false_and, false_or] at hmem
        exact h3 t g c hmem
    | pat t g =>
      cases hget : Matching.get m g with
      | none => exact absurd hget (hcov t g (by simp))
      | some v =>
        refine ⟨⟨t, v⟩ :: cs, ?_, .cons (by simp [CompPat.isMatch]) h2, ?_⟩
        · rw [NamePattern.fromMatching, h1]; simp only [CompPat.fromMatching, hget]; rfl
        · intro t' g' c hmem
          simp only [List.zip_cons_cons, List.mem_cons, Prod.mk.injEq, CompPat.pat.injEq] at hmem
          rcases hmem with ⟨⟨_, rfl⟩, rfl⟩ | hmem
          · exact hget
          · exact h3 t' g' c hmem

/-- C18: and it fails with an error, never a panic, when a tag is missing. -/
theorem C18_instantiate_missing (p : NamePattern) (m : Matching) (t : Nat) (g : Bytes) (hp : CompPat.pat t g ∈ p)
    (hm : Matching.get m g = none) : NamePattern.fromMatching p m = .err .notFound := by
  induction p with
  | nil => simp at hp
  | cons q ps ih =>
    rw [NamePattern.fromMatching]
    rcases List.mem_cons.mp hp with rfl | hp
    · simp only [CompPat.fromMatching, hm]; rfl
    · rw [ih hp]
      cases q with
      | comp x => rfl
      | pat t' g' =>
        simp only [CompPat.fromMatching]
        cases Matching.get m g' <;> rfl

example : MatchAll [.comp ⟨8, [1]⟩, .pat 8 [120], .pat 0x32 [121], .pat 8 [120]] [⟨8, [1]⟩, ⟨8, [2]⟩, ⟨0x32, [3]⟩, ⟨8, [2]⟩] ∧
    TagsConsistent [.comp ⟨8, [1]⟩, .pat 8 [120], .pat 0x32 [121], .pat 8 [120]] [⟨8, [1]⟩, ⟨8, [2]⟩, ⟨0x32, [3]⟩, ⟨8, [2]⟩] := by
  refine ⟨.cons (by decide) (.cons (by decide) (.cons (by decide) (.cons (by decide) .nil))), ?_⟩
  intro t1 t2 g c1 c2 h1 h2
  simp only [List.zip_cons_cons, List.zip_nil_right, List.mem_cons, Prod.mk.injEq, CompPat.pat.injEq, reduceCtorEq,
    false_and, false_or, List.not_mem_nil, or_false] at h1 h2
  rcases h1 with ⟨⟨_, rfl⟩, rfl⟩ | ⟨⟨_, rfl⟩, rfl⟩ | ⟨⟨_, rfl⟩, rfl⟩ <;>
    rcases h2 with ⟨⟨_, h⟩, rfl⟩ | ⟨⟨_, h⟩, rfl⟩ | ⟨⟨_, h⟩, rfl⟩ <;> first | rfl | (simp at h)

end Ndn
