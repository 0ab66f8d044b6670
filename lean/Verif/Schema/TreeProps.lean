import Verif.Schema.Tree
import Verif.Enc.TextProps
import Verif.Enc.NameProps

/-! # Properties of matching in the schema tree: C49 -/

namespace Ndn.Schema

/-! ## Specification -/

/-- a name without its digest components -/
def nonDigest (n : Name) : Name := n.filter fun c => c.typ ≠ 1 ∧ c.typ ≠ 2

/-- the tags of a path -/
def tagsOf : List CompPat → List Bytes
  | [] => []
  | .comp _ :: es => tagsOf es
  | .pat _ g :: es => g :: tagsOf es

/-- no tag is used twice on a path, or is one of the tags of the digests -/
def NoClash (es : List CompPat) : Prop := (tagsOf es).Nodup ∧ paramsTag ∉ tagsOf es ∧ digestTag ∉ tagsOf es

theorem mem_tagsOf {es : List CompPat} {t : Nat} {g : Bytes} (h : CompPat.pat t g ∈ es) : g ∈ tagsOf es := by
  induction es with
  | nil => exact absurd h (by simp)
  | cons e es ih =>
    rcases List.mem_cons.mp h with rfl | h
    · simp [tagsOf]
    · have := ih h
      cases e <;> simp [tagsOf, this]

/-! ## Stripping -/

def strip (n : Name) (m : Matching) : Name × Matching := stripDigest (stripParams n m).1 (stripParams n m).2

theorem continueMatch_eq (t : STree) (name : Name) (m : Matching) : continueMatch t name m =
    match (strip name m).1 with
    | [] => some ([], (strip name m).2)
    | c :: cs =>
      match pick c t.chd with
      | none => none
      | some (i, e, t') => (continueMatch t' cs (e.match' c (strip name m).2)).map fun p => (i :: p.1, p.2) := by
  rw [continueMatch]
  split
  · rename_i h
    have h' : (strip name m).1 = [] := h
    rw [h']; rfl
  · rename_i c cs h
    have h' : (strip name m).1 = c :: cs := h
    rw [h']
    simp only
    cases pick c t.chd with
    | none => rfl
    | some p => rfl

theorem get_cons (g v : Bytes) (m : Matching) (tag : Bytes) : Matching.get ((g, v) :: m) tag = if g = tag then some v else Matching.get m tag := by
  unfold Matching.get
  rw [List.find?_cons]
  by_cases h : g = tag
  · rw [if_pos h]; simp [h]
  · rw [if_neg h]
    have : (g == tag) = false := by simpa using h
    simp only [this]

theorem strip_length (n : Name) (m : Matching) : (strip n m).1.length ≤ n.length :=
  Nat.le_trans (stripDigest_le _ _) (stripParams_le _ _)

theorem nonDigest_cons (c : Component) (cs : Name) : nonDigest (c :: cs) = if c.typ = 1 ∨ c.typ = 2 then nonDigest cs else c :: nonDigest cs := by
  unfold nonDigest
  rw [List.filter_cons]
  by_cases h : c.typ = 1 ∨ c.typ = 2
  · rw [if_pos h, if_neg (by simp only [decide_eq_true_eq]; omega)]
  · rw [if_neg h, if_pos (by simp only [decide_eq_true_eq]; omega)]

theorem nonDigest_append (a b : Name) : nonDigest (a ++ b) = nonDigest a ++ nonDigest b := by unfold nonDigest; exact List.filter_append ..

theorem strip_nonDigest (n : Name) (m : Matching) : nonDigest (strip n m).1 = nonDigest n := by
  have h1 : ∀ (n : Name) m, nonDigest (stripParams n m).1 = nonDigest n := by
    intro n m
    cases n with
    | nil => rfl
    | cons c cs =>
      rw [stripParams]
      split
      · rename_i h; rw [nonDigest_cons, if_pos (.inr h)]
      · rfl
  have h2 : ∀ (n : Name) m, nonDigest (stripDigest n m).1 = nonDigest n := by
    intro n m
    cases n with
    | nil => rfl
    | cons c cs =>
      rw [stripDigest]
      split
      · rename_i h; rw [nonDigest_cons, if_pos (.inl h)]
      · rfl
  rw [strip, h2, h1]

theorem strip_get (n : Name) (m : Matching) (tag : Bytes) (h1 : tag ≠ paramsTag) (h2 : tag ≠ digestTag) :
    Matching.get (strip n m).2 tag = Matching.get m tag := by
  have a1 : ∀ (n : Name) m, Matching.get (stripParams n m).2 tag = Matching.get m tag := by
    intro n m
    cases n with
    | nil => rfl
    | cons c cs =>
      rw [stripParams]
      split
      · rw [get_cons, if_neg (Ne.symm h1)]
      · rfl
  have a2 : ∀ (n : Name) m, Matching.get (stripDigest n m).2 tag = Matching.get m tag := by
    intro n m
    cases n with
    | nil => rfl
    | cons c cs =>
      rw [stripDigest]
      split
      · rw [get_cons, if_neg (Ne.symm h2)]
      · rfl
  rw [strip, a2, a1]

theorem strip_id {c : Component} {cs : Name} (m : Matching) (h1 : c.typ ≠ 1) (h2 : c.typ ≠ 2) : strip (c :: cs) m = (c :: cs, m) := by
  have e1 : stripParams (c :: cs) m = (c :: cs, m) := if_neg h2
  have e2 : stripDigest (c :: cs) m = (c :: cs, m) := if_neg h1
  rw [strip, e1, e2]

theorem pick_some {c : Component} {chd : List (CompPat × STree)} {i : Nat} {e : CompPat} {t : STree} (h : pick c chd = some (i, e, t)) :
    chd[i]? = some (e, t) ∧ e.isMatch c = true ∧ ∀ j < i, ∀ p, chd[j]? = some p → p.1.isMatch c = false := by
  induction chd generalizing i with
  | nil => rw [pick] at h; exact (nomatch h)
  | cons p rest ih =>
    obtain ⟨e', t'⟩ := p
    rw [pick] at h
    by_cases hm : e'.isMatch c = true
    · rw [if_pos hm] at h
      injection h with h
      injection h with h1 h
      injection h with h2 h3
      subst h1; subst h2; subst h3
      exact ⟨rfl, hm, fun j hj => absurd hj (by omega)⟩
    · rw [if_neg hm] at h
      cases hp : pick c rest with
      | none => rw [hp] at h; exact (nomatch h)
      | some q =>
        obtain ⟨k, e2, t2⟩ := q
        rw [hp] at h
        injection h with h
        injection h with h1 h
        injection h with h2 h3
        simp only at h1
        subst h1; subst h2; subst h3
        obtain ⟨g1, g2, g3⟩ := ih hp
        refine ⟨by simpa using g1, g2, ?_⟩
        intro j hj p hp'
        cases j with
        | zero => simp only [List.getElem?_cons_zero, Option.some.injEq] at hp'; subst hp'; simpa using hm
        | succ j => exact g3 j (by omega) p (by simpa using hp')

theorem pick_of {c : Component} {chd : List (CompPat × STree)} {i : Nat} {e : CompPat} {t : STree} (h1 : chd[i]? = some (e, t))
    (h2 : e.isMatch c = true) (h3 : ∀ j < i, ∀ p, chd[j]? = some p → p.1.isMatch c = false) : pick c chd = some (i, e, t) := by
  induction chd generalizing i with
  | nil => exact absurd h1 (by simp)
  | cons p rest ih =>
    obtain ⟨e', t'⟩ := p
    rw [pick]
    cases i with
    | zero =>
      simp only [List.getElem?_cons_zero, Option.some.injEq, Prod.mk.injEq] at h1
      obtain ⟨rfl, rfl⟩ := h1
      rw [if_pos h2]
    | succ i =>
      rw [if_neg (by have := h3 0 (by omega) (e', t') (by simp); simpa using this)]
      rw [ih (by simpa using h1) (fun j hj p hp => h3 (j + 1) (by omega) p (by simpa using hp))]
      rfl

theorem at_cons {t : STree} {i : Nat} {e : CompPat} {t1 : STree} (h : t.chd[i]? = some (e, t1)) (a : Addr) :
    t.at' (i :: a) = (t1.at' a).map fun p => (e :: p.1, p.2) := by
  cases t with
  | node chd =>
    rw [STree.at']
    have h : chd[i]? = some (e, t1) := h
    rw [h]

/-- what a match tells -/
theorem continueMatch_spec (k : Nat) : ∀ (name : Name) (t : STree) (m : Matching) (a : Addr) (m' : Matching), name.length ≤ k →
    continueMatch t name m = some (a, m') →
    ∃ es t' comps, t.at' a = some (es, t') ∧ MatchAll es comps ∧ nonDigest comps = nonDigest name ∧
      (∀ tag, tag ≠ paramsTag → tag ≠ digestTag → tag ∉ tagsOf es → Matching.get m' tag = Matching.get m tag) ∧
      (NoClash es → ∀ t g c, (CompPat.pat t g, c) ∈ es.zip comps → Matching.get m' g = some c.val) := by
  induction k with
  | zero =>
    intro name t m a m' hk h
    have : name = [] := List.length_eq_zero_iff.mp (by omega)
    subst this
    rw [continueMatch_eq] at h
    have h : some (([] : Addr), m) = some (a, m') := h
    injection h with h
    injection h with h1 h2
    subst h1; subst h2
    exact ⟨[], t, [], by cases t <;> rfl, .nil, rfl, fun _ _ _ _ => rfl, fun _ _ _ _ hm => absurd hm (by simp)⟩
  | succ k ih =>
    intro name t m a m' hk h
    rw [continueMatch_eq] at h
    have hnd := strip_nonDigest name m
    have hlen := strip_length name m
    have hget := strip_get name m
    cases hs : (strip name m).1 with
    | nil =>
      rw [hs] at h hnd
      have h : some (([] : Addr), (strip name m).2) = some (a, m') := h
      injection h with h
      injection h with h1 h2
      subst h1; subst h2
      exact ⟨[], t, [], by cases t <;> rfl, .nil, hnd, fun tag h1 h2 _ => hget tag h1 h2, fun _ _ _ _ hm => absurd hm (by simp)⟩
    | cons c cs =>
      rw [hs] at h hnd hlen
      simp only at h
      cases hp : pick c t.chd with
      | none => rw [hp] at h; exact (nomatch h)
      | some q =>
        obtain ⟨i, e, t1⟩ := q
        rw [hp] at h
        simp only at h
        cases hc : continueMatch t1 cs (e.match' c (strip name m).2) with
        | none => rw [hc] at h; exact (nomatch h)
        | some q =>
          obtain ⟨a1, m1⟩ := q
          rw [hc] at h
          injection h with h
          injection h with h1 h2
          simp only at h1 h2
          subst h1; subst h2
          obtain ⟨g1, g2, _⟩ := pick_some hp
          obtain ⟨es, t', comps, b1, b2, b3, b4, b5⟩ := ih cs t1 _ a1 m1 (by simp only [List.length_cons] at hlen; omega) hc
          refine ⟨e :: es, t', c :: comps, ?_, .cons g2 b2, ?_, ?_, ?_⟩
          · rw [at_cons g1, b1]; rfl
          · rw [nonDigest_cons, b3, ← nonDigest_cons, hnd]
          · intro tag h1 h2 h3
            cases e with
            | comp x =>
              rw [b4 tag h1 h2 (by simpa [tagsOf] using h3)]
              exact hget tag h1 h2
            | pat ty g =>
              simp only [tagsOf, List.mem_cons, not_or] at h3
              rw [b4 tag h1 h2 h3.2]
              show Matching.get ((g, c.val) :: (strip name m).2) tag = _
              rw [get_cons, if_neg (Ne.symm h3.1)]
              exact hget tag h1 h2
          · intro hno ty g d hmem
            rw [List.zip_cons_cons, List.mem_cons] at hmem
            obtain ⟨n1, n2, n3⟩ := hno
            have hno' : NoClash es := by
              cases e with
              | comp x => exact ⟨n1, n2, n3⟩
              | pat ty' g' =>
                simp only [tagsOf, List.nodup_cons, List.mem_cons, not_or] at n1 n2 n3
                exact ⟨n1.2, n2.2, n3.2⟩
            rcases hmem with hmem | hmem
            · injection hmem with h1 h2
              subst h1; subst h2
              simp only [tagsOf, List.nodup_cons, List.mem_cons, not_or] at n1 n2 n3
              rw [b4 g (Ne.symm n2.1) (Ne.symm n3.1) n1.1]
              show Matching.get ((g, d.val) :: (strip name m).2) g = _
              rw [get_cons, if_pos rfl]
            · exact b5 hno' ty g d hmem

/-! ## C49 -/

/-- C49: if matching a name gives a node and a matching, then applying that matching at that node gives the same name, up to digest
components, provided that no tag is used twice on the way to the node or is one of the tags for digests.  Missing: other paths, see
`C49_repeated_tag_violated` and `C49_digest_tag_violated`. -/
theorem C49_match_apply_partial (pre : Name) (t : STree) (name : Name) (a : Addr) (m : Matching) (h : matchName pre t name = some (a, m))
    (es : List CompPat) (t' : STree) (ha : t.at' a = some (es, t')) (hno : NoClash es) :
    ∃ name', apply pre t a m = some (some name') ∧ nonDigest name' = nonDigest name := by
  have key : ∃ rest, name = pre ++ rest ∧ continueMatch t rest [] = some (a, m) := by
    unfold matchName at h
    by_cases hp : pre.length > 0
    · rw [if_pos hp] at h
      by_cases hq : pre.isPrefix name = true
      · rw [if_pos hq] at h
        obtain ⟨r, hr⟩ := (Name.isPrefix_iff pre name).mp hq
        refine ⟨r, hr.symm, ?_⟩
        rw [← hr, List.drop_left' rfl] at h
        exact h
      · rw [if_neg hq] at h; exact (nomatch h)
    · rw [if_neg hp] at h
      have : pre = [] := List.length_eq_zero_iff.mp (by omega)
      exact ⟨name, by rw [this]; rfl, h⟩
  obtain ⟨rest, rfl, hc⟩ := key
  obtain ⟨es', t2, comps, b1, b2, b3, _, b5⟩ := continueMatch_spec _ rest t [] a m (Nat.le_refl _) hc
  rw [ha] at b1
  injection b1 with b1
  injection b1 with b1 b1'
  subst b1; subst b1'
  have hf := fromMatching_ok es comps m b2 (b5 hno)
  refine ⟨pre ++ comps ++ ((Matching.get m paramsTag).map (Component.mk typParams)).toList ++
    ((Matching.get m digestTag).map (Component.mk typDigest)).toList, ?_, ?_⟩
  · unfold apply
    rw [ha]
    simp only [Option.map_some, hf]
  · rw [nonDigest_append, nonDigest_append, nonDigest_append, nonDigest_append, b3]
    have e1 : nonDigest ((Matching.get m paramsTag).map (Component.mk typParams)).toList = [] := by
      cases Matching.get m paramsTag <;> rfl
    have e2 : nonDigest ((Matching.get m digestTag).map (Component.mk typDigest)).toList = [] := by
      cases Matching.get m digestTag <;> rfl
    rw [e1, e2, List.append_nil, List.append_nil]

/-! ### Names whose digests are at the end -/

/-- no earlier sibling of the nodes on the way to `a` matches -/
def Unamb : STree → Addr → Name → Prop
  | t, i :: a, c :: cs => (∀ j < i, ∀ p, t.chd[j]? = some p → p.1.isMatch c = false) ∧ ∀ p, t.chd[i]? = some p → Unamb p.2 a cs
  | _, _, _ => True

/-- the matching after the components `comps` have matched the edges `es` -/
def matchInto : List CompPat → Name → Matching → Matching
  | e :: es, c :: cs, m => matchInto es cs (e.match' c m)
  | _, _, m => m

def NoDigest (n : Name) : Prop := ∀ c ∈ n, c.typ ≠ 1 ∧ c.typ ≠ 2

theorem matchInto_eq {es : List CompPat} {n : Name} (h : MatchAll es n) (m : Matching) : NamePattern.match' es n m = .ok (matchInto es n m) := by
  induction h generalizing m with
  | nil => rfl
  | cons _ _ ih => exact ih _

theorem cm_forward {body : Name} : ∀ {t : STree} {a : Addr} {es : List CompPat} {t' : STree}, t.at' a = some (es, t') → MatchAll es body → Unamb t a body →
    NoDigest body → ∀ (tl : Name) (m : Matching), continueMatch t (body ++ tl) m =
      (continueMatch t' tl (matchInto es body m)).map fun p => (a ++ p.1, p.2) := by
  induction body with
  | nil =>
    intro t a es t' ha hm _ _ tl m
    cases hm
    cases a with
    | nil =>
      have : some (([] : List CompPat), t) = some ([], t') := by cases t <;> exact ha
      injection this with this
      injection this with _ this
      subst this
      simp [matchInto]
    | cons i a =>
      exfalso
      cases t with
      | node chd =>
        rw [STree.at'] at ha
        cases hc : chd[i]? with
        | none => rw [hc] at ha; exact (nomatch ha)
        | some p =>
          rw [hc] at ha
          simp only at ha
          cases hq : p.2.at' a <;> simp [hq] at ha
  | cons c cs ih =>
    intro t a es t' ha hm hu hd tl m
    cases hm with
    | cons hq hm =>
      rename_i e es
      cases a with
      | nil =>
        exfalso
        have : some (([] : List CompPat), t) = some (e :: es, t') := by cases t <;> exact ha
        simp at this
      | cons i a =>
        cases hc : t.chd[i]? with
        | none => exfalso; cases t with | node chd => rw [STree.at'] at ha; have hc : chd[i]? = none := hc; rw [hc] at ha; exact (nomatch ha)
        | some p =>
          obtain ⟨e1, t1⟩ := p
          rw [at_cons hc] at ha
          cases hq1 : t1.at' a with
          | none => rw [hq1] at ha; exact (nomatch ha)
          | some q =>
            rw [hq1] at ha
            injection ha with ha
            injection ha with ha ha2
            injection ha with ha0 ha1
            subst ha0; subst ha1; subst ha2
            obtain ⟨u1, u2⟩ := hu
            have hdc := hd c (by simp)
            rw [List.cons_append, continueMatch_eq, strip_id m hdc.1 hdc.2]
            simp only
            rw [pick_of hc hq u1]
            simp only
            rw [ih hq1 hm (u2 _ hc) (fun d hd' => hd d (by simp [hd'])), Option.map_map]
            rfl

theorem cm_back {body : Name} (hd : NoDigest body) : ∀ {t : STree} {tl : Name} {m : Matching} {r : Addr × Matching},
    continueMatch t (body ++ tl) m = some r →
    ∃ a es t' r', t.at' a = some (es, t') ∧ MatchAll es body ∧ Unamb t a body ∧
      continueMatch t' tl (matchInto es body m) = some r' ∧ r = (a ++ r'.1, r'.2) := by
  induction body with
  | nil =>
    intro t tl m r h
    exact ⟨[], [], t, r, by cases t <;> rfl, .nil, trivial, h, rfl⟩
  | cons c cs ih =>
    intro t tl m r h
    have hdc := hd c (by simp)
    rw [List.cons_append, continueMatch_eq, strip_id m hdc.1 hdc.2] at h
    simp only at h
    cases hp : pick c t.chd with
    | none => rw [hp] at h; exact (nomatch h)
    | some q =>
      obtain ⟨i, e, t1⟩ := q
      rw [hp] at h
      simp only at h
      cases hc : continueMatch t1 (cs ++ tl) (e.match' c m) with
      | none => rw [hc] at h; exact (nomatch h)
      | some q =>
        rw [hc] at h
        injection h with h
        subst h
        obtain ⟨g1, g2, g3⟩ := pick_some hp
        obtain ⟨a, es, t', r', b1, b2, b3, b4, b5⟩ := ih (fun d hd' => hd d (by simp [hd'])) hc
        refine ⟨i :: a, e :: es, t', r', ?_, .cons g2 b2, ⟨g3, ?_⟩, b4, ?_⟩
        · rw [at_cons g1, b1]; rfl
        · intro p hp'; rw [g1] at hp'; injection hp' with hp'; subst hp'; exact b3
        · rw [b5]; rfl

/-- the digests at the end of a name -/
def digests (p d : Option Bytes) : Name := (p.map (Component.mk 2)).toList ++ (d.map (Component.mk 1)).toList

theorem cm_digests (t : STree) (p d : Option Bytes) (m : Matching) :
    ∃ m', continueMatch t (digests p d) m = some ([], m') ∧
      (Matching.get m' paramsTag = (p <|> Matching.get m paramsTag)) ∧ (Matching.get m' digestTag = (d <|> Matching.get m digestTag)) ∧
      ∀ tag, tag ≠ paramsTag → tag ≠ digestTag → Matching.get m' tag = Matching.get m tag := by
  have hne : paramsTag ≠ digestTag := by decide
  have hs : (strip (digests p d) m).1 = [] := by cases p <;> cases d <;> rfl
  refine ⟨(strip (digests p d) m).2, ?_, ?_, ?_, ?_⟩
  · rw [continueMatch_eq, hs]
  · cases p <;> cases d
    · rfl
    · show Matching.get ((digestTag, _) :: m) _ = _
      rw [get_cons, if_neg hne.symm]; rfl
    · show Matching.get ((paramsTag, _) :: m) _ = _
      rw [get_cons, if_pos rfl]; rfl
    · show Matching.get ((digestTag, _) :: (paramsTag, _) :: m) _ = _
      rw [get_cons, if_neg hne.symm, get_cons, if_pos rfl]; rfl
  · cases p <;> cases d
    · rfl
    · show Matching.get ((digestTag, _) :: m) _ = _
      rw [get_cons, if_pos rfl]; rfl
    · show Matching.get ((paramsTag, _) :: m) _ = _
      rw [get_cons, if_neg hne]; rfl
    · show Matching.get ((digestTag, _) :: (paramsTag, _) :: m) _ = _
      rw [get_cons, if_pos rfl]; rfl
  · exact fun tag h1 h2 => strip_get _ m tag h1 h2

theorem matchName_iff (pre : Name) (t : STree) (rest : Name) : matchName pre t (pre ++ rest) = continueMatch t rest [] := by
  unfold matchName
  by_cases hp : pre.length > 0
  · rw [if_pos hp, if_pos ((Name.isPrefix_iff _ _).mpr (List.prefix_append _ _)), List.drop_left' rfl]
  · rw [if_neg hp]
    have : pre = [] := List.length_eq_zero_iff.mp (by omega)
    rw [this]; rfl

/-- C49, with the digests: a name whose digest components are the last ones, at most one of each kind, is given back exactly, if the
components for the same tag are equal. -/
theorem C49_match_apply_exact_partial (pre : Name) (t : STree) (body : Name) (p d : Option Bytes) (hb : NoDigest body) (a : Addr) (m : Matching)
    (h : matchName pre t (pre ++ body ++ digests p d) = some (a, m)) (es : List CompPat) (t' : STree) (ha : t.at' a = some (es, t'))
    (hcons : TagsConsistent es body) (h1 : paramsTag ∉ tagsOf es) (h2 : digestTag ∉ tagsOf es) :
    apply pre t a m = some (some (pre ++ body ++ digests p d)) := by
  rw [List.append_assoc, matchName_iff] at h
  obtain ⟨a1, es1, t1, r', b1, b2, b3, b4, b5⟩ := cm_back hb h
  obtain ⟨m2, c1, c2, c3, c4⟩ := cm_digests t1 p d (matchInto es1 body [])
  rw [c1] at b4
  injection b4 with b4
  subst b4
  simp only [List.append_nil] at b5
  injection b5 with b5 b6
  subst b5; subst b6
  rw [ha] at b1
  injection b1 with b1
  injection b1 with b1 b1'
  subst b1; subst b1'
  obtain ⟨m3, d1, d2⟩ := match_get es body [] b2
  rw [matchInto_eq b2] at d1
  injection d1 with d1
  subst d1
  have noTag : ∀ tag, tag ∉ tagsOf es → Matching.get (matchInto es body []) tag = none := by
    intro tag htag
    rcases d2 tag with ⟨ty, c, hmem, _⟩ | ⟨_, hg⟩
    · exact absurd (mem_tagsOf (List.of_mem_zip hmem).1) htag
    · rw [hg]; rfl
  have hf : NamePattern.fromMatching es m = .ok body := by
    refine fromMatching_ok es body m b2 ?_
    intro ty g c hmem
    have hg : g ∈ tagsOf es := mem_tagsOf (List.of_mem_zip hmem).1
    rw [c4 g (fun e => h1 (e ▸ hg)) (fun e => h2 (e ▸ hg))]
    rcases d2 g with ⟨ty', c', hmem', hg'⟩ | ⟨hno, _⟩
    · rw [hg', hcons ty' ty g c' c hmem' hmem]
    · exact absurd hmem (hno ty c)
  unfold apply
  rw [ha]
  simp only [Option.map_some, hf, c2, c3, noTag _ h1, noTag _ h2]
  unfold digests
  cases p <;> cases d <;> simp [typParams, typDigest]

theorem tag_zip {es : List CompPat} {body : Name} (h : MatchAll es body) {g : Bytes} (hg : g ∈ tagsOf es) :
    ∃ ty c, (CompPat.pat ty g, c) ∈ es.zip body := by
  induction h with
  | nil => exact absurd hg (by simp [tagsOf])
  | @cons q c qs cs hq _ ih =>
    cases q with
    | comp x =>
      obtain ⟨ty, c', hh⟩ := ih (by simpa [tagsOf] using hg)
      exact ⟨ty, c', by simp [hh]⟩
    | pat ty x =>
      simp only [tagsOf, List.mem_cons] at hg
      rcases hg with rfl | hg
      · exact ⟨ty, c, by simp⟩
      · obtain ⟨ty, c', hh⟩ := ih hg
        exact ⟨ty, c', by simp [hh]⟩

/-- C49: applying a matching at a node and matching the name leads back to the node, with the same values, unless an earlier sibling of the
node or of one of its parents also matches, provided that no edge on the way has the type of a digest.  Missing: edges with the type of a
digest, see `C49_digest_edge_violated`. -/
theorem C49_apply_match_partial (pre : Name) (t : STree) (a : Addr) (m : Matching) (name : Name) (h : apply pre t a m = some (some name))
    (es : List CompPat) (t' : STree) (ha : t.at' a = some (es, t')) (body : Name) (hbody : NamePattern.fromMatching es m = .ok body)
    (hd : NoDigest body) (hu : Unamb t a body) :
    ∃ m', matchName pre t name = some (a, m') ∧ (∀ g ∈ tagsOf es, g ≠ paramsTag → g ≠ digestTag → Matching.get m' g = Matching.get m g) ∧
      (paramsTag ∉ tagsOf es → Matching.get m' paramsTag = Matching.get m paramsTag) ∧
      (digestTag ∉ tagsOf es → Matching.get m' digestTag = Matching.get m digestTag) := by
  unfold apply at h
  rw [ha] at h
  simp only [Option.map_some, hbody, Option.some.injEq] at h
  have hname : name = pre ++ (body ++ digests (Matching.get m paramsTag) (Matching.get m digestTag)) := by
    rw [← h]; unfold digests; simp [typParams, typDigest, List.append_assoc]
  have hcov : ∀ ty g, CompPat.pat ty g ∈ es → Matching.get m g ≠ none := by
    intro ty g hmem hnone
    rw [C18_instantiate_missing es m ty g hmem hnone] at hbody
    exact (nomatch hbody)
  obtain ⟨n, k1, k2, k3⟩ := C18_instantiate_then_match es m hcov
  rw [hbody] at k1
  injection k1 with k1
  subst k1
  obtain ⟨m2, c1, c2, c3, c4⟩ := cm_digests t' (Matching.get m paramsTag) (Matching.get m digestTag) (matchInto es body [])
  obtain ⟨m3, d1, d2⟩ := match_get es body [] k2
  rw [matchInto_eq k2] at d1
  injection d1 with d1
  subst d1
  have noTag : ∀ tag, tag ∉ tagsOf es → Matching.get (matchInto es body []) tag = none := by
    intro tag htag
    rcases d2 tag with ⟨ty, c, hmem, _⟩ | ⟨_, hg⟩
    · exact absurd (mem_tagsOf (List.of_mem_zip hmem).1) htag
    · rw [hg]; rfl
  refine ⟨m2, ?_, ?_, ?_, ?_⟩
  · rw [hname, matchName_iff, cm_forward ha k2 hu hd, c1]; simp
  · intro g hg g1 g2
    rw [c4 g g1 g2]
    rcases d2 g with ⟨ty', c', hmem', hg'⟩ | ⟨hno, _⟩
    · rw [hg', k3 ty' g c' hmem']
    · exfalso
      have := tag_zip k2 hg
      obtain ⟨ty, c, hh⟩ := this
      exact hno ty c hh
  · intro hp
    rw [c2, noTag _ hp]; cases Matching.get m paramsTag <;> rfl
  · intro hp
    rw [c3, noTag _ hp]; cases Matching.get m digestTag <;> rfl

/-- C49: refining a match with a longer name gives what matching the longer name gives, if the shorter name has no digest components. -/
theorem C49_refine_partial (pre : Name) (t : STree) (body tl : Name) (hd : NoDigest body) (a : Addr) (m : Matching)
    (h : matchName pre t (pre ++ body) = some (a, m)) :
    refine t ⟨a, pre ++ body, m⟩ (pre ++ body ++ tl) = (matchName pre t (pre ++ body ++ tl)).map fun p => ⟨p.1, pre ++ body ++ tl, p.2⟩ := by
  rw [matchName_iff] at h
  rw [← List.append_nil body] at h
  obtain ⟨a1, es, t1, r', b1, b2, b3, b4, b5⟩ := cm_back hd h
  have hn : ∀ m, continueMatch t1 [] m = some ([], m) := fun m => by rw [continueMatch_eq]; rfl
  rw [hn] at b4
  injection b4 with b4
  subst b4
  simp only [List.append_nil, Prod.mk.injEq] at b5
  obtain ⟨rfl, rfl⟩ := b5
  unfold refine
  rw [if_pos ((Name.isPrefix_iff _ _).mpr (List.prefix_append _ _)), b1]
  simp only
  rw [List.drop_left' rfl, List.append_assoc, matchName_iff, cm_forward b1 b2 b3 hd, Option.map_map]
  rfl

theorem nameEqual_iff (a b : Name) : Name.equal a b = true ↔ a = b := by
  unfold Name.equal
  by_cases h : a.length = b.length
  · rw [if_neg (by simpa using h), allEqual_iff Component.equal_iff]
    exact ⟨fun hp => hp.eq_of_length h, fun he => he ▸ List.prefix_rfl⟩
  · rw [if_pos h]
    exact ⟨(fun hx => by cases hx), fun he => absurd (he ▸ rfl) h⟩

/-- C49: refining a match with a name that does not extend its own gives the same node with that name if only an implicit digest is taken
off, and nothing otherwise. -/
theorem C49_refine_digest (t : STree) (n r : Matched) (name : Name) (h : ¬ n.name <+: name) :
    refine t n name = some r ↔ r = { n with name } ∧ ∃ d, n.name = name ++ [⟨1, d⟩] := by
  unfold refine
  have h' : ¬ n.name.isPrefix name = true := fun hp => h ((Name.isPrefix_iff _ _).mp hp)
  rw [if_neg h']
  rcases List.eq_nil_or_concat n.name with he | ⟨l, c, he⟩
  · exact absurd (he ▸ List.nil_prefix) h
  · rw [List.concat_eq_append] at he
    have h1 : n.name.getLast? = some c := by rw [he]; simp
    have h2 : n.name.dropLast = l := by rw [he]; simp
    rw [h1, h2]
    simp only
    by_cases hc : c.typ ≠ typDigest ∨ (!(Name.equal l name)) = true
    · rw [if_pos hc]
      constructor
      · intro hx; cases hx
      · rintro ⟨-, d, hd⟩
        rw [he] at hd
        obtain ⟨e1, e2⟩ := List.append_inj' hd rfl
        injection e2 with e2
        rcases hc with hc | hc
        · rw [e2] at hc; exact absurd rfl hc
        · rw [e1] at hc
          rw [(nameEqual_iff name name).mpr rfl] at hc
          exact absurd hc (by decide)
    · rw [if_neg hc]
      have hc1 : c.typ = typDigest := Decidable.byContradiction fun hx => hc (Or.inl hx)
      have hc2 : l = name := by
        apply (nameEqual_iff l name).mp
        cases hx : Name.equal l name with
        | true => rfl
        | false => exact absurd (Or.inr (by rw [hx]; rfl)) hc
      constructor
      · intro hx
        injection hx with hx
        refine ⟨hx.symm, c.val, ?_⟩
        rw [he, hc2]
        have : c = ⟨1, c.val⟩ := by cases c; simp only [typDigest] at hc1; simp [hc1]
        rw [← this]
      · rintro ⟨hx, -⟩
        rw [hx]

example : ¬ (⟨8, [97]⟩ : Component) :: [⟨1, [5]⟩] <+: [⟨8, [97]⟩] := by decide

/-! ### Examples and failures -/

def cA : Component := ⟨8, [97]⟩
def cB : Component := ⟨8, [98]⟩
def tagX : Bytes := [120]
def tagY : Bytes := [121]

def leaf : STree := .node []

/-- a tree with the paths `/a/<x>/<v=y>` and `/<x>` -/
def exTree : STree := .node [(.comp cA, .node [(.pat 8 tagX, .node [(.pat 54 tagY, leaf)])]), (.pat 8 tagX, leaf)]

theorem exTree_match : matchName [cB] exTree [cB, cA, cB, ⟨54, [1]⟩, ⟨2, [9]⟩] = some ([0, 0, 0], [(paramsTag, [9]), (tagY, [1]), (tagX, [98])]) := by
  show continueMatch _ _ _ = _
  simp [continueMatch_eq, strip, stripParams, stripDigest, exTree, STree.chd, pick, CompPat.isMatch, CompPat.match', Component.equal, cA, cB, leaf,
    typParams, typDigest]

/-- the hypotheses of the theorems -/
example : (exTree.at' [0, 0, 0]).map (·.1) = some [.comp cA, .pat 8 tagX, .pat 54 tagY] ∧ NoClash [.comp cA, .pat 8 tagX, .pat 54 tagY] ∧
    [cB, cA, cB, ⟨54, [1]⟩, ⟨2, [9]⟩] = [cB] ++ [cA, cB, ⟨54, [1]⟩] ++ digests (some [9]) none := by
  refine ⟨rfl, ?_, rfl⟩
  unfold NoClash
  decide
example : NoDigest [cA, cB, ⟨54, [1]⟩] ∧ TagsConsistent [.comp cA, .pat 8 tagX, .pat 54 tagY] [cA, cB, ⟨54, [1]⟩] := by
  refine ⟨by unfold NoDigest; decide, ?_⟩
  intro t t' g c d h1 h2
  simp [tagX, tagY] at h1 h2
  rcases h1 with ⟨⟨_, rfl⟩, rfl⟩ | ⟨⟨_, rfl⟩, rfl⟩ <;> simp at h2 <;> simp [h2]

/-- for `C49_apply_match_partial`: the second child of the root, with a value that the first one does not match -/
example : apply [cB] exTree [1] [(tagX, [98])] = some (some [cB, cB]) ∧ NamePattern.fromMatching [.pat 8 tagX] [(tagX, [98])] = .ok [cB] ∧
    Unamb exTree [1] [cB] := by
  refine ⟨by decide, by decide, ?_, ?_⟩
  · intro j hj p hp
    obtain rfl : j = 0 := by omega
    simp only [exTree, STree.chd, List.getElem?_cons_zero, Option.some.injEq] at hp
    subst hp
    decide
  · intro p _; exact trivial

/-- C49 fails: with a tag used twice on a path, `/a/b` matches `/<x>/<x>`, and applying the matching gives `/b/b`. -/
theorem C49_repeated_tag_violated : ∃ t name a m name', matchName [] t name = some (a, m) ∧ apply [] t a m = some (some name') ∧
    nonDigest name' ≠ nonDigest name := by
  refine ⟨.node [(.pat 8 tagX, .node [(.pat 8 tagX, leaf)])], [cA, cB], [0, 0], [(tagX, [98]), (tagX, [97])], [cB, cB], ?_, by decide, by decide⟩
  show continueMatch _ _ _ = _
  simp [continueMatch_eq, strip, stripParams, stripDigest, STree.chd, pick, CompPat.isMatch, CompPat.match', cA, cB, leaf, typParams, typDigest]

/-- C49 fails: with the tag `params-sha256` on a path, the digest of the parameters replaces the component. -/
theorem C49_digest_tag_violated : ∃ t name a m name', matchName [] t name = some (a, m) ∧ apply [] t a m = some (some name') ∧
    nonDigest name' ≠ nonDigest name := by
  refine ⟨.node [(.pat 8 paramsTag, leaf)], [cA, ⟨2, [1]⟩], [0], [(paramsTag, [1]), (paramsTag, [97])], [⟨8, [1]⟩, ⟨2, [1]⟩], ?_, by decide, by decide⟩
  show continueMatch _ _ _ = _
  simp [continueMatch_eq, strip, stripParams, stripDigest, STree.chd, pick, CompPat.isMatch, CompPat.match', cA, leaf, typParams, typDigest]

/-- C49 fails: with an edge that has the type of a digest, the name made at the node matches the node above it, although there is no other
child. -/
theorem C49_digest_edge_violated : ∃ t a m name m', apply [] t a m = some (some name) ∧ matchName [] t name = some ([], m') ∧ a ≠ [] ∧
    t.chd.length = 1 := by
  refine ⟨.node [(.pat 2 tagX, leaf)], [0], [(tagX, [1])], [⟨2, [1]⟩], [(paramsTag, [1])], by decide, ?_, by decide, rfl⟩
  show continueMatch _ _ _ = _
  simp [continueMatch_eq, strip, stripParams, stripDigest, typParams]

end Ndn.Schema
