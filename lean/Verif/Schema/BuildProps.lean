import Verif.Schema.Build
import Verif.Schema.TreeProps

/-! # Properties of building a schema tree: C66, C67 -/

namespace Ndn.Schema
namespace DTree
variable {δ : Type}

/-! ## Specification: a tree as a map from paths to descriptions -/

/-- the description at a path -/
def look (t : DTree δ) (q : NamePattern) : Option δ := (t.at' q).map desc

/-- the same for a tree that may have no root -/
def lookO (t : Option (DTree δ)) (q : NamePattern) : Option δ := t.bind (·.look q)

/-- no node has two children with the same edge -/
def Distinct (t : DTree δ) : Prop := ∀ b es n, t.get b = some (es, n) → (n.chd.map (·.1)).Nodup

/-- what a node put at `p` adds to the map: itself with everything below it, and the nodes on the way to it -/
def adds (base : δ) (p : NamePattern) (sub : DTree δ) (q : NamePattern) : Option δ :=
  if p <+: q then sub.look (q.drop p.length) else if q <+: p then some base else none

/-! ## Lemmas -/

theorem find_some {e : CompPat} {chd : List (CompPat × DTree δ)} {i : Nat} {c : DTree δ} (h : find e chd = some (i, c)) :
    chd[i]? = some (e, c) ∧ ∀ j < i, ∀ p, chd[j]? = some p → p.1 ≠ e := by
  induction chd generalizing i with
  | nil => exact (nomatch h)
  | cons p rest ih =>
    obtain ⟨e', t⟩ := p
    rw [find] at h
    by_cases he : e'.equal e = true
    · rw [if_pos he] at h
      injection h with h; injection h with h1 h2
      subst h1 h2
      rw [CompPat.equal_iff] at he
      subst he
      exact ⟨rfl, fun j hj => absurd hj (by omega)⟩
    · rw [if_neg he] at h
      cases hf : find e rest with
      | none => rw [hf] at h; exact (nomatch h)
      | some q =>
        obtain ⟨k, c'⟩ := q
        rw [hf] at h
        injection h with h; injection h with h1 h2
        simp only at h1 h2
        subst h1 h2
        obtain ⟨g1, g2⟩ := ih hf
        refine ⟨g1, fun j hj p hp => ?_⟩
        cases j with
        | zero => injection hp with hp; subst hp; intro hh; exact he ((CompPat.equal_iff _ _).mpr hh)
        | succ j => exact g2 j (by omega) p hp

theorem find_none {e : CompPat} {chd : List (CompPat × DTree δ)} : find e chd = none ↔ ∀ p ∈ chd, p.1 ≠ e := by
  induction chd with
  | nil => exact ⟨fun _ p hp => (nomatch hp), fun _ => rfl⟩
  | cons p rest ih =>
    obtain ⟨e', t⟩ := p
    rw [find]
    by_cases he : e'.equal e = true
    · rw [if_pos he]
      refine ⟨fun h => (nomatch h), fun h => absurd ((CompPat.equal_iff _ _).mp he) (h (e', t) (by simp))⟩
    · rw [if_neg he, Option.map_eq_none_iff, ih]
      constructor
      · intro h p hp
        rcases List.mem_cons.mp hp with rfl | hp
        · intro hh; exact he ((CompPat.equal_iff _ _).mpr hh)
        · exact h p hp
      · intro h p hp; exact h p (by simp [hp])

theorem find_of_get {e : CompPat} {chd : List (CompPat × DTree δ)} (hd : (chd.map (·.1)).Nodup) {i : Nat} {c : DTree δ} (h : chd[i]? = some (e, c)) :
    find e chd = some (i, c) := by
  cases hf : find e chd with
  | none => exact absurd rfl (find_none.mp hf (e, c) (List.mem_of_getElem? h))
  | some p =>
    obtain ⟨j, c'⟩ := p
    obtain ⟨g1, g2⟩ := find_some hf
    have hij : j = i := by
      have h1 : (chd.map (·.1))[j]? = some e := by rw [List.getElem?_map, g1]; rfl
      have h2 : (chd.map (·.1))[i]? = some e := by rw [List.getElem?_map, h]; rfl
      have hlt : j < (chd.map (·.1)).length := (List.getElem?_eq_some_iff.mp h1).1
      exact (List.getElem?_inj hlt hd).mp (h1.trans h2.symm)
    subst hij
    rw [h] at g1
    injection g1 with g1; injection g1 with _ g1
    rw [g1]

theorem find_append {e e' : CompPat} {chd : List (CompPat × DTree δ)} {c : DTree δ} :
    find e (chd ++ [(e', c)]) = (find e chd).or (if e' = e then some (chd.length, c) else none) := by
  induction chd with
  | nil =>
    show (if e'.equal e then some (0, c) else _) = _
    by_cases he : e' = e
    · rw [if_pos ((CompPat.equal_iff _ _).mpr he), if_pos he]; rfl
    · rw [if_neg (by rw [CompPat.equal_iff]; exact he), if_neg he]; rfl
  | cons p rest ih =>
    obtain ⟨e2, t⟩ := p
    rw [List.cons_append, find, find, ih]
    by_cases he : e2.equal e = true
    · rw [if_pos he, if_pos he]; rfl
    · rw [if_neg he, if_neg he]
      cases find e rest with
      | some q => rfl
      | none =>
        by_cases he' : e' = e
        · rw [if_pos he', if_pos he']; rfl
        · rw [if_neg he', if_neg he']; rfl

theorem find_modify {e e' : CompPat} {chd : List (CompPat × DTree δ)} {i : Nat} {c0 c : DTree δ} (h : find e' chd = some (i, c0)) :
    find e (chd.modify i fun p => (p.1, c)) = if e = e' then some (i, c) else find e chd := by
  induction chd generalizing i with
  | nil => exact (nomatch h)
  | cons p rest ih =>
    obtain ⟨e2, t⟩ := p
    rw [find] at h
    by_cases he : e2.equal e' = true
    · rw [if_pos he] at h
      injection h with h; injection h with h1 h2
      subst h1 h2
      rw [CompPat.equal_iff] at he
      subst he
      rw [List.modify_zero_cons, find, find]
      by_cases hh : e = e2
      · rw [if_pos hh, if_pos ((CompPat.equal_iff _ _).mpr hh.symm)]
      · rw [if_neg hh, if_neg (by rw [CompPat.equal_iff]; exact Ne.symm hh), if_neg (by rw [CompPat.equal_iff]; exact Ne.symm hh)]
    · rw [if_neg he] at h
      cases hf : find e' rest with
      | none => rw [hf] at h; exact (nomatch h)
      | some q =>
        obtain ⟨k, c'⟩ := q
        rw [hf] at h
        injection h with h; injection h with h1 h2
        simp only at h1 h2
        subst h1 h2
        rw [List.modify_succ_cons, find, find, ih hf]
        by_cases hh : e = e'
        · subst hh
          rw [if_neg he, if_pos rfl, if_pos rfl]; rfl
        · rw [if_neg hh, if_neg hh]

theorem at_cons (t : DTree δ) (e : CompPat) (es : NamePattern) : t.at' (e :: es) = (find e t.chd).bind fun p => p.2.at' es := by
  rw [at']
  cases find e t.chd <;> rfl

theorem look_nil (t : DTree δ) : t.look [] = some t.desc := by unfold look; rw [at']; rfl

theorem look_cons (t : DTree δ) (e : CompPat) (es : NamePattern) : t.look (e :: es) = (find e t.chd).bind fun p => p.2.look es := by
  unfold look
  rw [at_cons]
  cases find e t.chd <;> rfl

theorem at_append (t : DTree δ) (p q : NamePattern) : t.at' (p ++ q) = (t.at' p).bind fun n => n.at' q := by
  induction p generalizing t with
  | nil => rw [List.nil_append, at']; rfl
  | cons e es ih =>
    rw [List.cons_append, at_cons, at_cons]
    cases find e t.chd with
    | none => rfl
    | some c => exact ih c.2

theorem look_eq_none {t : DTree δ} {q : NamePattern} : t.look q = none ↔ t.at' q = none := by unfold look; rw [Option.map_eq_none_iff]

theorem look_prefix {t : DTree δ} {p q : NamePattern} (hp : p <+: q) (h : t.look p = none) : t.look q = none := by
  obtain ⟨r, rfl⟩ := hp
  rw [look_eq_none] at h ⊢
  rw [at_append, h]; rfl

theorem setChild_chd (t : DTree δ) (i : Nat) (c : DTree δ) : (t.setChild i c).chd = t.chd.modify i fun p => (p.1, c) := by cases t; rfl
theorem setChild_desc (t : DTree δ) (i : Nat) (c : DTree δ) : (t.setChild i c).desc = t.desc := by cases t; rfl

theorem put_cons (base : δ) (t : DTree δ) (e : CompPat) (es : NamePattern) (sub : DTree δ) : put base t (e :: es) sub =
    match find e t.chd with
    | some (i, c) => (put base c es sub).map fun p => (t.setChild i p.1, i :: p.2)
    | none =>
      match es with
      | [] => some (.node t.desc (t.chd ++ [(e, sub)]), [t.chd.length])
      | e' :: es' => (put base (.node base []) (e' :: es') sub).map fun p => (.node t.desc (t.chd ++ [(e, p.1)]), t.chd.length :: p.2) := by
  cases es <;> rw [put] <;> cases find e t.chd <;> rfl

theorem put_none {base : δ} {t : DTree δ} {p : NamePattern} {sub : DTree δ} : put base t p sub = none ↔ t.look p ≠ none := by
  induction p generalizing t with
  | nil => rw [look_nil]; exact ⟨fun _ h => (nomatch h), fun _ => rfl⟩
  | cons e es ih =>
    rw [put_cons, look_cons]
    cases hf : find e t.chd with
    | some q =>
      obtain ⟨i, c⟩ := q
      simp only [Option.map_eq_none_iff]
      exact ih
    | none =>
      simp only [Option.bind_none, ne_eq, not_true_eq_false, iff_false]
      cases es with
      | nil => simp
      | cons e' es' =>
        simp only [Option.map_eq_none_iff]
        rw [ih, look_cons]
        intro h; exact h rfl

theorem look_put {base : δ} {t t' : DTree δ} {p : NamePattern} {sub : DTree δ} {a : Addr} (h : put base t p sub = some (t', a)) (q : NamePattern) :
    t'.look q = (t.look q).or (adds base p sub q) := by
  induction p generalizing t t' a q with
  | nil => exact (nomatch h)
  | cons e es ih =>
    rw [put_cons] at h
    cases hf : find e t.chd with
    | some z =>
      obtain ⟨i, c⟩ := z
      rw [hf] at h
      simp only at h
      cases hp : put base c es sub with
      | none => rw [hp] at h; exact (nomatch h)
      | some w =>
        rw [hp] at h
        injection h with h; injection h with h1 h2
        subst h1
        cases q with
        | nil => rw [look_nil, look_nil, setChild_desc]; rfl
        | cons e2 q2 =>
          rw [look_cons, look_cons, setChild_chd, find_modify hf]
          by_cases he : e2 = e
          · subst he
            rw [if_pos rfl, hf]
            simp only [Option.bind_some]
            rw [ih (t := c) (t' := w.1) (a := w.2) hp q2]
            congr 1
            unfold adds
            simp [List.cons_prefix_cons]
          · rw [if_neg he]
            have : adds base (e :: es) sub (e2 :: q2) = none := by
              unfold adds
              rw [if_neg (by rw [List.cons_prefix_cons]; rintro ⟨rfl, _⟩; exact he rfl), if_neg (by rw [List.cons_prefix_cons]; rintro ⟨rfl, _⟩; exact he rfl)]
            rw [this, Option.or_none]
    | none =>
      rw [hf] at h
      -- in both cases a child `c'` is appended whose map is what is added below it
      have key : ∃ c', t' = .node t.desc (t.chd ++ [(e, c')]) ∧ ∀ q2, c'.look q2 = adds base es sub q2 := by
        cases es with
        | nil =>
          injection h with h; injection h with h1 h2
          refine ⟨sub, h1.symm, fun q2 => ?_⟩
          unfold adds
          rw [if_pos List.nil_prefix]; rfl
        | cons e' es' =>
          simp only at h
          cases hp : put base (.node base []) (e' :: es') sub with
          | none => rw [hp] at h; exact (nomatch h)
          | some w =>
            rw [hp] at h
            injection h with h; injection h with h1 h2
            refine ⟨w.1, h1.symm, fun q2 => ?_⟩
            rw [ih (t := .node base []) (t' := w.1) (a := w.2) hp q2]
            cases q2 with
            | nil =>
              unfold adds
              rw [look_nil, if_neg (by simp), if_pos List.nil_prefix]; rfl
            | cons e2 q2 => rw [look_cons]; rfl
      obtain ⟨c', rfl, hc⟩ := key
      cases q with
      | nil => rw [look_nil, look_nil]; rfl
      | cons e2 q2 =>
        rw [look_cons, look_cons]
        show (find e2 (t.chd ++ [(e, c')])).bind _ = _
        rw [find_append]
        by_cases he : e = e2
        · subst he
          rw [hf, if_pos rfl]
          simp only [Option.none_or, Option.bind_some, Option.bind_none]
          rw [hc]
          unfold adds
          simp [List.cons_prefix_cons]
        · rw [if_neg he, Option.or_none]
          have : adds base (e :: es) sub (e2 :: q2) = none := by
            unfold adds
            rw [if_neg (by rw [List.cons_prefix_cons]; rintro ⟨rfl, _⟩; exact he rfl), if_neg (by rw [List.cons_prefix_cons]; rintro ⟨rfl, _⟩; exact he rfl)]
          rw [this, Option.or_none]

theorem get_cons (t : DTree δ) (i : Nat) (is : Addr) : t.get (i :: is) = (t.chd[i]?).bind fun p => (p.2.get is).map fun q => (p.1 :: q.1, q.2) := by
  rw [get]
  cases t.chd[i]? <;> rfl

theorem get_put {base : δ} {t t' : DTree δ} {p : NamePattern} {sub : DTree δ} {a : Addr} (h : put base t p sub = some (t', a)) :
    t'.get a = some (p, sub) ∧ t'.desc = t.desc ∧ ∀ b es n, t.get b = some (es, n) → ∃ n', t'.get b = some (es, n') ∧ n'.desc = n.desc := by
  induction p generalizing t t' a with
  | nil => exact (nomatch h)
  | cons e es ih =>
    rw [put_cons] at h
    cases hf : find e t.chd with
    | some z =>
      obtain ⟨i, c⟩ := z
      rw [hf] at h
      simp only at h
      cases hp : put base c es sub with
      | none => rw [hp] at h; exact (nomatch h)
      | some w =>
        obtain ⟨w, aw⟩ := w
        rw [hp] at h
        injection h with h; injection h with h1 h2
        simp only at h1 h2
        subst h1 h2
        obtain ⟨g1, g2, g3⟩ := ih hp
        obtain ⟨f1, _⟩ := find_some hf
        refine ⟨?_, setChild_desc .., ?_⟩
        · rw [get_cons, setChild_chd, List.getElem?_modify_eq, f1]
          simp [g1]
        · intro b bs n hb
          cases b with
          | nil => rw [get] at hb; injection hb with hb; injection hb with hb1 hb2; subst hb1 hb2; exact ⟨_, rfl, setChild_desc ..⟩
          | cons j js =>
            rw [get_cons] at hb ⊢
            rw [setChild_chd]
            by_cases hj : i = j
            · subst hj
              rw [f1] at hb
              rw [List.getElem?_modify_eq, f1]
              simp only [Option.bind_some] at hb ⊢
              cases hg : c.get js with
              | none => rw [hg] at hb; exact (nomatch hb)
              | some q =>
                rw [hg] at hb
                injection hb with hb; injection hb with hb1 hb2
                obtain ⟨n', k1, k2⟩ := g3 js q.1 q.2 hg
                refine ⟨n', ?_, k2.trans (by rw [hb2])⟩
                show (w.get js).map _ = _
                rw [k1, ← hb1]; rfl
            · rw [List.getElem?_modify_ne _ _ hj]
              exact ⟨n, hb, rfl⟩
    | none =>
      rw [hf] at h
      have key : ∃ c' ac, t' = .node t.desc (t.chd ++ [(e, c')]) ∧ a = t.chd.length :: ac ∧ c'.get ac = some (es, sub) := by
        cases es with
        | nil =>
          injection h with h; injection h with h1 h2
          exact ⟨sub, [], h1.symm, h2.symm, rfl⟩
        | cons e' es' =>
          simp only at h
          cases hp : put base (.node base []) (e' :: es') sub with
          | none => rw [hp] at h; exact (nomatch h)
          | some w =>
            rw [hp] at h
            injection h with h; injection h with h1 h2
            exact ⟨w.1, w.2, h1.symm, h2.symm, (ih (a := w.2) (t' := w.1) hp).1⟩
      obtain ⟨c', ac, rfl, rfl, hc⟩ := key
      refine ⟨?_, rfl, ?_⟩
      · rw [get_cons]
        show ((t.chd ++ [(e, c')])[t.chd.length]?).bind _ = _
        simp [hc]
      · intro b bs n hb
        cases b with
        | nil => rw [get] at hb; injection hb with hb; injection hb with hb1 hb2; subst hb1 hb2; exact ⟨_, rfl, rfl⟩
        | cons j js =>
          rw [get_cons] at hb ⊢
          refine ⟨n, ?_, rfl⟩
          have hj : j < t.chd.length := by
            cases hc : t.chd[j]? with
            | none => rw [hc] at hb; exact (nomatch hb)
            | some x => exact (List.getElem?_eq_some_iff.mp hc).1
          show ((t.chd ++ [(e, c')])[j]?).bind _ = _
          rw [List.getElem?_append_left hj]
          exact hb

theorem distinct_node {t : DTree δ} : Distinct t ↔ (t.chd.map (·.1)).Nodup ∧ ∀ e c, (e, c) ∈ t.chd → Distinct c := by
  constructor
  · intro h
    refine ⟨h [] [] t rfl, fun e c hc b es n hb => ?_⟩
    obtain ⟨i, hi, he⟩ := List.getElem_of_mem hc
    have : t.chd[i]? = some (e, c) := by rw [List.getElem?_eq_getElem hi, he]
    exact h (i :: b) (e :: es) n (by rw [get_cons, this]; simp [hb])
  · rintro ⟨h1, h2⟩ b es n hb
    cases b with
    | nil => rw [get] at hb; injection hb with hb; injection hb with _ hb; subst hb; exact h1
    | cons i is =>
      rw [get_cons] at hb
      cases hc : t.chd[i]? with
      | none => rw [hc] at hb; exact (nomatch hb)
      | some p =>
        rw [hc] at hb
        simp only [Option.bind_some] at hb
        cases hg : p.2.get is with
        | none => rw [hg] at hb; exact (nomatch hb)
        | some q =>
          rw [hg] at hb
          injection hb with hb; injection hb with _ hb
          subst hb
          exact h2 p.1 p.2 (List.mem_of_getElem? hc) is q.1 q.2 hg

theorem distinct_put {base : δ} {t t' : DTree δ} {p : NamePattern} {sub : DTree δ} {a : Addr} (h : put base t p sub = some (t', a))
    (ht : Distinct t) (hs : Distinct sub) : Distinct t' := by
  induction p generalizing t t' a with
  | nil => exact (nomatch h)
  | cons e es ih =>
    rw [put_cons] at h
    obtain ⟨h1, h2⟩ := distinct_node.mp ht
    cases hf : find e t.chd with
    | some z =>
      obtain ⟨i, c⟩ := z
      rw [hf] at h
      simp only at h
      cases hp : put base c es sub with
      | none => rw [hp] at h; exact (nomatch h)
      | some w =>
        obtain ⟨w, aw⟩ := w
        rw [hp] at h
        injection h with h; injection h with e1 e2
        simp only at e1 e2
        subst e1
        obtain ⟨f1, _⟩ := find_some hf
        have hw := ih hp (h2 e c (List.mem_of_getElem? f1))
        refine distinct_node.mpr ⟨?_, fun e' c' hc => ?_⟩
        · rw [setChild_chd]
          have : (t.chd.modify i fun p => (p.1, w)).map (·.1) = t.chd.map (·.1) := by
            apply List.ext_getElem?
            intro j
            rw [List.getElem?_map, List.getElem?_map, List.getElem?_modify]
            cases t.chd[j]? with
            | none => rfl
            | some x => by_cases hj : i = j <;> simp [hj]
          rw [this]; exact h1
        · rw [setChild_chd] at hc
          obtain ⟨j, hj⟩ := List.mem_iff_getElem?.mp hc
          rw [List.getElem?_modify] at hj
          cases hx : t.chd[j]? with
          | none => rw [hx] at hj; exact (nomatch hj)
          | some x =>
            rw [hx] at hj
            by_cases hij : i = j
            · simp only [hij, if_pos] at hj
              injection hj with hj; injection hj with _ hj
              subst hj; exact hw
            · simp only [if_neg hij] at hj
              injection hj with hj
              subst hj
              exact h2 _ _ (List.mem_of_getElem? hx)
    | none =>
      rw [hf] at h
      have key : ∃ c', t' = .node t.desc (t.chd ++ [(e, c')]) ∧ Distinct c' := by
        cases es with
        | nil =>
          injection h with h; injection h with h1 h2
          exact ⟨sub, h1.symm, hs⟩
        | cons e' es' =>
          simp only at h
          cases hp : put base (.node base []) (e' :: es') sub with
          | none => rw [hp] at h; exact (nomatch h)
          | some w =>
            rw [hp] at h
            injection h with h; injection h with h1 h2
            exact ⟨w.1, h1.symm, ih (a := w.2) (t' := w.1) hp (distinct_node.mpr ⟨by simp [chd], fun _ _ h => (nomatch h)⟩)⟩
      obtain ⟨c', rfl, hc⟩ := key
      refine distinct_node.mpr ⟨?_, fun e' c2 hm => ?_⟩
      · show ((t.chd ++ [(e, c')]).map (·.1)).Nodup
        rw [List.map_append, List.nodup_append]
        refine ⟨h1, by simp, ?_⟩
        intro x hx y hy
        obtain ⟨z, hz, rfl⟩ := List.mem_map.mp hx
        simp only [List.map_cons, List.map_nil, List.mem_singleton] at hy
        subst hy
        exact find_none.mp hf z hz
      · have hm : (e', c2) ∈ t.chd ++ [(e, c')] := hm
        rcases List.mem_append.mp hm with hm | hm
        · exact h2 _ _ hm
        · rw [List.mem_singleton] at hm
          injection hm with _ hm
          subst hm; exact hc

/-! ## C66 -/

/-- C66, `PutNode` refuses exactly the paths where there is a node already (and then changes nothing: no tree is returned). -/
theorem C66_refuses_existing (base : δ) (t : Option (DTree δ)) (p : NamePattern) (sub : DTree δ) :
    putTree base t p sub = none ↔ (lookO t p ≠ none ∨ (p = [] ∧ t ≠ none)) := by
  unfold putTree lookO
  cases p with
  | nil =>
    cases t with
    | none => simp
    | some t => simp [look_nil]
  | cons e es =>
    rw [put_none]
    cases t with
    | none =>
      simp only [Option.getD_none, Option.bind_none, ne_eq, not_true_eq_false, reduceCtorEq, false_and, or_self, iff_false]
      rw [look_cons]
      intro h; exact h rfl
    | some t => simp

theorem lookO_putTree {base : δ} {t : Option (DTree δ)} {t' : DTree δ} {p : NamePattern} {sub : DTree δ} {a : Addr}
    (h : putTree base t p sub = some (t', a)) (q : NamePattern) : t'.look q = (lookO t q).or (adds base p sub q) := by
  unfold putTree at h
  cases p with
  | nil =>
    cases t with
    | none =>
      injection h with h; injection h with h1 h2
      subst h1
      unfold adds
      rw [if_pos List.nil_prefix]; rfl
    | some t => exact (nomatch h)
  | cons e es =>
    have h : put base (t.getD (.node base [])) (e :: es) sub = some (t', a) := h
    rw [look_put h q]
    cases t with
    | some t => rfl
    | none =>
      cases q with
      | nil =>
        unfold adds
        rw [if_neg (by simp), if_pos List.nil_prefix]
        rw [Option.getD_none, look_nil]; rfl
      | cons e2 q2 => rw [Option.getD_none, look_cons]; rfl

/-- C66, found where it was put: after `PutNode(path)` the new node and what it brought along are found below `path`. -/
theorem C66_found (base : δ) (t : Option (DTree δ)) (p : NamePattern) (sub t' : DTree δ) (a : Addr) (h : putTree base t p sub = some (t', a))
    (r : NamePattern) : t'.look (p ++ r) = sub.look r := by
  rw [lookO_putTree h]
  have hn : lookO t p = none := by
    refine Decidable.byContradiction fun hcon => ?_
    rw [(C66_refuses_existing base t p sub).mpr (.inl hcon)] at h
    exact (nomatch h)
  have hn' : lookO t (p ++ r) = none := by
    cases t with
    | none => rfl
    | some t => exact look_prefix (List.prefix_append p r) hn
  rw [hn']
  unfold adds
  rw [if_pos (List.prefix_append p r), List.drop_left]; rfl

/-- C66, nothing else changes: at every path that is not below the new node there is what was there before; where there was nothing, there is
still nothing, except that the missing nodes on the way are made, as base nodes. -/
theorem C66_others_kept (base : δ) (t : Option (DTree δ)) (p : NamePattern) (sub t' : DTree δ) (a : Addr) (h : putTree base t p sub = some (t', a))
    (q : NamePattern) (hq : ¬p <+: q) :
    (∀ d, lookO t q = some d → t'.look q = some d) ∧ (lookO t q = none → t'.look q = if q <+: p then some base else none) := by
  rw [lookO_putTree h]
  refine ⟨fun d hd => by rw [hd]; rfl, fun hn => ?_⟩
  rw [hn]
  unfold adds
  rw [if_neg hq]; rfl

/-- C66, nodes that the caller holds stay where they are: the new node is the one returned, every node that was there before still has its
path and its description, and no node ever has two children with the same edge. -/
theorem C66_nodes_stay (base : δ) (t sub t' : DTree δ) (p : NamePattern) (a : Addr) (h : putTree base (some t) p sub = some (t', a)) :
    t'.get a = some (p, sub) ∧ (∀ b es n, t.get b = some (es, n) → ∃ n', t'.get b = some (es, n') ∧ n'.desc = n.desc) ∧
      (Distinct t → Distinct sub → Distinct t') := by
  cases p with
  | nil => exact (nomatch h)
  | cons e es =>
    have h : put base t (e :: es) sub = some (t', a) := h
    obtain ⟨h1, _, h3⟩ := get_put h
    exact ⟨h1, h3, distinct_put h⟩

/-- two nodes, one of them below the other, and one at the root -/
example : ∃ t1 a1 t2 a2, putTree "Base" none [.comp ⟨8, [97]⟩, .pat 8 [120]] (.node "Leaf" []) = some (t1, a1) ∧
    putTree "Base" (some t1) [.comp ⟨8, [97]⟩, .comp ⟨8, [98]⟩] (.node "Rdr" []) = some (t2, a2) ∧
    t2.look [.comp ⟨8, [97]⟩] = some "Base" ∧ t2.look [.comp ⟨8, [97]⟩, .pat 8 [120]] = some "Leaf" ∧
    putTree "Base" (some t2) [.comp ⟨8, [97]⟩] (.node "Leaf" []) = none :=
  ⟨_, _, _, _, rfl, rfl, rfl, rfl, rfl⟩

/-! ## C67 -/

/-- the description asks for `d` at the path `q`: one of its nodes is put there or brings it along -/
def Wanted (l : List (NamePattern × DTree δ)) (q : NamePattern) (d : δ) : Prop :=
  ∃ p sub r, (p, sub) ∈ l ∧ q = p ++ r ∧ sub.look r = some d

/-- a later node does not stand where an earlier one, or what comes with it, stands already -/
def Free (a b : NamePattern × DTree δ) : Prop := ¬b.1 <+: a.1 ∧ ∀ r, b.1 = a.1 ++ r → a.2.look r = none

theorem adds_none {base : δ} {a b : NamePattern × DTree δ} : adds base a.1 a.2 b.1 = none ↔ Free a b := by
  unfold adds Free
  by_cases h1 : a.1 <+: b.1
  · rw [if_pos h1]
    obtain ⟨r, hr⟩ := h1
    constructor
    · intro h
      refine ⟨fun hp => ?_, fun r' hr' => ?_⟩
      · have hl := hp.length_le
        have : r = [] := by
          have := congrArg List.length hr
          rw [List.length_append] at this
          exact List.eq_nil_of_length_eq_zero (by omega)
        subst this
        rw [← hr, List.append_nil, List.drop_length, look_nil] at h
        exact (nomatch h)
      · rw [hr', List.drop_left] at h; exact h
    · rintro ⟨_, h⟩
      rw [← hr, List.drop_left]
      exact h r hr.symm
  · rw [if_neg h1]
    by_cases h2 : b.1 <+: a.1
    · rw [if_pos h2]
      exact ⟨fun h => (nomatch h), fun h => absurd h2 h.1⟩
    · rw [if_neg h2]
      exact ⟨fun _ => ⟨h2, fun r hr => absurd (hr ▸ List.prefix_append _ _) h1⟩, fun _ => rfl⟩

theorem putTree_some {base : δ} {t : Option (DTree δ)} {p : NamePattern} {sub : DTree δ} :
    (∃ t' a, putTree base t p sub = some (t', a)) ↔ lookO t p = none := by
  have h := C66_refuses_existing base t p sub
  constructor
  · rintro ⟨t', a, e⟩
    refine Decidable.byContradiction fun hcon => ?_
    rw [h.mpr (.inl hcon)] at e; exact (nomatch e)
  · intro hn
    cases hp : putTree base t p sub with
    | some q => exact ⟨q.1, q.2, rfl⟩
    | none =>
      rcases h.mp hp with g | ⟨rfl, g⟩
      · exact absurd hn g
      · cases t with
        | none => exact absurd rfl g
        | some t => rw [lookO] at hn; simp [look_nil] at hn

theorem build_iff {base : δ} (l : List (NamePattern × DTree δ)) : ∀ (t : Option (DTree δ)),
    build base t l ≠ none ↔ (∀ b ∈ l, lookO t b.1 = none) ∧ l.Pairwise Free := by
  induction l with
  | nil => intro t; rw [build]; simp
  | cons x l ih =>
    intro t
    obtain ⟨p, sub⟩ := x
    rw [build, List.pairwise_cons]
    cases hp : putTree base t p sub with
    | none =>
      simp only [ne_eq, not_true_eq_false, false_iff]
      rintro ⟨h, _⟩
      obtain ⟨t', a, e⟩ := putTree_some (base := base) (sub := sub).mpr (h (p, sub) (by simp))
      rw [hp] at e; exact (nomatch e)
    | some q =>
      obtain ⟨t', a⟩ := q
      simp only
      rw [ih (some t')]
      have hl := lookO_putTree hp
      have hlook : ∀ b : NamePattern × DTree δ, lookO (some t') b.1 = none ↔ lookO t b.1 = none ∧ Free (p, sub) b := by
        intro b
        rw [← adds_none (base := base)]
        show t'.look b.1 = none ↔ _
        rw [hl b.1, Option.or_eq_none_iff]
      have hp0 : lookO t p = none := putTree_some.mp ⟨t', a, hp⟩
      constructor
      · rintro ⟨h1, h2⟩
        refine ⟨fun b hb => ?_, fun b hb => ((hlook b).mp (h1 b hb)).2, h2⟩
        rcases List.mem_cons.mp hb with rfl | hb
        · exact hp0
        · exact ((hlook b).mp (h1 b hb)).1
      · rintro ⟨h1, h2, h3⟩
        exact ⟨fun b hb => (hlook b).mpr ⟨h1 b (by simp [hb]), h2 b hb⟩, h3⟩

/-- C67, which orders work: the nodes can be put in the given order exactly if none of them stands where an earlier one, a node on the way to
an earlier one, or a node that an earlier one brought along stands. -/
theorem C67_builds_iff (base : δ) (l : List (NamePattern × DTree δ)) : build base none l ≠ none ↔ l.Pairwise Free := by
  rw [build_iff]
  exact ⟨fun h => h.2, fun h => ⟨fun _ _ => rfl, h⟩⟩

theorem build_look {base : δ} (l : List (NamePattern × DTree δ)) : ∀ (t t' : Option (DTree δ)), build base t l = some t' → ∀ q,
    lookO t' q = l.foldl (fun acc x => acc.or (adds base x.1 x.2 q)) (lookO t q) := by
  induction l with
  | nil => intro t t' h q; rw [build] at h; injection h with h; subst h; rfl
  | cons x l ih =>
    intro t t' h q
    obtain ⟨p, sub⟩ := x
    rw [build] at h
    cases hp : putTree base t p sub with
    | none => rw [hp] at h; exact (nomatch h)
    | some w =>
      obtain ⟨t1, a⟩ := w
      rw [hp] at h
      rw [ih (some t1) t' h q, List.foldl_cons]
      congr 1
      exact lookO_putTree hp q

theorem fold_or {α β : Type} (f : α → Option β) (l : List α) : ∀ (x : Option β),
    l.foldl (fun acc a => acc.or (f a)) x = x.or (l.findSome? f) := by
  induction l with
  | nil => intro x; simp
  | cons a l ih =>
    intro x
    rw [List.foldl_cons, ih, List.findSome?_cons]
    cases x with
    | some v => simp
    | none => cases f a <;> simp

/-- what is at a path after the nodes have been put, in terms of the set of nodes only -/
theorem C67_nodes (base : δ) (l : List (NamePattern × DTree δ)) (t : Option (DTree δ)) (h : build base none l = some t) (q : NamePattern) (d : δ) :
    lookO t q = some d ↔ Wanted l q d ∨ ((∀ d', ¬Wanted l q d') ∧ d = base ∧ ∃ x ∈ l, q <+: x.1) := by
  have hpw : l.Pairwise Free := (C67_builds_iff base l).mp (by rw [h]; simp)
  rw [build_look l none t h q, fold_or]
  show (none : Option δ).or _ = _ ↔ _
  rw [Option.none_or]
  clear h t
  -- a node wanted at `q` is not preceded by one that adds anything there
  have hw : ∀ (l : List (NamePattern × DTree δ)) (d : δ), l.Pairwise Free → Wanted l q d → l.findSome? (fun x => adds base x.1 x.2 q) = some d := by
    intro l
    induction l with
    | nil => rintro d _ ⟨p, sub, r, hm, _⟩; exact (nomatch hm)
    | cons x l ih =>
      rintro d hp ⟨p, sub, r, hm, hq, hd⟩
      rw [List.pairwise_cons] at hp
      rw [List.findSome?_cons]
      rcases List.mem_cons.mp hm with rfl | hm
      · have : adds base p sub q = some d := by
          unfold adds
          rw [hq, if_pos (List.prefix_append p r), List.drop_left]; exact hd
        simp only [this]
      · have hfree : Free x (p, sub) := hp.1 _ hm
        have : adds base x.1 x.2 q = none := by
          have h1 := (adds_none (base := base)).mpr hfree
          unfold adds at h1 ⊢
          simp only at h1
          by_cases h2 : x.1 <+: p
          · rw [if_pos h2] at h1
            have h3 : x.1 <+: q := h2.trans (hq ▸ List.prefix_append p r)
            rw [if_pos h3]
            refine look_prefix ?_ h1
            obtain ⟨s, rfl⟩ := h2
            rw [hq, List.append_assoc, List.drop_left, List.drop_left]
            exact List.prefix_append s r
          · rw [if_neg h2] at h1
            have h4 : ¬p <+: x.1 := by
              intro h4; rw [if_pos h4] at h1; exact (nomatch h1)
            have hpq : p <+: q := hq ▸ List.prefix_append p r
            rw [if_neg, if_neg]
            · intro h5; exact h4 (hpq.trans h5)
            · intro h5
              rcases List.prefix_or_prefix_of_prefix h5 hpq with h6 | h6
              · exact h2 h6
              · exact h4 h6
        rw [this]
        exact ih d hp.2 ⟨p, sub, r, hm, hq, hd⟩
  constructor
  · intro hf
    by_cases hex : ∃ d', Wanted l q d'
    · obtain ⟨d', hd'⟩ := hex
      have := hw l d' hpw hd'
      rw [this] at hf
      injection hf with hf
      subst hf
      exact .inl hd'
    · right
      obtain ⟨x, hx, hxa⟩ := List.exists_of_findSome?_eq_some hf
      unfold adds at hxa
      by_cases h1 : x.1 <+: q
      · rw [if_pos h1] at hxa
        obtain ⟨r, hr⟩ := h1
        refine absurd ⟨d, x.1, x.2, r, hx, hr.symm, ?_⟩ hex
        rw [← hr, List.drop_left] at hxa; exact hxa
      · rw [if_neg h1] at hxa
        by_cases h2 : q <+: x.1
        · rw [if_pos h2] at hxa
          injection hxa with hxa
          exact ⟨fun d' hd' => hex ⟨d', hd'⟩, hxa.symm, x, hx, h2⟩
        · rw [if_neg h2] at hxa; exact (nomatch hxa)
  · rintro (hd | ⟨hno, rfl, x, hx, hq⟩)
    · exact hw l d hpw hd
    · have hsome : (l.findSome? fun x => adds d x.1 x.2 q).isSome := by
        rw [List.findSome?_isSome_iff]
        refine ⟨x, hx, ?_⟩
        unfold adds
        by_cases h1 : x.1 <+: q
        · rw [if_pos h1]
          have : q = x.1 := by
            have := h1.length_le; have := hq.length_le
            exact hq.eq_of_length (by omega)
          rw [this, List.drop_length, look_nil]; rfl
        · rw [if_neg h1, if_pos hq]; rfl
      obtain ⟨d', hd'⟩ := Option.isSome_iff_exists.mp hsome
      obtain ⟨y, hy, hya⟩ := List.exists_of_findSome?_eq_some hd'
      unfold adds at hya
      by_cases h1 : y.1 <+: q
      · rw [if_pos h1] at hya
        obtain ⟨r, hr⟩ := h1
        rw [← hr, List.drop_left] at hya
        exact absurd ⟨y.1, y.2, r, hy, hr.symm, hya⟩ (hno d')
      · rw [if_neg h1] at hya
        by_cases h2 : q <+: y.1
        · rw [if_pos h2] at hya
          injection hya with hya
          rw [hd', hya]
        · rw [if_neg h2] at hya; exact (nomatch hya)

/-- C67, paths: if the description can be instantiated in two orders of its nodes (a Go map has no order), both trees have the same nodes at the
same paths.  Missing: that every order works and that the trees match the same names, which is false, see `C67_parent_violated`
and `C67_match_violated`. -/
theorem C67_order_partial (base : δ) (l l' : List (NamePattern × DTree δ)) (hperm : l.Perm l') (t t' : Option (DTree δ))
    (h : build base none l = some t) (h' : build base none l' = some t') (q : NamePattern) : lookO t q = lookO t' q := by
  have hw : ∀ d, Wanted l q d ↔ Wanted l' q d := by
    intro d
    constructor
    · rintro ⟨p, sub, r, hm, e⟩; exact ⟨p, sub, r, hperm.mem_iff.mp hm, e⟩
    · rintro ⟨p, sub, r, hm, e⟩; exact ⟨p, sub, r, hperm.mem_iff.mpr hm, e⟩
  have key : ∀ d, lookO t q = some d ↔ lookO t' q = some d := by
    intro d
    rw [C67_nodes base l t h, C67_nodes base l' t' h', hw d]
    have : (∀ d', ¬Wanted l q d') ↔ ∀ d', ¬Wanted l' q d' := ⟨fun g d' h => g d' ((hw d').mpr h), fun g d' h => g d' ((hw d').mp h)⟩
    rw [this]
    simp only [hperm.mem_iff]
  cases ht : lookO t q with
  | some d => exact ((key d).mp ht).symm
  | none =>
    cases ht' : lookO t' q with
    | none => rfl
    | some d => rw [(key d).mpr ht'] at ht; exact (nomatch ht)

/-- C67, every order works if no path of the description is a prefix of another one. -/
theorem C67_separate_partial (base : δ) (l l' : List (NamePattern × DTree δ)) (hperm : l.Perm l')
    (hsep : l.Pairwise fun a b => ¬a.1 <+: b.1 ∧ ¬b.1 <+: a.1) : build base none l' ≠ none := by
  rw [C67_builds_iff]
  have h' : l'.Pairwise fun a b => ¬a.1 <+: b.1 ∧ ¬b.1 <+: a.1 := hperm.pairwise hsep (fun h => ⟨h.2, h.1⟩)
  exact h'.imp fun {a b} h => ⟨h.2, fun r hr => absurd (hr ▸ List.prefix_append _ _) h.1⟩

/-- C67 fails: a description with a node and a node below it can be instantiated if `range` happens to give the upper one first, and panics
otherwise. -/
theorem C67_parent_violated (base : δ) (p r : NamePattern) (hr : r ≠ []) (s1 s2 : DTree δ) (h1 : s1.look r = none) :
    build base none [(p, s1), (p ++ r, s2)] ≠ none ∧ build base none [(p ++ r, s2), (p, s1)] = none := by
  constructor
  · rw [C67_builds_iff]
    refine List.Pairwise.cons ?_ (by simp)
    intro b hb
    rw [List.mem_singleton] at hb
    subst hb
    refine ⟨fun h => ?_, fun r' hr' => ?_⟩
    · have := h.length_le
      simp only [List.length_append] at this
      exact hr (List.eq_nil_of_length_eq_zero (by omega))
    · rw [← List.append_cancel_left hr']; exact h1
  · refine Decidable.byContradiction fun hcon => ?_
    have := (C67_builds_iff base _).mp hcon
    rw [List.pairwise_cons] at this
    exact (this.1 (p, s1) (by simp)).1 (List.prefix_append p r)

/-- `/a` and `/a/b` -/
example : build "Base" none [([CompPat.comp ⟨8, [97]⟩], .node "Rdr" []), ([.comp ⟨8, [97]⟩, .comp ⟨8, [98]⟩], .node "Leaf" [])] ≠ none ∧
    build "Base" none [([CompPat.comp ⟨8, [97]⟩, .comp ⟨8, [98]⟩], .node "Leaf" []), ([.comp ⟨8, [97]⟩], .node "Rdr" [])] = none :=
  C67_parent_violated "Base" [.comp ⟨8, [97]⟩] [.comp ⟨8, [98]⟩] (by simp) _ _ rfl

/-! Matching -/

/-- no component is matched by two edges below one node -/
def NoOverlap (t : Option (DTree δ)) : Prop := ∀ q e1 e2 x, lookO t (q ++ [e1]) ≠ none → lookO t (q ++ [e2]) ≠ none →
  CompPat.isMatch e1 x = true → CompPat.isMatch e2 x = true → e1 = e2

theorem toS_chd (t : DTree δ) : t.toS.chd = t.chd.map fun p => (p.1, p.2.toS) := by
  obtain ⟨d, c⟩ := t
  rw [toS, STree.chd]
  show c.attach.map (fun p => (p.1.1, toS p.1.2)) = c.map fun p => (p.1, p.2.toS)
  exact List.attach_map_val (l := c) (f := fun p => (p.1, p.2.toS))

theorem pick_toS {t : DTree δ} {c : Component} {i : Nat} {e : CompPat} {s : STree} (h : pick c t.toS.chd = some (i, e, s)) :
    ∃ ch, t.chd[i]? = some (e, ch) ∧ s = ch.toS ∧ e.isMatch c = true := by
  obtain ⟨h1, h2, _⟩ := pick_some h
  rw [toS_chd, List.getElem?_map] at h1
  cases hc : t.chd[i]? with
  | none => rw [hc] at h1; exact (nomatch h1)
  | some p =>
    rw [hc] at h1
    injection h1 with h1; injection h1 with e1 e2
    subst e1 e2
    exact ⟨p.2, rfl, rfl, h2⟩

theorem pick_toS_none {c : Component} {chd : List (CompPat × STree)} (h : pick c chd = none) : ∀ p ∈ chd, p.1.isMatch c = false := by
  induction chd with
  | nil => intro p hp; exact (nomatch hp)
  | cons x rest ih =>
    obtain ⟨e, t⟩ := x
    rw [pick] at h
    by_cases hm : e.isMatch c = true
    · rw [if_pos hm] at h; exact (nomatch h)
    · rw [if_neg hm, Option.map_eq_none_iff] at h
      intro p hp
      rcases List.mem_cons.mp hp with rfl | hp
      · simpa using hm
      · exact ih h p hp

/-- the children of two trees with the same nodes -/
theorem same_child {t t' : DTree δ} (hd : Distinct t) (hl : ∀ q, t.look q = t'.look q) {i : Nat} {e : CompPat} {c : DTree δ}
    (h : t.chd[i]? = some (e, c)) : ∃ j : Nat, ∃ c' : DTree δ, t'.chd[j]? = some (e, c') ∧ ∀ q, c.look q = c'.look q := by
  have hf := find_of_get (distinct_node.mp hd).1 h
  have h1 : t.look [e] = some c.desc := by rw [look_cons, hf, Option.bind_some, look_nil]
  cases hf' : find e t'.chd with
  | none => rw [hl, look_cons, hf'] at h1; exact (nomatch h1)
  | some p =>
    refine ⟨p.1, p.2, (find_some (c := p.2) (i := p.1) hf').1, fun q => ?_⟩
    have := hl (e :: q)
    rw [look_cons, look_cons, hf, hf'] at this
    exact this

theorem match_same (k : Nat) : ∀ (name : Name), name.length ≤ k → ∀ (t t' : DTree δ) (m : Matching), Distinct t → Distinct t' →
    (∀ q, t.look q = t'.look q) → NoOverlap (some t) → ∀ a m1, continueMatch t.toS name m = some (a, m1) →
    ∃ a' es n n', continueMatch t'.toS name m = some (a', m1) ∧ t.get a = some (es, n) ∧ t'.get a' = some (es, n') ∧ n.desc = n'.desc := by
  induction k with
  | zero =>
    intro name hk t t' m hd hd' hl hno a m1 h
    have : name = [] := List.eq_nil_of_length_eq_zero (by omega)
    subst this
    rw [continueMatch_eq] at h ⊢
    have hs : (strip [] m).1 = [] := rfl
    rw [hs] at h ⊢
    injection h with h; injection h with h1 h2
    subst h1
    refine ⟨[], [], t, t', by rw [h2], rfl, rfl, ?_⟩
    have := hl []
    rw [look_nil, look_nil] at this
    injection this
  | succ k ih =>
    intro name hk t t' m hd hd' hl hno a m1 h
    rw [continueMatch_eq] at h ⊢
    cases hs : (strip name m).1 with
    | nil =>
      rw [hs] at h
      injection h with h; injection h with h1 h2
      subst h1
      refine ⟨[], [], t, t', by rw [h2], rfl, rfl, ?_⟩
      have := hl []
      rw [look_nil, look_nil] at this
      injection this
    | cons c cs =>
      rw [hs] at h
      simp only at h ⊢
      have hlen : cs.length ≤ k := by
        have := strip_length name m
        rw [hs, List.length_cons] at this
        omega
      cases hp : pick c t.toS.chd with
      | none => rw [hp] at h; exact (nomatch h)
      | some p =>
        obtain ⟨i, e, s⟩ := p
        rw [hp] at h
        simp only at h
        obtain ⟨ch, g1, rfl, g3⟩ := pick_toS hp
        obtain ⟨j, ch', f1, f2⟩ := same_child hd hl g1
        have hmem : (e, ch'.toS) ∈ t'.toS.chd := by
          rw [toS_chd]; exact List.mem_map.mpr ⟨(e, ch'), List.mem_of_getElem? f1, rfl⟩
        cases hp' : pick c t'.toS.chd with
        | none =>
          have := pick_toS_none hp' _ hmem
          rw [g3] at this; exact (nomatch this)
        | some p' =>
          obtain ⟨i', e', s'⟩ := p'
          obtain ⟨ch2, k1, rfl, k3⟩ := pick_toS hp'
          have hf' := find_of_get (distinct_node.mp hd').1 k1
          have hfj := find_of_get (distinct_node.mp hd').1 f1
          have hee : e = e' := by
            refine hno [] e e' c ?_ ?_ g3 k3
            · show t.look [e] ≠ none
              rw [hl, look_cons, hfj]; simp [look_nil]
            · show t.look [e'] ≠ none
              rw [hl, look_cons, hf']; simp [look_nil]
          subst hee
          rw [hfj] at hf'
          injection hf' with hf'; injection hf' with q1 q2
          subst q1 q2
          cases hc : continueMatch ch.toS cs (e.match' c (strip name m).2) with
          | none => rw [hc] at h; exact (nomatch h)
          | some w =>
            obtain ⟨aw, mw⟩ := w
            rw [hc] at h
            injection h with h; injection h with q1 q2
            subst q1 q2
            have hfi := find_of_get (distinct_node.mp hd).1 g1
            obtain ⟨a', es, n, n', r1, r2, r3, r4⟩ := ih cs hlen ch ch' _ ((distinct_node.mp hd).2 e ch (List.mem_of_getElem? g1))
              ((distinct_node.mp hd').2 e ch' (List.mem_of_getElem? f1)) f2
              (by
                intro q e1 e2 x h1 h2 m1 m2
                refine hno (e :: q) e1 e2 x ?_ ?_ m1 m2
                · show t.look (e :: (q ++ [e1])) ≠ none
                  rw [look_cons, hfi]; exact h1
                · show t.look (e :: (q ++ [e2])) ≠ none
                  rw [look_cons, hfi]; exact h2) aw _ hc
            refine ⟨j :: a', e :: es, n, n', ?_, ?_, ?_, r4⟩
            · simp only [r1]; rfl
            · rw [get_cons, g1]; simp [r2]
            · rw [get_cons, f1]; simp [r3]

theorem distinct_build {base : δ} (l : List (NamePattern × DTree δ)) : ∀ (t t' : Option (DTree δ)), build base t l = some t' →
    (∀ x ∈ l, Distinct x.2) → (∀ u, t = some u → Distinct u) → ∀ u, t' = some u → Distinct u := by
  induction l with
  | nil => intro t t' h _ ht; rw [build] at h; injection h with h; subst h; exact ht
  | cons x l ih =>
    intro t t' h hx ht
    obtain ⟨p, sub⟩ := x
    rw [build] at h
    cases hp : putTree base t p sub with
    | none => rw [hp] at h; exact (nomatch h)
    | some w =>
      obtain ⟨t1, a⟩ := w
      rw [hp] at h
      refine ih (some t1) t' h (fun x hx' => hx x (by simp [hx'])) ?_
      rintro u hu
      injection hu with hu
      subst hu
      have hsub := hx (p, sub) (by simp)
      unfold putTree at hp
      cases p with
      | nil =>
        cases t with
        | none => injection hp with hp; injection hp with hp _; subst hp; exact hsub
        | some t => exact (nomatch hp)
      | cons e es =>
        have hp : put base (t.getD (.node base [])) (e :: es) sub = some (t1, a) := hp
        refine distinct_put hp ?_ hsub
        cases t with
        | some t => exact ht t rfl
        | none => exact distinct_node.mpr ⟨by simp [chd], fun _ _ h => (nomatch h)⟩

/-- C67, matching: if no component is matched by two edges below one node, then trees made from one description in two orders match the same
names, to nodes with the same path and description, and with the same variables.  Missing: trees with overlapping edges, for which it is
false, see `C67_match_violated`. -/
theorem C67_match_partial (base : δ) (l l' : List (NamePattern × DTree δ)) (hperm : l.Perm l') (t t' : DTree δ)
    (h : build base none l = some (some t)) (h' : build base none l' = some (some t')) (hsub : ∀ x ∈ l, Distinct x.2)
    (hno : NoOverlap (some t)) (pre name : Name) :
    (∀ a m, matchName pre t.toS name = some (a, m) → ∃ a' es n n', matchName pre t'.toS name = some (a', m) ∧ t.get a = some (es, n) ∧
      t'.get a' = some (es, n') ∧ n.desc = n'.desc) ∧
    (matchName pre t.toS name = none → matchName pre t'.toS name = none) := by
  have hd := distinct_build l none _ h hsub (fun _ hu => (nomatch hu)) t rfl
  have hd' := distinct_build l' none _ h' (fun x hx => hsub x (hperm.mem_iff.mpr hx)) (fun _ hu => (nomatch hu)) t' rfl
  have hl : ∀ q, t.look q = t'.look q := C67_order_partial base l l' hperm _ _ h h'
  have one : ∀ (t t' : DTree δ), Distinct t → Distinct t' → (∀ q, t.look q = t'.look q) → NoOverlap (some t) → ∀ a m,
      matchName pre t.toS name = some (a, m) → ∃ a' es n n', matchName pre t'.toS name = some (a', m) ∧ t.get a = some (es, n) ∧
      t'.get a' = some (es, n') ∧ n.desc = n'.desc := by
    intro t t' hd hd' hl hno a m hm
    unfold matchName at hm ⊢
    by_cases hp : pre.length > 0
    · rw [if_pos hp] at hm ⊢
      by_cases hpre : pre.isPrefix name = true
      · rw [if_pos hpre] at hm ⊢
        exact match_same _ _ (Nat.le_refl _) t t' [] hd hd' hl hno a m hm
      · rw [if_neg hpre] at hm; exact (nomatch hm)
    · rw [if_neg hp] at hm ⊢
      exact match_same _ _ (Nat.le_refl _) t t' [] hd hd' hl hno a m hm
  refine ⟨one t t' hd hd' hl hno, fun hn => ?_⟩
  cases hm : matchName pre t'.toS name with
  | none => rfl
  | some p =>
    have hno' : NoOverlap (some t') := by
      intro q e1 e2 x h1 h2
      refine hno q e1 e2 x ?_ ?_
      · show t.look _ ≠ none; rw [hl]; exact h1
      · show t.look _ ≠ none; rw [hl]; exact h2
    obtain ⟨a', _, _, _, g, _⟩ := one t' t hd' hd (fun q => (hl q).symm) hno' p.1 p.2 hm
    rw [hn] at g; exact (nomatch g)

/-- C67 fails for matching: with the nodes `/a` and `/<x>` the name `/a` belongs to the one or to the other, depending on the order in which
`range` gives them. -/
theorem C67_match_violated (base d1 d2 : δ) : ∃ t t' : DTree δ,
    build base none [([.comp ⟨8, [97]⟩], .node d1 []), ([.pat 8 [120]], .node d2 [])] = some (some t) ∧
    build base none [([.pat 8 [120]], .node d2 []), ([.comp ⟨8, [97]⟩], .node d1 [])] = some (some t') ∧
    (∃ a m, matchName [] t.toS [⟨8, [97]⟩] = some (a, m) ∧ t.get a = some ([.comp ⟨8, [97]⟩], .node d1 [])) ∧
    (∃ a m, matchName [] t'.toS [⟨8, [97]⟩] = some (a, m) ∧ t'.get a = some ([.pat 8 [120]], .node d2 [])) := by
  refine ⟨_, _, rfl, rfl, ⟨[0], [], ?_, rfl⟩, ⟨[0], [([120], [97])], ?_, rfl⟩⟩
  all_goals
    unfold matchName
    rw [if_neg (by simp), continueMatch_eq, strip_id _ (by decide) (by decide)]
    simp only [toS_chd]
    show (continueMatch _ _ _).map _ = _
    rw [continueMatch_eq]
    rfl

/-- `/a` and `/b/<x>`: nothing overlaps -/
example : ∃ t t', build "Base" none [([CompPat.comp ⟨8, [97]⟩], .node "Leaf" []), ([.comp ⟨8, [98]⟩, .pat 8 [120]], .node "Rdr" [])] = some (some t) ∧
    build "Base" none [([CompPat.comp ⟨8, [98]⟩, .pat 8 [120]], .node "Rdr" []), ([.comp ⟨8, [97]⟩], .node "Leaf" [])] = some (some t') ∧
    Distinct t ∧ ∃ a m, matchName [] t.toS [⟨8, [98]⟩, ⟨8, [1]⟩] = some (a, m) := by
  refine ⟨_, _, rfl, rfl, ?_, [1, 0], [([120], [1])], ?_⟩
  · refine distinct_build _ none _ (rfl : build "Base" none [([CompPat.comp ⟨8, [97]⟩], .node "Leaf" []), ([.comp ⟨8, [98]⟩, .pat 8 [120]], .node "Rdr" [])] = _)
      ?_ (fun _ hu => (nomatch hu)) _ rfl
    intro x hx
    simp only [List.mem_cons, List.not_mem_nil, or_false] at hx
    rcases hx with rfl | rfl <;> exact distinct_node.mpr ⟨by simp [chd], fun _ _ h => (nomatch h)⟩
  · unfold matchName
    rw [if_neg (by simp), continueMatch_eq, strip_id _ (by decide) (by decide)]
    simp only [toS_chd]
    show (continueMatch _ _ _).map _ = _
    rw [continueMatch_eq, strip_id _ (by decide) (by decide)]
    simp only [toS_chd]
    show ((continueMatch _ _ _).map _).map _ = _
    rw [continueMatch_eq]
    rfl

end DTree
end Ndn.Schema
