import Verif.Codec.Source

/-! # Facts about the front end of the code generator -/

namespace Ndn.Codec.Gen

deriving instance DecidableEq for Elem, Fields

/-! ## Texts -/

theorem cut_none {sep : Char} : ∀ {a : Txt}, sep ∉ a → cut sep a = (a, none)
  | [], _ => rfl
  | c :: a, h => by
    have h1 : c ≠ sep := fun e => h (by simp [e])
    have h2 : sep ∉ a := fun e => h (List.mem_cons_of_mem _ e)
    simp [cut, h1, cut_none h2]

theorem cut_some {sep : Char} : ∀ {a : Txt} (r : Txt), sep ∉ a → cut sep (a ++ sep :: r) = (a, some r)
  | [], _, _ => by simp [cut]
  | c :: a, r, h => by
    have h1 : c ≠ sep := fun e => h (by simp [e])
    have h2 : sep ∉ a := fun e => h (List.mem_cons_of_mem _ e)
    simp [cut, h1, cut_some r h2]

theorem cut_len {sep : Char} : ∀ {s a r : Txt}, cut sep s = (a, some r) → a.length + r.length < s.length
  | [], _, _, h => by simp [cut] at h
  | c :: s, a, r, h => by
    by_cases hc : c = sep
    · simp [cut, hc] at h
      obtain ⟨rfl, rfl⟩ := h
      simp
    · simp only [cut, if_neg hc, Prod.mk.injEq] at h
      obtain ⟨rfl, h2⟩ := h
      have := cut_len (s := s) (a := (cut sep s).1) (r := r) (Prod.ext rfl h2)
      simp only [List.length_cons]
      omega

theorem splitN_one (sep : Char) {n : Nat} {a : Txt} (h : sep ∉ a) : splitN sep (n + 1) a = [a] := by
  cases n with
  | zero => rfl
  | succ n => simp [splitN, cut_none h]

theorem splitN_cons (sep : Char) {n : Nat} {a : Txt} (r : Txt) (h : sep ∉ a) : splitN sep (n + 2) (a ++ sep :: r) = a :: splitN sep (n + 1) r := by
  simp [splitN, cut_some r h]

/-- the parts, with the separator between them -/
def join (sep : Char) : List Txt → Txt
  | [] => []
  | [a] => a
  | a :: b :: l => a ++ sep :: join sep (b :: l)

theorem join_length (sep : Char) : ∀ l : List Txt, l.length ≤ (join sep l).length + 1
  | [] => by simp
  | [a] => by simp [join]
  | a :: b :: l => by
    have := join_length sep (b :: l)
    simp only [join, List.length_append, List.length_cons] at this ⊢
    omega

theorem splitN_join (sep : Char) : ∀ (l : List Txt) (n : Nat), l ≠ [] → (∀ a ∈ l, sep ∉ a) → l.length ≤ n → splitN sep n (join sep l) = l
  | [], _, h, _, _ => absurd rfl h
  | [a], n, _, h, hn => by
    cases n with
    | zero => simp at hn
    | succ n => simpa [join] using splitN_one sep (h a (by simp))
  | a :: b :: l, n, _, h, hn => by
    cases n with
    | zero => simp at hn
    | succ n =>
      cases n with
      | zero => simp at hn
      | succ n =>
        simp only [join]
        rw [splitN_cons sep _ (h a (by simp)), splitN_join sep (b :: l) (n + 1) (by simp) (fun x hx => h x (List.mem_cons_of_mem _ hx))
          (by simpa using hn)]

theorem split_join (sep : Char) {l : List Txt} (h0 : l ≠ []) (h : ∀ a ∈ l, sep ∉ a) : split sep (join sep l) = l :=
  splitN_join sep l _ h0 h (by have := join_length sep l; omega)

/-! ## The order of the table -/

theorem table_prefix : ∀ p ∈ classTable, ∀ q ∈ classTable, p.1 <+: q.1 → p = q := by decide +kernel

theorem table_unique {p q : Txt × Kind} (hp : p ∈ classTable) (hq : q ∈ classTable) {cls : Txt} (h1 : p.1.isPrefixOf cls = true)
    (h2 : q.1.isPrefixOf cls = true) : p = q := by
  have h1' := List.isPrefixOf_iff_prefix.1 h1
  have h2' := List.isPrefixOf_iff_prefix.1 h2
  rcases List.prefix_or_prefix_of_prefix h1' h2' with h | h
  · exact table_prefix p hp q hq h
  · exact (table_prefix q hq p hp h).symm

theorem find_perm {l : List (Txt × Kind)} (h : l.Perm classTable) (cls : Txt) :
    l.find? (fun p => p.1.isPrefixOf cls) = classTable.find? fun p => p.1.isPrefixOf cls := by
  cases h1 : l.find? (fun p => p.1.isPrefixOf cls) with
  | none =>
    symm
    rw [List.find?_eq_none] at h1 ⊢
    exact fun x hx => h1 x (h.mem_iff.2 hx)
  | some x =>
    have hx := List.mem_of_find?_eq_some h1
    have hp := List.find?_some h1
    cases h2 : classTable.find? (fun p => p.1.isPrefixOf cls) with
    | none =>
      rw [List.find?_eq_none] at h2
      exact absurd hp (h2 x (h.mem_iff.1 hx))
    | some y =>
      have hq : (fun p : Txt × Kind => p.1.isPrefixOf cls) y = true := List.find?_some (p := fun p : Txt × Kind => p.1.isPrefixOf cls) h2
      rw [table_unique (h.mem_iff.1 hx) (List.mem_of_find?_eq_some h2) hp hq]

/-- the table in the order in which it is written -/
def asWritten : Nat → List (Txt × Kind) := fun _ => classTable

/-- whatever the order, the outcome is the same -/
theorem create_order {ord : Nat → List (Txt × Kind)} (h : ∀ i, (ord i).Perm classTable) (nc : Bool) :
    ∀ (fuel i : Nat) (cls ann : Txt), createField ord nc fuel i cls ann = createField asWritten nc fuel 0 cls ann := by
  have key : ∀ (fuel i j : Nat) (cls ann : Txt), createField ord nc fuel i cls ann = createField asWritten nc fuel j cls ann := by
    intro fuel
    induction fuel with
    | zero => intros; rfl
    | succ f ih =>
      intro i j cls ann
      have hf : (ord i).find? (fun p => p.1.isPrefixOf cls) = (asWritten j).find? fun p => p.1.isPrefixOf cls := find_perm (h i) cls
      simp only [createField, hf, ih (2 * i + 1) (2 * j + 1), ih (2 * i + 2) (2 * j + 2)]
  exact fun fuel i cls ann => key fuel i 0 cls ann

theorem parseField_order {ord : Nat → List (Txt × Kind)} (h : ∀ i, (ord i).Perm classTable) (nc : Bool) :
    parseField ord nc = parseField asWritten nc := by
  funext name num str
  simp only [parseField, create_order h nc _ 0]

theorem fieldOf_order {ord : Nat → List (Txt × Kind)} (h : ∀ i, (ord i).Perm classTable) (nc : Bool) : fieldOf ord nc = fieldOf asWritten nc := by
  funext f
  simp only [fieldOf, parseField_order h]

theorem processDecl_order {ord : Nat → List (Txt × Kind)} (h : ∀ i, (ord i).Perm classTable) : processDecl ord = processDecl asWritten := by
  funext d
  simp only [processDecl, fieldOf_order h]

theorem processAll_order {ord : Nat → List (Txt × Kind)} (h : ∀ i, (ord i).Perm classTable) : processAll ord = processAll asWritten := by
  funext l
  induction l with
  | nil => rfl
  | cons d ds ih => simp only [processAll, ih, processDecl_order h]

/-! ## Enough fuel -/

theorem splitN_len (sep : Char) : ∀ (n : Nat) (s : Txt) (a : Txt) (l : List Txt), splitN sep n s = a :: l → ∀ x ∈ l, x.length < s.length
  | 0, _, _, _, h => by simp [splitN] at h
  | 1, _, _, _, h => by
    simp [splitN] at h
    intro x hx
    rw [h.2] at hx
    exact absurd hx (by simp)
  | n + 2, s, a, l, h => by
    simp only [splitN] at h
    split at h
    · simp at h
      intro x hx
      rw [h.2] at hx
      exact absurd hx (by simp)
    · rename_i a' r hc
      have hl := cut_len hc
      simp only [List.cons.injEq] at h
      obtain ⟨rfl, h2⟩ := h
      intro x hx
      cases hr : splitN sep (n + 1) r with
      | nil => rw [← h2, hr] at hx; exact absurd hx (by simp)
      | cons b l' =>
        rw [← h2, hr] at hx
        rcases List.mem_cons.1 hx with rfl | hx
        · have : x.length ≤ r.length := by
            cases n with
            | zero => simp [splitN] at hr; rw [hr.1]; omega
            | succ n =>
              simp only [splitN] at hr
              split at hr
              · rename_i a2 hc2
                simp at hr
                rw [← hr.1]
                by_cases hm : sep ∈ r
                · have : ∀ (r : Txt), sep ∈ r → (cut sep r).2 ≠ none := by
                    intro r
                    induction r with
                    | nil => simp
                    | cons c r ih =>
                      intro hm
                      by_cases hc : c = sep
                      · simp [cut, hc]
                      · have : sep ∈ r := by
                          rcases List.mem_cons.1 hm with h | h
                          · exact absurd h.symm hc
                          · exact h
                        simpa [cut, hc] using ih this
                  exact absurd (by rw [hc2]) (this r hm)
                · rw [cut_none hm] at hc2
                  simp at hc2
                  rw [hc2]; omega
              · rename_i a2 r2 hc2
                have := cut_len hc2
                simp at hr
                rw [← hr.1]
                omega
          omega
        · have := splitN_len sep (n + 1) r b l' hr x hx
          omega

/-- more fuel than the annotation is long does not change anything: `none` is always an error of the annotation -/
theorem create_fuel (ord : Nat → List (Txt × Kind)) (nc : Bool) : ∀ (fuel fuel' i : Nat) (cls ann : Txt), ann.length < fuel → ann.length < fuel' →
    createField ord nc fuel i cls ann = createField ord nc fuel' i cls ann := by
  intro fuel
  induction fuel with
  | zero => intro _ _ _ _ h; omega
  | succ f ih =>
    intro fuel' i cls ann h1 h2
    cases fuel' with
    | zero => omega
    | succ f' =>
      simp only [createField]
      split
      · rfl
      · rename_i k _
        cases k <;> try rfl
        · -- sequence
          simp only
          cases hs : splitN ':' 3 ann with
          | nil => rfl
          | cons t l =>
            have hl := splitN_len ':' 3 ann t l hs
            match l, hl with
            | [], _ => rfl
            | [c], hl =>
              have := hl c (by simp)
              simp only
              rw [ih f' _ _ _ (by simp; omega) (by simp; omega)]
            | [c, a], hl =>
              have := hl a (by simp)
              simp only
              rw [ih f' _ _ _ (by omega) (by omega)]
            | _ :: _ :: _ :: _, _ => rfl
        · -- map
          simp only
          cases hs : splitN ':' 6 ann with
          | nil => rfl
          | cons t l =>
            have hl := splitN_len ':' 6 ann t l hs
            match l, hl with
            | [], _ => rfl
            | [_], _ => rfl
            | [_, _], _ => rfl
            | [_, _, _], _ => rfl
            | kc :: vn :: vt :: vc :: rest, hl =>
              have hr : (rest.headD []).length < f ∧ (rest.headD []).length < f' := by
                cases rest with
                | nil => have := hl kc (by simp); simp; omega
                | cons a r => have := hl a (by simp); simp; omega
              simp only
              rw [ih f' _ _ _ hr.1 hr.2, ih f' _ _ _ hr.1 hr.2]

end Ndn.Codec.Gen
