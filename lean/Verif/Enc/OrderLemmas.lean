import Verif.Enc.NameLemmas
import Verif.Enc.PrimProps

set_option linter.unusedSimpArgs false

/-! Comparison functions: what a total order is, and that `Compare` on lists inherits it. -/

namespace Ndn

/-- A three-way comparison that is a total order whose equality is `=`. -/
structure IsCompare {α : Type} (cmp : α → α → Int) : Prop where
  range : ∀ a b, cmp a b = -1 ∨ cmp a b = 0 ∨ cmp a b = 1
  zero : ∀ a b, cmp a b = 0 ↔ a = b
  neg : ∀ a b, cmp b a = - cmp a b
  trans : ∀ a b c, cmp a b < 0 → cmp b c < 0 → cmp a c < 0

theorem IsCompare.refl {α : Type} {cmp : α → α → Int} (h : IsCompare cmp) (a : α) : cmp a a = 0 := (h.zero a a).mpr rfl

theorem IsCompare.listCompare {α : Type} {cmp : α → α → Int} (h : IsCompare cmp) : IsCompare (listCompare cmp) where
  range := by
    intro a
    induction a with
    | nil => intro b; cases b <;> simp [Ndn.listCompare]
    | cons x a ih =>
      intro b
      cases b with
      | nil => simp [Ndn.listCompare]
      | cons y b =>
        simp only [Ndn.listCompare]
        split
        · exact h.range x y
        · exact ih b
  zero := by
    intro a
    induction a with
    | nil => intro b; cases b <;> simp [Ndn.listCompare]
    | cons x a ih =>
      intro b
      cases b with
      | nil => simp [Ndn.listCompare]
      | cons y b =>
        simp only [Ndn.listCompare]
        split
        · rename_i hne
          constructor
          · intro e; exact absurd e hne
          · intro e; simp only [List.cons.injEq] at e; exact absurd ((h.zero x y).mpr e.1) hne
        · rename_i he
          have he : cmp x y = 0 := Classical.not_not.mp he
          rw [ih, List.cons.injEq]
          exact ⟨fun e => ⟨(h.zero x y).mp he, e⟩, fun e => e.2⟩
  neg := by
    intro a
    induction a with
    | nil => intro b; cases b <;> simp [Ndn.listCompare]
    | cons x a ih =>
      intro b
      cases b with
      | nil => simp [Ndn.listCompare]
      | cons y b =>
        simp only [Ndn.listCompare]
        rw [h.neg x y]
        by_cases he : cmp x y = 0
        · simp [he, ih]
        · rw [if_pos he, if_pos (by omega)]
  trans := by
    intro a
    induction a with
    | nil =>
      intro b c h1 h2
      cases b with
      | nil => simp [Ndn.listCompare] at h1
      | cons y b =>
        cases c with
        | nil => simp [Ndn.listCompare] at h2
        | cons z c => simp [Ndn.listCompare]
    | cons x a ih =>
      intro b c h1 h2
      cases b with
      | nil => simp [Ndn.listCompare] at h1
      | cons y b =>
        cases c with
        | nil => simp [Ndn.listCompare] at h2
        | cons z c =>
          simp only [Ndn.listCompare] at h1 h2 ⊢
          by_cases e1 : cmp x y = 0
          · obtain rfl := (h.zero x y).mp e1
            rw [if_neg (by simpa using e1)] at h1
            by_cases e2 : cmp x z = 0
            · rw [if_neg (by simpa using e2)] at h2 ⊢
              exact ih b c h1 h2
            · rw [if_pos e2] at h2 ⊢; exact h2
          · rw [if_pos e1] at h1
            by_cases e2 : cmp y z = 0
            · obtain rfl := (h.zero y z).mp e2
              rw [if_pos e1]; exact h1
            · rw [if_pos e2] at h2
              have := h.trans x y z h1 h2
              rw [if_pos (by omega)]; exact this

/-- comparison of two bytes, as in `bytes.Compare` -/
def cmpU8 (a b : UInt8) : Int := if a < b then -1 else if b < a then 1 else 0

theorem cmpU8_isCompare : IsCompare cmpU8 where
  range := by
    intro a b; unfold cmpU8; repeat' split
    all_goals simp
  zero := by
    intro a b; unfold cmpU8
    rw [← UInt8.toNat_inj]
    simp only [UInt8.lt_iff_toNat_lt]
    repeat' split
    all_goals constructor <;> intro h <;> omega
  neg := by
    intro a b; unfold cmpU8
    simp only [UInt8.lt_iff_toNat_lt]
    repeat' split
    all_goals omega
  trans := by
    intro a b c; unfold cmpU8
    simp only [UInt8.lt_iff_toNat_lt]
    repeat' split
    all_goals omega

theorem bytesCompare_eq : bytesCompare = listCompare cmpU8 := by
  funext a
  induction a with
  | nil => funext b; cases b <;> rfl
  | cons x a ih =>
    funext b
    cases b with
    | nil => rfl
    | cons y b =>
      simp only [bytesCompare, listCompare, cmpU8, ih]
      by_cases h1 : x < y
      · simp [h1]
      · by_cases h2 : y < x
        · simp [h1, h2]
        · simp [h1, h2]

theorem bytesCompare_isCompare : IsCompare bytesCompare := by
  rw [bytesCompare_eq]; exact cmpU8_isCompare.listCompare

theorem bytesCompare_lt_iff (a b : Bytes) : bytesCompare a b < 0 ↔ a < b := by
  induction a generalizing b with
  | nil => cases b <;> simp [bytesCompare]
  | cons x a ih =>
    cases b with
    | nil => simp [bytesCompare]
    | cons y b =>
      simp only [bytesCompare, List.cons_lt_cons_iff]
      by_cases h1 : x < y
      · simp [h1]
      · by_cases h2 : y < x
        · have : x ≠ y := by rintro rfl; exact h1 h2
          simp [h1, h2, this]
        · have : x = y := by
            simp only [UInt8.lt_iff_toNat_lt] at h1 h2
            rw [← UInt8.toNat_inj]; omega
          simp [this, ih]

theorem Component.compare_isCompare : IsCompare Component.compare where
  range := by
    intro a b; unfold Component.compare
    have := bytesCompare_isCompare.range a.val b.val
    repeat' split
    all_goals first | exact this | simp
  zero := by
    intro a b; unfold Component.compare
    have := bytesCompare_isCompare.zero a.val b.val
    obtain ⟨at', av⟩ := a; obtain ⟨bt, bv⟩ := b
    simp only [Component.mk.injEq] at this ⊢
    by_cases h1 : at' = bt
    · by_cases h2 : av.length = bv.length
      · simp [h1, h2, this]
      · have : av ≠ bv := by rintro rfl; exact h2 rfl
        rw [if_neg (by simpa using h1), if_pos h2]
        split <;> simp [this]
    · rw [if_pos h1]
      split <;> simp [h1]
  neg := by
    intro a b; unfold Component.compare
    have := bytesCompare_isCompare.neg a.val b.val
    repeat' split
    all_goals omega
  trans := by
    intro a b c; unfold Component.compare
    have := bytesCompare_isCompare.trans a.val b.val c.val
    repeat' split
    all_goals omega

theorem CompPat.compare_isCompare : IsCompare CompPat.compare where
  range := by
    intro a b
    cases a with
    | comp c => cases b with
      | comp d => exact Component.compare_isCompare.range c d
      | pat t g => simp [CompPat.compare]
    | pat t g => cases b with
      | comp d => simp [CompPat.compare]
      | pat t' g' =>
        simp only [CompPat.compare]
        have := bytesCompare_isCompare.range g g'
        repeat' split
        all_goals first | exact this | simp
  zero := by
    intro a b
    cases a with
    | comp c => cases b with
      | comp d => simpa [CompPat.compare] using Component.compare_isCompare.zero c d
      | pat t g => simp [CompPat.compare]
    | pat t g => cases b with
      | comp d => simp [CompPat.compare]
      | pat t' g' =>
        simp only [CompPat.compare, CompPat.pat.injEq]
        have := bytesCompare_isCompare.zero g g'
        by_cases h1 : t = t'
        · simp [h1, this]
        · rw [if_pos h1]
          split <;> simp [h1]
  neg := by
    intro a b
    cases a with
    | comp c => cases b with
      | comp d => exact Component.compare_isCompare.neg c d
      | pat t g => simp [CompPat.compare]
    | pat t g => cases b with
      | comp d => simp [CompPat.compare]
      | pat t' g' =>
        simp only [CompPat.compare]
        have := bytesCompare_isCompare.neg g g'
        repeat' split
        all_goals omega
  trans := by
    intro a b c
    cases a with
    | comp ca => cases b with
      | comp cb => cases c with
        | comp cc => exact Component.compare_isCompare.trans ca cb cc
        | pat t g => simp [CompPat.compare]
      | pat t g => cases c <;> simp [CompPat.compare]
    | pat ta ga => cases b with
      | comp cb => simp [CompPat.compare]
      | pat tb gb => cases c with
        | comp cc => simp [CompPat.compare]
        | pat tc gc =>
          simp only [CompPat.compare]
          have := bytesCompare_isCompare.trans ga gb gc
          repeat' split
          all_goals omega

theorem Component.equal_iff (a b : Component) : a.equal b = true ↔ a = b := by
  obtain ⟨at', av⟩ := a; obtain ⟨bt, bv⟩ := b
  simp only [Component.equal, Component.mk.injEq]
  by_cases h1 : at' = bt
  · by_cases h2 : av.length = bv.length
    · simp [h1, h2]
    · have : av ≠ bv := by rintro rfl; exact h2 rfl
      simp [h1, h2, this]
  · simp [h1]

theorem CompPat.equal_iff (a b : CompPat) : a.equal b = true ↔ a = b := by
  cases a <;> cases b <;> simp [CompPat.equal, Component.equal_iff]

theorem allEqual_iff {α : Type} {eq : α → α → Bool} (h : ∀ a b, eq a b = true ↔ a = b) (a b : List α) :
    allEqual eq a b = true ↔ a <+: b := by
  induction a generalizing b with
  | nil => simp [allEqual]
  | cons x a ih =>
    cases b with
    | nil => simp [allEqual]
    | cons y b => simp [allEqual, h, ih, List.cons_prefix_cons]

/-! ### The canonical encoding -/

/-- The correct TLV of a component. -/
def Component.tlv (c : Component) : Bytes := tlEnc c.typ ++ tlEnc c.val.length ++ c.val

theorem lt_append_left (p : Bytes) {s t : Bytes} (h : s < t) : p ++ s < p ++ t := by
  induction p with
  | nil => exact h
  | cons b p ih => simp [List.cons_lt_cons_iff, ih]

theorem lt_append_of_not_prefix {x y : Bytes} (h : x < y) (hp : ¬ x <+: y) (s t : Bytes) : x ++ s < y ++ t := by
  induction x generalizing y with
  | nil => exact absurd List.nil_prefix hp
  | cons a x ih =>
    cases y with
    | nil => simp at h
    | cons b y =>
      rw [List.cons_lt_cons_iff] at h
      rw [List.cons_append, List.cons_append, List.cons_lt_cons_iff]
      rcases h with h | ⟨rfl, h⟩
      · exact .inl h
      · refine .inr ⟨rfl, ih h ?_⟩
        intro hpp; exact hp (by rw [List.cons_prefix_cons]; exact ⟨rfl, hpp⟩)

theorem tlEnc_lt_append {a b : Nat} (ha : a < 2 ^ 64) (hb : b < 2 ^ 64) (h : a < b) (s t : Bytes) :
    tlEnc a ++ s < tlEnc b ++ t := by
  refine lt_append_of_not_prefix ((C02_tlnum_order a b ha hb).mp h) ?_ s t
  intro hp
  have := C02_tlnum_prefix_free a b ha hb hp
  omega

theorem Component.tlv_lt {c d : Component} (hc : c.typ < 2 ^ 64) (hd : d.typ < 2 ^ 64)
    (hcl : c.val.length < 2 ^ 64) (hdl : d.val.length < 2 ^ 64) (h : c.compare d < 0) (s t : Bytes) :
    c.tlv ++ s < d.tlv ++ t := by
  unfold Component.compare at h
  unfold Component.tlv
  simp only [List.append_assoc]
  by_cases h1 : c.typ = d.typ
  · rw [if_neg (by simpa using h1)] at h
    rw [h1]
    apply lt_append_left
    by_cases h2 : c.val.length = d.val.length
    · rw [if_neg (by simpa using h2)] at h
      rw [h2]
      apply lt_append_left
      rw [bytesCompare_lt_iff] at h
      refine lt_append_of_not_prefix h ?_ s t
      intro hp
      have : c.val = d.val := hp.eq_of_length h2
      rw [this] at h
      exact absurd h (List.lt_irrefl _)
    · rw [if_pos h2] at h
      refine tlEnc_lt_append hcl hdl ?_ _ _
      by_cases h3 : c.val.length < d.val.length
      · exact h3
      · rw [if_neg h3] at h; omega
  · rw [if_pos h1] at h
    refine tlEnc_lt_append hc hd ?_ _ _
    by_cases h3 : c.typ < d.typ
    · exact h3
    · rw [if_neg h3] at h; omega

theorem Component.tlv_ne_nil (c : Component) : c.tlv ≠ [] := by
  intro h
  have h1 := congrArg List.length h
  have := tlLen_pos c.typ
  simp [Component.tlv, tlEnc_length] at h1
  omega

theorem Name.lt_of_compare {a b : Name} (ha : ∀ c ∈ a, c.typ < 2 ^ 64 ∧ c.val.length < 2 ^ 64)
    (hb : ∀ c ∈ b, c.typ < 2 ^ 64 ∧ c.val.length < 2 ^ 64) (h : Name.compare a b < 0) :
    a.flatMap Component.tlv < b.flatMap Component.tlv := by
  unfold Name.compare at h
  induction a generalizing b with
  | nil =>
    cases b with
    | nil => simp [listCompare] at h
    | cons d b =>
      rw [List.flatMap_cons, List.flatMap_nil]
      cases hd : d.tlv with
      | nil => exact absurd hd d.tlv_ne_nil
      | cons x t => simp
  | cons c a ih =>
    cases b with
    | nil => simp [listCompare] at h
    | cons d b =>
      simp only [listCompare] at h
      rw [List.flatMap_cons, List.flatMap_cons]
      have hc := ha c (by simp); have hd := hb d (by simp)
      by_cases e : c.compare d = 0
      · rw [if_neg (by simpa using e)] at h
        rw [(Component.compare_isCompare.zero c d).mp e]
        exact lt_append_left _ (ih (fun c hc => ha c (by simp [hc])) (fun c hc => hb c (by simp [hc])) h)
      · rw [if_pos e] at h
        exact Component.tlv_lt hc.1 hd.1 hc.2 hd.2 h _ _

end Ndn
