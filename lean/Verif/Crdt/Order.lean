/-!
# The order of the shared document

What the items of a document look like after any insertions, said without the insertion loop: `DocOrder` below.  The
identities are elements of `α`; `root` stands for the place before the first item, `o x` and `r x` are the left and right
neighbours that `x` had when it was made (`r x = none`: it was made at the end), `p x` is its producer.

The main results are `DocOrder.unique` (the same items can be arranged in only one way) and `DocOrder.insert` (where a new
item may be put).
-/

namespace Ndn.Crdt

variable {α : Type} [BEq α] [LawfulBEq α]

/-! ## Positions -/

theorem idx_lt {l : List α} {x : α} (h : x ∈ l) : l.idxOf x < l.length := List.idxOf_lt_length_of_mem h

theorem idx_inj {l : List α} {x y : α} (hx : x ∈ l) (h : l.idxOf x = l.idxOf y) : x = y := by
  have h1 := List.getElem_idxOf (idx_lt hx)
  have hy : l.idxOf y < l.length := h ▸ idx_lt hx
  have h2 := List.getElem_idxOf hy
  rw [← h1, ← h2]; simp only [h]

theorem idx_append_left {a b : List α} {x : α} (h : x ∈ a) : (a ++ b).idxOf x = a.idxOf x := by
  rw [List.idxOf_append, if_pos h]

theorem idx_append_right {a b : List α} {x : α} (h : x ∉ a) : (a ++ b).idxOf x = b.idxOf x + a.length := by
  rw [List.idxOf_append, if_neg h]

theorem idx_filter {l : List α} {q : α → Bool} {x y : α} (hx : x ∈ l) (hy : y ∈ l) (qx : q x = true) (qy : q y = true) :
    (l.filter q).idxOf x < (l.filter q).idxOf y ↔ l.idxOf x < l.idxOf y := by
  induction l with
  | nil => cases hx
  | cons a l ih =>
    by_cases hax : a = x
    · subst hax
      rw [List.filter_cons_of_pos qx]
      by_cases hay : a = y
      · subst hay; simp
      · simp [List.idxOf_cons, beq_eq_false_iff_ne.mpr hay]
    · by_cases hay : a = y
      · subst hay
        rw [List.filter_cons_of_pos qy]
        simp
      · have hx' : x ∈ l := by rcases List.mem_cons.mp hx with h | h; exact absurd h.symm hax; exact h
        have hy' : y ∈ l := by rcases List.mem_cons.mp hy with h | h; exact absurd h.symm hay; exact h
        have := ih hx' hy'
        by_cases qa : q a = true
        · rw [List.filter_cons_of_pos qa]
          simp only [List.idxOf_cons, beq_eq_false_iff_ne.mpr hax, beq_eq_false_iff_ne.mpr hay, cond_false]
          omega
        · rw [List.filter_cons_of_neg qa]
          simp only [List.idxOf_cons, beq_eq_false_iff_ne.mpr hax, beq_eq_false_iff_ne.mpr hay, cond_false]
          omega

theorem idx_filter_le {l : List α} {q : α → Bool} {x y : α} (hx : x ∈ l) (hy : y ∈ l) (qx : q x = true) (qy : q y = true) :
    (l.filter q).idxOf x ≤ (l.filter q).idxOf y ↔ l.idxOf x ≤ l.idxOf y := by
  have := idx_filter hy hx qy qx
  omega

/-! ## The order -/

structure Links (α : Type) where
  root : α
  o : α → α
  r : α → Option α
  p : α → Nat

/-- how the items of a document are arranged -/
structure DocOrder (k : Links α) (l : List α) : Prop where
  nodup : l.Nodup
  /-- the document starts at its beginning -/
  head : l.head? = some k.root
  /-- an item stays right of the item it was put after … -/
  orig : ∀ x ∈ l, x ≠ k.root → k.o x ∈ l ∧ l.idxOf (k.o x) < l.idxOf x
  /-- … and whatever is between the two was put there in turn -/
  noCross : ∀ x ∈ l, x ≠ k.root → ∀ y ∈ l, l.idxOf (k.o x) < l.idxOf y → l.idxOf y < l.idxOf x → l.idxOf (k.o x) ≤ l.idxOf (k.o y)
  /-- an item stays left of the item it was put before -/
  right : ∀ x ∈ l, x ≠ k.root → ∀ z, k.r x = some z → z ∈ l ∧ l.idxOf x < l.idxOf z ∧ l.idxOf (k.o z) ≤ l.idxOf (k.o x)
  /-- of two items put after the same item, the one with the smaller producer goes first, up to the first one's right end -/
  sib : ∀ x ∈ l, ∀ y ∈ l, x ≠ k.root → y ≠ k.root → k.o x = k.o y → l.idxOf x < l.idxOf y →
    (∀ z, k.r x = some z → l.idxOf y < l.idxOf z) → k.p x < k.p y

namespace DocOrder

variable {k : Links α} {l : List α}

theorem rootMem (h : DocOrder k l) : k.root ∈ l := List.mem_of_mem_head? h.head

theorem idx_root (h : DocOrder k l) : l.idxOf k.root = 0 := by
  cases l with
  | nil => have := h.head; simp at this
  | cons a l => have := h.head; simp at this; subst this; simp

theorem ne_root (h : DocOrder k l) {x y : α} (hlt : l.idxOf y < l.idxOf x) : x ≠ k.root := by
  intro he; subst he; rw [h.idx_root] at hlt; omega

/-- `Anc k x y`: following the left neighbours from `y` one arrives at `x` (possibly at once) -/
inductive Anc (k : Links α) (x : α) : α → Prop
  | self : Anc k x x
  | step {y : α} : y ≠ k.root → Anc k x (k.o y) → Anc k x y

theorem anc_mem (h : DocOrder k l) {x y : α} (ha : Anc k x y) (hy : y ∈ l) : x ∈ l ∧ l.idxOf x ≤ l.idxOf y := by
  induction ha with
  | self => exact ⟨hy, Nat.le_refl _⟩
  | step hne _ ih =>
    obtain ⟨h1, h2⟩ := h.orig _ hy hne
    obtain ⟨h3, h4⟩ := ih h1
    exact ⟨h3, by omega⟩

/-- everything between an item and one that hangs on it hangs on it too: its left neighbour is not further left -/
theorem anc_between (h : DocOrder k l) {x y z : α} (ha : Anc k x y) (hy : y ∈ l) (hz : z ∈ l) (h1 : l.idxOf x < l.idxOf z)
    (h2 : l.idxOf z ≤ l.idxOf y) : l.idxOf x ≤ l.idxOf (k.o z) := by
  induction ha with
  | self => omega
  | @step y hne ha' ih =>
    obtain ⟨h3, h4⟩ := h.orig _ hy hne
    have h5 := (h.anc_mem ha' h3).2
    by_cases hzy : l.idxOf z = l.idxOf y
    · have := idx_inj hz hzy; subst this; exact h5
    · by_cases hzo : l.idxOf z ≤ l.idxOf (k.o y)
      · exact ih h3 hzo
      · have := h.noCross y hy hne z hz (by omega) (by omega)
        omega

theorem anc_root (h : DocOrder k l) : ∀ (n : Nat) (x : α), x ∈ l → l.idxOf x ≤ n → Anc k k.root x := by
  intro n
  induction n with
  | zero =>
    intro x hx hn
    have : x = k.root := idx_inj hx (by rw [h.idx_root]; omega)
    subst this; exact .self
  | succ n ih =>
    intro x hx hn
    by_cases hr : x = k.root
    · subst hr; exact .self
    · obtain ⟨h1, h2⟩ := h.orig x hx hr
      exact .step hr (ih _ h1 (by omega))

/-- one step down from an ancestor -/
theorem anc_child {x y : α} (ha : Anc k x y) (hne : x ≠ y) : ∃ c, c ≠ k.root ∧ k.o c = x ∧ Anc k c y := by
  induction ha with
  | self => exact absurd rfl hne
  | @step y hy ha' ih =>
    by_cases hx : x = k.o y
    · exact ⟨y, hy, hx.symm, .self⟩
    · obtain ⟨c, h1, h2, h3⟩ := ih hx
      exact ⟨c, h1, h2, .step hy h3⟩

/-- two items of which neither hangs on the other: the branches they are on fork after a common item -/
theorem fork (h : DocOrder k l) : ∀ (n : Nat) (a b : α), a ∈ l → b ∈ l → l.idxOf a ≤ n → ¬ Anc k a b → ¬ Anc k b a →
    ∃ a' b', a' ≠ k.root ∧ b' ≠ k.root ∧ a' ≠ b' ∧ k.o a' = k.o b' ∧ Anc k a' a ∧ Anc k b' b := by
  intro n
  induction n with
  | zero =>
    intro a b ha hb hn h1 _
    have : a = k.root := idx_inj ha (by rw [h.idx_root]; omega)
    subst this
    exact absurd (h.anc_root _ b hb (Nat.le_refl _)) h1
  | succ n ih =>
    intro a b ha hb hn h1 h2
    have har : a ≠ k.root := fun he => h1 (he ▸ h.anc_root _ b hb (Nat.le_refl _))
    obtain ⟨h3, h4⟩ := h.orig a ha har
    by_cases hob : Anc k (k.o a) b
    · have hne : k.o a ≠ b := fun he => h2 (.step har (he ▸ .self))
      obtain ⟨c, hc1, hc2, hc3⟩ := anc_child hob hne
      refine ⟨a, c, har, hc1, ?_, hc2.symm, .self, hc3⟩
      intro he; subst he; exact h1 hc3
    · obtain ⟨a', b', h5, h6, h7, h8, h9, h10⟩ := ih (k.o a) b h3 hb (by omega) hob (fun hx => h2 (.step har hx))
      exact ⟨a', b', h5, h6, h7, h8, .step har h9, h10⟩

/-- one half of the argument for uniqueness: in `l` the item `b` comes before `a`, and `b'` and `a'` are their branches -/
theorem branch_lt (h : DocOrder k l) {a b a' b' : α} (ha : a ∈ l) (hb : b ∈ l) (hba : l.idxOf b < l.idxOf a) (har : a' ≠ k.root)
    (hne : a' ≠ b') (ho : k.o a' = k.o b') (haa : Anc k a' a) (hbb : Anc k b' b) : l.idxOf b' < l.idxOf a' := by
  obtain ⟨ma, la⟩ := h.anc_mem haa ha
  obtain ⟨mb, lb⟩ := h.anc_mem hbb hb
  rcases Nat.lt_trichotomy (l.idxOf b') (l.idxOf a') with h1 | h1 | h1
  · exact h1
  · exact absurd (idx_inj mb h1).symm hne
  · have := h.anc_between haa ha mb h1 (by omega)
    have := (h.orig a' ma har).2
    rw [← ho] at *; omega

/-- the right neighbour at birth is beyond everything that hangs on the item -/
theorem right_beyond (h : DocOrder k l) {b b' z : α} (hb : b ∈ l) (hbr : b' ≠ k.root) (hbb : Anc k b' b) (hz : k.r b' = some z) :
    z ∈ l ∧ l.idxOf b < l.idxOf z := by
  obtain ⟨mb, lb⟩ := h.anc_mem hbb hb
  obtain ⟨mz, h1, h2⟩ := h.right b' mb hbr z hz
  refine ⟨mz, ?_⟩
  by_cases hlt : l.idxOf b < l.idxOf z
  · exact hlt
  · have := h.anc_between hbb hb mz h1 (by omega)
    have := (h.orig b' mb hbr).2
    omega

theorem unique_suffix {l1 l2 : List α} (h1 : DocOrder k l1) (h2 : DocOrder k l2) : ∀ (n : Nat) (p1 p2 t : List α), p1.length = n →
    l1 = p1 ++ t → l2 = p2 ++ t → p1.Perm p2 → p1 = p2 := by
  intro n
  induction n with
  | zero =>
    intro p1 p2 t hn _ _ hp
    have := List.length_eq_zero_iff.mp hn
    subst this
    exact (List.nil_perm.mp hp).symm
  | succ n ih =>
    intro p1 p2 t hn e1 e2 hp
    have hne1 : p1 ≠ [] := by intro h; subst h; simp at hn
    have hne2 : p2 ≠ [] := by intro h; subst h; have := hp.length_eq; simp at this; exact hne1 this
    obtain ⟨q1, a, rfl⟩ : ∃ q a, p1 = q ++ [a] := ⟨p1.dropLast, p1.getLast hne1, (List.dropLast_concat_getLast hne1).symm⟩
    obtain ⟨q2, b, rfl⟩ : ∃ q a, p2 = q ++ [a] := ⟨p2.dropLast, p2.getLast hne2, (List.dropLast_concat_getLast hne2).symm⟩
    by_cases hab : a = b
    · subst hab
      have hq : q1.Perm q2 := (List.perm_append_right_iff [a]).mp hp
      rw [ih q1 q2 (a :: t) (by simpa using hn) (by simpa using e1) (by simpa using e2) hq]
    · exfalso
      have hl : ∀ x, x ∈ l1 ↔ x ∈ l2 := by
        intro x; rw [e1, e2]; exact (hp.append_right t).mem_iff
      have key : ∀ (l : List α) (q : List α) (a b : α) (t : List α), l.Nodup → l = q ++ [a] ++ t → b ∈ q ++ [a] → a ≠ b →
          l.idxOf b < l.idxOf a ∧ ∀ z, (z ∈ l ∧ l.idxOf a < l.idxOf z) ↔ z ∈ t := by
        intro l q a b t hnd e hb hne
        have hbq : b ∈ q := by
          rcases List.mem_append.mp hb with h | h
          · exact h
          · simp at h; exact absurd h.symm hne
        subst e
        rw [List.append_assoc] at hnd ⊢
        have haq : a ∉ q := fun h => (List.nodup_append.mp hnd).2.2 a h a (by simp) rfl
        rw [idx_append_left hbq, idx_append_right haq]
        have := idx_lt hbq
        refine ⟨by simp; omega, ?_⟩
        intro z
        constructor
        · rintro ⟨hz, hlt⟩
          rcases List.mem_append.mp hz with h | h
          · rw [idx_append_left h] at hlt
            have := idx_lt h
            omega
          · rcases List.mem_append.mp h with h | h
            · simp at h; subst h; rw [idx_append_right haq] at hlt; omega
            · exact h
        · intro hz
          have hzq : z ∉ q := fun h => (List.nodup_append.mp hnd).2.2 z h z (by simp [hz]) rfl
          have hza : z ≠ a := by
            intro h; subst h
            have := (List.nodup_append.mp hnd).2.1
            simp at this; exact this.1 hz
          refine ⟨by simp [hz], ?_⟩
          rw [idx_append_right hzq]
          simp [List.idxOf_cons, beq_eq_false_iff_ne.mpr hza.symm]
      have hb1 : b ∈ q1 ++ [a] := hp.symm.subset (by simp)
      have ha2 : a ∈ q2 ++ [b] := hp.subset (by simp)
      obtain ⟨lt1, suf1⟩ := key l1 q1 a b t h1.nodup e1 hb1 hab
      obtain ⟨lt2, suf2⟩ := key l2 q2 b a t h2.nodup e2 ha2 (Ne.symm hab)
      have ma1 : a ∈ l1 := by rw [e1]; simp
      have mb2 : b ∈ l2 := by rw [e2]; simp
      have ma2 := (hl a).mp ma1
      have mb1 := (hl b).mpr mb2
      have nab : ¬ Anc k a b := fun h => by have := (h1.anc_mem h mb1).2; omega
      have nba : ¬ Anc k b a := fun h => by have := (h2.anc_mem h ma2).2; omega
      obtain ⟨a', b', har, hbr, hne, ho, haa, hbb⟩ := h1.fork _ a b ma1 mb1 (Nat.le_refl _) nab nba
      have s1 := h1.branch_lt ma1 mb1 lt1 har hne ho haa hbb
      have s2 := h2.branch_lt mb2 ma2 lt2 hbr hne.symm ho.symm hbb haa
      have ma1' := h1.anc_mem haa ma1
      have mb1' := h1.anc_mem hbb mb1
      have ma2' := h2.anc_mem haa ma2
      have mb2' := h2.anc_mem hbb mb2
      have p1 : k.p b' < k.p a' := by
        refine h1.sib b' mb1'.1 a' ma1'.1 hbr har ho.symm s1 ?_
        intro z hz
        have := h2.right_beyond mb2 hbr hbb hz
        have := ((suf1 z).mpr ((suf2 z).mp this)).2
        omega
      have p2 : k.p a' < k.p b' := by
        refine h2.sib a' ma2'.1 b' mb2'.1 har hbr ho s2 ?_
        intro z hz
        have := h1.right_beyond ma1 har haa hz
        have := ((suf2 z).mpr ((suf1 z).mp this)).2
        omega
      omega

/-- the items can be arranged in only one way -/
theorem unique {l1 l2 : List α} (h1 : DocOrder k l1) (h2 : DocOrder k l2) (hp : l1.Perm l2) : l1 = l2 :=
  unique_suffix h1 h2 _ l1 l2 [] rfl (by simp) (by simp) hp

/-- leaving out items keeps the order, when what the others refer to is kept -/
theorem restrict (h : DocOrder k l) (q : α → Bool) (hroot : q k.root = true) (ho : ∀ x ∈ l, x ≠ k.root → q x = true → q (k.o x) = true)
    (hr : ∀ x ∈ l, x ≠ k.root → q x = true → ∀ z, k.r x = some z → q z = true) : DocOrder k (l.filter q) := by
  have hm : ∀ x, x ∈ l.filter q ↔ x ∈ l ∧ q x = true := fun x => List.mem_filter
  refine ⟨h.nodup.sublist List.filter_sublist, ?_, ?_, ?_, ?_, ?_⟩
  · cases l with
    | nil => have := h.head; simp at this
    | cons a l => have := h.head; simp at this; subst this; rw [List.filter_cons_of_pos hroot]; rfl
  · intro x hx hne
    obtain ⟨m, qx⟩ := (hm x).mp hx
    obtain ⟨h1, h2⟩ := h.orig x m hne
    have q1 := ho x m hne qx
    exact ⟨(hm _).mpr ⟨h1, q1⟩, (idx_filter h1 m q1 qx).mpr h2⟩
  · intro x hx hne y hy h1 h2
    obtain ⟨m, qx⟩ := (hm x).mp hx
    obtain ⟨my, qy⟩ := (hm y).mp hy
    obtain ⟨mo, _⟩ := h.orig x m hne
    have qo := ho x m hne qx
    rw [idx_filter mo my qo qy] at h1
    rw [idx_filter my m qy qx] at h2
    have hyr : y ≠ k.root := h.ne_root h1
    have := h.noCross x m hne y my h1 h2
    exact (idx_filter_le mo (h.orig y my hyr).1 qo (ho y my hyr qy)).mpr this
  · intro x hx hne z hz
    obtain ⟨m, qx⟩ := (hm x).mp hx
    obtain ⟨mz, h1, h2⟩ := h.right x m hne z hz
    have qz := hr x m hne qx z hz
    have hzr : z ≠ k.root := h.ne_root h1
    exact ⟨(hm z).mpr ⟨mz, qz⟩, (idx_filter m mz qx qz).mpr h1,
      (idx_filter_le (h.orig z mz hzr).1 (h.orig x m hne).1 (ho z mz hzr qz) (ho x m hne qx)).mpr h2⟩
  · intro x hx y hy hxr hyr hoe hlt hz
    obtain ⟨m, qx⟩ := (hm x).mp hx
    obtain ⟨my, qy⟩ := (hm y).mp hy
    refine h.sib x m y my hxr hyr hoe ((idx_filter m my qx qy).mp hlt) ?_
    intro z hzz
    exact (idx_filter my (h.right x m hxr z hzz).1 qy (hr x m hxr qx z hzz)).mp (hz z hzz)

/-- items that two documents share stand in the same order in both -/
theorem agree {l1 l2 : List α} (h1 : DocOrder k l1) (h2 : DocOrder k l2) {x y : α} (hx1 : x ∈ l1) (hx2 : x ∈ l2) (hy1 : y ∈ l1)
    (hy2 : y ∈ l2) : l1.idxOf x < l1.idxOf y ↔ l2.idxOf x < l2.idxOf y := by
  have r1 := h1.restrict (fun x => decide (x ∈ l2)) (by simpa using h2.rootMem)
    (by intro x _ hne hx; simp at hx ⊢; exact (h2.orig x hx hne).1)
    (by intro x _ hne hx z hz; simp at hx ⊢; exact (h2.right x hx hne z hz).1)
  have r2 := h2.restrict (fun x => decide (x ∈ l1)) (by simpa using h1.rootMem)
    (by intro x _ hne hx; simp at hx ⊢; exact (h1.orig x hx hne).1)
    (by intro x _ hne hx z hz; simp at hx ⊢; exact (h1.right x hx hne z hz).1)
  have hp : (l1.filter (fun x => decide (x ∈ l2))).Perm (l2.filter (fun x => decide (x ∈ l1))) := by
    refine (List.perm_ext_iff_of_nodup r1.nodup r2.nodup).mpr ?_
    intro z; simp [List.mem_filter, and_comm]
  have := r1.unique r2 hp
  rw [← idx_filter hx1 hy1 (q := fun x => decide (x ∈ l2)) (by simpa using hx2) (by simpa using hy2), this,
    idx_filter hx2 hy2 (by simpa using hx1) (by simpa using hy1)]

theorem ins_idx {a b : List α} {i x : α} (hi : i ∉ a ++ b) (hx : x ∈ a ++ b) (hnd : (a ++ b).Nodup) :
    (x ∈ a ∧ (a ++ i :: b).idxOf x = (a ++ b).idxOf x ∧ (a ++ b).idxOf x < a.length) ∨
    (x ∈ b ∧ (a ++ i :: b).idxOf x = (a ++ b).idxOf x + 1 ∧ a.length ≤ (a ++ b).idxOf x) := by
  rcases List.mem_append.mp hx with h | h
  · left
    rw [idx_append_left h, idx_append_left h]
    exact ⟨h, rfl, idx_lt h⟩
  · right
    have hxa : x ∉ a := fun h' => (List.nodup_append.mp hnd).2.2 x h' x h rfl
    have hne : i ≠ x := fun he => hi (he ▸ hx)
    rw [idx_append_right hxa, idx_append_right hxa, List.idxOf_cons, beq_eq_false_iff_ne.mpr hne]
    simp only [cond_false]
    exact ⟨h, by omega, by omega⟩

theorem ins_idx_self {a b : List α} {i : α} (hi : i ∉ a ++ b) : (a ++ i :: b).idxOf i = a.length := by
  rw [idx_append_right (fun h => hi (List.mem_append_left _ h))]; simp

/-- where a new item may be put -/
theorem insert {a b : List α} {i : α} (h : DocOrder k (a ++ b)) (hi : i ∉ a ++ b) (hroot : k.root ∈ a) (hoi : k.o i ∈ a)
    (c1 : ∀ y ∈ a, (a ++ b).idxOf (k.o i) < (a ++ b).idxOf y → (a ++ b).idxOf (k.o i) ≤ (a ++ b).idxOf (k.o y))
    (c2 : ∀ x ∈ b, k.o x ∈ a → (a ++ b).idxOf (k.o x) ≤ (a ++ b).idxOf (k.o i))
    (c3 : ∀ z, k.r i = some z → z ∈ b ∧ (a ++ b).idxOf (k.o z) ≤ (a ++ b).idxOf (k.o i))
    (c4 : ∀ y ∈ b, k.o y = k.o i → (∀ z, k.r i = some z → (a ++ b).idxOf y < (a ++ b).idxOf z) → k.p i < k.p y)
    (c5 : ∀ x ∈ a, x ≠ k.root → k.o x = k.o i → (∀ z, k.r x = some z → z ∈ b) → k.p x < k.p i) :
    DocOrder k (a ++ i :: b) := by
  have nd := h.nodup
  have sp : ∀ x, x ∈ a ++ b → _ := fun x hx => ins_idx hi hx nd
  have si := ins_idx_self (b := b) hi
  have mm : ∀ x, x ∈ a ++ i :: b ↔ x = i ∨ x ∈ a ++ b := by
    intro x; simp only [List.mem_append, List.mem_cons]
    constructor
    · rintro (h | h | h)
      · exact .inr (.inl h)
      · exact .inl h
      · exact .inr (.inr h)
    · rintro (h | h | h)
      · exact .inr (.inl h)
      · exact .inl h
      · exact .inr (.inr h)
  have hir : i ≠ k.root := fun he => hi (he ▸ List.mem_append_left _ hroot)
  have moi : k.o i ∈ a ++ b := List.mem_append_left _ hoi
  have soi : (a ++ i :: b).idxOf (k.o i) = (a ++ b).idxOf (k.o i) ∧ (a ++ b).idxOf (k.o i) < a.length := by
    rw [idx_append_left hoi, idx_append_left hoi]; exact ⟨rfl, idx_lt hoi⟩
  refine ⟨?_, ?_, ?_, ?_, ?_, ?_⟩
  · exact List.perm_middle.nodup_iff.mpr (List.nodup_cons.mpr ⟨hi, nd⟩)
  · have := h.head
    cases a with
    | nil => cases hroot
    | cons c a => simpa using this
  · intro x hx hne
    rcases (mm x).mp hx with rfl | hx'
    · exact ⟨(mm _).mpr (.inr moi), by omega⟩
    · obtain ⟨h1, h2⟩ := h.orig x hx' hne
      refine ⟨(mm _).mpr (.inr h1), ?_⟩
      rcases sp x hx' with ⟨_, h3, h4⟩ | ⟨_, h3, h4⟩ <;> rcases sp _ h1 with ⟨_, h5, h6⟩ | ⟨_, h5, h6⟩ <;> omega
  · intro x hx hne y hy h1 h2
    rcases (mm x).mp hx with rfl | hx'
    · rcases (mm y).mp hy with rfl | hy'
      · omega
      · rcases sp y hy' with ⟨hya, h3, h4⟩ | ⟨_, h3, h4⟩
        · have hyr : y ≠ k.root := h.ne_root (y := k.o x) (by omega)
          have := c1 y hya (by omega)
          rcases sp _ (h.orig y hy' hyr).1 with ⟨_, h5, h6⟩ | ⟨_, h5, h6⟩ <;> omega
        · omega
    · have mo := (h.orig x hx' hne).1
      rcases (mm y).mp hy with rfl | hy'
      · rcases sp _ mo with ⟨ho, h5, h6⟩ | ⟨_, h5, h6⟩
        · rcases sp x hx' with ⟨_, h3, h4⟩ | ⟨hxb, h3, h4⟩
          · omega
          · have := c2 x hxb ho
            omega
        · omega
      · have hyr : y ≠ k.root := by
          intro he; subst he
          have := h.idx_root
          rcases sp _ mo with ⟨_, h5, h6⟩ | ⟨_, h5, h6⟩ <;> rcases sp _ hy' with ⟨_, h3, h4⟩ | ⟨_, h3, h4⟩ <;> omega
        have moy := (h.orig y hy' hyr).1
        have : (a ++ b).idxOf (k.o x) < (a ++ b).idxOf y ∧ (a ++ b).idxOf y < (a ++ b).idxOf x := by
          rcases sp _ mo with ⟨_, h5, h6⟩ | ⟨_, h5, h6⟩ <;> rcases sp _ hy' with ⟨_, h3, h4⟩ | ⟨_, h3, h4⟩ <;>
            rcases sp _ hx' with ⟨_, h7, h8⟩ | ⟨_, h7, h8⟩ <;> omega
        have := h.noCross x hx' hne y hy' this.1 this.2
        rcases sp _ mo with ⟨_, h5, h6⟩ | ⟨_, h5, h6⟩ <;> rcases sp _ moy with ⟨_, h3, h4⟩ | ⟨_, h3, h4⟩ <;> omega
  · intro x hx hne z hz
    rcases (mm x).mp hx with rfl | hx'
    · obtain ⟨hzb, hzo⟩ := c3 z hz
      have mz : z ∈ a ++ b := List.mem_append_right _ hzb
      refine ⟨(mm z).mpr (.inr mz), ?_⟩
      rcases sp z mz with ⟨hza, _⟩ | ⟨_, h3, h4⟩
      · exact absurd rfl ((List.nodup_append.mp nd).2.2 z hza z hzb)
      · have hzr : z ≠ k.root := h.ne_root (y := k.o x) (by omega)
        have moz := (h.orig z mz hzr).1
        rcases sp _ moz with ⟨_, h5, h6⟩ | ⟨_, h5, h6⟩ <;> omega
    · obtain ⟨mz, h1, h2⟩ := h.right x hx' hne z hz
      have hzr : z ≠ k.root := h.ne_root h1
      have mox := (h.orig x hx' hne).1
      have moz := (h.orig z mz hzr).1
      refine ⟨(mm z).mpr (.inr mz), ?_, ?_⟩
      · rcases sp x hx' with ⟨_, h5, h6⟩ | ⟨_, h5, h6⟩ <;> rcases sp z mz with ⟨_, h3, h4⟩ | ⟨_, h3, h4⟩ <;> omega
      · rcases sp _ mox with ⟨_, h5, h6⟩ | ⟨_, h5, h6⟩ <;> rcases sp _ moz with ⟨_, h3, h4⟩ | ⟨_, h3, h4⟩ <;> omega
  · intro x hx y hy hxr hyr hoe hlt hz
    rcases (mm x).mp hx with rfl | hx'
    · rcases (mm y).mp hy with rfl | hy'
      · omega
      · rcases sp y hy' with ⟨_, h3, h4⟩ | ⟨hyb, h3, h4⟩
        · omega
        · refine c4 y hyb hoe.symm ?_
          intro z hzz
          have := hz z hzz
          rcases sp z (List.mem_append_right _ (c3 z hzz).1) with ⟨_, h5, h6⟩ | ⟨_, h5, h6⟩ <;> omega
    · rcases (mm y).mp hy with rfl | hy'
      · rcases sp x hx' with ⟨hxa, h3, h4⟩ | ⟨_, h3, h4⟩
        · refine c5 x hxa hxr hoe ?_
          intro z hzz
          have := hz z hzz
          rcases sp z (h.right x hx' hxr z hzz).1 with ⟨_, h5, h6⟩ | ⟨hzb, h5, h6⟩
          · omega
          · exact hzb
        · omega
      · refine h.sib x hx' y hy' hxr hyr hoe ?_ ?_
        · rcases sp x hx' with ⟨_, h5, h6⟩ | ⟨_, h5, h6⟩ <;> rcases sp y hy' with ⟨_, h3, h4⟩ | ⟨_, h3, h4⟩ <;> omega
        · intro z hzz
          have := hz z hzz
          rcases sp z (h.right x hx' hxr z hzz).1 with ⟨_, h5, h6⟩ | ⟨_, h5, h6⟩ <;>
            rcases sp y hy' with ⟨_, h3, h4⟩ | ⟨_, h3, h4⟩ <;> omega

/-! ## Where an item was made -/

/-- `i` was made in the document `d`: between `o i` and the item next to it, `r i` -/
structure Born (k : Links α) (i : α) (d : List α) : Prop where
  order : DocOrder k d
  new : i ∉ d
  orig : k.o i ∈ d
  next : ∀ y ∈ d, d.idxOf (k.o i) < d.idxOf y → ∃ z, k.r i = some z ∧ d.idxOf z ≤ d.idxOf y
  right : ∀ z, k.r i = some z → z ∈ d ∧ d.idxOf (k.o i) < d.idxOf z

theorem Born.right_orig {i z : α} {d : List α} (h : Born k i d) (hz : k.r i = some z) :
    k.o z ∈ d ∧ d.idxOf (k.o z) ≤ d.idxOf (k.o i) := by
  obtain ⟨mz, h1⟩ := h.right z hz
  obtain ⟨h2, h3⟩ := h.order.orig z mz (h.order.ne_root h1)
  refine ⟨h2, ?_⟩
  by_cases hlt : d.idxOf (k.o i) < d.idxOf (k.o z)
  · obtain ⟨z', h4, h5⟩ := h.next _ h2 hlt
    rw [hz] at h4; cases h4; omega
  · omega

theorem idx_last {a b : List α} {x : α} (ha : a.getLast? = some x) (nd : (a ++ b).Nodup) : (a ++ b).idxOf x + 1 = a.length := by
  have hoa : x ∈ a := List.mem_of_getLast? ha
  obtain ⟨c, rfl⟩ : ∃ c, a = c ++ [x] := by
    have hne : a ≠ [] := by intro he; subst he; cases hoa
    refine ⟨a.dropLast, ?_⟩
    rw [List.getLast?_eq_some_getLast hne] at ha
    injection ha with ha
    rw [← ha]; exact (List.dropLast_concat_getLast hne).symm
  have : x ∉ c := by
    intro hc
    exact (List.nodup_append.mp (List.nodup_append.mp nd).1).2.2 _ hc _ (by simp) rfl
  rw [idx_append_left hoa, idx_append_right this]; simp

/-- putting an item where it was made -/
theorem insert_local {a b : List α} {i : α} (h : Born k i (a ++ b)) (ha : a.getLast? = some (k.o i)) :
    DocOrder k (a ++ i :: b) := by
  have hoa : k.o i ∈ a := List.mem_of_getLast? ha
  have hlast := idx_last ha h.order.nodup
  have hroot : k.root ∈ a := by
    have := h.order.head
    cases a with
    | nil => cases hoa
    | cons c a => simp at this; simp [this]
  have ina : ∀ x ∈ a, (a ++ b).idxOf x ≤ (a ++ b).idxOf (k.o i) := by
    intro x hx
    have h1 := idx_lt hx
    have h2 : (a ++ b).idxOf x = a.idxOf x := idx_append_left hx
    omega
  have inb : ∀ x ∈ b, (a ++ b).idxOf (k.o i) < (a ++ b).idxOf x := by
    intro x hx
    have : x ∉ a := fun h' => (List.nodup_append.mp h.order.nodup).2.2 x h' x hx rfl
    rw [idx_append_right this]; omega
  refine h.order.insert h.new hroot hoa ?_ ?_ ?_ ?_ ?_
  · intro y hy hlt
    have := ina y hy; omega
  · intro x _ hx
    exact ina _ hx
  · intro z hz
    obtain ⟨mz, h1⟩ := h.right z hz
    refine ⟨?_, (h.right_orig hz).2⟩
    rcases List.mem_append.mp mz with hm | hm
    · have := ina z hm; omega
    · exact hm
  · intro y hy _ hlt
    obtain ⟨z, hz, hle⟩ := h.next y (List.mem_append_right _ hy) (inb y hy)
    have := hlt z hz
    omega
  · intro x hx hr ho _
    have h1 := (h.order.orig x (List.mem_append_left _ hx) hr).2
    have h2 := ina x hx
    rw [ho] at h1
    omega

theorem idx_seg {l a b c : List α} {x : α} (nd : l.Nodup) (e : l = a ++ b ++ c) (hx : x ∈ b) :
    a.length ≤ l.idxOf x ∧ l.idxOf x < a.length + b.length := by
  subst e
  have hxa : x ∉ a := fun h => (List.nodup_append.mp (List.nodup_append.mp nd).1).2.2 x h x hx rfl
  rw [idx_append_left (List.mem_append_right _ hx), idx_append_right hxa]
  have := idx_lt hx
  omega

theorem agree_le {l1 l2 : List α} (h1 : DocOrder k l1) (h2 : DocOrder k l2) {x y : α} (hx1 : x ∈ l1) (hx2 : x ∈ l2) (hy1 : y ∈ l1)
    (hy2 : y ∈ l2) : l1.idxOf x ≤ l1.idxOf y ↔ l2.idxOf x ≤ l2.idxOf y := by
  have := agree h1 h2 hy1 hy2 hx1 hx2
  omega

/-- a later item of the same producer, put after the same item, leaves an item of a smaller producer on its right -/
theorem tie_chain {l d : List α} {i : α} (h : DocOrder k l) (hd : DocOrder k d) (hi : i ∈ d) (hil : i ∉ l) (hir : i ≠ k.root) :
    ∀ (n : Nat) (z : α), z ∈ d → z ∈ l → z ≠ k.root → k.o z = k.o i → d.idxOf z < d.idxOf i → d.idxOf i - d.idxOf z ≤ n →
      ∃ w, w ∈ d ∧ w ∈ l ∧ w ≠ k.root ∧ k.o w = k.o i ∧ d.idxOf z ≤ d.idxOf w ∧ d.idxOf w < d.idxOf i ∧ k.p w < k.p i := by
  intro n
  induction n with
  | zero => intro z _ _ _ _ h1 h2; omega
  | succ n ih =>
    intro z mz mzl hzr ho hlt hn
    have hoi := hd.orig i hi hir
    have hoz := hd.orig z mz hzr
    by_cases hall : ∀ w, k.r z = some w → d.idxOf i < d.idxOf w
    · exact ⟨z, mz, mzl, hzr, ho, Nat.le_refl _, hlt, hd.sib z mz i hi hzr hir ho hlt hall⟩
    · have ⟨w, hw⟩ : ∃ w, ¬ (k.r z = some w → d.idxOf i < d.idxOf w) := Classical.not_forall.mp hall
      obtain ⟨hrw, hle⟩ := Classical.not_imp.mp hw
      obtain ⟨mw, h1, h2⟩ := hd.right z mz hzr w hrw
      have mwl := (h.right z mzl hzr w hrw).1
      have hwi : d.idxOf w < d.idxOf i := by
        rcases Nat.lt_or_ge (d.idxOf w) (d.idxOf i) with hh | hh
        · exact hh
        · have : w = i := idx_inj mw (by omega)
          subst this; exact absurd mwl hil
      have hwr : w ≠ k.root := hd.ne_root h1
      have how : k.o w = k.o i := by
        have h3 := hd.noCross i hi hir w mw (by rw [← ho]; omega) hwi
        rw [ho] at h2
        exact idx_inj (hd.orig w mw hwr).1 (by omega)
      obtain ⟨v, h4, h5, h6, h7, h8, h9, h10⟩ := ih w mw mwl hwr how hwi (by omega)
      exact ⟨v, h4, h5, h6, h7, by omega, h9, h10⟩

/-- What the insertion loop guarantees about the items `lp ++ cp ++ rest` it may look at: it puts the new item `i` between `lp` and
`cp`, and stopped before `rest`. -/
structure Placed (k : Links α) (i : α) (lp cp rest : List α) : Prop where
  q1 : ∀ y ∈ lp ++ cp, k.o y = k.o i ∨ k.o y ∈ lp ++ cp
  q2 : ∀ x ∈ cp, k.o x ∉ lp
  q3 : lp = [] ∨ ∃ l1 s l2, lp = l1 ++ s :: l2 ∧ k.o s = k.o i ∧ k.p s < k.p i ∧ ∀ x ∈ l2, k.o x ≠ k.o i
  q4 : ∀ y ∈ cp, k.o y = k.o i → k.p i ≤ k.p y
  q5 : ∀ b t, rest = b :: t → (k.o b ≠ k.o i ∧ k.o b ∉ lp ++ cp) ∨ (k.o b = k.o i ∧ k.p i ≤ k.p b ∧ k.r b = k.r i)

theorem insert_scan {pre lp cp rest post d : List α} {i : α} (h : DocOrder k (pre ++ lp ++ (cp ++ rest ++ post)))
    (hi : i ∉ pre ++ lp ++ (cp ++ rest ++ post)) (hpre : pre.getLast? = some (k.o i)) (hpost : post.head? = k.r i)
    (hend : k.r i = none → post = []) (hb : Born k i d)
    (tie : ∀ y ∈ pre ++ lp ++ (cp ++ rest ++ post), y ≠ k.root → k.p y = k.p i → y ∈ d ∨ ∃ dy, Born k y dy ∧ i ∈ dy)
    (hq : Placed k i lp cp rest) : DocOrder k (pre ++ lp ++ i :: (cp ++ rest ++ post)) := by
  generalize hl : pre ++ lp ++ (cp ++ rest ++ post) = l at h hi tie
  have nd := h.nodup
  have hlast : l.idxOf (k.o i) + 1 = pre.length := by
    rw [← hl, List.append_assoc]; exact idx_last hpre (by rw [← List.append_assoc, hl]; exact nd)
  have moip : k.o i ∈ pre := List.mem_of_getLast? hpre
  have hroot : k.root ∈ pre := by
    have := h.head
    rw [← hl] at this
    cases pre with
    | nil => cases moip
    | cons c a => simp at this; simp [this]
  have hir : i ≠ k.root := fun he => hi (he ▸ h.rootMem)
  have memP : ∀ {x}, x ∈ pre → x ∈ l := fun hx => by rw [← hl]; simp [hx]
  have memL : ∀ {x}, x ∈ lp → x ∈ l := fun hx => by rw [← hl]; simp [hx]
  have memC : ∀ {x}, x ∈ cp → x ∈ l := fun hx => by rw [← hl]; simp [hx]
  have memR : ∀ {x}, x ∈ rest → x ∈ l := fun hx => by rw [← hl]; simp [hx]
  have memQ : ∀ {x}, x ∈ post → x ∈ l := fun hx => by rw [← hl]; simp [hx]
  have iP : ∀ {x}, x ∈ pre → l.idxOf x < pre.length := fun {x} hx => by
    have := (idx_seg (a := []) (b := pre) (c := lp ++ (cp ++ rest ++ post)) nd (by rw [← hl]; simp) hx).2; simpa using this
  have iL : ∀ {x}, x ∈ lp → pre.length ≤ l.idxOf x ∧ l.idxOf x < pre.length + lp.length := fun hx =>
    idx_seg (c := cp ++ rest ++ post) nd (by rw [← hl]) hx
  have iC : ∀ {x}, x ∈ cp → pre.length + lp.length ≤ l.idxOf x ∧ l.idxOf x < pre.length + lp.length + cp.length := fun {x} hx => by
    have := idx_seg (a := pre ++ lp) (c := rest ++ post) nd (by rw [← hl]; simp) hx; simpa using this
  have iR : ∀ {x}, x ∈ rest → pre.length + lp.length + cp.length ≤ l.idxOf x ∧
      l.idxOf x < pre.length + lp.length + cp.length + rest.length := fun {x} hx => by
    have := idx_seg (a := pre ++ lp ++ cp) (c := post) nd (by rw [← hl]; simp) hx; simpa [Nat.add_assoc] using this
  have iQ : ∀ {x}, x ∈ post → pre.length + lp.length + cp.length + rest.length ≤ l.idxOf x := fun {x} hx => by
    have := (idx_seg (a := pre ++ lp ++ cp ++ rest) (c := []) nd (by rw [← hl]; simp) hx).1; simpa [Nat.add_assoc] using this
  have moi : k.o i ∈ l := memP moip
  -- the right neighbour at birth is where the items that are looked at end
  have hz : ∀ z, k.r i = some z → z ∈ post ∧ l.idxOf z = pre.length + lp.length + cp.length + rest.length ∧
      l.idxOf (k.o z) ≤ l.idxOf (k.o i) := by
    intro z hrz
    rw [hrz] at hpost
    obtain ⟨t, rfl⟩ : ∃ t, post = z :: t := by
      cases post with
      | nil => cases hpost
      | cons c t => simp at hpost; exact ⟨t, by rw [hpost]⟩
    have mz : z ∈ z :: t := List.mem_cons_self
    have hzl := memQ mz
    refine ⟨mz, ?_, ?_⟩
    · have h1 := iQ mz
      have h2 := idx_seg (a := pre ++ lp ++ cp ++ rest) (b := [z]) (c := t) nd (by rw [← hl]; simp) (List.mem_singleton.mpr rfl)
      simp only [List.length_append, List.length_singleton] at h2
      omega
    · have h1 := hb.right_orig hrz
      have h3 : l.idxOf (k.o i) < l.idxOf z := by have := iQ mz; omega
      exact (agree_le h hb.order (h.orig z hzl (h.ne_root h3)).1 h1.1 moi hb.orig).mpr h1.2
  -- the first item not passed
  have stop : ∀ b, (rest ++ post).head? = some b → b ∈ l ∧ b ≠ k.root ∧ l.idxOf b = pre.length + lp.length + cp.length ∧
      l.idxOf (k.o b) ≤ l.idxOf (k.o i) := by
    intro b hbh
    cases hrest : rest with
    | nil =>
      rw [hrest, List.nil_append, hpost] at hbh
      obtain ⟨h1, h2, h3⟩ := hz b hbh
      rw [hrest] at h2
      simp only [List.length_nil] at h2
      exact ⟨memQ h1, h.ne_root (y := k.o i) (by omega), by omega, h3⟩
    | cons c t =>
      rw [hrest] at hbh; simp at hbh; subst hbh
      have mb : c ∈ rest := by rw [hrest]; exact List.mem_cons_self
      have mbl := memR mb
      have h1 := iR mb
      have h2 := idx_seg (a := pre ++ lp ++ cp) (b := [c]) (c := t ++ post) nd (by rw [← hl, hrest]; simp) (List.mem_singleton.mpr rfl)
      simp only [List.length_append, List.length_singleton] at h2
      have hcr : c ≠ k.root := h.ne_root (y := k.o i) (by omega)
      refine ⟨mbl, hcr, by omega, ?_⟩
      rcases hq.q5 c t hrest with ⟨_, hn⟩ | ⟨he, _⟩
      · obtain ⟨h3, h4⟩ := h.orig c mbl hcr
        have h3' := h3
        rw [← hl] at h3'
        simp only [List.mem_append] at h3' hn
        rcases h3' with (h5 | h5) | (h5 | h5) | h5
        · have := iP h5; omega
        · exact absurd (.inl h5) hn
        · exact absurd (.inr h5) hn
        · have := iR h5; omega
        · have := iQ h5; omega
      · rw [he]; exact Nat.le_refl _
  -- no sibling on the right of `i` has a smaller producer
  have ge : ∀ y, y ∈ cp ++ rest → k.o y = k.o i → k.p i ≤ k.p y := by
    intro y hy ho
    rcases List.mem_append.mp hy with hy | hy
    · exact hq.q4 y hy ho
    · cases hrest : rest with
      | nil => rw [hrest] at hy; cases hy
      | cons c t =>
        have mc : c ∈ rest := by rw [hrest]; exact List.mem_cons_self
        obtain ⟨mcl, hcr, hci, hco⟩ := stop c (by rw [hrest]; rfl)
        have hyl := memR hy
        have hyi := iR hy
        by_cases hyc : y = c
        · subst hyc
          rcases hq.q5 y t hrest with ⟨h1, _⟩ | ⟨_, h1, _⟩
          · exact absurd ho h1
          · exact h1
        · have hlt : l.idxOf c < l.idxOf y := by
            have : l.idxOf c ≠ l.idxOf y := fun he => hyc (idx_inj mcl he).symm
            omega
          have hyr := h.ne_root hlt
          rcases hq.q5 c t hrest with ⟨h1, _⟩ | ⟨h1, h2, h3⟩
          · have := h.noCross y hyl hyr c mcl (by rw [ho]; omega) hlt
            rw [ho] at this
            exact absurd (idx_inj (h.orig c mcl hcr).1 (by omega)) h1
          · have := h.sib c mcl y hyl hcr hyr (h1.trans ho.symm) hlt (by
              intro z hrz
              have := hz z (h3 ▸ hrz)
              omega)
            omega
  have mem2 : ∀ {x}, x ∈ cp ++ rest ++ post → x ∈ l ∧ pre.length + lp.length ≤ l.idxOf x := by
    intro x hx
    rcases List.mem_append.mp hx with hx | hx
    · rcases List.mem_append.mp hx with hx | hx
      · exact ⟨memC hx, (iC hx).1⟩
      · exact ⟨memR hx, by have := iR hx; omega⟩
    · exact ⟨memQ hx, by have := iQ hx; omega⟩
  rw [← hl] at h hi
  refine h.insert hi (List.mem_append_left _ hroot) (List.mem_append_left _ moip) ?_ ?_ ?_ ?_ ?_ <;> (try rw [hl]) <;> rw [hl] at h hi
  · intro y hy hlt
    rcases List.mem_append.mp hy with hy | hy
    · have := iP hy; omega
    · rcases hq.q1 y (List.mem_append_left _ hy) with h1 | h1
      · rw [h1]; exact Nat.le_refl _
      · rcases List.mem_append.mp h1 with h1 | h1
        · have := iL h1; omega
        · have := iC h1; omega
  · intro x hx hox
    rcases List.mem_append.mp hox with hox | hox
    · have := iP hox; omega
    · exfalso
      have h1 := iL hox
      have hxx := mem2 hx
      rw [List.append_assoc] at hx
      rcases List.mem_append.mp hx with hx | hx
      · exact hq.q2 x hx hox
      · cases hrp : rest ++ post with
        | nil => rw [hrp] at hx; cases hx
        | cons c t =>
          obtain ⟨mcl, hcr, hci, hco⟩ := stop c (by rw [hrp]; rfl)
          have hxi : pre.length + lp.length + cp.length ≤ l.idxOf x := by
            rcases List.mem_append.mp hx with hx | hx
            · exact (iR hx).1
            · have := iQ hx; omega
          by_cases hxc : x = c
          · subst hxc; omega
          · have hlt : l.idxOf c < l.idxOf x := by
              have : l.idxOf c ≠ l.idxOf x := fun he => hxc (idx_inj mcl he).symm
              omega
            have := h.noCross x hxx.1 (h.ne_root hlt) c mcl (by omega) hlt
            omega
  · intro z hrz
    obtain ⟨h1, _, h2⟩ := hz z hrz
    exact ⟨List.mem_append_right _ h1, h2⟩
  · intro y hy ho hlt
    have hyl := (mem2 hy).1
    have hyi := (mem2 hy).2
    have hyr : y ≠ k.root := h.ne_root (y := k.o i) (by omega)
    have hyc : y ∈ cp ++ rest := by
      rcases List.mem_append.mp hy with hy | hy
      · exact hy
      · cases hri : k.r i with
        | none => rw [hend hri] at hy; cases hy
        | some z =>
          have := hlt z hri
          have := hz z hri
          have := iQ hy
          omega
    have hge := ge y hyc ho
    rcases Nat.lt_or_ge (k.p i) (k.p y) with hlt' | hle
    · exact hlt'
    · exfalso
      rcases tie y hyl hyr (by omega) with hyd | ⟨dy, hby, hid⟩
      · obtain ⟨z, h1, h2⟩ := hb.next y hyd ((agree h hb.order moi hb.orig hyl hyd).mp (by omega))
        have := hlt z h1
        have := (agree_le hb.order h (hb.right z h1).1 (memQ (hz z h1).1) hyd hyl).mp h2
        omega
      · have hD := hby.order
        have hoi := hD.orig i hid hir
        obtain ⟨z, hrz, hzi⟩ := hby.next i hid (by rw [ho]; exact hoi.2)
        obtain ⟨mzd, h1⟩ := hby.right z hrz
        obtain ⟨mzl, h2, _⟩ := h.right y hyl hyr z hrz
        have hzi' : dy.idxOf z < dy.idxOf i := by
          rcases Nat.lt_or_ge (dy.idxOf z) (dy.idxOf i) with hh | hh
          · exact hh
          · have : z = i := idx_inj mzd (by omega)
            subst this; exact absurd mzl hi
        have hzr : z ≠ k.root := hD.ne_root h1
        have hoz : k.o z = k.o i := by
          have h3 := hD.noCross i hid hir z mzd (by rw [← ho]; exact h1) hzi'
          have h4 := (hby.right_orig hrz).2
          rw [ho] at h4
          exact idx_inj (hD.orig z mzd hzr).1 (by omega)
        obtain ⟨w, mwd, mwl, hwr, how, hzw, hwi, hpw⟩ := tie_chain h hD hid hi hir _ z mzd mzl hzr hoz hzi' (Nat.le_refl _)
        have h5 := (agree_le hD h mzd mzl mwd mwl).mp hzw
        have hwc : w ∈ cp ++ rest := by
          have hw' := mwl
          rw [← hl] at hw'
          rcases List.mem_append.mp hw' with hw' | hw'
          · rcases List.mem_append.mp hw' with hw' | hw'
            · have := iP hw'; omega
            · have := iL hw'; omega
          · rcases List.mem_append.mp hw' with hw' | hw'
            · exact hw'
            · cases hri : k.r i with
              | none => rw [hend hri] at hw'; cases hw'
              | some z' =>
                obtain ⟨m1, m2, _⟩ := hD.right i hid hir z' hri
                have h6 := (agree hD h mwd mwl m1 (memQ (hz z' hri).1)).mp (by omega)
                have := hz z' hri
                have := iQ hw'
                omega
        have := ge w hwc how
        omega
  · intro x hx hxr ho hzz
    rcases List.mem_append.mp hx with hx | hx
    · have h1 := (h.orig x (memP hx) hxr).2
      have := iP hx
      rw [ho] at h1
      omega
    · rcases hq.q3 with h1 | ⟨l1, s, l2, e, hs1, hs2, hs3⟩
      · rw [h1] at hx; cases hx
      · have hsl : s ∈ lp := by rw [e]; simp
        rw [e] at hx
        rcases List.mem_append.mp hx with hx' | hx'
        · have hxi := idx_seg (a := pre) (b := l1) (c := s :: l2 ++ (cp ++ rest ++ post)) nd (by rw [← hl, e]; simp) hx'
          have hsi := idx_seg (a := pre ++ l1) (b := [s]) (c := l2 ++ (cp ++ rest ++ post)) nd (by rw [← hl, e]; simp)
            (List.mem_singleton.mpr rfl)
          simp only [List.length_append] at hsi
          have hsr : s ≠ k.root := h.ne_root (y := k.o i) (by omega)
          have hxl : x ∈ lp := by rw [e]; exact hx
          have := h.sib x (memL hxl) s (memL hsl) hxr hsr (ho.trans hs1.symm) (by omega) (by
            intro z hrz
            have h2 := (mem2 (hzz z hrz)).2
            have := iL hsl
            omega)
          omega
        · rcases List.mem_cons.mp hx' with rfl | hx'
          · exact hs2
          · exact absurd ho (hs3 x hx')

end DocOrder

end Ndn.Crdt
