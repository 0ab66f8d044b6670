import Verif.Engine.Trie

namespace Ndn.Engine

variable {V : Type}

namespace Trie

/-- the node at a path of the live tree -/
abbrev find (t : Trie V) (ks : List Bytes) : Option Nat := t.exact 0 ks

structure WF (t : Trie V) : Prop where
  pos : 0 < t.size
  root : (t.node 0).par = none
  par : ∀ id, 0 < id → id < t.size → ∃ p, p < id ∧ (t.node id).par = some p
  chd : ∀ id, id < t.size → ∀ k c, (k, c) ∈ (t.node id).chd →
    c < t.size ∧ 0 < c ∧ (t.node c).par = some id ∧ (t.node c).key = k ∧ (t.node c).dep = (t.node id).dep + 1
  nodup : ∀ id, id < t.size → ((t.node id).chd.map (·.1)).Nodup

end Trie

theorem child_mem {n : TNode V} {k : Bytes} {c : Nat} (h : n.child k = some c) : (k, c) ∈ n.chd := by
  unfold TNode.child at h
  cases hf : n.chd.find? (fun e => e.1 == k) with
  | none => rw [hf] at h; cases h
  | some e =>
    rw [hf] at h
    obtain ⟨a, b⟩ := e
    have h1 := List.find?_some hf
    have h2 := List.mem_of_find?_eq_some hf
    simp only [beq_iff_eq] at h1
    simp only [Option.map_some, Option.some.injEq] at h
    rw [← h1, ← h]; exact h2

theorem child_eq_none {n : TNode V} {k : Bytes} (h : n.child k = none) : ∀ c, (k, c) ∉ n.chd := by
  intro c hc
  unfold TNode.child at h
  rw [Option.map_eq_none_iff, List.find?_eq_none] at h
  have := h (k, c) hc
  simp at this

theorem mem_child {n : TNode V} {k : Bytes} {c : Nat} (hn : (n.chd.map (·.1)).Nodup) (h : (k, c) ∈ n.chd) : n.child k = some c := by
  unfold TNode.child
  have : ∀ l : List (Bytes × Nat), (l.map (·.1)).Nodup → (k, c) ∈ l → (l.find? (fun e => e.1 == k)).map (·.2) = some c := by
    intro l
    induction l with
    | nil => intro _ h; cases h
    | cons a l ih =>
      intro hn hm
      rw [List.map_cons, List.nodup_cons] at hn
      rcases List.mem_cons.mp hm with rfl | hm
      · simp
      · have hne : a.1 ≠ k := by
          rintro rfl
          exact hn.1 (List.mem_map.mpr ⟨_, hm, rfl⟩)
        rw [List.find?_cons]
        have : (a.1 == k) = false := by simpa using hne
        rw [this]
        exact ih hn.2 hm
  exact this _ hn h

namespace Trie

theorem exact_append (t : Trie V) (id : Nat) (ks ls : List Bytes) :
    t.exact id (ks ++ ls) = (t.exact id ks).bind (fun c => t.exact c ls) := by
  induction ks generalizing id with
  | nil => rfl
  | cons k ks ih =>
    simp only [List.cons_append, exact]
    split
    · exact ih _
    · rfl

theorem exact_snoc (t : Trie V) (id : Nat) (ks : List Bytes) (k : Bytes) :
    t.exact id (ks ++ [k]) = (t.exact id ks).bind (fun c => (t.node c).child k) := by
  rw [exact_append]
  congr 1
  funext c
  simp only [exact]
  cases (t.node c).child k <;> rfl

theorem WF.child {t : Trie V} (h : t.WF) {id c : Nat} {k : Bytes} (hi : id < t.size) (hc : (t.node id).child k = some c) :
    c < t.size ∧ 0 < c ∧ (t.node c).par = some id ∧ (t.node c).key = k ∧ (t.node c).dep = (t.node id).dep + 1 :=
  h.chd id hi k c (child_mem hc)

theorem WF.exact_lt {t : Trie V} (h : t.WF) {id c : Nat} {ks : List Bytes} (hi : id < t.size) (he : t.exact id ks = some c) :
    c < t.size := by
  induction ks generalizing id with
  | nil => simp only [exact, Option.some.injEq] at he; omega
  | cons k ks ih =>
    simp only [exact] at he
    split at he
    · rename_i c' hc
      exact ih (h.child hi hc).1 he
    · cases he

/-- the list ends in its last element -/
theorem snoc_cases (ks : List Bytes) : ks = [] ∨ ∃ l k, ks = l ++ [k] := by
  rcases List.eq_nil_or_concat ks with h | ⟨l, k, h⟩
  · exact .inl h
  · exact .inr ⟨l, k, by simpa using h⟩

theorem WF.find_dep {t : Trie V} (h : t.WF) {ks : List Bytes} : ∀ {c}, t.find ks = some c →
    (t.node c).dep = (t.node 0).dep + ks.length := by
  induction hn : ks.length generalizing ks with
  | zero =>
    intro c he
    rw [List.eq_nil_of_length_eq_zero hn] at he
    simp only [find, exact, Option.some.injEq] at he
    rw [← he]; rfl
  | succ n ih =>
    intro c he
    rcases snoc_cases ks with rfl | ⟨l, k, rfl⟩
    · simp at hn
    · rw [find, exact_snoc] at he
      cases hl : t.exact 0 l with
      | none => rw [hl] at he; cases he
      | some m =>
        rw [hl] at he
        have hm := h.exact_lt h.pos hl
        have := h.child hm he
        have := ih (ks := l) (by simpa using hn) hl
        omega

/-- a live node is at one path only -/
theorem WF.find_inj {t : Trie V} (h : t.WF) {ks ls : List Bytes} {c : Nat} (h1 : t.find ks = some c) (h2 : t.find ls = some c) :
    ks = ls := by
  induction hn : ks.length generalizing ks ls c with
  | zero =>
    have hd := h.find_dep h1
    have hd' := h.find_dep h2
    have : ls.length = 0 := by omega
    rw [List.eq_nil_of_length_eq_zero hn, List.eq_nil_of_length_eq_zero this]
  | succ n ih =>
    have hd := h.find_dep h1
    have hd' := h.find_dep h2
    rcases snoc_cases ks with rfl | ⟨l, k, rfl⟩
    · simp at hn
    rcases snoc_cases ls with rfl | ⟨l', k', rfl⟩
    · simp only [List.length_nil, List.length_append, List.length_cons] at hd hd'; omega
    · rw [find, exact_snoc] at h1 h2
      cases hl : t.exact 0 l with
      | none => rw [hl] at h1; cases h1
      | some m =>
        cases hl' : t.exact 0 l' with
        | none => rw [hl'] at h2; cases h2
        | some m' =>
          rw [hl] at h1
          rw [hl'] at h2
          have e1 := h.child (h.exact_lt h.pos hl) h1
          have e2 := h.child (h.exact_lt h.pos hl') h2
          have hm : m = m' := by
            have := e1.2.2.1.symm.trans e2.2.2.1
            injection this
          subst hm
          have hk : k = k' := e1.2.2.2.1.symm.trans e2.2.2.2.1
          subst hk
          rw [ih hl hl' (by simpa using hn)]

theorem find_prefix {t : Trie V} {ks ls : List Bytes} {c : Nat} (h : t.find (ks ++ ls) = some c) : ∃ m, t.find ks = some m := by
  rw [find, exact_append] at h
  cases hk : t.exact 0 ks with
  | none => rw [hk] at h; cases h
  | some m => exact ⟨m, hk⟩

/-! ### new tries and value updates -/

theorem WF.new (v0 : V) : (Trie.new v0).WF where
  pos := Nat.one_pos
  root := rfl
  par := by intro id h1 h2; simp only [Trie.new] at h2; omega
  chd := by intro id _ k c h; simp [Trie.new] at h
  nodup := by intro id _; simp [Trie.new]

/-- same shape: everything but the values -/
structure Same (t t' : Trie V) : Prop where
  size : t'.size = t.size
  par : ∀ i, (t'.node i).par = (t.node i).par
  key : ∀ i, (t'.node i).key = (t.node i).key
  dep : ∀ i, (t'.node i).dep = (t.node i).dep
  chd : ∀ i, (t'.node i).chd = (t.node i).chd

theorem Same.refl (t : Trie V) : Same t t := ⟨rfl, fun _ => rfl, fun _ => rfl, fun _ => rfl, fun _ => rfl⟩

theorem Same.trans {t t' t'' : Trie V} (a : Same t t') (b : Same t' t'') : Same t t'' :=
  ⟨b.size.trans a.size, fun i => (b.par i).trans (a.par i), fun i => (b.key i).trans (a.key i), fun i => (b.dep i).trans (a.dep i),
    fun i => (b.chd i).trans (a.chd i)⟩

theorem setValue_same (t : Trie V) (id : Nat) (v : V) : Same t (t.setValue id v) := by
  refine ⟨rfl, ?_, ?_, ?_, ?_⟩ <;> (intro i; simp only [setValue, upd]; split <;> rfl)

theorem setValue_val (t : Trie V) (id i : Nat) (v : V) :
    ((t.setValue id v).node i).val = if i = id then v else (t.node i).val := by
  simp only [setValue, upd]; split <;> rfl

theorem Same.exact {t t' : Trie V} (h : Same t t') (id : Nat) (ks : List Bytes) : t'.exact id ks = t.exact id ks := by
  induction ks generalizing id with
  | nil => rfl
  | cons k ks ih =>
    simp only [Trie.exact, TNode.child, h.chd]
    split
    · exact ih _
    · rfl

theorem Same.wf {t t' : Trie V} (h : Same t t') (hw : t.WF) : t'.WF where
  pos := by rw [h.size]; exact hw.pos
  root := by rw [h.par]; exact hw.root
  par := by intro id h1 h2; rw [h.par]; exact hw.par id h1 (h.size ▸ h2)
  chd := by
    intro id h1 k c hc
    rw [h.chd] at hc
    rw [h.size, h.par, h.key, h.dep, h.dep]
    exact hw.chd id (h.size ▸ h1) k c hc
  nodup := by intro id h1; rw [h.chd]; exact hw.nodup id (h.size ▸ h1)

/-! ### adding nodes -/

theorem addChild_node (t : Trie V) (v0 : V) (id : Nat) (k : Bytes) (i : Nat) (hi : i < t.size) :
    ((t.addChild v0 id k).node i).val = (t.node i).val ∧ ((t.addChild v0 id k).node i).par = (t.node i).par ∧
    ((t.addChild v0 id k).node i).key = (t.node i).key ∧ ((t.addChild v0 id k).node i).dep = (t.node i).dep ∧
    ((t.addChild v0 id k).node i).chd = if i = id then (k, t.size) :: (t.node i).chd else (t.node i).chd := by
  simp only [addChild]
  rw [if_neg (by omega)]
  split <;> simp

theorem addChild_new (t : Trie V) (v0 : V) (id : Nat) (k : Bytes) :
    (t.addChild v0 id k).node t.size = ⟨v0, k, some id, (t.node id).dep + 1, []⟩ := by
  simp [addChild]

theorem WF.addChild {t : Trie V} (h : t.WF) (v0 : V) {id : Nat} (hi : id < t.size) {k : Bytes} (hk : (t.node id).child k = none) :
    (t.addChild v0 id k).WF := by
  have hsz : (t.addChild v0 id k).size = t.size + 1 := rfl
  have hpos := h.pos
  refine ⟨by omega, ?_, ?_, ?_, ?_⟩
  · rw [(addChild_node t v0 id k 0 hpos).2.1]; exact h.root
  · intro i h1 h2
    rcases Nat.lt_or_ge i t.size with hlt | hge
    · rw [(addChild_node t v0 id k i hlt).2.1]; exact h.par i h1 hlt
    · have : i = t.size := by omega
      subst this
      rw [addChild_new]; exact ⟨id, hi, rfl⟩
  · intro i h1 k' c hc
    rcases Nat.lt_or_ge i t.size with hlt | hge
    · rw [(addChild_node t v0 id k i hlt).2.2.2.2] at hc
      rw [(addChild_node t v0 id k i hlt).2.2.2.1]
      split at hc
      · rename_i hid
        subst hid
        rcases List.mem_cons.mp hc with he | hc
        · injection he with he1 he2
          subst he1; subst he2
          rw [addChild_new]; exact ⟨by omega, by omega, rfl, rfl, rfl⟩
        · obtain ⟨a, b, c1, d, e⟩ := h.chd i hlt k' c hc
          obtain ⟨_, n2, n3, n4, _⟩ := addChild_node t v0 i k c a
          exact ⟨by omega, b, by rw [n2]; exact c1, by rw [n3]; exact d, by rw [n4]; exact e⟩
      · obtain ⟨a, b, c1, d, e⟩ := h.chd i hlt k' c hc
        obtain ⟨_, n2, n3, n4, _⟩ := addChild_node t v0 id k c a
        exact ⟨by omega, b, by rw [n2]; exact c1, by rw [n3]; exact d, by rw [n4]; exact e⟩
    · have : i = t.size := by omega
      subst this
      rw [addChild_new] at hc
      cases hc
  · intro i h1
    rcases Nat.lt_or_ge i t.size with hlt | hge
    · rw [(addChild_node t v0 id k i hlt).2.2.2.2]
      split
      · rename_i hid
        subst hid
        rw [List.map_cons, List.nodup_cons]
        refine ⟨?_, h.nodup i hlt⟩
        intro hm
        obtain ⟨⟨a, b⟩, hm', hab⟩ := List.mem_map.mp hm
        simp only at hab
        subst hab
        exact child_eq_none hk b hm'
      · exact h.nodup i hlt
    · have : i = t.size := by omega
      subst this
      rw [addChild_new]; simp

theorem addChild_child {t : Trie V} (v0 : V) {id : Nat} {k : Bytes} (hk : (t.node id).child k = none)
    {i : Nat} (hi : i < t.size) (k' : Bytes) :
    ((t.addChild v0 id k).node i).child k' = if i = id ∧ k' = k then some t.size else (t.node i).child k' := by
  unfold TNode.child
  rw [(addChild_node t v0 id k i hi).2.2.2.2]
  by_cases h : i = id
  · subst h
    simp only [if_true, true_and, List.find?_cons]
    by_cases hkk : k' = k
    · subst hkk; simp
    · have : (k == k') = false := by simpa using fun h => hkk h.symm
      rw [this, if_neg hkk]
  · simp [h]

theorem addChild_new_child (t : Trie V) (v0 : V) (id : Nat) (k k' : Bytes) :
    ((t.addChild v0 id k).node t.size).child k' = none := by
  rw [addChild_new]; rfl

/-- Growth: old nodes keep their values and links, children are only added. -/
structure Grows (v0 : V) (t t' : Trie V) : Prop where
  size : t.size ≤ t'.size
  val : ∀ i, i < t.size → (t'.node i).val = (t.node i).val
  par : ∀ i, i < t.size → (t'.node i).par = (t.node i).par
  key : ∀ i, i < t.size → (t'.node i).key = (t.node i).key
  dep : ∀ i, i < t.size → (t'.node i).dep = (t.node i).dep
  chd : ∀ i, i < t.size → ∀ e ∈ (t.node i).chd, e ∈ (t'.node i).chd
  fresh : ∀ i, t.size ≤ i → i < t'.size → (t'.node i).val = v0

theorem Grows.refl (v0 : V) (t : Trie V) : Grows v0 t t :=
  ⟨Nat.le_refl _, fun _ _ => rfl, fun _ _ => rfl, fun _ _ => rfl, fun _ _ => rfl, fun _ _ _ h => h, fun _ h1 h2 => by omega⟩

theorem Grows.trans {v0 : V} {t t' t'' : Trie V} (a : Grows v0 t t') (b : Grows v0 t' t'') : Grows v0 t t'' where
  size := Nat.le_trans a.size b.size
  val i h := (b.val i (Nat.lt_of_lt_of_le h a.size)).trans (a.val i h)
  par i h := (b.par i (Nat.lt_of_lt_of_le h a.size)).trans (a.par i h)
  key i h := (b.key i (Nat.lt_of_lt_of_le h a.size)).trans (a.key i h)
  dep i h := (b.dep i (Nat.lt_of_lt_of_le h a.size)).trans (a.dep i h)
  chd i h e he := b.chd i (Nat.lt_of_lt_of_le h a.size) e (a.chd i h e he)
  fresh i h1 h2 := by
    rcases Nat.lt_or_ge i t'.size with h | h
    · rw [b.val i h]; exact a.fresh i h1 h
    · exact b.fresh i h h2

theorem Grows.addChild (t : Trie V) (v0 : V) (id : Nat) (k : Bytes) : Grows v0 t (t.addChild v0 id k) where
  size := Nat.le_succ _
  val i h := (addChild_node t v0 id k i h).1
  par i h := (addChild_node t v0 id k i h).2.1
  key i h := (addChild_node t v0 id k i h).2.2.1
  dep i h := (addChild_node t v0 id k i h).2.2.2.1
  chd i h e he := by
    rw [(addChild_node t v0 id k i h).2.2.2.2]
    split
    · exact List.mem_cons_of_mem _ he
    · exact he
  fresh i h1 h2 := by
    have : i = t.size := by
      have : (t.addChild v0 id k).size = t.size + 1 := rfl
      omega
    subst this
    rw [addChild_new]

theorem Grows.child {v0 : V} {t t' : Trie V} (g : Grows v0 t t') (hw' : t'.WF) {i c : Nat} (hi : i < t.size) {k : Bytes}
    (h : (t.node i).child k = some c) : (t'.node i).child k = some c :=
  mem_child (hw'.nodup i (Nat.lt_of_lt_of_le hi g.size)) (g.chd i hi _ (child_mem h))

theorem Grows.exact {v0 : V} {t t' : Trie V} (g : Grows v0 t t') (hw : t.WF) (hw' : t'.WF) {i c : Nat} (hi : i < t.size)
    {ks : List Bytes} (h : t.exact i ks = some c) : t'.exact i ks = some c := by
  induction ks generalizing i with
  | nil => exact h
  | cons k ks ih =>
    simp only [Trie.exact] at h ⊢
    cases hc : (t.node i).child k with
    | none => rw [hc] at h; cases h
    | some m =>
      rw [hc] at h
      rw [g.child hw' hi hc]
      exact ih (hw.child hi hc).1 h

/-- what `MatchAlways` and `FirstSatisfyOrNew` do from a node: the tree grows, all along the name -/
theorem matchAlways_spec (v0 : V) (ks : List Bytes) : ∀ (t : Trie V) (id : Nat), t.WF → id < t.size →
    (matchAlways v0 t id ks).2.WF ∧ Grows v0 t (matchAlways v0 t id ks).2 ∧
    (matchAlways v0 t id ks).2.exact id ks = some (matchAlways v0 t id ks).1 ∧
    (matchAlways v0 t id ks).1 < (matchAlways v0 t id ks).2.size := by
  induction ks with
  | nil => intro t id hw hi; exact ⟨hw, .refl v0 t, rfl, hi⟩
  | cons k ks ih =>
    intro t id hw hi
    rw [matchAlways]
    cases hc : (t.node id).child k with
    | some c =>
      simp only
      obtain ⟨a, b, c1, d⟩ := ih t c hw (hw.child hi hc).1
      refine ⟨a, b, ?_, d⟩
      simp only [Trie.exact]
      rw [b.child a hi hc]; exact c1
    | none =>
      simp only
      have hw1 := hw.addChild v0 hi hc
      obtain ⟨a, b, c1, d⟩ := ih (t.addChild v0 id k) t.size hw1 (Nat.lt_succ_self _)
      refine ⟨a, (Grows.addChild t v0 id k).trans b, ?_, d⟩
      simp only [Trie.exact]
      have hci : ((t.addChild v0 id k).node id).child k = some t.size := by
        rw [addChild_child v0 hc hi]; simp
      rw [b.child a (Nat.lt_succ_of_lt hi) hci]
      exact c1

theorem addChild_exact {t : Trie V} (hw : t.WF) (v0 : V) {id : Nat} {k : Bytes} (hk : (t.node id).child k = none) {i : Nat}
    (hi : i < t.size) (ls : List Bytes) {c : Nat} (h : (t.addChild v0 id k).exact i ls = some c) :
    t.exact i ls = some c ∨ (c = t.size ∧ ∃ l, ls = l ++ [k] ∧ t.exact i l = some id) := by
  induction ls generalizing i with
  | nil => exact .inl h
  | cons l ls ih =>
    simp only [Trie.exact] at h ⊢
    rw [addChild_child v0 hk hi] at h
    by_cases hc : i = id ∧ l = k
    · obtain ⟨rfl, rfl⟩ := hc
      simp only [and_self, if_true] at h
      cases ls with
      | nil =>
        simp only [Trie.exact, Option.some.injEq] at h
        exact .inr ⟨h.symm, [], rfl, rfl⟩
      | cons l' ls =>
        simp only [Trie.exact, addChild_new_child] at h
        cases h
    · rw [if_neg hc] at h
      cases hm : (t.node i).child l with
      | none => rw [hm] at h; cases h
      | some m =>
        rw [hm] at h
        rcases ih (hw.child hi hm).1 h with h' | ⟨e, l', rfl, h'⟩
        · exact .inl h'
        · right
          refine ⟨e, l :: l', rfl, ?_⟩
          simp only [Trie.exact, hm]; exact h'

/-- nothing appears off the path -/
theorem matchAlways_off (v0 : V) (ks : List Bytes) : ∀ (t : Trie V) (id : Nat) (p : List Bytes), t.WF → t.find p = some id →
    ∀ (ls : List Bytes) (c : Nat), (matchAlways v0 t id ks).2.find ls = some c →
      t.find ls = some c ∨ (t.size ≤ c ∧ p <+: ls ∧ p ≠ ls ∧ ls <+: p ++ ks) := by
  induction ks with
  | nil => intro t id p hw hp ls c h; exact .inl h
  | cons k ks ih =>
    intro t id p hw hp ls c h
    have hi := hw.exact_lt hw.pos hp
    rw [matchAlways] at h
    cases hc : (t.node id).child k with
    | some m =>
      simp only [hc] at h
      have hpm : t.find (p ++ [k]) = some m := by
        rw [find, exact_snoc, show t.exact 0 p = some id from hp]; exact hc
      rcases ih t m (p ++ [k]) hw hpm ls c h with h' | ⟨a, b, b', d⟩
      · exact .inl h'
      · refine .inr ⟨a, (List.prefix_append p [k]).trans b, ?_, by simpa using d⟩
        rintro rfl
        have := b.length_le
        simp at this
        omega
    | none =>
      simp only [hc] at h
      have hw1 := hw.addChild v0 hi hc
      have hpm : (t.addChild v0 id k).find (p ++ [k]) = some t.size := by
        rw [find, exact_snoc, (Grows.addChild t v0 id k).exact hw hw1 hw.pos hp]
        show ((t.addChild v0 id k).node id).child k = _
        rw [addChild_child v0 hc hi]; simp
      rcases ih _ _ (p ++ [k]) hw1 hpm ls c h with h' | ⟨a, b, b', d⟩
      · rcases addChild_exact hw v0 hc hw.pos ls h' with h' | ⟨rfl, l, rfl, h2⟩
        · exact .inl h'
        · have := hw.find_inj hp h2
          subst this
          refine .inr ⟨Nat.le_refl _, List.prefix_append _ _, by simp, ?_⟩
          exact ⟨ks, by simp⟩
      · refine .inr ⟨Nat.le_of_succ_le a, (List.prefix_append p [k]).trans b, ?_, by simpa using d⟩
        rintro rfl
        have := b.length_le
        simp at this
        omega

/-- `FirstSatisfyOrNew` from the root either stops at an existing node that satisfies the test, short of the end of the name
and before any node is created, or it is `MatchAlways`. -/
theorem firstSatisfy_spec (v0 : V) (pred : V → Bool) (h0 : pred v0 = false) (ks : List Bytes) :
    ∀ (t : Trie V) (id : Nat), t.WF → id < t.size →
    (∃ l r c, ks = l ++ r ∧ r ≠ [] ∧ t.exact id l = some c ∧ pred (t.node c).val = true ∧
      firstSatisfyOrNew v0 pred t id ks = (c, t)) ∨
    ((∀ l r c, ks = l ++ r → r ≠ [] → t.exact id l = some c → pred (t.node c).val = false) ∧
      firstSatisfyOrNew v0 pred t id ks = matchAlways v0 t id ks) := by
  induction ks with
  | nil =>
    intro t id hw hi
    right
    refine ⟨?_, rfl⟩
    intro l r c h hr
    have := List.append_eq_nil_iff.mp h.symm
    exact absurd this.2 hr
  | cons k ks ih =>
    intro t id hw hi
    rw [firstSatisfyOrNew, matchAlways]
    by_cases hp : pred (t.node id).val = true
    · left
      exact ⟨[], k :: ks, id, rfl, by simp, rfl, hp, by rw [if_pos hp]⟩
    · rw [if_neg hp]
      have hp' : pred (t.node id).val = false := by simpa using hp
      cases hc : (t.node id).child k with
      | some m =>
        simp only
        rcases ih t m hw (hw.child hi hc).1 with ⟨l, r, c, e, hr, hl, hpc, hf⟩ | ⟨hall, hf⟩
        · left
          refine ⟨k :: l, r, c, by rw [e]; rfl, hr, ?_, hpc, hf⟩
          simp only [Trie.exact, hc]; exact hl
        · right
          refine ⟨?_, hf⟩
          intro l r c e hr hl
          cases l with
          | nil =>
            simp only [Trie.exact, Option.some.injEq] at hl
            rw [← hl]; exact hp'
          | cons x l =>
            injection e with e1 e2
            subst e1
            simp only [Trie.exact, hc] at hl
            exact hall l r c e2 hr hl
      | none =>
        simp only
        have hw1 := hw.addChild v0 hi hc
        rcases ih (t.addChild v0 id k) t.size hw1 (Nat.lt_succ_self _) with ⟨l, r, c, e, hr, hl, hpc, hf⟩ | ⟨hall, hf⟩
        · exfalso
          cases l with
          | nil =>
            simp only [Trie.exact, Option.some.injEq] at hl
            rw [← hl, addChild_new] at hpc
            simp only [h0] at hpc
            cases hpc
          | cons x l =>
            simp only [Trie.exact, addChild_new_child] at hl
            cases hl
        · right
          refine ⟨?_, hf⟩
          intro l r c e hr hl
          cases l with
          | nil =>
            simp only [Trie.exact, Option.some.injEq] at hl
            rw [← hl]; exact hp'
          | cons x l =>
            injection e with e1 e2
            subst e1
            simp only [Trie.exact, hc] at hl
            cases hl

/-! ### prefix match -/

theorem prefixMatch_spec (t : Trie V) (ks : List Bytes) : ∀ id, ∃ l r, ks = l ++ r ∧ t.exact id l = some (t.prefixMatch id ks) ∧
    (∀ l' r', ks = l' ++ r' → l.length < l'.length → t.exact id l' = none) := by
  induction ks with
  | nil =>
    intro id
    refine ⟨[], [], rfl, rfl, ?_⟩
    intro l' r' h hl
    have := List.append_eq_nil_iff.mp h.symm
    rw [this.1] at hl
    simp at hl
  | cons k ks ih =>
    intro id
    rw [prefixMatch]
    cases hc : (t.node id).child k with
    | some m =>
      obtain ⟨l, r, e, h1, h2⟩ := ih m
      refine ⟨k :: l, r, by rw [e]; rfl, ?_, ?_⟩
      · simp only [Trie.exact, hc]; exact h1
      · intro l' r' e' hl
        cases l' with
        | nil => simp at hl
        | cons x l' =>
          injection e' with e1 e2
          subst e1
          simp only [Trie.exact, hc]
          exact h2 l' r' e2 (by simpa using hl)
    | none =>
      refine ⟨[], k :: ks, rfl, rfl, ?_⟩
      intro l' r' e' hl
      cases l' with
      | nil => simp at hl
      | cons x l' =>
        injection e' with e1 e2
        subst e1
        simp only [Trie.exact, hc]

/-! ### deletion -/

/-- Shrinking: everything stays but links from nodes to children. -/
structure Shrinks (t t' : Trie V) : Prop where
  size : t'.size = t.size
  val : ∀ i, (t'.node i).val = (t.node i).val
  par : ∀ i, (t'.node i).par = (t.node i).par
  key : ∀ i, (t'.node i).key = (t.node i).key
  dep : ∀ i, (t'.node i).dep = (t.node i).dep
  chd : ∀ i, (t'.node i).chd.Sublist (t.node i).chd

theorem Shrinks.refl (t : Trie V) : Shrinks t t :=
  ⟨rfl, fun _ => rfl, fun _ => rfl, fun _ => rfl, fun _ => rfl, fun _ => List.Sublist.refl _⟩

theorem Shrinks.trans {t t' t'' : Trie V} (a : Shrinks t t') (b : Shrinks t' t'') : Shrinks t t'' :=
  ⟨b.size.trans a.size, fun i => (b.val i).trans (a.val i), fun i => (b.par i).trans (a.par i), fun i => (b.key i).trans (a.key i),
    fun i => (b.dep i).trans (a.dep i), fun i => (b.chd i).trans (a.chd i)⟩

theorem Shrinks.upd (t : Trie V) (id : Nat) (f : List (Bytes × Nat) → List (Bytes × Nat)) (hf : ∀ l, (f l).Sublist l) :
    Shrinks t (t.upd id (fun n => { n with chd := f n.chd })) := by
  refine ⟨rfl, ?_, ?_, ?_, ?_, ?_⟩ <;> intro i <;> simp only [Trie.upd] <;> split <;> first | rfl | exact hf _ | exact List.Sublist.refl _

theorem Shrinks.wf {t t' : Trie V} (h : Shrinks t t') (hw : t.WF) : t'.WF where
  pos := by rw [h.size]; exact hw.pos
  root := by rw [h.par]; exact hw.root
  par := by intro id h1 h2; rw [h.par]; exact hw.par id h1 (h.size ▸ h2)
  chd := by
    intro id h1 k c hc
    rw [h.size, h.par, h.key, h.dep, h.dep]
    exact hw.chd id (h.size ▸ h1) k c ((h.chd id).subset hc)
  nodup := by
    intro id h1
    exact ((h.chd id).map _).nodup (hw.nodup id (h.size ▸ h1))

theorem Shrinks.exact {t t' : Trie V} (h : Shrinks t t') (hw : t.WF) {i c : Nat} {ks : List Bytes} (hi : i < t.size)
    (he : t'.exact i ks = some c) : t.exact i ks = some c := by
  induction ks generalizing i with
  | nil => exact he
  | cons k ks ih =>
    simp only [Trie.exact] at he ⊢
    cases hc : (t'.node i).child k with
    | none => rw [hc] at he; cases he
    | some m =>
      rw [hc] at he
      have := mem_child (hw.nodup i hi) ((h.chd i).subset (child_mem hc))
      rw [this]
      exact ih (hw.child hi this).1 he

theorem deleteLoop_shrinks (pred : V → Bool) : ∀ fuel (t : Trie V) id, Shrinks t (deleteLoop pred fuel t id) := by
  intro fuel
  induction fuel with
  | zero => intro t id; exact .refl t
  | succ n ih =>
    intro t id
    rw [deleteLoop]
    split
    · exact .refl t
    · split
      · exact Shrinks.upd t id (fun _ => []) (fun l => List.nil_sublist l)
      · rename_i p hp
        have s1 : Shrinks t (t.upd id (fun n => { n with chd := [] })) := Shrinks.upd t id (fun _ => []) (fun l => List.nil_sublist l)
        have s2 := Shrinks.upd (t.upd id (fun n => { n with chd := [] })) p
          (fun l => l.filter (fun e => !(e.1 == (t.node id).key))) (fun l => List.filter_sublist)
        simp only
        split
        · exact (s1.trans s2).trans (ih _ _)
        · exact s1.trans s2

theorem deleteIf_shrinks (pred : V → Bool) (t : Trie V) (id : Nat) : Shrinks t (deleteIf pred t id) :=
  deleteLoop_shrinks pred _ t id

theorem find?_filter_ne {l : List (Bytes × Nat)} (k k' : Bytes) (h : k' ≠ k) :
    (l.filter (fun e => !(e.1 == k))).find? (fun e => e.1 == k') = l.find? (fun e => e.1 == k') := by
  induction l with
  | nil => rfl
  | cons a l ih =>
    by_cases ha : a.1 = k
    · have h1 : (!(a.1 == k)) = false := by simp [ha]
      rw [List.filter_cons_of_neg (by simp [ha]), ih, List.find?_cons]
      have : (a.1 == k') = false := by simpa [ha] using fun e => h e.symm
      rw [this]
    · rw [List.filter_cons_of_pos (by simp [ha]), List.find?_cons, List.find?_cons, ih]

theorem find?_filter_eq {l : List (Bytes × Nat)} (k : Bytes) :
    (l.filter (fun e => !(e.1 == k))).find? (fun e => e.1 == k) = none := by
  rw [List.find?_eq_none]
  intro x hx
  have := (List.mem_filter.mp hx).2
  simpa using this

/-- unlinking the node at a path removes exactly the paths through it -/
theorem unlink_find {t : Trie V} (hw : t.WF) {p : List Bytes} {k : Bytes} {m id : Nat} (hm : t.find p = some m)
    (hid : (t.node m).child k = some id) {t2 : Trie V} (hs : Shrinks t t2)
    (h2 : ∀ i, i ≠ m → i ≠ id → (t2.node i).chd = (t.node i).chd)
    (hm2 : (t2.node m).chd = (t.node m).chd.filter (fun e => !(e.1 == k))) (r : List Bytes) :
    t2.find r = if p ++ [k] <+: r then none else t.find r := by
  have hmlt := hw.exact_lt hw.pos hm
  have hpar := hw.child hmlt hid
  induction hn : r.length generalizing r with
  | zero =>
    rw [List.eq_nil_of_length_eq_zero hn]
    rw [if_neg (by intro h; have := h.length_le; simp at this)]
    rfl
  | succ n ih =>
    rcases snoc_cases r with rfl | ⟨l, x, rfl⟩
    · simp at hn
    have hl := ih l (by simpa using hn)
    rw [find, find, exact_snoc, exact_snoc, show t2.exact 0 l = _ from hl]
    by_cases hpl : p ++ [k] <+: l
    · rw [if_pos hpl, if_pos (hpl.trans (List.prefix_append l [x]))]; rfl
    · rw [if_neg hpl]
      by_cases he : p ++ [k] = l ++ [x]
      · obtain ⟨rfl, hkx⟩ := List.append_inj' he rfl
        injection hkx with hkx
        subst hkx
        rw [if_pos (List.prefix_refl _), hm]
        show (t2.node m).child k = none
        unfold TNode.child
        rw [hm2, find?_filter_eq]; rfl
      · have hpn : ¬ (p ++ [k] <+: l ++ [x]) := by
          intro hh
          rcases Nat.lt_or_ge (p ++ [k]).length (l ++ [x]).length with h | h
          · apply hpl
            obtain ⟨s, hs⟩ := hh
            rcases snoc_cases s with rfl | ⟨s', y, rfl⟩
            · simp only [List.append_nil] at hs; exact absurd hs he
            · rw [← List.append_assoc] at hs
              exact ⟨s', (List.append_inj' hs rfl).1⟩
          · exact he (hh.eq_of_length_le h)
        rw [if_neg hpn]
        cases hc : t.find l with
        | none => rw [show t.exact 0 l = none from hc]; rfl
        | some c =>
          rw [show t.exact 0 l = some c from hc]
          show (t2.node c).child x = (t.node c).child x
          by_cases hcm : c = m
          · subst hcm
            have := hw.find_inj hm hc
            subst this
            have hxk : x ≠ k := fun h => he (by rw [h])
            unfold TNode.child
            rw [hm2, find?_filter_ne k x hxk]
          · by_cases hcid : c = id
            · subst hcid
              exfalso
              have : t.find (p ++ [k]) = some c := by rw [find, exact_snoc, show t.exact 0 p = some m from hm]; exact hid
              have := hw.find_inj this hc
              exact hpl (this ▸ List.prefix_refl _)
            · unfold TNode.child
              rw [h2 c hcm hcid]

/-- What `DeleteIf` does at the node of path `p`: nothing if the value fails the test; otherwise there is a top path `q` above
`p`, everything from `q` down goes, and between `q` and `p` there were only value-accepted nodes with a single child. -/
theorem deleteLoop_spec (pred : V → Bool) : ∀ fuel (t : Trie V) (id : Nat) (p : List Bytes), t.WF → t.find p = some id → id < fuel →
    (pred (t.node id).val = false ∧ deleteLoop pred fuel t id = t) ∨
    (pred (t.node id).val = true ∧ ∃ q, q <+: p ∧
      (∀ r, (deleteLoop pred fuel t id).find r = if q <+: r then (if r = [] then some 0 else none) else t.find r) ∧
      (∀ r c, q <+: r → r <+: p → t.find r = some c → pred (t.node c).val = true) ∧
      (∀ r c, q <+: r → t.find r = some c → r <+: p ∨ p <+: r) ∧
      (q ≠ [] → ∀ q' x c, q = q' ++ [x] → t.find q' = some c →
        (∃ k' c', k' ≠ x ∧ (t.node c).child k' = some c') ∨ pred (t.node c).val = false)) := by
  intro fuel
  induction fuel with
  | zero => intro t id p hw hp hf; omega
  | succ n ih =>
    intro t id p hw hp hf
    rw [deleteLoop]
    cases hpv : pred (t.node id).val with
    | false => left; exact ⟨rfl, by simp⟩
    | true =>
      right
      refine ⟨rfl, ?_⟩
      simp only [Bool.not_true, Bool.false_eq_true, if_false]
      rcases snoc_cases p with rfl | ⟨p', k, rfl⟩
      · have : id = 0 := by simpa [find, Trie.exact] using hp.symm
        subst this
        refine ⟨[], List.prefix_refl _, ?_, ?_, ?_, fun h => absurd rfl h⟩
        · intro r
          rw [hw.root]
          simp only
          rw [if_pos List.nil_prefix]
          cases r with
          | nil => rfl
          | cons x r =>
            simp only [find, Trie.exact]
            have : ((t.upd 0 fun n => { n with chd := [] }).node 0).child x = none := by simp [TNode.child, upd]
            rw [this]; rfl
        · intro r c _ hr hc
          have : r = [] := by simpa using hr
          subst this
          have : c = 0 := by simpa [find, Trie.exact] using hc.symm
          subst this; exact hpv
        · intro r c _ _; exact .inr List.nil_prefix
      · have hp0 := hp
        rw [find, exact_snoc] at hp
        cases hm : t.exact 0 p' with
        | none => rw [hm] at hp; cases hp
        | some m =>
          rw [hm] at hp
          replace hp : (t.node m).child k = some id := hp
          have hmlt := hw.exact_lt hw.pos hm
          have hc := hw.child hmlt hp
          rw [hc.2.2.1, hc.2.2.2.1]
          simp only
          have hmid : m < id := by
            obtain ⟨p1, a, b⟩ := hw.par id hc.2.1 hc.1
            have := b.symm.trans hc.2.2.1
            injection this with this
            omega
          have s1 : Shrinks t (t.upd id (fun n => { n with chd := [] })) := Shrinks.upd t id (fun _ => []) (fun l => List.nil_sublist l)
          have s2 := Shrinks.upd (t.upd id (fun n => { n with chd := [] })) m
            (fun l => l.filter (fun e => !(e.1 == k))) (fun l => List.filter_sublist)
          have s12 := s1.trans s2
          generalize ht2 : (t.upd id (fun n => { n with chd := [] })).upd m
            (fun n => { n with chd := n.chd.filter (fun e => !(e.1 == k)) }) = t2 at s12 ⊢
          have hother : ∀ i, i ≠ m → i ≠ id → (t2.node i).chd = (t.node i).chd := by
            intro i h1 h2
            rw [← ht2]
            simp [upd, h1, h2]
          have hmm : (t2.node m).chd = (t.node m).chd.filter (fun e => !(e.1 == k)) := by
            rw [← ht2]
            simp [upd, show m ≠ id by omega]
          have hfind := unlink_find hw hm hp s12 hother hmm
          cases hemp : (t2.node m).chd.isEmpty with
          | false =>
            simp only [Bool.false_eq_true, if_false]
            refine ⟨p' ++ [k], List.prefix_refl _, ?_, ?_, ?_, ?_⟩
            · intro r
              rw [hfind]
              split
              · rename_i hr
                have : r ≠ [] := by
                  rintro rfl
                  have := hr.length_le
                  simp at this
                rw [if_neg this]
              · rfl
            · intro r c h1 h2 h3
              have : r = p' ++ [k] := h2.eq_of_length_le h1.length_le
              subst this
              rw [hp0] at h3
              injection h3 with h3
              subst h3; exact hpv
            · intro r c h1 _; exact .inr h1
            · intro _ q' x c hq hc'
              obtain ⟨rfl, hx⟩ := List.append_inj' hq rfl
              injection hx with hx
              subst hx
              have hcm : c = m := by
                have := hc'.symm.trans hm
                injection this
              subst hcm
              left
              cases hl : (t2.node c).chd with
              | nil => rw [hl] at hemp; cases hemp
              | cons e l =>
                have he : e ∈ (t2.node c).chd := by rw [hl]; exact List.mem_cons_self
                rw [hmm] at he
                have hm' := List.mem_filter.mp he
                refine ⟨e.1, e.2, by simpa using hm'.2, mem_child (hw.nodup c hmlt) hm'.1⟩
          | true =>
            simp only [if_true]
            have hw2 := s12.wf hw
            have hm2 : t2.find p' = some m := by
              rw [hfind, if_neg]
              · exact hm
              · intro h
                have := h.length_le
                simp only [List.length_append, List.length_cons, List.length_nil] at this
                omega
            have hsingle : ∀ k' c', (t.node m).child k' = some c' → k' = k := by
              intro k' c' h
              have hmem := child_mem h
              by_cases hkk : k' = k
              · exact hkk
              · exfalso
                have : (k', c') ∈ (t2.node m).chd := by
                  rw [hmm]
                  exact List.mem_filter.mpr ⟨hmem, by simpa using hkk⟩
                rw [List.isEmpty_iff.mp hemp] at this
                cases this
            -- everything at or below p' in t is p' itself or goes through p' ++ [k]
            have hbelow : ∀ r c, p' <+: r → t.find r = some c → r = p' ∨ p' ++ [k] <+: r := by
              intro r c hr hc'
              obtain ⟨s, rfl⟩ := hr
              cases s with
              | nil => left; simp
              | cons x s =>
                right
                rw [show p' ++ x :: s = (p' ++ [x]) ++ s by simp] at hc'
                obtain ⟨c2, hc2⟩ := find_prefix hc'
                rw [find, exact_snoc, hm] at hc2
                have := hsingle x c2 hc2
                subst this
                exact ⟨s, by simp⟩
            rcases ih t2 m p' hw2 hm2 (by omega) with ⟨hpm, he⟩ | ⟨hpm, q, hq, hfr, hpr, hchain, htop⟩
            · rw [he]
              rw [s12.val] at hpm
              refine ⟨p' ++ [k], List.prefix_refl _, ?_, ?_, ?_, ?_⟩
              · intro r
                rw [hfind]
                split
                · rename_i hr
                  have : r ≠ [] := by
                    rintro rfl
                    have := hr.length_le
                    simp at this
                  rw [if_neg this]
                · rfl
              · intro r c h1 h2 h3
                have : r = p' ++ [k] := h2.eq_of_length_le h1.length_le
                subst this
                rw [hp0] at h3
                injection h3 with h3
                subst h3; exact hpv
              · intro r c h1 _; exact .inr h1
              · intro _ q' x c hq hc'
                obtain ⟨rfl, hx⟩ := List.append_inj' hq rfl
                have hcm : c = m := by
                  have := hc'.symm.trans hm
                  injection this
                subst hcm
                exact .inr hpm
            · refine ⟨q, hq.trans (List.prefix_append _ _), ?_, ?_, ?_, ?_⟩
              · intro r
                rw [hfr]
                by_cases hqr : q <+: r
                · rw [if_pos hqr, if_pos hqr]
                · rw [if_neg hqr, if_neg hqr, hfind, if_neg]
                  intro h
                  exact hqr (hq.trans ((List.prefix_append _ _).trans h))
              · intro r c h1 h2 h3
                by_cases hr : r = p' ++ [k]
                · subst hr
                  rw [hp0] at h3
                  injection h3 with h3
                  subst h3; exact hpv
                · have hrp : r <+: p' := by
                    rcases List.prefix_concat_iff.mp (by simpa using h2) with h | h
                    · exact absurd h hr
                    · exact h
                  have : t2.find r = some c := by
                    rw [hfind, if_neg]
                    · exact h3
                    · intro h
                      have := (h.trans hrp).length_le
                      simp only [List.length_append, List.length_cons, List.length_nil] at this
                      omega
                  have := hpr r c h1 hrp this
                  rwa [s12.val] at this
              · intro r c h1 h3
                by_cases hpk : p' ++ [k] <+: r
                · exact .inr hpk
                · have h2f : t2.find r = some c := by rw [hfind, if_neg hpk]; exact h3
                  rcases hchain r c h1 h2f with h | h
                  · exact .inl (h.trans (List.prefix_append _ _))
                  · rcases hbelow r c h h3 with rfl | h
                    · exact .inl (List.prefix_append _ _)
                    · exact .inr h
              · intro hq0 q' x c hqq hc'
                have hq'p : q' <+: p' := (List.prefix_append q' [x]).trans (hqq ▸ hq)
                have hnp : ¬ (p' ++ [k] <+: q') := by
                  intro h
                  have := (h.trans hq'p).length_le
                  simp only [List.length_append, List.length_cons, List.length_nil] at this
                  omega
                have hc2 : t2.find q' = some c := by rw [hfind, if_neg hnp]; exact hc'
                rcases htop hq0 q' x c hqq hc2 with ⟨k', c', h1, h2⟩ | h
                · left
                  refine ⟨k', c', h1, ?_⟩
                  have hclt := hw.exact_lt hw.pos hc'
                  exact mem_child (hw.nodup c hclt) ((s12.chd c).subset (child_mem h2))
                · right
                  rwa [s12.val] at h

theorem deleteIf_spec (pred : V → Bool) {t : Trie V} {id : Nat} {p : List Bytes} (hw : t.WF) (hp : t.find p = some id) :
    (pred (t.node id).val = false ∧ deleteIf pred t id = t) ∨
    (pred (t.node id).val = true ∧ ∃ q, q <+: p ∧
      (∀ r, (deleteIf pred t id).find r = if q <+: r then (if r = [] then some 0 else none) else t.find r) ∧
      (∀ r c, q <+: r → r <+: p → t.find r = some c → pred (t.node c).val = true) ∧
      (∀ r c, q <+: r → t.find r = some c → r <+: p ∨ p <+: r) ∧
      (q ≠ [] → ∀ q' x c, q = q' ++ [x] → t.find q' = some c →
        (∃ k' c', k' ≠ x ∧ (t.node c).child k' = some c') ∨ pred (t.node c).val = false)) :=
  deleteLoop_spec pred (id + 1) t id p hw hp (Nat.lt_succ_self _)

end Trie

end Ndn.Engine
