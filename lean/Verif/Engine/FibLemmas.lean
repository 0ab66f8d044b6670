import Verif.Engine.TrieLemmas
import Verif.Engine.Fib
import Verif.Enc.TextProps

namespace Ndn.Engine

/-! ### keys of names -/

/-- names whose components have types below 2^64 and numbers in shortest form: their texts tell them apart (C16) -/
def Canon (n : Name) : Prop := ∀ c ∈ n, c.typ < 2 ^ 64 ∧ NumberOk c

theorem keys_prefix {n m : Name} (hn : Canon n) (hm : Canon m) : keys n <+: keys m ↔ n <+: m := by
  constructor
  · induction n generalizing m with
    | nil => intro _; exact List.nil_prefix
    | cons c n ih =>
      intro h
      cases m with
      | nil => exact absurd h.length_le (by simp [keys])
      | cons d m =>
        rw [keys, keys, List.map_cons, List.map_cons, List.cons_prefix_cons] at h
        rw [List.cons_prefix_cons]
        have hc := hn c (by simp)
        have hd := hm d (by simp)
        refine ⟨toStr_injective hc.1 hd.1 hc.2 hd.2 h.1, ih (fun x hx => hn x (by simp [hx])) (fun x hx => hm x (by simp [hx])) h.2⟩
  · rintro ⟨s, rfl⟩
    exact ⟨keys s, by simp [keys]⟩

theorem keys_inj {n m : Name} (hn : Canon n) (hm : Canon m) (h : keys n = keys m) : n = m := by
  have h1 := (keys_prefix hn hm).mp (h ▸ List.prefix_refl _)
  have h2 := (keys_prefix hm hn).mp (h ▸ List.prefix_refl _)
  exact h1.eq_of_length_le h2.length_le

theorem keys_nil {n : Name} : keys n = [] ↔ n = [] := by simp [keys]

/-! ### the invariant of the table -/

open Trie

/-- the value at a path -/
def Fib.at (t : Fib) (ks : List Bytes) : Option Nat := (t.find ks).bind (fun n => (t.node n).val)

structure Fib.Inv (t : Fib) : Prop where
  wf : t.WF
  stop : ∀ p c, t.find p = some c → (t.node c).val ≠ none → (t.node c).chd = []
  leaf : ∀ p c, p ≠ [] → t.find p = some c → (t.node c).chd = [] → (t.node c).val ≠ none

theorem Fib.Inv.new : Fib.new.Inv := by
  refine ⟨WF.new none, ?_, ?_⟩
  · intro p c h hv; simp [Fib.new, Trie.new] at hv
  · intro p c hp h
    cases p with
    | nil => exact absurd rfl hp
    | cons k p => simp [find, Trie.exact, Fib.new, Trie.new, TNode.child] at h

/-- every node but a bare root lies above a handler -/
theorem Fib.Inv.below {t : Fib} (h : t.Inv) : ∀ (n : Nat) (p : List Bytes) (c : Nat), t.size - c ≤ n → t.find p = some c →
    (p ≠ [] ∨ (t.node c).chd ≠ []) → ∃ r x, p <+: r ∧ t.at r = some x ∧ ((t.node c).chd ≠ [] → p ≠ r) := by
  intro n
  induction n with
  | zero =>
    intro p c hn hp _
    have := h.wf.exact_lt h.wf.pos hp
    omega
  | succ n ih =>
    intro p c hn hp hne
    have hc := h.wf.exact_lt h.wf.pos hp
    cases hch : (t.node c).chd with
    | nil =>
      have hp0 : p ≠ [] := by
        rcases hne with h1 | h1
        · exact h1
        · exact absurd hch h1
      have := h.leaf p c hp0 hp hch
      cases hv : (t.node c).val with
      | none => exact absurd hv this
      | some x => exact ⟨p, x, List.prefix_refl _, by rw [Fib.at, hp]; exact hv, fun h => absurd rfl h⟩
    | cons e l =>
      have hm : (e.1, e.2) ∈ (t.node c).chd := by rw [hch]; exact List.mem_cons_self
      have hcc := mem_child (h.wf.nodup c hc) hm
      have hpk : t.find (p ++ [e.1]) = some e.2 := by
        rw [find, exact_snoc, show t.exact 0 p = some c from hp]; exact hcc
      have hw := h.wf.child hc hcc
      have hlt : c < e.2 := by
        obtain ⟨p1, a, b⟩ := h.wf.par e.2 hw.2.1 hw.1
        have := b.symm.trans hw.2.2.1
        injection this with this
        omega
      obtain ⟨r, x, hr, hx, _⟩ := ih (p ++ [e.1]) e.2 (by omega) hpk (.inl (by simp))
      refine ⟨r, x, (List.prefix_append _ _).trans hr, hx, ?_⟩
      rintro - rfl
      have := hr.length_le
      simp only [List.length_append, List.length_cons, List.length_nil] at this
      omega

theorem Fib.at_some {t : Fib} {p : List Bytes} {x : Nat} (h : t.at p = some x) : ∃ c, t.find p = some c ∧ (t.node c).val = some x := by
  rw [Fib.at] at h
  cases hp : t.find p with
  | none => rw [hp] at h; cases h
  | some c => rw [hp] at h; exact ⟨c, rfl, h⟩

/-- values are at the ends of paths -/
theorem Fib.Inv.prefix_free {t : Fib} (h : t.Inv) {p q : List Bytes} {x : Nat} {c : Nat} (hp : t.at p = some x) (hq : t.find q = some c)
    (hpq : p <+: q) : p = q := by
  obtain ⟨a, ha, hv⟩ := Fib.at_some hp
  have hch := h.stop p a ha (by rw [hv]; simp)
  obtain ⟨s, rfl⟩ := hpq
  cases s with
  | nil => simp
  | cons k s =>
    exfalso
    rw [show p ++ k :: s = (p ++ [k]) ++ s by simp] at hq
    obtain ⟨m, hm⟩ := find_prefix hq
    rw [find, exact_snoc, show t.exact 0 p = some a from ha] at hm
    have := child_mem hm
    rw [hch] at this
    cases this

theorem matchAlways_exists {V : Type} (v0 : V) {t : Trie V} {id c : Nat} {ks : List Bytes} (h : t.exact id ks = some c) :
    matchAlways v0 t id ks = (c, t) := by
  induction ks generalizing id with
  | nil => simp only [Trie.exact, Option.some.injEq] at h; rw [matchAlways, h]
  | cons k ks ih =>
    simp only [Trie.exact] at h
    rw [matchAlways]
    cases hc : (t.node id).child k with
    | none => rw [hc] at h; cases h
    | some m => rw [hc] at h; exact ih h

theorem hasChildren_false {V : Type} {t : Trie V} {n : Nat} : t.hasChildren n = false ↔ (t.node n).chd = [] := by
  unfold Trie.hasChildren; cases (t.node n).chd <;> simp

/-- attaching, in terms of paths -/
theorem Fib.Inv.attach_keys {t : Fib} (h : t.Inv) (pre : Name) (hd : Nat) :
    ((t.attach pre (some hd)).1 = false ∧ (t.attach pre (some hd)).2 = t ∧
      ∃ q x, t.at q = some x ∧ (q <+: keys pre ∨ keys pre <+: q)) ∨
    ((t.attach pre (some hd)).1 = true ∧ (t.attach pre (some hd)).2.Inv ∧
      (∀ q x, t.at q = some x → ¬ q <+: keys pre ∧ ¬ keys pre <+: q) ∧
      ∀ r, (t.attach pre (some hd)).2.at r = if r = keys pre then some hd else t.at r) := by
  have hpos := h.wf.pos
  unfold Fib.attach
  rcases firstSatisfy_spec none (fun v : Option Nat => v.isSome) rfl (keys pre) t 0 h.wf hpos with
    ⟨l, r, c, e, hr, hl, hpc, hf⟩ | ⟨hall, hf⟩
  · left
    rw [hf]
    simp only [hpc, Bool.true_or, if_true]
    obtain ⟨x, hx⟩ := Option.isSome_iff_exists.mp hpc
    refine ⟨trivial, trivial, l, x, ?_, .inl ⟨r, e.symm⟩⟩
    rw [Fib.at, show t.find l = some c from hl]; exact hx
  · rw [hf]
    cases hex : t.find (keys pre) with
    | some c =>
      rw [matchAlways_exists none hex]
      simp only
      cases hv : (t.node c).val with
      | some x =>
        left
        simp only [Option.isSome_some, Bool.true_or, if_true]
        refine ⟨trivial, trivial, keys pre, x, ?_, .inl (List.prefix_refl _)⟩
        rw [Fib.at, hex]; exact hv
      | none =>
        cases hh : t.hasChildren c with
        | true =>
          left
          simp only [Bool.or_true, if_true]
          refine ⟨trivial, trivial, ?_⟩
          have hne : (t.node c).chd ≠ [] := by
            intro h0
            rw [hasChildren_false.mpr h0] at hh
            cases hh
          obtain ⟨q, x, hq, hx, _⟩ := h.below _ (keys pre) c (Nat.le_refl _) hex (.inr hne)
          exact ⟨q, x, hx, .inr hq⟩
        | false =>
          -- only a bare root has neither value nor children
          have hch := hasChildren_false.mp hh
          have hp0 : keys pre = [] := by
            by_cases h0 : keys pre = []
            · exact h0
            · exact absurd hv (h.leaf _ c h0 hex hch)
          right
          simp only [Option.isSome_none, Bool.or_false, Bool.false_eq_true, if_false]
          rw [hp0] at hex ⊢
          have hc0 : c = 0 := by simpa [find, Trie.exact] using hex.symm
          subst hc0
          have hs := setValue_same t 0 (some hd)
          have hfind : ∀ r m, (t.setValue 0 (some hd)).find r = some m → r = [] ∧ m = 0 := by
            intro r m hr
            rw [find, hs.exact] at hr
            cases r with
            | nil => exact ⟨rfl, by simpa [Trie.exact] using hr.symm⟩
            | cons k r =>
              simp only [Trie.exact, TNode.child, hch, List.find?_nil, Option.map_none] at hr
              cases hr
          have hat : ∀ q, q ≠ [] → t.at q = none := by
            intro q hq
            cases q with
            | nil => exact absurd rfl hq
            | cons k q => simp [Fib.at, find, Trie.exact, TNode.child, hch]
          refine ⟨trivial, ⟨hs.wf h.wf, ?_, ?_⟩, ?_, ?_⟩
          · intro p m hp _
            rw [(hfind p m hp).2, hs.chd]; exact hch
          · intro p m hp0 hp
            exact absurd (hfind p m hp).1 hp0
          · intro q x hx
            exfalso
            by_cases hq : q = []
            · subst hq
              rw [Fib.at, hex] at hx
              simp only [Option.bind_some, hv] at hx
              cases hx
            · rw [hat q hq] at hx; cases hx
          · intro r
            by_cases hr : r = []
            · subst hr
              rw [if_pos rfl, Fib.at, find, hs.exact]
              show ((t.setValue 0 (some hd)).node 0).val = _
              rw [setValue_val, if_pos rfl]
            · rw [if_neg hr, hat r hr, Fib.at]
              cases hf' : (t.setValue 0 (some hd)).find r with
              | none => rfl
              | some m => exact absurd (hfind r m hf').1 hr
    | none =>
      obtain ⟨hw1, hg, hend, hlt⟩ := matchAlways_spec none (keys pre) t 0 h.wf hpos
      have hoff := matchAlways_off none (keys pre) t 0 [] h.wf rfl
      generalize matchAlways none t 0 (keys pre) = res at hw1 hg hend hlt hoff
      obtain ⟨n, t1⟩ := res
      simp only at hw1 hg hend hlt hoff ⊢
      have hnew : t.size ≤ n := by
        rcases hoff _ _ hend with h' | h'
        · rw [hex] at h'; cases h'
        · exact h'.1
      have hnv : (t1.node n).val = none := hg.fresh n hnew hlt
      have hnoext : ∀ q m, t.find q = some m → ¬ keys pre <+: q := by
        intro q m hq hpq
        obtain ⟨s, rfl⟩ := hpq
        obtain ⟨m', hm'⟩ := find_prefix hq
        rw [hex] at hm'; cases hm'
      have hnch : (t1.node n).chd = [] := by
        cases hch : (t1.node n).chd with
        | nil => rfl
        | cons e l =>
          exfalso
          have hm : (e.1, e.2) ∈ (t1.node n).chd := by rw [hch]; exact List.mem_cons_self
          have hcc := mem_child (hw1.nodup n hlt) hm
          have hpk : t1.find (keys pre ++ [e.1]) = some e.2 := by
            rw [find, exact_snoc, hend]; exact hcc
          rcases hoff _ _ hpk with h' | ⟨_, _, _, h'⟩
          · exact hnoext _ _ h' (List.prefix_append _ _)
          · have := h'.length_le
            simp only [List.length_append, List.length_cons, List.length_nil, List.nil_append] at this
            omega
      right
      rw [hnv, hasChildren_false.mpr hnch]
      simp only [Option.isSome_none, Bool.or_false, Bool.false_eq_true, if_false]
      have hs := setValue_same t1 n (some hd)
      have hstrict : ∀ q x, t.at q = some x → ¬ q <+: keys pre := by
        intro q x hq hpq
        obtain ⟨a, ha, hv⟩ := Fib.at_some hq
        obtain ⟨s, hs'⟩ := hpq
        cases s with
        | nil =>
          simp only [List.append_nil] at hs'
          rw [hs', hex] at ha; cases ha
        | cons k s =>
          have := hall q (k :: s) a hs'.symm (by simp) ha
          rw [hv] at this; cases this
      have hold : ∀ r m, t.find r = some m → t1.find r = some m := fun r m hr => hg.exact h.wf hw1 hpos hr
      refine ⟨trivial, ⟨hs.wf hw1, ?_, ?_⟩, ?_, ?_⟩
      · intro p c hp hv
        rw [find, hs.exact] at hp
        rw [hs.chd]
        rw [setValue_val] at hv
        by_cases hcn : c = n
        · rw [hcn]; exact hnch
        · rw [if_neg hcn] at hv
          rcases hoff p c hp with hp' | ⟨hge, _, _, _⟩
          · have hc := h.wf.exact_lt hpos hp'
            rw [hg.val c hc] at hv
            obtain ⟨x, hx⟩ := Option.ne_none_iff_exists'.mp hv
            have hat : t.at p = some x := by rw [Fib.at, hp']; exact hx
            cases hch : (t1.node c).chd with
            | nil => rfl
            | cons e l =>
              exfalso
              have hm : (e.1, e.2) ∈ (t1.node c).chd := by rw [hch]; exact List.mem_cons_self
              have hcc := mem_child (hw1.nodup c (hw1.exact_lt hw1.pos hp)) hm
              have hpk : t1.find (p ++ [e.1]) = some e.2 := by
                rw [find, exact_snoc, hp]; exact hcc
              rcases hoff _ _ hpk with h' | ⟨_, _, _, h'⟩
              · have := h.prefix_free hat h' (List.prefix_append _ _)
                simp at this
              · exact hstrict p x hat ((List.prefix_append _ _).trans h')
          · have := hg.fresh c hge (hw1.exact_lt hw1.pos hp)
            exact absurd this hv
      · intro p c hp0 hp hch
        rw [find, hs.exact] at hp
        rw [hs.chd] at hch
        rw [setValue_val]
        by_cases hcn : c = n
        · rw [if_pos hcn]; simp
        · rw [if_neg hcn]
          rcases hoff p c hp with hp' | ⟨_, _, _, hpp⟩
          · have hc := h.wf.exact_lt hpos hp'
            rw [hg.val c hc]
            apply h.leaf p c hp0 hp'
            cases hch' : (t.node c).chd with
            | nil => rfl
            | cons e l =>
              have := hg.chd c hc e (by rw [hch']; exact List.mem_cons_self)
              rw [hch] at this; cases this
          · exfalso
            simp only [List.nil_append] at hpp
            obtain ⟨s, hs'⟩ := hpp
            cases s with
            | nil =>
              simp only [List.append_nil] at hs'
              rw [hs'] at hp
              have := hp.symm.trans hend
              injection this with this
              exact hcn this
            | cons k s =>
              rw [← hs', show p ++ k :: s = (p ++ [k]) ++ s by simp] at hend
              obtain ⟨m, hm⟩ := find_prefix (t := t1) hend
              rw [find, exact_snoc, hp] at hm
              have := child_mem hm
              rw [hch] at this; cases this
      · intro q x hq
        refine ⟨hstrict q x hq, ?_⟩
        obtain ⟨a, ha, _⟩ := Fib.at_some hq
        exact hnoext q a ha
      · intro r
        rw [Fib.at, find, hs.exact]
        by_cases hr : r = keys pre
        · subst hr
          rw [if_pos rfl, hend]
          show ((t1.setValue n (some hd)).node n).val = _
          rw [setValue_val, if_pos rfl]
        · rw [if_neg hr, Fib.at]
          cases hf1 : t1.exact 0 r with
          | none =>
            cases hf0 : t.find r with
            | none => rfl
            | some m => rw [show t1.exact 0 r = some m from hold r m hf0] at hf1; cases hf1
          | some m =>
            show ((t1.setValue n (some hd)).node m).val = _
            have hmn : m ≠ n := by
              rintro rfl
              exact hr (hw1.find_inj hf1 hend)
            rw [setValue_val, if_neg hmn]
            rcases hoff r m hf1 with h' | ⟨hge, _⟩
            · rw [h']; exact hg.val m (h.wf.exact_lt hpos h')
            · rw [hg.fresh m hge (hw1.exact_lt hw1.pos hf1)]
              cases hf0 : t.find r with
              | none => rfl
              | some m' =>
                have := (show t1.exact 0 r = some m' from hold r m' hf0).symm.trans hf1
                injection this with this
                have := h.wf.exact_lt hpos hf0
                omega

/-- detaching, in terms of paths -/
theorem Fib.Inv.detach_keys {t : Fib} (h : t.Inv) (pre : Name) :
    ((t.detach pre).1 = false ∧ (t.detach pre).2 = t ∧ keys pre ≠ [] ∧ ∀ q x, t.at q = some x → ¬ keys pre <+: q) ∨
    ((t.detach pre).1 = true ∧ (t.detach pre).2.Inv ∧ (keys pre = [] ∨ ∃ q x, t.at q = some x ∧ keys pre <+: q) ∧
      ∀ r, (t.detach pre).2.at r = if keys pre <+: r ∧ r ≠ [] then none else t.at r) := by
  unfold Fib.detach
  cases hex : t.exact 0 (keys pre) with
  | none =>
    left
    refine ⟨rfl, rfl, ?_, ?_⟩
    · intro h0; rw [h0] at hex; cases hex
    · intro q x hq hpq
      obtain ⟨a, ha, _⟩ := Fib.at_some hq
      obtain ⟨s, rfl⟩ := hpq
      obtain ⟨m, hm⟩ := find_prefix ha
      rw [find, hex] at hm; cases hm
  | some n =>
    right
    have hs := deleteIf_shrinks (fun _ => true) t n
    rcases deleteIf_spec (fun _ => true) h.wf hex with ⟨hf, _⟩ | ⟨_, q, hq, hfind, _, hchain, htop⟩
    · cases hf
    have hdel : t.delete n = deleteIf (fun _ => true) t n := rfl
    refine ⟨rfl, ?_, ?_, ?_⟩
    · simp only
      rw [hdel]
      refine ⟨hs.wf h.wf, ?_, ?_⟩
      · intro p c hp hv
        have hp' := hs.exact h.wf h.wf.pos hp
        rw [hs.val] at hv
        have := h.stop p c hp' hv
        have hsub := hs.chd c
        rw [this] at hsub
        exact List.sublist_nil.mp hsub
      · intro p c hp0 hp hch
        have hp' := hs.exact h.wf h.wf.pos hp
        rw [hs.val]
        apply h.leaf p c hp0 hp'
        cases hch' : (t.node c).chd with
        | nil => rfl
        | cons e l =>
          exfalso
          have hclt := h.wf.exact_lt h.wf.pos hp'
          have hcc := mem_child (h.wf.nodup c hclt) (show (e.1, e.2) ∈ (t.node c).chd by rw [hch']; exact List.mem_cons_self)
          have hnq : ¬ q <+: p := by
            intro hqp
            have := hfind p
            rw [hp, if_pos hqp, if_neg hp0] at this
            cases this
          -- every child of c is gone, so q is the path of each of them
          have hgone : ∀ k m, (t.node c).child k = some m → q = p ++ [k] := by
            intro k m hk
            have hpk : t.find (p ++ [k]) = some m := by
              rw [find, exact_snoc, hp']; exact hk
            have := hfind (p ++ [k])
            rw [find, exact_snoc, show Trie.exact _ 0 p = some c from hp] at this
            have hno : ((deleteIf (fun _ => true) t n).node c).child k = none := by
              unfold TNode.child; rw [hch]; rfl
            rw [show ((some c).bind fun c => ((deleteIf (fun _ => true) t n).node c).child k) = none from hno] at this
            by_cases hqk : q <+: p ++ [k]
            · rcases List.prefix_concat_iff.mp hqk with h' | h'
              · exact h'
              · exact absurd h' hnq
            · rw [if_neg hqk, hpk] at this; cases this
          have hq1 := hgone e.1 e.2 hcc
          have hq0 : q ≠ [] := by rw [hq1]; simp
          rcases htop hq0 p e.1 c hq1 hp' with ⟨k', c', hk', hc'⟩ | h'
          · have := hgone k' c' hc'
            rw [hq1] at this
            have := (List.append_inj' this rfl).2
            injection this with this
            exact hk' this.symm
          · cases h'
    · by_cases h0 : keys pre = []
      · exact .inl h0
      · right
        obtain ⟨r, x, hr, hx, _⟩ := h.below _ (keys pre) n (Nat.le_refl _) hex (.inl h0)
        exact ⟨r, x, hx, hr⟩
    · intro r
      simp only
      rw [hdel, Fib.at, hfind]
      by_cases hr0 : r = []
      · subst hr0
        simp only [ne_eq, not_true_eq_false, and_false, if_false, if_true]
        have : (if q <+: [] then some 0 else t.find []) = some 0 := by split <;> rfl
        rw [this]
        show ((deleteIf (fun _ => true) t n).node 0).val = _
        rw [hs.val]; rfl
      · by_cases hqr : q <+: r
        · rw [if_pos hqr, if_neg hr0]
          split
          · rfl
          · rename_i hn
            have hnp : ¬ keys pre <+: r := fun h' => hn ⟨h', hr0⟩
            show none = t.at r
            cases hat : t.at r with
            | none => rfl
            | some x =>
              exfalso
              obtain ⟨a, ha, _⟩ := Fib.at_some hat
              rcases hchain r a hqr ha with h' | h'
              · have := h.prefix_free hat hex h'
                exact hnp (this ▸ List.prefix_refl _)
              · exact hnp h'
        · rw [if_neg hqr]
          have hnp : ¬ (keys pre <+: r ∧ r ≠ []) := fun h' => hqr (hq.trans h'.1)
          rw [if_neg hnp, Fib.at]
          cases t.find r with
          | none => rfl
          | some m => show ((deleteIf (fun _ => true) t n).node m).val = _; rw [hs.val]; rfl

/-- dispatching, in terms of paths -/
theorem Fib.Inv.handler_keys {t : Fib} (h : t.Inv) (name : Name) (x : Nat) :
    t.handler name = some x ↔ ∃ q, q <+: keys name ∧ t.at q = some x := by
  obtain ⟨l, r, e, h1, h2⟩ := prefixMatch_spec t (keys name) 0
  constructor
  · intro hx
    refine ⟨l, ⟨r, e.symm⟩, ?_⟩
    rw [Fib.at, show t.find l = _ from h1]; exact hx
  · rintro ⟨q, hq, hx⟩
    obtain ⟨a, ha, hv⟩ := Fib.at_some hx
    have hql : q <+: l := by
      have hl : l <+: keys name := ⟨r, e.symm⟩
      rcases List.prefix_or_prefix_of_prefix hq hl with h' | h'
      · exact h'
      · rcases Nat.lt_or_ge l.length q.length with hlt | hge
        · obtain ⟨s, hs⟩ := hq
          have := h2 q s hs.symm hlt
          rw [show t.exact 0 q = some a from ha] at this; cases this
        · rw [h'.eq_of_length_le hge]; exact List.prefix_refl _
    have := h.prefix_free hx h1 hql
    subst this
    have := ha.symm.trans h1
    injection this with this
    rw [Fib.handler, ← this]; exact hv

theorem fibAfter_inv (ops : List FibOp) : (fibAfter ops).Inv := by
  induction ops with
  | nil => exact Fib.Inv.new
  | cons op ops ih =>
    cases op with
    | attach p h =>
      rcases ih.attach_keys p h with ⟨_, he, _⟩ | ⟨_, hi, _⟩
      · show ((fibAfter ops).attach p (some h)).2.Inv
        rw [he]; exact ih
      · exact hi
    | detach p =>
      rcases ih.detach_keys p with ⟨_, he, _⟩ | ⟨_, hi, _⟩
      · show ((fibAfter ops).detach p).2.Inv
        rw [he]; exact ih
      · exact hi

end Ndn.Engine
