import Verif.Engine.FibLemmas
import Verif.Engine.Pit

namespace Ndn.Engine

open Trie

variable {V : Type}

/-! ### the path of a node, live or not -/

/-- the keys from the root to a node, following `par` -/
def Trie.pathN (t : Trie V) : Nat → Nat → List Bytes
  | 0, _ => []
  | fuel + 1, id => match (t.node id).par with
    | none => []
    | some p => t.pathN fuel p ++ [(t.node id).key]

def Trie.path (t : Trie V) (id : Nat) : List Bytes := t.pathN (id + 1) id

theorem pathN_congr {t t' : Trie V} (hw : t.WF) (hp : ∀ i, i < t.size → (t'.node i).par = (t.node i).par)
    (hk : ∀ i, i < t.size → (t'.node i).key = (t.node i).key) : ∀ fuel id, id < t.size → t'.pathN fuel id = t.pathN fuel id := by
  intro fuel
  induction fuel with
  | zero => intro id _; rfl
  | succ n ih =>
    intro id hi
    rw [Trie.pathN, Trie.pathN, hp id hi, hk id hi]
    cases hpar : (t.node id).par with
    | none => rfl
    | some p =>
      have : p < t.size := by
        rcases Nat.eq_zero_or_pos id with h0 | h0
        · subst h0; rw [hw.root] at hpar; cases hpar
        · obtain ⟨p', h1, h2⟩ := hw.par id h0 hi
          rw [hpar] at h2
          injection h2 with h2
          omega
      simp only [ih p this]

theorem Trie.Same.path {t t' : Trie V} (h : Same t t') (hw : t.WF) {i : Nat} (hi : i < t.size) : t'.path i = t.path i :=
  pathN_congr hw (fun i _ => h.par i) (fun i _ => h.key i) _ i hi

theorem Trie.Shrinks.path {t t' : Trie V} (h : Shrinks t t') (hw : t.WF) {i : Nat} (hi : i < t.size) : t'.path i = t.path i :=
  pathN_congr hw (fun i _ => h.par i) (fun i _ => h.key i) _ i hi

theorem Trie.Grows.path {v0 : V} {t t' : Trie V} (h : Grows v0 t t') (hw : t.WF) {i : Nat} (hi : i < t.size) : t'.path i = t.path i :=
  pathN_congr hw h.par h.key _ i hi

theorem pathN_fuel {t : Trie V} (hw : t.WF) : ∀ (id : Nat), id < t.size → ∀ fuel, id < fuel → t.pathN fuel id = t.path id := by
  intro id
  induction id using Nat.strongRecOn with
  | ind id ih =>
    intro hi fuel hf
    cases fuel with
    | zero => omega
    | succ n =>
      rw [Trie.path, Trie.pathN, Trie.pathN]
      cases hpar : (t.node id).par with
      | none => rfl
      | some p =>
        have : p < id := by
          rcases Nat.eq_zero_or_pos id with h0 | h0
          · subst h0; rw [hw.root] at hpar; cases hpar
          · obtain ⟨p', h1, h2⟩ := hw.par id h0 hi
            rw [hpar] at h2
            injection h2 with h2
            omega
        simp only
        rw [ih p this (by omega) n (by omega), ih p this (by omega) id (by omega)]

/-- the path of a live node is where it is found -/
theorem path_of_find {t : Trie V} (hw : t.WF) : ∀ (p : List Bytes) (c : Nat), t.find p = some c → t.path c = p := by
  intro p
  induction hn : p.length generalizing p with
  | zero =>
    intro c hc
    rw [List.eq_nil_of_length_eq_zero hn] at hc ⊢
    have : c = 0 := by simpa [find, Trie.exact] using hc.symm
    subst this
    rw [Trie.path, Trie.pathN, hw.root]
  | succ n ih =>
    intro c hc
    rcases snoc_cases p with rfl | ⟨l, k, rfl⟩
    · simp at hn
    · have hc0 := hc
      rw [find, exact_snoc] at hc
      cases hm : t.exact 0 l with
      | none => rw [hm] at hc; cases hc
      | some m =>
        rw [hm] at hc
        have hmlt := hw.exact_lt hw.pos hm
        have hch := hw.child hmlt hc
        have hlt : m < c := by
          obtain ⟨p', h1, h2⟩ := hw.par c hch.2.1 hch.1
          rw [hch.2.2.1] at h2
          injection h2 with h2
          omega
        rw [Trie.path, Trie.pathN, hch.2.2.1, hch.2.2.2.1]
        simp only
        rw [pathN_fuel hw m hmlt c hlt, ih l (by simpa using hn) m hm]

/-- the ancestors of a live node are the live nodes of the prefixes of its path -/
theorem mem_upwards {t : Trie V} (hw : t.WF) : ∀ fuel (n : Nat) (p : List Bytes), t.find p = some n → n < fuel →
    ∀ c, c ∈ t.upwards fuel n ↔ ∃ q, q <+: p ∧ t.find q = some c := by
  intro fuel
  induction fuel with
  | zero => intro n p _ h; omega
  | succ f ih =>
    intro n p hp hf c
    rw [Trie.upwards]
    rcases snoc_cases p with rfl | ⟨l, k, rfl⟩
    · have : n = 0 := by simpa [find, Trie.exact] using hp.symm
      subst this
      rw [hw.root]
      constructor
      · intro hc
        rw [List.mem_singleton.mp hc]
        exact ⟨[], List.prefix_refl _, rfl⟩
      · rintro ⟨q, hq, hc⟩
        have : q = [] := by simpa using hq
        subst this
        have : c = 0 := by simpa [find, Trie.exact] using hc.symm
        simp [this]
    · have hp0 := hp
      rw [find, exact_snoc] at hp
      cases hm : t.exact 0 l with
      | none => rw [hm] at hp; cases hp
      | some m =>
        rw [hm] at hp
        have hmlt := hw.exact_lt hw.pos hm
        have hch := hw.child hmlt hp
        have hlt : m < n := by
          obtain ⟨p', h1, h2⟩ := hw.par n hch.2.1 hch.1
          rw [hch.2.2.1] at h2
          injection h2 with h2
          omega
        rw [hch.2.2.1]
        simp only
        rw [List.mem_cons, ih m l hm (by omega) c]
        constructor
        · rintro (rfl | ⟨q, hq, hc⟩)
          · exact ⟨l ++ [k], List.prefix_refl _, hp0⟩
          · exact ⟨q, hq.trans (List.prefix_append _ _), hc⟩
        · rintro ⟨q, hq, hc⟩
          rcases List.prefix_concat_iff.mp (by simpa using hq) with rfl | hq
          · left
            rw [hp0] at hc
            injection hc with hc
            exact hc.symm
          · exact .inr ⟨q, hq, hc⟩

theorem mem_ancestors {t : Trie V} (hw : t.WF) {n : Nat} {p : List Bytes} (h : t.find p = some n) (c : Nat) :
    c ∈ t.ancestors n ↔ ∃ q, q <+: p ∧ t.find q = some c := mem_upwards hw _ n p h (Nat.lt_succ_self _) c

/-! ### invariants of the table -/

structure Pit.Inv (s : Pit) : Prop where
  wf : s.trie.WF
  dep0 : (s.trie.node 0).dep = 0
  out : ∀ m, s.trie.size ≤ m → (s.trie.node m).val = []
  ids : ∀ e ∈ s.sent, e.id < s.next
  uniq : ∀ e ∈ s.sent, ∀ e' ∈ s.sent, e.id = e'.id → e = e'
  callIds : ∀ c ∈ s.calls, c.1 < s.next
  home : ∀ m, ∀ y ∈ (s.trie.node m).val, ∃ e ∈ s.sent, e.id = y.id ∧ e.canBePrefix = y.canBePrefix ∧
    (splitDigest e.name).2 = y.impSha256 ∧ s.trie.path m = keys (splitDigest e.name).1

theorem Pit.Inv.new : Pit.new.Inv where
  wf := WF.new []
  dep0 := rfl
  out := fun _ _ => rfl
  ids := by intro e he; cases he
  uniq := by intro e he; cases he
  callIds := by intro c hc; cases hc
  home := by intro m y hy; cases hy

theorem Pit.Inv.lt_size {s : Pit} (h : s.Inv) {m : Nat} {y : Pend} (hy : y ∈ (s.trie.node m).val) : m < s.trie.size := by
  rcases Nat.lt_or_ge m s.trie.size with hl | hg
  · exact hl
  · rw [h.out m hg] at hy; cases hy

theorem Pit.Inv.id_lt {s : Pit} (h : s.Inv) {m : Nat} {y : Pend} (hy : y ∈ (s.trie.node m).val) : y.id < s.next := by
  obtain ⟨e, he, hid, _⟩ := h.home m y hy
  rw [← hid]; exact h.ids e he

/-- a step that adds no pending Interest keeps the invariants -/
theorem Pit.Inv.settle {s s' : Pit} (h : s.Inv) (hsize : s'.trie.size = s.trie.size) (hwf : s'.trie.WF)
    (hpar : ∀ i, (s'.trie.node i).par = (s.trie.node i).par) (hkey : ∀ i, (s'.trie.node i).key = (s.trie.node i).key)
    (hdep : ∀ i, (s'.trie.node i).dep = (s.trie.node i).dep)
    (hval : ∀ i, ∀ y ∈ (s'.trie.node i).val, y ∈ (s.trie.node i).val) (hsent : s'.sent = s.sent) (hnext : s'.next = s.next)
    (hcalls : ∀ c ∈ s'.calls, c ∈ s.calls ∨ ∃ m, ∃ y ∈ (s.trie.node m).val, c.1 = y.id) : s'.Inv where
  wf := hwf
  dep0 := (hdep 0).trans h.dep0
  out m hm := by
    cases hv : (s'.trie.node m).val with
    | nil => rfl
    | cons y l =>
      have := hval m y (by rw [hv]; exact List.mem_cons_self)
      rw [h.out m (hsize ▸ hm)] at this; cases this
  ids := by rw [hsent, hnext]; exact h.ids
  uniq := by rw [hsent]; exact h.uniq
  callIds c hc := by
    rw [hnext]
    rcases hcalls c hc with h' | ⟨m, y, hy, he⟩
    · exact h.callIds c h'
    · rw [he]; exact h.id_lt hy
  home m y hy := by
    have hy' := hval m y hy
    rw [hsent, show s'.trie.path m = s.trie.path m from
      pathN_congr h.wf (fun i _ => hpar i) (fun i _ => hkey i) _ m (h.lt_size hy')]
    exact h.home m y hy'

/-! ### the effect of each step on values, calls and timers -/

/-- Settling: entries of the node `cur` that satisfy `f` are taken out and called with `o`; nothing else happens to values or
calls.  The tree may lose links. -/
structure Settle (s s' : Pit) (cur : Nat) (f : Pend → Bool) (o : Outcome) : Prop where
  size : s'.trie.size = s.trie.size
  wf : s'.trie.WF
  par : ∀ i, (s'.trie.node i).par = (s.trie.node i).par
  key : ∀ i, (s'.trie.node i).key = (s.trie.node i).key
  dep : ∀ i, (s'.trie.node i).dep = (s.trie.node i).dep
  val : ∀ i, (s'.trie.node i).val = if i = cur then (s.trie.node i).val.filter (fun e => !f e) else (s.trie.node i).val
  calls : s'.calls = (((s.trie.node cur).val.filter f).map (fun e => (e.id, o))).reverse ++ s.calls
  sent : s'.sent = s.sent
  next : s'.next = s.next
  now : s'.now = s.now

theorem Settle.inv {s s' : Pit} {cur : Nat} {f : Pend → Bool} {o : Outcome} (h : Settle s s' cur f o) (hi : s.Inv) : s'.Inv := by
  refine hi.settle h.size h.wf h.par h.key h.dep ?_ h.sent h.next ?_
  · intro i y hy
    rw [h.val] at hy
    split at hy
    · exact (List.mem_filter.mp hy).1
    · exact hy
  · intro c hc
    rw [h.calls, List.mem_append, List.mem_reverse, List.mem_map] at hc
    rcases hc with ⟨y, hy, rfl⟩ | hc
    · exact .inr ⟨cur, y, (List.mem_filter.mp hy).1, rfl⟩
    · exact .inl hc

theorem deliver_settle (sha : Bytes → Bytes) (name : Name) (raw : Bytes) (s : Pit) (cur : Nat) (hw : s.trie.WF) :
    Settle s (s.deliver sha name raw cur) cur (Pend.satisfied sha (s.trie.node cur).dep name raw) (.data name raw) := by
  have hs := setValue_same s.trie cur ((s.trie.node cur).val.filter
    (fun e => !Pend.satisfied sha (s.trie.node cur).dep name raw e))
  refine ⟨hs.size, hs.wf hw, hs.par, hs.key, hs.dep, ?_, rfl, rfl, rfl, rfl⟩
  intro i
  show ((s.trie.setValue cur _).node i).val = _
  rw [setValue_val]
  split
  · rename_i h; rw [h]
  · rfl

theorem timeout_settle (s : Pit) (n : Nat) (hw : s.trie.WF) :
    Settle s (s.timeoutFunc n) n (fun e => !decide (s.now < e.deadline)) .timeout := by
  have hs := setValue_same s.trie n ((s.trie.node n).val.filter (fun e => decide (s.now < e.deadline)))
  have hd := deleteIf_shrinks (fun l : List Pend => l.isEmpty)
    (s.trie.setValue n ((s.trie.node n).val.filter (fun e => decide (s.now < e.deadline)))) n
  refine ⟨hd.size.trans hs.size, hd.wf (hs.wf hw), fun i => (hd.par i).trans (hs.par i), fun i => (hd.key i).trans (hs.key i),
    fun i => (hd.dep i).trans (hs.dep i), ?_, rfl, rfl, rfl, rfl⟩
  intro i
  refine (hd.val i).trans ?_
  rw [setValue_val]
  simp only [Bool.not_not]
  split
  · rename_i h; rw [h]
  · rfl

/-! ### how often a call was answered -/

def Pit.answered (s : Pit) (x : Nat) : Nat := s.calls.countP (fun c => c.1 == x)
def Pit.waiting (s : Pit) (x m : Nat) : Nat := (s.trie.node m).val.countP (fun e => e.id == x)

theorem countP_split {α : Type} (p f : α → Bool) (l : List α) :
    (l.filter f).countP p + (l.filter (fun e => !f e)).countP p = l.countP p := by
  induction l with
  | nil => rfl
  | cons a l ih =>
    cases hf : f a with
    | true =>
      rw [List.filter_cons_of_pos hf, List.filter_cons_of_neg (by simp [hf]), List.countP_cons, List.countP_cons]
      omega
    | false =>
      rw [List.filter_cons_of_neg (by simp [hf]), List.filter_cons_of_pos (by simp [hf]), List.countP_cons, List.countP_cons]
      omega

theorem Settle.count {s s' : Pit} {cur : Nat} {f : Pend → Bool} {o : Outcome} (h : Settle s s' cur f o) (x : Nat) :
    (∀ m, m ≠ cur → s'.waiting x m = s.waiting x m) ∧
    s'.waiting x cur + s'.answered x = s.waiting x cur + s.answered x := by
  refine ⟨?_, ?_⟩
  · intro m hm
    rw [Pit.waiting, Pit.waiting, h.val, if_neg hm]
  · rw [Pit.waiting, Pit.waiting, Pit.answered, Pit.answered, h.val, if_pos rfl, h.calls, List.countP_append, List.countP_reverse,
      List.countP_map]
    have := countP_split (fun e : Pend => e.id == x) f (s.trie.node cur).val
    have he : ((fun c : Nat × Outcome => c.1 == x) ∘ fun e : Pend => (e.id, o)) = fun e : Pend => e.id == x := rfl
    rw [he]
    omega

/-- a call waits in one place at most, and has been answered or waits, not both -/
def Pit.Once (s : Pit) (x m : Nat) : Prop := (∀ m', m' ≠ m → s.waiting x m' = 0) ∧ s.waiting x m + s.answered x ≤ 1

theorem Settle.once {s s' : Pit} {cur : Nat} {f : Pend → Bool} {o : Outcome} (h : Settle s s' cur f o) {x m : Nat}
    (ho : s.Once x m) : s'.Once x m := by
  obtain ⟨h1, h2⟩ := h.count x
  obtain ⟨o1, o2⟩ := ho
  by_cases hc : cur = m
  · subst hc
    exact ⟨fun m' hm => (h1 m' hm).trans (o1 m' hm), by omega⟩
  · have hz := o1 cur hc
    have hm := h1 m (fun h => hc h.symm)
    refine ⟨?_, by omega⟩
    intro m' hm'
    by_cases hmc : m' = cur
    · subst hmc
      -- nothing of x at cur before, so nothing after
      rw [Pit.waiting, h.val, if_pos rfl, List.countP_eq_zero]
      rw [Pit.waiting, List.countP_eq_zero] at hz
      intro a ha
      exact hz a (List.mem_filter.mp ha).1
    · rw [h1 m' hmc]; exact o1 m' hm'

end Ndn.Engine
