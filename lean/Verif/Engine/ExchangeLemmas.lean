import Verif.Engine.Exchange
import Verif.Engine.PitProps

/-! # Lemmas for C86: pending Interests get their Data -/

namespace Ndn.Engine
open Trie

/-- The entry `y` waits at the node of `q`. -/
def Pit.Waits (s : Pit) (q : List Bytes) (y : Pend) : Prop := ∃ c, s.trie.find q = some c ∧ y ∈ (s.trie.node c).val

theorem express_waits {s : Pit} (h : s.Inv) (name : Name) (life : Nat) (cbp : Bool) (delay : Nat) (hn : name ≠ []) :
    (s.express name life cbp delay).2.Waits (keys (splitDigest name).1) ⟨s.next, s.now - delay + life, cbp, (splitDigest name).2⟩ := by
  obtain ⟨n, _, _, _, hf, _, _, _, hv, _⟩ := express_spec h name life cbp delay hn
  refine ⟨n, hf, ?_⟩
  rw [hv, if_pos rfl]
  simp

theorem express_keeps {s : Pit} (h : s.Inv) (name : Name) (life : Nat) (cbp : Bool) (delay : Nat) {q : List Bytes} {y : Pend} (hw : s.Waits q y) :
    (s.express name life cbp delay).2.Waits q y := by
  by_cases hn : name = []
  · subst hn
    exact hw
  obtain ⟨c, hc, hy⟩ := hw
  obtain ⟨n, hi, hg, _, hf, _, _, _, hv, _⟩ := express_spec h name life cbp delay hn
  obtain ⟨hw1, _, _, _⟩ := matchAlways_spec [] (keys (splitDigest name).1) s.trie 0 h.wf h.wf.pos
  have hc' : (s.trie.matchAlways [] 0 (keys (splitDigest name).1)).2.find q = some c := hg.exact h.wf hw1 h.wf.pos hc
  have hne : name.isEmpty = false := by cases name <;> simp_all
  refine ⟨c, ?_, ?_⟩
  · unfold Pit.express
    simp only [hne, Bool.false_eq_true, if_false]
    exact ((setValue_same _ _ _).exact 0 q).trans hc'
  · rw [hv]
    split
    · exact List.mem_append.mpr (.inl hy)
    · exact hy

/-- One node of the loop of `onData`. -/
theorem deliver_waits {s : Pit} (h : s.Inv) (sha : Bytes → Bytes) (name : Name) (raw : Bytes) (cur : Nat) {q : List Bytes} {y : Pend} {c : Nat}
    (hf : s.trie.find q = some c) (hy : y ∈ (s.trie.node c).val) :
    let s' := s.deliver sha name raw cur
    s'.Inv ∧ s'.trie.find q = some c ∧
      ((cur = c → y.satisfied sha q.length name raw = false) → y ∈ (s'.trie.node c).val) ∧
      (y.satisfied sha q.length name raw = true → if cur = c then ∃ new, s'.calls = new ++ s.calls ∧ (y.id, .data name raw) ∈ new
        else y ∈ (s'.trie.node c).val) := by
  have hst := deliver_settle sha name raw s cur h.wf
  have hdep : (s.trie.node c).dep = q.length := by
    have := h.wf.find_dep hf
    rw [h.dep0, Nat.zero_add] at this
    exact this
  intro s'
  refine ⟨hst.inv h, ?_, ?_, ?_⟩
  · exact ((deliver_shape sha name raw s cur).exact 0 q).trans hf
  · intro hsat
    show y ∈ ((s.deliver sha name raw cur).trie.node c).val
    rw [hst.val]
    split
    · rename_i hc
      subst hc
      rw [hdep]
      exact List.mem_filter.mpr ⟨hy, by simp [hsat rfl]⟩
    · exact hy
  · intro hsat
    by_cases hc : cur = c
    · subst hc
      rw [if_pos rfl]
      refine ⟨_, hst.calls, List.mem_reverse.mpr (List.mem_map.mpr ⟨y, List.mem_filter.mpr ⟨hy, ?_⟩, rfl⟩)⟩
      rw [hdep]
      exact hsat
    · rw [if_neg hc]
      show y ∈ ((s.deliver sha name raw cur).trie.node c).val
      rw [hst.val, if_neg (fun h => hc h.symm)]
      exact hy

/-- The loop only adds calls. -/
theorem loop_adds (sha : Bytes → Bytes) (name : Name) (raw : Bytes) (l : List Nat) (s : Pit) :
    ∃ new, (l.foldl (Pit.deliver sha name raw) s).calls = new ++ s.calls := by
  induction l generalizing s with
  | nil => exact ⟨[], rfl⟩
  | cons a l ih =>
    obtain ⟨new, h⟩ := ih (s.deliver sha name raw a)
    refine ⟨new ++ (((s.trie.node a).val.filter (Pend.satisfied sha (s.trie.node a).dep name raw)).map (fun e => (e.id, Outcome.data name raw))).reverse, ?_⟩
    rw [List.foldl_cons, h, List.append_assoc]
    rfl

/-- The loop of `onData` over nodes, for an entry that the Data satisfies. -/
theorem loop_called (sha : Bytes → Bytes) (name : Name) (raw : Bytes) {q : List Bytes} {y : Pend} {c : Nat}
    (hsat : y.satisfied sha q.length name raw = true) (l : List Nat) (hl : c ∈ l) (s : Pit) (h : s.Inv) (hf : s.trie.find q = some c)
    (hy : y ∈ (s.trie.node c).val) :
    ∃ new, (l.foldl (Pit.deliver sha name raw) s).calls = new ++ s.calls ∧ (y.id, .data name raw) ∈ new := by
  induction l generalizing s with
  | nil => cases hl
  | cons a l ih =>
    obtain ⟨h1, h2, _, h4⟩ := deliver_waits h sha name raw a hf hy
    have h4 := h4 hsat
    obtain ⟨m, hm⟩ : ∃ m, (s.deliver sha name raw a).calls = m ++ s.calls := ⟨_, rfl⟩
    rw [List.foldl_cons]
    by_cases ha : a = c
    · subst ha
      obtain ⟨new, hnew⟩ := loop_adds sha name raw l (s.deliver sha name raw a)
      rw [if_pos rfl] at h4
      obtain ⟨m, h5, h6⟩ := h4
      exact ⟨new ++ m, by rw [hnew, h5, List.append_assoc], List.mem_append.mpr (.inr h6)⟩
    · rw [if_neg ha] at h4
      rcases List.mem_cons.mp hl with rfl | hl
      · exact absurd rfl ha
      · obtain ⟨new, h5, h6⟩ := ih hl _ h1 h2 h4
        exact ⟨new ++ m, by rw [h5, hm, List.append_assoc], List.mem_append.mpr (.inl h6)⟩

/-- … and for one that it does not satisfy or that is elsewhere. -/
theorem loop_kept (sha : Bytes → Bytes) (name : Name) (raw : Bytes) {q : List Bytes} {y : Pend} {c : Nat} (l : List Nat)
    (hsat : c ∈ l → y.satisfied sha q.length name raw = false) (s : Pit) (h : s.Inv) (hf : s.trie.find q = some c) (hy : y ∈ (s.trie.node c).val) :
    (l.foldl (Pit.deliver sha name raw) s).Inv ∧ (l.foldl (Pit.deliver sha name raw) s).trie.find q = some c ∧
      y ∈ ((l.foldl (Pit.deliver sha name raw) s).trie.node c).val := by
  induction l generalizing s with
  | nil => exact ⟨h, hf, hy⟩
  | cons a l ih =>
    obtain ⟨h1, h2, h3, _⟩ := deliver_waits h sha name raw a hf hy
    exact ih (fun hc => hsat (List.mem_cons_of_mem _ hc)) _ h1 h2 (h3 fun ha => hsat (by rw [ha]; exact List.mem_cons_self))

/-- Nodes on the way to the Data name come before the longest one. -/
theorem prefix_below {t : Trie (List Pend)} {ks q : List Bytes} {c : Nat} (hq : q <+: ks) (hf : t.find q = some c) :
    ∃ l, t.find l = some (t.prefixMatch 0 ks) ∧ l <+: ks ∧ q <+: l := by
  obtain ⟨l, r, hl, h1, h2⟩ := prefixMatch_spec t ks 0
  refine ⟨l, h1, ⟨r, hl.symm⟩, ?_⟩
  rcases Nat.lt_or_ge l.length q.length with hlt | hge
  · obtain ⟨r', hr⟩ := hq
    have := h2 q r' hr.symm hlt
    have hf' : t.exact 0 q = some c := hf
    rw [this] at hf'
    cases hf'
  · exact List.prefix_of_prefix_length_le hq ⟨r, hl.symm⟩ hge

/-- Data that satisfies a waiting Interest is given to its callback. -/
theorem onData_called {s : Pit} (h : s.Inv) (sha : Bytes → Bytes) (name : Name) (raw : Bytes) {q : List Bytes} {y : Pend} (hw : s.Waits q y)
    (hq : q <+: keys name) (hsat : y.satisfied sha q.length name raw = true) : y.id ∈ newCalls s (s.onData sha name raw) := by
  obtain ⟨c, hf, hy⟩ := hw
  obtain ⟨l, h1, _, h3⟩ := prefix_below hq hf
  have hm : c ∈ s.trie.ancestors (s.trie.prefixMatch 0 (keys name)) := (mem_ancestors h.wf h1 c).mpr ⟨q, h3, hf⟩
  obtain ⟨new, h4, h5⟩ := loop_called sha name raw hsat _ hm s h hf hy
  have h6 : (s.onData sha name raw).calls = new ++ s.calls := h4
  unfold newCalls
  rw [h6, List.length_append, Nat.add_sub_cancel, List.take_left]
  exact List.mem_map.mpr ⟨_, h5, rfl⟩

/-- A node that is unlinked takes with it only nodes below. -/
theorem deleteIf_keeps {t : Trie (List Pend)} (hw : t.WF) {p : List Bytes} {id : Nat} (hp : t.find p = some id) {q : List Bytes} {y : Pend} {c : Nat}
    (hf : t.find q = some c) (hy : y ∈ (t.node c).val) (hpq : p <+: q → p = q) :
    (deleteIf (fun l => l.isEmpty) t id).find q = some c := by
  rcases deleteIf_spec (fun l : List Pend => l.isEmpty) hw hp with ⟨_, he⟩ | ⟨_, u, hu, h1, h2, h3, _⟩
  · rw [he]
    exact hf
  · rw [h1]
    have hne : ¬ u <+: q := by
      intro huq
      have hqp : q <+: p := by
        rcases h3 q c huq hf with h | h
        · exact h
        · rw [hpq h]; exact List.prefix_refl _
      have := h2 q c huq hqp hf
      rw [List.isEmpty_iff] at this
      rw [this] at hy
      cases hy
    rw [if_neg hne]
    exact hf

/-- Data below a waiting Interest that does not satisfy it leaves it waiting; so does Data elsewhere, if the tree has a node on the way to its name that
is not on the way to the Interest. -/
theorem onData_keeps {s : Pit} (h : s.Inv) (sha : Bytes → Bytes) (name : Name) (raw : Bytes) {q : List Bytes} {y : Pend} (hw : s.Waits q y)
    (hsat : q <+: keys name → y.satisfied sha q.length name raw = false)
    (hoff : q <+: keys name ∨ ∃ r k, r <+: keys name ∧ ¬ r <+: q ∧ s.trie.find r = some k) : (s.onData sha name raw).Waits q y := by
  obtain ⟨c, hf, hy⟩ := hw
  have hc : c ∈ s.trie.ancestors (s.trie.prefixMatch 0 (keys name)) → y.satisfied sha q.length name raw = false := by
    intro hc
    obtain ⟨l, r, hl, g1, _⟩ := prefixMatch_spec s.trie (keys name) 0
    obtain ⟨q', g2, g3⟩ := (mem_ancestors h.wf g1 c).mp hc
    rw [h.wf.find_inj g3 hf] at g2
    exact hsat (g2.trans ⟨r, hl.symm⟩)
  obtain ⟨h1, h2, h3⟩ := loop_kept sha name raw (s.trie.ancestors (s.trie.prefixMatch 0 (keys name))) hc s h hf hy
  have hshape : Same s.trie ((s.trie.ancestors (s.trie.prefixMatch 0 (keys name))).foldl (Pit.deliver sha name raw) s).trie := by
    refine foldl_ind (fun s' : Pit => Same s.trie s'.trie) _ _ s (Same.refl _) ?_
    intro s' a _ hs
    exact hs.trans (deliver_shape sha name raw s' a)
  obtain ⟨l, hl, hlk, hlq⟩ : ∃ l, s.trie.find l = some (s.trie.prefixMatch 0 (keys name)) ∧ l <+: keys name ∧ (l <+: q → l = q) := by
    rcases hoff with hq | ⟨r, k, hr, hrq, hrk⟩
    · obtain ⟨l, a1, a2, a3⟩ := prefix_below hq hf
      exact ⟨l, a1, a2, fun hlq => List.IsPrefix.eq_of_length_le hlq a3.length_le⟩
    · obtain ⟨l, a1, a2, a3⟩ := prefix_below hr hrk
      exact ⟨l, a1, a2, fun hlq => absurd (a3.trans hlq) hrq⟩
  refine ⟨c, ?_, ?_⟩
  · exact deleteIf_keeps h1.wf ((hshape.exact 0 l).trans hl) h2 h3 hlq
  · exact (congrArg (y ∈ ·) ((deleteIf_shrinks _ _ _).val c)).mpr h3

/-- A Nack for a name that is neither on the way to the Interest nor below it. -/
theorem onNack_keeps {s : Pit} (h : s.Inv) (name : Name) (r : Nat) {q : List Bytes} {y : Pend} (hw : s.Waits q y) (hoff : ¬ keys name <+: q) (hbel : ¬ q <+: keys name) :
    (s.onNack name r).Waits q y := by
  obtain ⟨c, hf, hy⟩ := hw
  unfold Pit.onNack
  cases hex : s.trie.exact 0 (keys name) with
  | none => exact ⟨c, hf, hy⟩
  | some n =>
    have hd := deleteIf_shrinks (fun _ : List Pend => true) s.trie n
    refine ⟨c, ?_, (congrArg (y ∈ ·) (hd.val c)).mpr hy⟩
    rcases deleteIf_spec (fun _ : List Pend => true) h.wf (show s.trie.find (keys name) = some n from hex) with ⟨hx, _⟩ | ⟨_, u, hu, h1, h2, h3, h4⟩
    · cases hx
    · show (Trie.deleteIf (fun _ => true) s.trie n).find q = some c
      rw [h1, if_neg ?_]
      · exact hf
      · intro huq
        rcases h3 q c huq hf with h | h
        · exact hbel h
        · exact hoff h

/-- A timeout at another node, or before the deadline. -/
theorem timeout_keeps {s : Pit} (h : s.Inv) {m : Nat} {p q : List Bytes} {y : Pend} (hw : s.Waits q y) (hm : s.trie.find p = some m)
    (heq : p = q → s.now < y.deadline) (hoff : p <+: q → p = q) : (s.timeoutFunc m).Waits q y := by
  obtain ⟨c, hf, hy⟩ := hw
  have hs := setValue_same s.trie m ((s.trie.node m).val.filter (fun e => decide (s.now < e.deadline)))
  have hy' : y ∈ ((s.trie.setValue m ((s.trie.node m).val.filter (fun e => decide (s.now < e.deadline)))).node c).val := by
    rw [setValue_val]
    split
    · rename_i hc
      have : p = q := h.wf.find_inj hm (hc ▸ hf)
      exact List.mem_filter.mpr ⟨hc ▸ hy, by simpa using heq this⟩
    · exact hy
  refine ⟨c, ?_, (congrArg (y ∈ ·) ((deleteIf_shrinks _ _ _).val c)).mpr hy'⟩
  exact deleteIf_keeps (hs.wf h.wf) ((hs.exact 0 p).trans hm) ((hs.exact 0 q).trans hf) hy' hoff

end Ndn.Engine
