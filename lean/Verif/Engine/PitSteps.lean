import Verif.Engine.PitLemmas

namespace Ndn.Engine

open Trie

theorem filter_not_false {α : Type} (l : List α) : l.filter (fun _ => !false) = l := by simp

theorem shrink_settle (s : Pit) (pred : List Pend → Bool) (n : Nat) (o : Outcome) (hw : s.trie.WF) :
    Settle s { s with trie := Trie.deleteIf pred s.trie n } 0 (fun _ => false) o := by
  have hd := deleteIf_shrinks pred s.trie n
  refine ⟨hd.size, hd.wf hw, hd.par, hd.key, hd.dep, ?_, ?_, rfl, rfl, rfl⟩
  · intro i
    rw [filter_not_false]
    simp only [ite_self]
    exact hd.val i
  · simp

theorem foldl_ind {σ α : Type} (R : σ → Prop) (f : σ → α → σ) (l : List α) : ∀ s, R s → (∀ s a, a ∈ l → R s → R (f s a)) →
    R (l.foldl f s) := by
  induction l with
  | nil => intro s h _; exact h
  | cons a l ih =>
    intro s h hf
    exact ih (f s a) (hf s a List.mem_cons_self h) (fun s b hb => hf s b (List.mem_cons_of_mem _ hb))

/-- the tree below is only relabelled while Data is delivered -/
def SameShape (s s' : Pit) : Prop := Same s.trie s'.trie

theorem deliver_shape (sha : Bytes → Bytes) (name : Name) (raw : Bytes) (s : Pit) (cur : Nat) :
    Same s.trie (s.deliver sha name raw cur).trie := setValue_same _ _ _

theorem onData_inv {s : Pit} (h : s.Inv) (sha : Bytes → Bytes) (name : Name) (raw : Bytes) : (s.onData sha name raw).Inv := by
  have h1 : ((s.trie.ancestors (s.trie.prefixMatch 0 (keys name))).foldl (Pit.deliver sha name raw) s).Inv :=
    foldl_ind Pit.Inv _ _ s h (fun s a _ hs => (deliver_settle sha name raw s a hs.wf).inv hs)
  exact (shrink_settle _ (fun l => l.isEmpty) _ .timeout h1.wf).inv h1

theorem onData_once {s : Pit} (h : s.Inv) (sha : Bytes → Bytes) (name : Name) (raw : Bytes) {x m : Nat} (ho : s.Once x m) :
    (s.onData sha name raw).Once x m := by
  have h1 := foldl_ind (fun s => Pit.Inv s ∧ s.Once x m) (Pit.deliver sha name raw)
    (s.trie.ancestors (s.trie.prefixMatch 0 (keys name))) s ⟨h, ho⟩
    (fun s a _ hs => ⟨(deliver_settle sha name raw s a hs.1.wf).inv hs.1, (deliver_settle sha name raw s a hs.1.wf).once hs.2⟩)
  exact (shrink_settle _ (fun l => l.isEmpty) _ .timeout h1.1.wf).once h1.2

theorem onData_frame (sha : Bytes → Bytes) (s : Pit) (name : Name) (raw : Bytes) :
    (s.onData sha name raw).sent = s.sent ∧ (s.onData sha name raw).now = s.now ∧ (s.onData sha name raw).next = s.next ∧
    (s.onData sha name raw).started = s.started := by
  have := foldl_ind (fun s' : Pit => s'.sent = s.sent ∧ s'.now = s.now ∧ s'.next = s.next ∧ s'.started = s.started)
    (Pit.deliver sha name raw) (s.trie.ancestors (s.trie.prefixMatch 0 (keys name))) s ⟨rfl, rfl, rfl, rfl⟩
    (fun s' a _ hs => hs)
  exact this

theorem onNack_inv {s : Pit} (h : s.Inv) (name : Name) (r : Nat) : (s.onNack name r).Inv := by
  unfold Pit.onNack
  cases hex : s.trie.exact 0 (keys name) with
  | none => exact h
  | some n =>
    have hd := deleteIf_shrinks (fun _ : List Pend => true) s.trie n
    refine h.settle hd.size (hd.wf h.wf) hd.par hd.key hd.dep ?_ rfl rfl ?_
    · intro i y hy
      have hy : y ∈ ((deleteIf (fun _ => true) s.trie n).node i).val := hy
      rw [hd.val] at hy; exact hy
    · intro c hc
      have hc : c ∈ ((s.trie.node n).val.map (fun e => (e.id, Outcome.nack r))).reverse ++ s.calls := hc
      rw [List.mem_append, List.mem_reverse, List.mem_map] at hc
      rcases hc with ⟨y, hy, rfl⟩ | hc
      · exact .inr ⟨n, y, hy, rfl⟩
      · exact .inl hc

/-- what `Express` does -/
theorem express_spec {s : Pit} (h : s.Inv) (name : Name) (life : Nat) (cbp : Bool) (delay : Nat) (hn : name ≠ []) :
    let s' := (s.express name life cbp delay).2
    let e : Pend := ⟨s.next, s.now - delay + life, cbp, (splitDigest name).2⟩
    ∃ n, s'.Inv ∧ Grows [] s.trie (s.trie.matchAlways [] 0 (keys (splitDigest name).1)).2 ∧ n < s'.trie.size ∧
      s'.trie.find (keys (splitDigest name).1) = some n ∧ s'.trie.path n = keys (splitDigest name).1 ∧
      (∀ i, i < s.trie.size → s'.trie.path i = s.trie.path i) ∧ s.trie.size ≤ s'.trie.size ∧
      (∀ i, (s'.trie.node i).val = if i = n then (s.trie.node i).val ++ [e] else (s.trie.node i).val) ∧
      s'.calls = s.calls ∧ s'.now = s.now ∧ s'.started = s.started ∧ s'.next = s.next + 1 ∧
      s'.timers = ⟨s.next, n, s.now + (life + timeoutMargin)⟩ :: s.timers ∧
      s'.sent = ⟨s.next, name, cbp, life, s.now⟩ :: s.sent := by
  simp only
  have hne : name.isEmpty = false := by cases name <;> simp_all
  unfold Pit.express
  simp only [hne, Bool.false_eq_true, if_false]
  generalize hsp : splitDigest name = sp
  obtain ⟨nodeName, imp⟩ := sp
  simp only
  obtain ⟨hw1, hg, hend, hlt⟩ := matchAlways_spec [] (keys nodeName) s.trie 0 h.wf h.wf.pos
  have hout : ∀ (ks : List Bytes) (t : Trie (List Pend)) (id : Nat), (∀ m, t.size ≤ m → (t.node m).val = []) →
      ∀ m, (matchAlways [] t id ks).2.size ≤ m → ((matchAlways [] t id ks).2.node m).val = [] := by
    intro ks
    induction ks with
    | nil => intro t id ht; exact ht
    | cons k ks ih =>
      intro t id ht
      rw [matchAlways]
      split
      · exact ih t _ ht
      · apply ih
        intro m hm
        have hm' : t.size + 1 ≤ m := hm
        simp only [addChild]
        rw [if_neg (by omega)]
        split
        · exact ht m (by omega)
        · exact ht m (by omega)
  have hout := hout (keys nodeName) s.trie 0 h.out
  generalize matchAlways [] s.trie 0 (keys nodeName) = res at hw1 hg hend hlt hout
  obtain ⟨n, t1⟩ := res
  simp only at hw1 hg hend hlt hout ⊢
  have hval1 : ∀ i, (t1.node i).val = (s.trie.node i).val := by
    intro i
    rcases Nat.lt_or_ge i s.trie.size with hi | hi
    · exact hg.val i hi
    · rw [h.out i hi]
      rcases Nat.lt_or_ge i t1.size with hi' | hi'
      · exact hg.fresh i hi hi'
      · exact hout i hi'
  have hs := setValue_same t1 n ((t1.node n).val ++ [⟨s.next, s.now - delay + life, cbp, imp⟩])
  have hpathn : (t1.setValue n ((t1.node n).val ++ [⟨s.next, s.now - delay + life, cbp, imp⟩])).path n = keys nodeName := by
    rw [hs.path hw1 hlt]; exact path_of_find hw1 _ _ hend
  have hpath : ∀ i, i < s.trie.size → (t1.setValue n ((t1.node n).val ++ [⟨s.next, s.now - delay + life, cbp, imp⟩])).path i = s.trie.path i := by
    intro i hi
    rw [hs.path hw1 (Nat.lt_of_lt_of_le hi hg.size)]; exact hg.path h.wf hi
  have hvals : ∀ i, ((t1.setValue n ((t1.node n).val ++ [⟨s.next, s.now - delay + life, cbp, imp⟩])).node i).val =
      if i = n then (s.trie.node i).val ++ [⟨s.next, s.now - delay + life, cbp, imp⟩] else (s.trie.node i).val := by
    intro i
    rw [setValue_val]
    split
    · rename_i hi; rw [hi, hval1]
    · exact hval1 i
  refine ⟨n, ⟨hs.wf hw1, ?_, ?_, ?_, ?_, ?_, ?_⟩, hg, hlt, ?_, hpathn, hpath, hg.size, hvals, by first | trivial | rfl, by first | trivial | rfl,
    by first | trivial | rfl, by first | trivial | rfl, by first | trivial | rfl, by first | trivial | rfl⟩
  · show ((t1.setValue n _).node 0).dep = 0
    rw [hs.dep, hg.dep 0 h.wf.pos]; exact h.dep0
  · intro m hm
    have hm' : t1.size ≤ m := hm
    show ((t1.setValue n _).node m).val = []
    rw [hvals, if_neg (by omega)]
    exact h.out m (by have := hg.size; omega)
  · intro e he
    rcases List.mem_cons.mp he with rfl | he
    · exact Nat.lt_succ_self _
    · exact Nat.lt_succ_of_lt (h.ids e he)
  · intro e he e' he' heq
    rcases List.mem_cons.mp he with rfl | he <;> rcases List.mem_cons.mp he' with rfl | he'
    · rfl
    · have := h.ids e' he'
      simp only at heq
      omega
    · have := h.ids e he
      simp only at heq
      omega
    · exact h.uniq e he e' he' heq
  · intro c hc; exact Nat.lt_succ_of_lt (h.callIds c hc)
  · intro m y hy
    have hy' : y ∈ ((t1.setValue n ((t1.node n).val ++ [⟨s.next, s.now - delay + life, cbp, imp⟩])).node m).val := hy
    rw [hvals] at hy'
    have old : y ∈ (s.trie.node m).val → ∃ e ∈ (⟨s.next, name, cbp, life, s.now⟩ : Sent) :: s.sent, e.id = y.id ∧
        e.canBePrefix = y.canBePrefix ∧ (splitDigest e.name).2 = y.impSha256 ∧
        (t1.setValue n ((t1.node n).val ++ [⟨s.next, s.now - delay + life, cbp, imp⟩])).path m = keys (splitDigest e.name).1 := by
      intro hy
      obtain ⟨e, he, h1, h2, h3, h4⟩ := h.home m y hy
      exact ⟨e, List.mem_cons_of_mem _ he, h1, h2, h3, (hpath m (h.lt_size hy)).trans h4⟩
    split at hy'
    · rename_i hmn
      rcases List.mem_append.mp hy' with hy' | hy'
      · exact old hy'
      · rw [List.mem_singleton.mp hy']
        refine ⟨_, List.mem_cons_self, rfl, rfl, ?_, ?_⟩
        · simp only [hsp]
        · rw [hmn]; simp only [hsp]; exact hpathn
    · exact old hy'
  · show (t1.setValue n _).find _ = _
    rw [find, hs.exact]; exact hend

theorem step_inv {s : Pit} (h : s.Inv) (sha : Bytes → Bytes) (ev : PitEvent) : (s.step sha ev).Inv := by
  cases ev with
  | express n l c d =>
    by_cases hn : n = []
    · subst hn; exact h
    · obtain ⟨_, hi, _⟩ := express_spec h n l c d hn
      exact hi
  | data n raw => exact onData_inv h sha n raw
  | nack n r => exact onNack_inv h n r
  | fire t =>
    simp only [Pit.step]
    split
    · exact ⟨h.wf, h.dep0, h.out, h.ids, h.uniq, h.callIds, h.home⟩
    · exact h
  | run id n =>
    simp only [Pit.step]
    split
    · have h' : ({ s with started := s.started.erase (id, n) } : Pit).Inv := ⟨h.wf, h.dep0, h.out, h.ids, h.uniq, h.callIds, h.home⟩
      exact (timeout_settle _ n h'.wf).inv h'
    · exact h
  | tick d => exact ⟨h.wf, h.dep0, h.out, h.ids, h.uniq, h.callIds, h.home⟩

theorem pitAfter_inv (sha : Bytes → Bytes) (evs : List PitEvent) : (pitAfter sha evs).Inv := by
  induction evs with
  | nil => exact Pit.Inv.new
  | cons ev evs ih => exact step_inv ih sha ev

end Ndn.Engine
