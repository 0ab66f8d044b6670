import Verif.Engine.PitSteps
import Verif.Engine.FibProps

/-!
# Pending Interests (C33, C34, C35, C36)

A schedule is any list of calls of `Express`, received Data and Nacks, timers firing, started timeout functions getting the
lock, and passing time; `pitAfter sha evs` is the state after the schedule `evs` (most recent event first).
-/

namespace Ndn.Engine

open Trie

/-! ## C33 -/

/-- C33: whatever the schedule, a callback is invoked at most once, provided no Nack for its Interest's name arrives.  (With
Nacks it fails, see below.) -/
theorem C33_at_most_once_partial (sha : Bytes → Bytes) (evs : List PitEvent) (e : Sent) (he : e ∈ (pitAfter sha evs).sent)
    (hn : ∀ n r, PitEvent.nack n r ∈ evs → keys n ≠ keys (splitDigest e.name).1) :
    ((pitAfter sha evs).calls.filter (fun c => c.1 == e.id)).length ≤ 1 := by
  suffices h : ∃ m, m < (pitAfter sha evs).trie.size ∧ (pitAfter sha evs).trie.path m = keys (splitDigest e.name).1 ∧
      (pitAfter sha evs).Once e.id m by
    obtain ⟨m, _, _, h1, h2⟩ := h
    rw [← List.countP_eq_length_filter]
    have : (pitAfter sha evs).answered e.id = _ := rfl
    rw [Pit.answered] at this h2
    omega
  induction evs with
  | nil => cases he
  | cons ev evs ih =>
    have hinv := pitAfter_inv sha evs
    have hn' : ∀ n r, PitEvent.nack n r ∈ evs → keys n ≠ keys (splitDigest e.name).1 := fun n r h => hn n r (List.mem_cons_of_mem _ h)
    -- steps that do not touch the record of calls to `Express`
    have keep : ∀ s' : Pit, s'.sent = (pitAfter sha evs).sent → s'.trie.size = (pitAfter sha evs).trie.size →
        (∀ i, i < (pitAfter sha evs).trie.size → s'.trie.path i = (pitAfter sha evs).trie.path i) →
        (∀ m, (pitAfter sha evs).trie.path m = keys (splitDigest e.name).1 → (pitAfter sha evs).Once e.id m → s'.Once e.id m) →
        e ∈ s'.sent → ∃ m, m < s'.trie.size ∧ s'.trie.path m = keys (splitDigest e.name).1 ∧ s'.Once e.id m := by
      intro s' hs hsz hp ho hes
      rw [hs] at hes
      obtain ⟨m, hm, hpm, hom⟩ := ih hes hn'
      exact ⟨m, by rw [hsz]; exact hm, (hp m hm).trans hpm, ho m hpm hom⟩
    rw [show pitAfter sha (ev :: evs) = (pitAfter sha evs).step sha ev from rfl] at he ⊢
    generalize pitAfter sha evs = s at *
    cases ev with
    | express n l c d =>
      by_cases h0 : n = []
      · subst h0; exact ih he hn'
      · obtain ⟨k, hi', _, hk, _, hkp, hp, hsz, hv, hcalls, _, _, _, _, hsent⟩ := express_spec hinv n l c d h0
        rw [show s.step sha (.express n l c d) = (s.express n l c d).2 from rfl] at he ⊢
        generalize (s.express n l c d).2 = s' at *
        have hans : ∀ x, s'.answered x = s.answered x := by intro x; rw [Pit.answered, hcalls]; rfl
        rw [hsent] at he
        rcases List.mem_cons.mp he with rfl | he
        · -- the new call
          refine ⟨k, hk, hkp, ?_, ?_⟩
          · intro m' hm'
            rw [Pit.waiting, hv, if_neg hm', List.countP_eq_zero]
            intro y hy
            have := hinv.id_lt hy
            simp only [beq_iff_eq]; omega
          · rw [hans, Pit.waiting, hv, if_pos rfl, List.countP_append]
            have h1 : ((s.trie.node k).val).countP (fun e => e.id == s.next) = 0 := by
              rw [List.countP_eq_zero]
              intro y hy
              have := hinv.id_lt hy
              simp only [beq_iff_eq]; omega
            have h2 : s.answered s.next = 0 := by
              rw [Pit.answered, List.countP_eq_zero]
              intro y hy
              have := hinv.callIds y hy
              simp only [beq_iff_eq]; omega
            simp only [h1, h2]
            rw [List.countP_cons]
            simp
        · obtain ⟨m, hm, hpm, h1, h2⟩ := ih he hn'
          have hne : e.id ≠ s.next := by have := hinv.ids e he; omega
          have hw : ∀ m, s'.waiting e.id m = s.waiting e.id m := by
            intro m
            rw [Pit.waiting, hv]
            split
            · rw [List.countP_append, List.countP_singleton]
              simp only [beq_iff_eq]
              rw [if_neg (fun h => hne h.symm)]
              rfl
            · rfl
          refine ⟨m, by omega, (hp m hm).trans hpm, ?_, ?_⟩
          · intro m' hm'; rw [hw]; exact h1 m' hm'
          · rw [hw, hans]; exact h2
    | data n raw =>
      refine keep _ (onData_frame sha s n raw).1 ?_ ?_ (fun m _ ho => onData_once hinv sha n raw ho) he
      · have h1 := foldl_ind (fun s' : Pit => Same s.trie s'.trie) (Pit.deliver sha n raw)
          (s.trie.ancestors (s.trie.prefixMatch 0 (keys n))) s (Same.refl _) (fun s' a _ hs => hs.trans (deliver_shape sha n raw s' a))
        exact ((deleteIf_shrinks _ _ _).size).trans h1.size
      · intro i hi
        have h1 := foldl_ind (fun s' : Pit => Same s.trie s'.trie) (Pit.deliver sha n raw)
          (s.trie.ancestors (s.trie.prefixMatch 0 (keys n))) s (Same.refl _) (fun s' a _ hs => hs.trans (deliver_shape sha n raw s' a))
        have h2 := deleteIf_shrinks (fun l : List Pend => l.isEmpty)
          ((s.trie.ancestors (s.trie.prefixMatch 0 (keys n))).foldl (Pit.deliver sha n raw) s).trie (s.trie.prefixMatch 0 (keys n))
        exact (h2.path (h1.wf hinv.wf) (by rw [h1.size]; exact hi)).trans (h1.path hinv.wf hi)
    | nack n r =>
      rw [show s.step sha (.nack n r) = s.onNack n r from rfl] at he ⊢
      have hne := hn n r List.mem_cons_self
      unfold Pit.onNack at he ⊢
      cases hex : s.trie.exact 0 (keys n) with
      | none => rw [hex] at he; exact ih he hn'
      | some k =>
        rw [hex] at he
        simp only at he ⊢
        have hd := deleteIf_shrinks (fun _ : List Pend => true) s.trie k
        refine keep { s.cancel ((s.trie.node k).val.map (·.id)) with
            calls := ((s.trie.node k).val.map (fun e => (e.id, Outcome.nack r))).reverse ++ s.calls
            trie := s.trie.delete k } ?_ ?_ ?_ ?_ he
        · rfl
        · exact hd.size
        · exact fun i hi => hd.path hinv.wf hi
        intro m hpm ⟨o1, o2⟩
        have hkm : k ≠ m := by
          rintro rfl
          exact hne ((path_of_find hinv.wf _ _ hex).symm.trans hpm)
        have hw : ∀ m', Pit.waiting { s.cancel ((s.trie.node k).val.map (·.id)) with
            calls := ((s.trie.node k).val.map (fun e => (e.id, Outcome.nack r))).reverse ++ s.calls
            trie := s.trie.delete k } e.id m' = s.waiting e.id m' := by
          intro m'
          show (((s.trie.delete k).node m').val).countP _ = _
          rw [show ((s.trie.delete k).node m').val = (s.trie.node m').val from hd.val m']; rfl
        refine ⟨fun m' hm' => (hw m').trans (o1 m' hm'), ?_⟩
        rw [hw]
        have : Pit.answered { s.cancel ((s.trie.node k).val.map (·.id)) with
            calls := ((s.trie.node k).val.map (fun e => (e.id, Outcome.nack r))).reverse ++ s.calls
            trie := s.trie.delete k } e.id = s.answered e.id := by
          show (((s.trie.node k).val.map (fun e => (e.id, Outcome.nack r))).reverse ++ s.calls).countP _ = _
          rw [List.countP_append, List.countP_reverse, List.countP_map]
          have hz := o1 k hkm
          rw [Pit.waiting] at hz
          rw [show ((fun c : Nat × Outcome => c.1 == e.id) ∘ fun y : Pend => (y.id, Outcome.nack r)) = fun y : Pend => y.id == e.id from rfl,
            hz, Nat.zero_add]
          rfl
        rw [this]; exact o2
    | fire t =>
      simp only [Pit.step] at he ⊢
      split at he
      · rename_i hg
        rw [if_pos hg]
        exact keep _ rfl rfl (fun _ _ => rfl) (fun m _ ho => ho) he
      · rename_i hg
        rw [if_neg hg]
        exact ih he hn'
    | run id n =>
      simp only [Pit.step] at he ⊢
      split at he
      · rename_i hg
        rw [if_pos hg]
        have hst := timeout_settle { s with started := s.started.erase (id, n) } n hinv.wf
        refine keep _ hst.sent hst.size (fun i hi => pathN_congr hinv.wf (fun i _ => hst.par i) (fun i _ => hst.key i) _ i hi)
          (fun m _ ho => hst.once ho) he
      · rename_i hg
        rw [if_neg hg]
        exact ih he hn'
    | tick d => exact keep _ rfl rfl (fun _ _ => rfl) (fun m _ ho => ho) he

/-- a hash for the examples (every packet has the same) -/
def sha0 : Bytes → Bytes := fun _ => []

/-- the hypotheses hold for a schedule with two Interests of the same name, Data for one of them while its timer has already
started, and a Nack for another name: one call each -/
example :
    let evs : List PitEvent := [.run 0 1, .data nmA [], .nack nmC 50, .fire ⟨0, 1, 10000100⟩, .tick 10000100,
      .express nmC 300 false 0, .express nmA 300 true 0, .express nmA 100 false 0]
    (pitAfter sha0 evs).calls = [(1, .data nmA []), (0, .data nmA []), (2, .nack 50)] := by
  decide

/-- C33 fails (race): the timer of an Interest fires and its function waits for the lock; a Nack arrives and calls the callback;
then the function runs and calls it again. -/
theorem C33_race_violated :
    let evs : List PitEvent := [.run 0 1, .nack nmA 50, .fire ⟨0, 1, 10000100⟩, .tick 10000100, .express nmA 100 false 0]
    (pitAfter sha0 evs).calls = [(0, .timeout), (0, .nack 50)] := by
  decide

/-- C33 fails (no race, every timer runs at once when due): three Interests for one name with lifetimes 100, 105 and 113 ms.  The
first timer, at 110 ms, answers the first two.  A Nack at 112 ms answers the third, but leaves it in the list.  The second
timer, at 115 ms, answers the third again. -/
theorem C33_nack_violated :
    let ms := 1000000
    let evs : List PitEvent := [.run 1 1, .fire ⟨1, 1, 115 * ms⟩, .tick (3 * ms), .nack nmA 50, .tick (2 * ms),
      .run 0 1, .fire ⟨0, 1, 110 * ms⟩, .tick (110 * ms),
      .express nmA (113 * ms) false 0, .express nmA (105 * ms) false 0, .express nmA (100 * ms) false 0]
    (pitAfter sha0 evs).calls = [(2, .timeout), (2, .nack 50), (1, .timeout), (0, .timeout)] := by
  decide

/-- C33 fails (the root is never unlinked): an Interest whose only component is an implicit digest waits at the root, and two
Nacks for the empty name call its callback twice. -/
theorem C33_root_violated :
    let evs : List PitEvent := [.nack [] 50, .nack [] 50, .express [⟨1, []⟩] 100 false 0]
    (pitAfter sha0 evs).calls = [(0, .nack 50), (0, .nack 50)] := by
  decide

/-! ## C34 -/

/-- what holds of every call of `Express` at all times -/
def Pit.Pending (s : Pit) (e : Sent) : Prop := (∃ c ∈ s.calls, c.1 = e.id) ∨ ∃ n, ∃ y ∈ (s.trie.node n).val, y.id = e.id ∧
  y.deadline ≤ e.at_ + (e.lifetime + timeoutMargin) ∧
  (⟨e.id, n, e.at_ + (e.lifetime + timeoutMargin)⟩ ∈ s.timers ∨ ((e.id, n) ∈ s.started ∧ e.at_ + (e.lifetime + timeoutMargin) ≤ s.now))

theorem filter_split {α : Type} {l : List α} {f : α → Bool} {y : α} (h : y ∈ l) : y ∈ l.filter f ∨ y ∈ l.filter (fun e => !f e) := by
  cases hf : f y with
  | true => exact .inl (List.mem_filter.mpr ⟨h, hf⟩)
  | false => exact .inr (List.mem_filter.mpr ⟨h, by simp [hf]⟩)

theorem deliver_pending {s : Pit} (sha : Bytes → Bytes) (name : Name) (raw : Bytes) (cur : Nat) (hw : s.trie.WF) {e : Sent}
    (h : s.Pending e) : (s.deliver sha name raw cur).Pending e := by
  have hst := deliver_settle sha name raw s cur hw
  have htim : (s.deliver sha name raw cur).timers = s.timers.filter (fun t =>
    !(((((s.trie.node cur).val.filter (Pend.satisfied sha (s.trie.node cur).dep name raw)).map (·.id)).contains t.id))) := rfl
  have hstd : (s.deliver sha name raw cur).started = s.started := rfl
  rcases h with ⟨c, hc, hid⟩ | ⟨n, y, hy, hid, hdl, hrun⟩
  · left
    refine ⟨c, ?_, hid⟩
    rw [hst.calls]; exact List.mem_append.mpr (.inr hc)
  · by_cases hcan : e.id ∈ (((s.trie.node cur).val.filter (Pend.satisfied sha (s.trie.node cur).dep name raw)).map (·.id))
    · left
      obtain ⟨y', hy', hid'⟩ := List.mem_map.mp hcan
      refine ⟨(y'.id, .data name raw), ?_, hid'⟩
      rw [hst.calls]
      refine List.mem_append.mpr (.inl (List.mem_reverse.mpr (List.mem_map.mpr ⟨y', hy', rfl⟩)))
    · right
      refine ⟨n, y, ?_, hid, hdl, ?_⟩
      · rw [hst.val]
        split
        · rename_i hn
          subst hn
          rcases filter_split (f := Pend.satisfied sha (s.trie.node n).dep name raw) hy with h1 | h1
          · exact absurd (List.mem_map.mpr ⟨y, h1, hid⟩) hcan
          · exact h1
        · exact hy
      · rcases hrun with h1 | h1
        · left
          rw [htim]
          refine List.mem_filter.mpr ⟨h1, ?_⟩
          simp only [Bool.not_eq_true', ← Bool.not_eq_true, List.contains_iff_mem]
          exact hcan
        · right
          rw [hstd, hst.now]; exact h1

theorem pending_after (sha : Bytes → Bytes) (evs : List PitEvent) (e : Sent) (he : e ∈ (pitAfter sha evs).sent) :
    (pitAfter sha evs).Pending e := by
  induction evs with
  | nil => cases he
  | cons ev evs ih =>
    have hinv := pitAfter_inv sha evs
    rw [show pitAfter sha (ev :: evs) = (pitAfter sha evs).step sha ev from rfl] at he ⊢
    generalize pitAfter sha evs = s at *
    cases ev with
    | express n l c d =>
      by_cases h0 : n = []
      · subst h0; exact ih he
      · obtain ⟨k, hi', _, hk, _, hkp, hp, hsz, hv, hcalls, hnow, hstd, _, htim, hsent⟩ := express_spec hinv n l c d h0
        rw [show s.step sha (.express n l c d) = (s.express n l c d).2 from rfl] at he ⊢
        generalize (s.express n l c d).2 = s' at *
        rw [hsent] at he
        rcases List.mem_cons.mp he with rfl | he
        · right
          refine ⟨k, ⟨s.next, s.now - d + l, c, (splitDigest n).2⟩, ?_, rfl, ?_, ?_⟩
          · rw [hv, if_pos rfl]; simp
          · show s.now - d + l ≤ s.now + (l + timeoutMargin)
            omega
          · left; rw [htim]; exact List.mem_cons_self
        · rcases ih he with ⟨c', hc, hid⟩ | ⟨m, y, hy, hid, hdl, hrun⟩
          · exact .inl ⟨c', by rw [hcalls]; exact hc, hid⟩
          · right
            refine ⟨m, y, ?_, hid, hdl, ?_⟩
            · rw [hv]
              split
              · exact List.mem_append.mpr (.inl hy)
              · exact hy
            · rw [htim, hstd, hnow]
              rcases hrun with h1 | h1
              · exact .inl (List.mem_cons_of_mem _ h1)
              · exact .inr h1
    | data n raw =>
      rw [show s.step sha (.data n raw) = s.onData sha n raw from rfl] at he ⊢
      rw [(onData_frame sha s n raw).1] at he
      have h1 := foldl_ind (fun s' : Pit => s'.Inv ∧ s'.Pending e) (Pit.deliver sha n raw)
        (s.trie.ancestors (s.trie.prefixMatch 0 (keys n))) s ⟨hinv, ih he⟩
        (fun s' a _ hs => ⟨(deliver_settle sha n raw s' a hs.1.wf).inv hs.1, deliver_pending sha n raw a hs.1.wf hs.2⟩)
      rcases h1.2 with hc | ⟨m, y, hy, rest⟩
      · exact .inl hc
      · right
        refine ⟨m, y, ?_, rest⟩
        exact (congrArg (y ∈ ·) ((deleteIf_shrinks (fun l : List Pend => l.isEmpty)
          ((s.trie.ancestors (s.trie.prefixMatch 0 (keys n))).foldl (Pit.deliver sha n raw) s).trie
          (s.trie.prefixMatch 0 (keys n))).val m)).mpr hy
    | nack n r =>
      rw [show s.step sha (.nack n r) = s.onNack n r from rfl] at he ⊢
      unfold Pit.onNack at he ⊢
      cases hex : s.trie.exact 0 (keys n) with
      | none => rw [hex] at he; exact ih he
      | some k =>
        rw [hex] at he
        simp only at he ⊢
        have hd := deleteIf_shrinks (fun _ : List Pend => true) s.trie k
        rcases ih he with ⟨c', hc, hid⟩ | ⟨m, y, hy, hid, hdl, hrun⟩
        · exact .inl ⟨c', List.mem_append.mpr (.inr hc), hid⟩
        · by_cases hcan : e.id ∈ (s.trie.node k).val.map (·.id)
          · left
            obtain ⟨y', hy', hid'⟩ := List.mem_map.mp hcan
            exact ⟨(y'.id, .nack r), List.mem_append.mpr (.inl (List.mem_reverse.mpr (List.mem_map.mpr ⟨y', hy', rfl⟩))), hid'⟩
          · right
            refine ⟨m, y, (congrArg (y ∈ ·) (hd.val m)).mpr hy, hid, hdl, ?_⟩
            rcases hrun with h1 | h1
            · left
              refine List.mem_filter.mpr ⟨h1, ?_⟩
              simp only [Bool.not_eq_true', ← Bool.not_eq_true, List.contains_iff_mem]
              exact hcan
            · exact .inr h1
    | fire t =>
      simp only [Pit.step] at he ⊢
      split at he
      · rename_i hg
        rw [if_pos hg]
        rcases ih he with hc | ⟨m, y, hy, hid, hdl, hrun⟩
        · exact .inl hc
        · right
          refine ⟨m, y, hy, hid, hdl, ?_⟩
          rcases hrun with h1 | h1
          · by_cases ht : t = ⟨e.id, m, e.at_ + (e.lifetime + timeoutMargin)⟩
            · right
              subst ht
              exact ⟨List.mem_cons_self, hg.2⟩
            · left
              exact (List.mem_erase_of_ne (fun h => ht h.symm)).mpr h1
          · right
            exact ⟨List.mem_cons_of_mem _ h1.1, h1.2⟩
      · rename_i hg
        rw [if_neg hg]
        exact ih he
    | run id n =>
      simp only [Pit.step] at he ⊢
      split at he
      · rename_i hg
        rw [if_pos hg]
        have hst := timeout_settle { s with started := s.started.erase (id, n) } n hinv.wf
        rw [hst.sent] at he
        have hstd : (Pit.timeoutFunc { s with started := s.started.erase (id, n) } n).started = s.started.erase (id, n) := rfl
        have htim : (Pit.timeoutFunc { s with started := s.started.erase (id, n) } n).timers = s.timers := rfl
        generalize Pit.timeoutFunc { s with started := s.started.erase (id, n) } n = s' at *
        rcases ih he with ⟨c', hc, hid⟩ | ⟨m, y, hy, hid, hdl, hrun⟩
        · left
          exact ⟨c', by rw [hst.calls]; exact List.mem_append.mpr (.inr hc), hid⟩
        · by_cases hlate : m = n ∧ ¬ s.now < y.deadline
          · obtain ⟨rfl, hlate⟩ := hlate
            left
            refine ⟨(y.id, .timeout), ?_, hid⟩
            rw [hst.calls]
            exact List.mem_append.mpr (.inl (List.mem_reverse.mpr (List.mem_map.mpr ⟨y, List.mem_filter.mpr ⟨hy, by simp; omega⟩, rfl⟩)))
          · right
            refine ⟨m, y, ?_, hid, hdl, ?_⟩
            · rw [hst.val]
              split
              · rename_i hmn
                refine List.mem_filter.mpr ⟨hy, ?_⟩
                have : s.now < y.deadline := by
                  rcases Nat.lt_or_ge s.now y.deadline with h | h
                  · exact h
                  · exact absurd ⟨hmn, by omega⟩ hlate
                simpa using this
              · exact hy
            · rw [htim, hstd, hst.now]
              rcases hrun with h1 | ⟨h1, h2⟩
              · exact .inl h1
              · right
                refine ⟨?_, h2⟩
                refine (List.mem_erase_of_ne ?_).mpr h1
                intro heq
                injection heq with h3 h4
                exact hlate ⟨h4, by omega⟩
      · rename_i hg
        rw [if_neg hg]
        exact ih he
    | tick d =>
      rcases ih he with hc | ⟨m, y, hy, hid, hdl, hrun⟩
      · exact .inl hc
      · right
        refine ⟨m, y, hy, hid, hdl, ?_⟩
        rcases hrun with h1 | ⟨h1, h2⟩
        · exact .inl h1
        · right
          refine ⟨h1, ?_⟩
          show _ ≤ s.now + d
          omega

/-- C34: whatever the schedule, once the lifetime of an Interest and the margin of 10 ms have elapsed, and every timer that is due
has fired and run, its callback has been called.  (The runtime fires due timers and the lock is free again after each
step; these are what "every timer that is due has fired and run" assumes.) -/
theorem C34_result (sha : Bytes → Bytes) (evs : List PitEvent) (e : Sent) (he : e ∈ (pitAfter sha evs).sent)
    (hfired : ∀ t ∈ (pitAfter sha evs).timers, (pitAfter sha evs).now < t.due) (hrun : (pitAfter sha evs).started = [])
    (htime : e.at_ + e.lifetime + timeoutMargin ≤ (pitAfter sha evs).now) :
    ∃ c ∈ (pitAfter sha evs).calls, c.1 = e.id := by
  rcases pending_after sha evs e he with h | ⟨n, y, _, _, _, h1 | h1⟩
  · exact h
  · have := hfired _ h1
    simp only at this
    omega
  · rw [hrun] at h1; cases h1.1

/-- C34: every successful call of `Express` is on record, with its name, lifetime and the time of the call. -/
theorem C34_recorded (sha : Bytes → Bytes) (evs : List PitEvent) (name : Name) (life : Nat) (cbp : Bool) (delay : Nat) :
    (((pitAfter sha evs).express name life cbp delay).1 = true ↔ name ≠ []) ∧
    (name ≠ [] → ⟨(pitAfter sha evs).next, name, cbp, life, (pitAfter sha evs).now⟩ ∈
      (pitAfter sha (.express name life cbp delay :: evs)).sent) := by
  constructor
  · unfold Pit.express
    cases name with
    | nil => simp
    | cons c n => simp
  · intro hn
    obtain ⟨_, _, _, _, _, _, _, _, _, _, _, _, _, _, hs⟩ := express_spec (pitAfter_inv sha evs) name life cbp delay hn
    show _ ∈ ((pitAfter sha evs).express name life cbp delay).2.sent
    rw [hs]; exact List.mem_cons_self

/-- unsolicited Data that unlinks the node of a pending Interest does not keep it from timing out -/
example :
    let evs : List PitEvent := [.run 0 1, .fire ⟨0, 1, 10000100⟩, .tick 10000100, .data nmC [], .express nmA 100 false 0]
    (pitAfter sha0 evs).calls = [(0, .timeout)] ∧ (pitAfter sha0 evs).timers = [] ∧ (pitAfter sha0 evs).started = [] ∧
    (pitAfter sha0 evs).sent = [⟨0, nmA, false, 100, 0⟩] := by
  decide

/-! ## C35 -/

/-- the Interest is satisfied by the Data, in terms of texts of components: the name without digest is the Data name, or a prefix of
it with `CanBePrefix`; a digest is that of the packet -/
def Sent.matches (sha : Bytes → Bytes) (e : Sent) (name : Name) (raw : Bytes) : Prop :=
  keys (splitDigest e.name).1 <+: keys name ∧ (e.canBePrefix = true ∨ keys (splitDigest e.name).1 = keys name) ∧
  ∀ d, (splitDigest e.name).2 = some d → d = sha raw

theorem matches_after (sha : Bytes → Bytes) (evs : List PitEvent) (x : Nat) (name : Name) (raw : Bytes)
    (hc : (x, Outcome.data name raw) ∈ (pitAfter sha evs).calls) :
    ∃ e ∈ (pitAfter sha evs).sent, e.id = x ∧ e.matches sha name raw := by
  induction evs with
  | nil => cases hc
  | cons ev evs ih =>
    have hinv := pitAfter_inv sha evs
    rw [show pitAfter sha (ev :: evs) = (pitAfter sha evs).step sha ev from rfl] at hc ⊢
    generalize pitAfter sha evs = s at *
    cases ev with
    | express n l c d =>
      by_cases h0 : n = []
      · subst h0; exact ih hc
      · obtain ⟨k, _, _, _, _, _, _, _, _, hcalls, _, _, _, _, hsent⟩ := express_spec hinv n l c d h0
        rw [show s.step sha (.express n l c d) = (s.express n l c d).2 from rfl] at hc ⊢
        rw [hcalls] at hc
        obtain ⟨e, he, h⟩ := ih hc
        exact ⟨e, by rw [hsent]; exact List.mem_cons_of_mem _ he, h⟩
    | data n r =>
      rw [show s.step sha (.data n r) = s.onData sha n r from rfl] at hc ⊢
      rw [(onData_frame sha s n r).1]
      obtain ⟨l, rr, hl, hfn, _⟩ := prefixMatch_spec s.trie (keys n) 0
      have hanc := mem_ancestors hinv.wf (show s.trie.find l = some _ from hfn)
      have h1 := foldl_ind (fun s' : Pit => s'.Inv ∧ Same s.trie s'.trie ∧ s'.sent = s.sent ∧
          ∀ c ∈ s'.calls, c ∈ s.calls ∨ ∃ e ∈ s.sent, e.id = c.1 ∧ c.2 = .data n r ∧ e.matches sha n r) (Pit.deliver sha n r)
        (s.trie.ancestors (s.trie.prefixMatch 0 (keys n))) s ⟨hinv, Same.refl _, rfl, fun c hc => .inl hc⟩ ?_
      · rcases h1.2.2.2 _ hc with h | ⟨e, he, hid, ho, hm⟩
        · obtain ⟨e, he, h⟩ := ih h
          exact ⟨e, he, h⟩
        · injection ho with ho1 ho2
          subst ho1; subst ho2
          exact ⟨e, he, hid, hm⟩
      · intro s' a ha ⟨hi, hsame, hsent, hcalls⟩
        have hst := deliver_settle sha n r s' a hi.wf
        refine ⟨hst.inv hi, hsame.trans (deliver_shape sha n r s' a), hst.sent.trans hsent, ?_⟩
        intro c hc
        rw [hst.calls, List.mem_append, List.mem_reverse, List.mem_map] at hc
        rcases hc with ⟨y, hy, rfl⟩ | hc
        · right
          obtain ⟨hy1, hy2⟩ := List.mem_filter.mp hy
          obtain ⟨e, he, hid, hcb, himp, hpath⟩ := hi.home a y hy1
          rw [hsent] at he
          obtain ⟨q, hq, hfq⟩ := (hanc a).mp ha
          have hfq' : s'.trie.find q = some a := by rw [find, hsame.exact]; exact hfq
          have hqa := path_of_find hi.wf q a hfq'
          have hdep := hi.wf.find_dep hfq'
          rw [hi.dep0, Nat.zero_add] at hdep
          rw [hqa] at hpath
          have hqn : q <+: keys n := hq.trans ⟨rr, hl.symm⟩
          refine ⟨e, he, hid, rfl, ?_, ?_, ?_⟩
          · rw [← hpath]; exact hqn
          · rw [← hpath]
            unfold Pend.satisfied at hy2
            rw [Bool.and_eq_true] at hy2
            have h1 := hy2.1
            simp only [Bool.not_eq_true', Bool.and_eq_false_iff, decide_eq_false_iff_not, Bool.not_eq_false'] at h1
            rcases h1 with h1 | h1
            · right
              rw [hdep] at h1
              exact hqn.eq_of_length_le (by simp only [keys, List.length_map]; omega)
            · left
              rw [hcb]; exact h1
          · intro d hd
            rw [himp] at hd
            unfold Pend.satisfied at hy2
            rw [Bool.and_eq_true, hd] at hy2
            simpa using hy2.2
        · exact hcalls c hc
    | nack n r =>
      rw [show s.step sha (.nack n r) = s.onNack n r from rfl] at hc ⊢
      unfold Pit.onNack at hc ⊢
      cases hex : s.trie.exact 0 (keys n) with
      | none => rw [hex] at hc; exact ih hc
      | some k =>
        rw [hex] at hc
        simp only at hc ⊢
        rcases List.mem_append.mp hc with h | h
        · rw [List.mem_reverse, List.mem_map] at h
          obtain ⟨y, _, h⟩ := h
          injection h with _ h
          cases h
        · exact ih h
    | fire t =>
      simp only [Pit.step] at hc ⊢
      split
      · rename_i hg
        rw [if_pos hg] at hc
        exact ih hc
      · rename_i hg
        rw [if_neg hg] at hc
        exact ih hc
    | run id n =>
      simp only [Pit.step] at hc ⊢
      split
      · rename_i hg
        rw [if_pos hg] at hc
        have hst := timeout_settle { s with started := s.started.erase (id, n) } n hinv.wf
        rw [hst.sent]
        rw [hst.calls] at hc
        rcases List.mem_append.mp hc with h | h
        · rw [List.mem_reverse, List.mem_map] at h
          obtain ⟨y, _, h⟩ := h
          injection h with _ h
          cases h
        · exact ih h
      · rename_i hg
        rw [if_neg hg] at hc
        exact ih hc
    | tick d => exact ih hc

/-- C35: whatever the schedule, a callback invoked with Data belongs to an Interest expressed before whose name is the Data name, or is
a prefix of it with `CanBePrefix`, or is the Data name followed by the digest of the packet.  (For names told apart by their
texts; and an Interest that has both a digest and `CanBePrefix` is excluded, see `C35_digest_prefix_violated`.) -/
theorem C35_satisfied_partial (sha : Bytes → Bytes) (evs : List PitEvent) (x : Nat) (name : Name) (raw : Bytes)
    (hc : (x, Outcome.data name raw) ∈ (pitAfter sha evs).calls) (hn : Canon name)
    (hs : ∀ e ∈ (pitAfter sha evs).sent, Canon e.name ∧ ¬ (e.canBePrefix = true ∧ (splitDigest e.name).2 ≠ none)) :
    ∃ e ∈ (pitAfter sha evs).sent, e.id = x ∧
      (e.name = name ∨ (e.name <+: name ∧ e.canBePrefix = true) ∨ e.name = name ++ [⟨1, sha raw⟩]) := by
  obtain ⟨e, he, hid, h1, h2, h3⟩ := matches_after sha evs x name raw hc
  obtain ⟨hcan, hnot⟩ := hs e he
  refine ⟨e, he, hid, ?_⟩
  unfold splitDigest at h1 h2 h3 hnot
  cases hl : e.name.getLast? with
  | none =>
    rw [hl] at h1 h2
    simp only at h1 h2
    rcases h2 with h2 | h2
    · exact .inr (.inl ⟨(keys_prefix hcan hn).mp h1, h2⟩)
    · exact .inl (keys_inj hcan hn h2)
  | some c =>
    rw [hl] at h1 h2 h3 hnot
    simp only at h1 h2 h3 hnot
    by_cases ht : c.typ = 1
    · simp only [if_pos ht] at h1 h2 h3 hnot
      have hcbp : e.canBePrefix ≠ true := fun h => hnot ⟨h, by simp⟩
      have hdl : Canon e.name.dropLast := fun d hd => hcan d (List.dropLast_subset _ hd)
      have h2' : keys e.name.dropLast = keys name := by
        rcases h2 with h2 | h2
        · exact absurd h2 hcbp
        · exact h2
      have hd := keys_inj hdl hn h2'
      have hval := h3 c.val rfl
      right; right
      have hne : e.name ≠ [] := by
        intro h; rw [h] at hl; cases hl
      have hlast : e.name.getLast hne = c := by
        rw [List.getLast?_eq_some_getLast hne] at hl
        injection hl
      have := List.dropLast_concat_getLast hne
      rw [hlast, hd] at this
      rw [← this]
      congr 1
      obtain ⟨t, v⟩ := c
      simp only at ht hval
      rw [ht, hval]
    · simp only [if_neg ht] at h1 h2
      rcases h2 with h2 | h2
      · exact .inr (.inl ⟨(keys_prefix hcan hn).mp h1, h2⟩)
      · exact .inl (keys_inj hcan hn h2)

/-- Data for `/a/b`: the Interest `/a` with `CanBePrefix`, `/a/b`, and `/a/b` with the digest get it, `/a` without `CanBePrefix` does
not -/
example :
    let evs : List PitEvent := [.data nmAB [7], .express (nmAB ++ [⟨1, [7]⟩]) 100 false 0, .express (nmAB ++ [⟨1, [8]⟩]) 100 false 0,
      .express nmAB 100 false 0, .express nmA 100 false 0, .express nmA 100 true 0]
    (pitAfter id evs).calls = [(0, .data nmAB [7]), (4, .data nmAB [7]), (2, .data nmAB [7])] := by
  decide

/-- C35 fails: an Interest `/a/sha256digest=d` with `CanBePrefix` is given the Data `/a/b` whose digest is `d`; its name is not the
full name `/a/b/sha256digest=d`, nor a prefix of `/a/b`. -/
theorem C35_digest_prefix_violated :
    let interest : Name := nmA ++ [⟨1, [7]⟩]
    let evs : List PitEvent := [.data nmAB [7], .express interest 100 true 0]
    (pitAfter id evs).calls = [(0, .data nmAB [7])] ∧ ¬ interest <+: nmAB ∧ interest ≠ nmAB ++ [⟨1, [7]⟩] := by
  decide

/-- C35 fails for numbers that are not in shortest form: Data for `seg=1` goes to an Interest for another name. -/
theorem C35_nonminimal_violated :
    let p : Name := [⟨50, [1]⟩]
    let q : Name := [⟨50, [0, 1]⟩]
    (pitAfter id [.data q [7], .express p 100 false 0]).calls = [(0, .data q [7])] ∧ p ≠ q := by
  decide

/-! ## C36 -/

/-- a pending Interest that is satisfied by a Data packet -/
def Pit.satisfies (sha : Bytes → Bytes) (s : Pit) (name : Name) (raw : Bytes) : Prop :=
  ∃ q c, q <+: keys name ∧ s.trie.find q = some c ∧ ∃ y ∈ (s.trie.node c).val, y.satisfied sha q.length name raw = true

theorem setValue_self {V : Type} (t : Trie V) (i : Nat) : t.setValue i (t.node i).val = t := by
  unfold Trie.setValue Trie.upd
  cases t with
  | mk node size =>
    congr 1
    funext j
    simp only
    split
    · rename_i h; subst h; rfl
    · rfl

theorem deliver_none {sha : Bytes → Bytes} {s : Pit} {name : Name} {raw : Bytes} {cur : Nat}
    (h : ∀ y ∈ (s.trie.node cur).val, y.satisfied sha (s.trie.node cur).dep name raw = false) : s.deliver sha name raw cur = s := by
  have h1 : (s.trie.node cur).val.filter (Pend.satisfied sha (s.trie.node cur).dep name raw) = [] := by
    rw [List.filter_eq_nil_iff]
    intro y hy; rw [h y hy]; simp
  have h2 : (s.trie.node cur).val.filter (fun e => !Pend.satisfied sha (s.trie.node cur).dep name raw e) = (s.trie.node cur).val := by
    rw [List.filter_eq_self]
    intro y hy; rw [h y hy]; rfl
  unfold Pit.deliver
  simp only [h1, h2, setValue_self, Pit.cancel, List.map_nil, List.contains_nil, Bool.not_false, List.reverse_nil,
    List.nil_append]
  rw [List.filter_eq_self.mpr (fun _ _ => rfl)]

/-- Data that satisfies nothing only does the clean-up at the end of `onData` -/
theorem onData_none {sha : Bytes → Bytes} {s : Pit} (hi : s.Inv) {name : Name} {raw : Bytes} (h : ¬ s.satisfies sha name raw) :
    s.onData sha name raw =
      { s with trie := Trie.deleteIf (fun l => l.isEmpty) s.trie (s.trie.prefixMatch 0 (keys name)) } := by
  obtain ⟨l, rr, hl, hfn, _⟩ := prefixMatch_spec s.trie (keys name) 0
  have hanc := mem_ancestors hi.wf (show s.trie.find l = some _ from hfn)
  have : (s.trie.ancestors (s.trie.prefixMatch 0 (keys name))).foldl (Pit.deliver sha name raw) s = s := by
    refine foldl_ind (fun s' => s' = s) _ _ s rfl ?_
    rintro s' a ha rfl
    apply deliver_none
    intro y hy
    obtain ⟨q, hq, hf⟩ := (hanc a).mp ha
    have hdep := hi.wf.find_dep hf
    rw [hi.dep0, Nat.zero_add] at hdep
    rw [hdep]
    cases hs : y.satisfied sha q.length name raw with
    | false => rfl
    | true => exact absurd ⟨q, a, hq.trans ⟨rr, hl.symm⟩, hf, y, hy, hs⟩ h
  unfold Pit.onData
  simp only [this]

/-- C36 (what happens): Data that satisfies no pending Interest calls nothing and changes no timer; the table is unchanged if some
Interest waits at the node of the longest existing prefix of the Data name; otherwise everything at and below that node is
unlinked. -/
theorem C36_exact (sha : Bytes → Bytes) (evs : List PitEvent) (name : Name) (raw : Bytes)
    (h : ¬ (pitAfter sha evs).satisfies sha name raw) :
    let s := pitAfter sha evs
    let s' := pitAfter sha (.data name raw :: evs)
    s'.calls = s.calls ∧ s'.timers = s.timers ∧ s'.started = s.started ∧ s'.sent = s.sent ∧
    ∀ l n, l <+: keys name → s.trie.find l = some n → (∀ l', l' <+: keys name → l.length < l'.length → s.trie.find l' = none) →
      ((s.trie.node n).val ≠ [] → s' = s) ∧
      ((s.trie.node n).val = [] → ∀ r, r ≠ [] → l <+: r → s'.trie.find r = none) := by
  intro s s'
  have hi := pitAfter_inv sha evs
  have he : s' = _ := onData_none hi h
  refine ⟨by rw [he], by rw [he], by rw [he], by rw [he], ?_⟩
  intro l n hl hn hmax
  obtain ⟨l1, r1, e1, h1, h2⟩ := prefixMatch_spec s.trie (keys name) 0
  have hll : l1 = l := by
    rcases Nat.lt_trichotomy l1.length l.length with hlt | heq | hgt
    · obtain ⟨r, hr⟩ := hl
      have := h2 l r hr.symm hlt
      rw [show s.trie.exact 0 l = some n from hn] at this; cases this
    · have hl1 : l1 <+: keys name := ⟨r1, e1.symm⟩
      rcases List.prefix_or_prefix_of_prefix hl1 hl with h' | h'
      · exact h'.eq_of_length heq
      · exact (h'.eq_of_length heq.symm).symm
    · have := hmax l1 ⟨r1, e1.symm⟩ hgt
      rw [find, h1] at this; cases this
  subst hll
  have hpn : s.trie.prefixMatch 0 (keys name) = n := by
    have := h1.symm.trans hn
    injection this
  have he' : s' = { s with trie := Trie.deleteIf (fun l => l.isEmpty) s.trie n } := by
    rw [he]
    show { s with trie := Trie.deleteIf (fun l => l.isEmpty) s.trie (s.trie.prefixMatch 0 (keys name)) } = _
    rw [hpn]
  refine ⟨?_, ?_⟩
  · intro hv
    rcases deleteIf_spec (fun l : List Pend => l.isEmpty) hi.wf hn with ⟨_, hd⟩ | ⟨ht, _⟩
    · rw [he', hd]
    · exact absurd (List.isEmpty_iff.mp ht) hv
  · intro hv r hr hlr
    rcases deleteIf_spec (fun l : List Pend => l.isEmpty) hi.wf hn with ⟨hf, _⟩ | ⟨_, q, hq, hfind, _⟩
    · rw [hv] at hf; cases hf
    · rw [he']
      show (Trie.deleteIf (fun l => l.isEmpty) s.trie n).find r = none
      rw [hfind, if_pos (hq.trans hlr), if_neg hr]

/-- C36: Data that satisfies no pending Interest changes nothing at all, if an Interest waits at the longest prefix of the Data name
that is a prefix of a pending name. -/
theorem C36_harmless_partial (sha : Bytes → Bytes) (evs : List PitEvent) (name : Name) (raw : Bytes)
    (h : ¬ (pitAfter sha evs).satisfies sha name raw)
    (hw : ((pitAfter sha evs).trie.node ((pitAfter sha evs).trie.prefixMatch 0 (keys name))).val ≠ []) :
    pitAfter sha (.data name raw :: evs) = pitAfter sha evs := by
  obtain ⟨l, r, e, h1, h2⟩ := prefixMatch_spec (pitAfter sha evs).trie (keys name) 0
  refine ((C36_exact sha evs name raw h).2.2.2.2 l _ ⟨r, e.symm⟩ h1 ?_).1 hw
  rintro l' ⟨r', hr⟩ hlt
  exact h2 l' r' hr.symm hlt

/-- the Interest `/a` waits and Data `/a/b` arrives, which does not satisfy it: the hypotheses of `C36_harmless_partial` hold, and the
Interest is still satisfied later -/
example :
    let evs : List PitEvent := [.express nmA 100 false 0]
    ((pitAfter id evs).trie.node ((pitAfter id evs).trie.prefixMatch 0 (keys nmAB))).val ≠ [] ∧
    (pitAfter id (.data nmA [8] :: .data nmAB [7] :: evs)).calls = [(0, .data nmA [8])] := by
  decide

/-- C36 fails: while `/a` is pending, Data for the unrelated name `/c` unlinks it; Data for `/a` and a Nack for `/a` are then
ignored. -/
theorem C36_unsolicited_violated :
    let evs : List PitEvent := [.express nmA 100 false 0]
    (pitAfter id (.data nmA [8] :: evs)).calls = [(0, .data nmA [8])] ∧
    (pitAfter id (.data nmA [8] :: .data nmC [7] :: evs)).calls = [] ∧
    (pitAfter id (.nack nmA 50 :: .data nmC [7] :: evs)).calls = [] := by
  decide

/-- C36 fails: while `/a/b` is pending, Data for its prefix `/a` unlinks it. -/
theorem C36_prefix_violated :
    let evs : List PitEvent := [.express nmAB 100 false 0]
    (pitAfter id (.data nmAB [8] :: evs)).calls = [(0, .data nmAB [8])] ∧
    (pitAfter id (.data nmAB [8] :: .data nmA [7] :: evs)).calls = [] := by
  decide

end Ndn.Engine
