import Verif.Sync.SvsProps

/-!
# C75: a vector that lacks something is answered
-/

namespace Ndn.Sync

/-! ## Specification -/

/-- when a received vector last raised the number recorded for the name; `none`: never -/
def learnt (H : Bytes → Nat) (n : Name) : List SvEvent → Option Nat
  | [] => none
  | .recv sv now :: evs =>
    if loopOn evs = true ∧ (svsAfter H evs).getSeqNo H n < best (hashIs H (nameHash H n)) sv then some now else learnt H n evs
  | _ :: evs => learnt H n evs

/-- the number of the name was raised by a received vector within the suppression period before `now` -/
def Recent (H : Bytes → Nat) (n : Name) (evs : List SvEvent) (now : Nat) : Prop := ∃ t, learnt H n evs = some t ∧ now ≤ t + suppressionPeriod

/-- the vector has an entry for the name, or one with the same hash -/
def Mentions (H : Bytes → Nat) (sv : Vec) (n : Name) : Prop := ∃ e ∈ sv, nameHash H e.1 = nameHash H n

/-! ## Lemmas -/

/-- the test of svs.go:201 on the recorded time -/
def fresh (m : GMap Nat) (h now : Nat) : Bool := match m.get h with
  | some t => !decide (t + suppressionPeriod < now)
  | none => false

theorem eq_of_nodup_map {α β : Type} {f : α → β} {l : List α} (hd : (l.map f).Nodup) {x y : α} (hx : x ∈ l) (hy : y ∈ l) (h : f x = f y) : x = y := by
  induction l with
  | nil => cases hx
  | cons a l ih =>
    rw [List.map_cons, List.nodup_cons] at hd
    rcases List.mem_cons.mp hx with rfl | hx <;> rcases List.mem_cons.mp hy with rfl | hy
    · rfl
    · exact absurd (List.mem_map.mpr ⟨y, hy, h.symm⟩) hd.1
    · exact absurd (List.mem_map.mpr ⟨x, (by assumption), h⟩) hd.1
    · exact ih hd.2 hx hy

theorem entry_outdated (H : Bytes → Nat) (now : Nat) (r : Recv) (e : Name × Nat) :
    (r.entry H now e).isOutdated = (r.isOutdated || decide (e.2 < r.s.seq (nameHash H e.1))) := by
  unfold Recv.entry
  simp only [hashName_fst, hashName_seq]
  by_cases h1 : e.2 > r.s.seq (nameHash H e.1)
  · rw [if_pos h1, decide_eq_false (by omega), Bool.or_false]
  · rw [if_neg h1]
    by_cases h2 : e.2 < r.s.seq (nameHash H e.1)
    · rw [if_pos h2, decide_eq_true h2, Bool.or_true]
    · rw [if_neg h2, decide_eq_false h2, Bool.or_false]

theorem entry_drop (H : Bytes → Nat) (now : Nat) (r : Recv) (e : Name × Nat) :
    (r.entry H now e).canDrop = (r.canDrop && (!decide (e.2 < r.s.seq (nameHash H e.1)) || fresh r.s.mtime (nameHash H e.1) now)) := by
  unfold Recv.entry fresh
  simp only [hashName_fst, hashName_seq, (hashName_frame H r.s e.1).2.1]
  by_cases h1 : e.2 > r.s.seq (nameHash H e.1)
  · rw [if_pos h1, decide_eq_false (by omega), Bool.not_false, Bool.true_or, Bool.and_true]
  · rw [if_neg h1]
    by_cases h2 : e.2 < r.s.seq (nameHash H e.1)
    · rw [if_pos h2, decide_eq_true h2, Bool.not_true, Bool.false_or]; rfl
    · rw [if_neg h2, decide_eq_false h2, Bool.not_false, Bool.true_or, Bool.and_true]

theorem entry_recvSet (H : Bytes → Nat) (now : Nat) (r : Recv) (e : Name × Nat) : (r.entry H now e).recvSet = nameHash H e.1 :: r.recvSet := by
  unfold Recv.entry
  simp only [hashName_fst, hashName_seq]
  (repeat' split) <;> rfl

theorem entry_mtime (H : Bytes → Nat) (now : Nat) (r : Recv) (e : Name × Nat) :
    (r.entry H now e).s.mtime = if e.2 > r.s.seq (nameHash H e.1) then r.s.mtime.put (nameHash H e.1) now else r.s.mtime := by
  unfold Recv.entry
  simp only [hashName_fst, hashName_seq]
  have hf := (hashName_frame H r.s e.1).2.1
  (repeat' split) <;> simp only [hf]

theorem fold_mtime (H : Bytes → Nat) (now : Nat) (sv : Vec) (r : Recv) (h : Nat) :
    (sv.foldl (Recv.entry H now) r).s.mtime.get h = if r.s.seq h < best (hashIs H h) sv then some now else r.s.mtime.get h := by
  induction sv generalizing r with
  | nil => simp [best]
  | cons e sv ih =>
    rw [List.foldl_cons, ih, entry_seq, entry_mtime, best_cons]
    simp only [hashIs, beq_iff_eq]
    by_cases h1 : h = nameHash H e.1
    · rw [if_pos h1, if_pos h1.symm]
      by_cases h2 : e.2 > r.s.seq (nameHash H e.1)
      · rw [if_pos h2, get_put, if_pos h1]
        rw [if_pos (c := r.s.seq h < _) (by rw [h1]; omega)]
        split <;> rfl
      · rw [if_neg h2]
        have e1 : max (r.s.seq h) e.2 = r.s.seq h := by rw [h1]; omega
        rw [e1]
        by_cases h3 : r.s.seq h < best (hashIs H h) sv
        · rw [if_pos h3, if_pos (by omega)]
        · rw [if_neg h3, if_neg (by rw [h1] at h3 ⊢; omega)]
    · rw [if_neg h1, if_neg (Ne.symm h1)]
      congr 1
      split
      · rw [get_put, if_neg h1]
      · rfl

theorem mtime_learnt (H : Bytes → Nat) (n : Name) (evs : List SvEvent) : (svsAfter H evs).mtime.get (nameHash H n) = learnt H n evs := by
  induction evs with
  | nil => rfl
  | cons e evs ih =>
    show ((svsAfter H evs).step H e).mtime.get _ = _
    cases e with
    | set m q =>
      simp only [Svs.step, Svs.setSeqNo, learnt]
      have hf := (hashName_frame H (svsAfter H evs) m).2.1
      by_cases hq : q ≤ ((svsAfter H evs).hashName H m).2.seq ((svsAfter H evs).hashName H m).1
      · simp only [if_pos hq, hf, ih]
      · simp only [if_neg hq, hf, ih]
    | incr m =>
      simp only [Svs.step, Svs.incrSeqNo, learnt, (hashName_frame H (svsAfter H evs) m).2.1, ih]
    | recv sv now =>
      simp only [Svs.step, running_after, learnt]
      by_cases h1 : loopOn evs = true
      · have hm : ((svsAfter H evs).receive H sv now).mtime = (sv.foldl (Recv.entry H now) { s := svsAfter H evs }).s.mtime := by
          unfold Svs.receive
          simp only
          (repeat' split) <;> rfl
        rw [if_pos h1, hm, fold_mtime]
        simp only [h1, true_and, ih, Svs.getSeqNo]
      · rw [if_neg h1, if_neg (fun h => h1 h.1), ih]
    | timer => simp only [Svs.step, Svs.timerExpired, learnt]; (repeat' split) <;> exact ih
    | send => simp only [Svs.step, Svs.sendSyncInterest, learnt]; (repeat' split) <;> exact ih
    | run => exact ih
    | halt => exact ih

theorem fresh_iff (H : Bytes → Nat) (n : Name) (evs : List SvEvent) (now : Nat) :
    fresh (svsAfter H evs).mtime (nameHash H n) now = true ↔ Recent H n evs now := by
  unfold fresh Recent
  rw [mtime_learnt]
  cases learnt H n evs <;> simp

theorem fold_flags (H : Bytes → Nat) (now : Nat) (sv : Vec) (hd : (sv.map fun e => nameHash H e.1).Nodup) (r : Recv) :
    (sv.foldl (Recv.entry H now) r).isOutdated = (r.isOutdated || sv.any fun e => decide (e.2 < r.s.seq (nameHash H e.1))) ∧
    (sv.foldl (Recv.entry H now) r).canDrop =
      (r.canDrop && sv.all fun e => !decide (e.2 < r.s.seq (nameHash H e.1)) || fresh r.s.mtime (nameHash H e.1) now) := by
  induction sv generalizing r with
  | nil => simp
  | cons e sv ih =>
    rw [List.map_cons, List.nodup_cons] at hd
    have hne : ∀ f ∈ sv, nameHash H f.1 ≠ nameHash H e.1 := fun f hf h => hd.1 (List.mem_map.mpr ⟨f, hf, h⟩)
    have hs : ∀ f ∈ sv, (r.entry H now e).s.seq (nameHash H f.1) = r.s.seq (nameHash H f.1) := fun f hf => by
      rw [entry_seq, if_neg (hne f hf)]
    have hm : ∀ f ∈ sv, fresh (r.entry H now e).s.mtime (nameHash H f.1) now = fresh r.s.mtime (nameHash H f.1) now := fun f hf => by
      have : (r.entry H now e).s.mtime.get (nameHash H f.1) = r.s.mtime.get (nameHash H f.1) := by
        rw [entry_mtime]
        split
        · rw [get_put, if_neg (hne f hf)]
        · rfl
      unfold fresh
      rw [this]
    obtain ⟨h1, h2⟩ := ih hd.2 (r.entry H now e)
    rw [List.foldl_cons, h1, h2, entry_outdated, entry_drop, List.any_cons, List.all_cons]
    have e1 : (sv.any fun f => decide (f.2 < (r.entry H now e).s.seq (nameHash H f.1))) = sv.any fun f => decide (f.2 < r.s.seq (nameHash H f.1)) := by
      rw [Bool.eq_iff_iff, List.any_eq_true, List.any_eq_true]
      exact exists_congr fun f => and_congr_right fun hf => by rw [hs f hf]
    have e2 : (sv.all fun f => !decide (f.2 < (r.entry H now e).s.seq (nameHash H f.1)) || fresh (r.entry H now e).s.mtime (nameHash H f.1) now) =
        sv.all fun f => !decide (f.2 < r.s.seq (nameHash H f.1)) || fresh r.s.mtime (nameHash H f.1) now := by
      rw [Bool.eq_iff_iff, List.all_eq_true, List.all_eq_true]
      exact forall_congr' fun f => forall_congr' fun hf => by rw [hs f hf, hm f hf]
    rw [e1, e2]
    exact ⟨Bool.or_assoc _ _ _, Bool.and_assoc _ _ _⟩

theorem fold_recvSet (H : Bytes → Nat) (now : Nat) (sv : Vec) (r : Recv) (k : Nat) :
    k ∈ (sv.foldl (Recv.entry H now) r).recvSet ↔ k ∈ r.recvSet ∨ ∃ e ∈ sv, nameHash H e.1 = k := by
  induction sv generalizing r with
  | nil => simp
  | cons e sv ih =>
    rw [List.foldl_cons, ih, entry_recvSet]
    simp only [List.mem_cons, exists_eq_or_imp]
    constructor
    · rintro ((h | h) | h)
      · exact .inr (.inl h.symm)
      · exact .inl h
      · exact .inr (.inr h)
    · rintro (h | h | h)
      · exact .inl (.inr h)
      · exact .inl (.inl h.symm)
      · exact .inr h

theorem fold_keys (H : Bytes → Nat) (now : Nat) (sv : Vec) (r : Recv) (x : Nat × Nat) (hx : x ∈ (sv.foldl (Recv.entry H now) r).s.state) :
    x ∈ r.s.state ∨ ∃ e ∈ sv, nameHash H e.1 = x.1 := by
  induction sv generalizing r with
  | nil => exact .inl hx
  | cons e sv ih =>
    rcases ih (r.entry H now e) hx with h | ⟨f, hf, h⟩
    · rw [entry_state] at h
      split at h
      · rcases mem_put h with rfl | h
        · exact .inr ⟨e, List.mem_cons_self, rfl⟩
        · exact .inl h
      · exact .inl h
    · exact .inr ⟨f, List.mem_cons_of_mem _ hf, h⟩

/-- without wrapping around, no recorded number is 0 -/
theorem nonzero_after {H : Bytes → Nat} {evs : List SvEvent} (hw : NoWrap H evs) : ∀ x ∈ (svsAfter H evs).state, x.2 ≠ 0 := by
  induction evs with
  | nil => intro x hx; cases hx
  | cons e evs ih =>
    have ih := ih hw.tail
    show ∀ x ∈ ((svsAfter H evs).step H e).state, _
    intro x hx
    cases e with
    | set m q =>
      simp only [Svs.step, Svs.setSeqNo] at hx
      have hf := (hashName_frame H (svsAfter H evs) m).1
      by_cases hq : q ≤ ((svsAfter H evs).hashName H m).2.seq ((svsAfter H evs).hashName H m).1
      · simp only [if_pos hq, hf] at hx; exact ih x hx
      · simp only [if_neg hq, hf] at hx
        rcases mem_put hx with rfl | hx
        · simp only; omega
        · exact ih x hx
    | incr m =>
      simp only [Svs.step, Svs.incrSeqNo] at hx
      have hf := (hashName_frame H (svsAfter H evs) m).1
      simp only [hf, hashName_seq, hashName_fst] at hx
      rcases mem_put hx with rfl | hx
      · have := hw [] m evs rfl
        unfold Svs.getSeqNo at this
        unfold incr64
        rw [if_neg (by omega)]
        simp
      · exact ih x hx
    | recv sv now =>
      simp only [Svs.step] at hx
      split at hx
      · rw [(receive_fold H _ sv now).1] at hx
        have key : ∀ (sv : Vec) (r : Recv), (∀ x ∈ r.s.state, x.2 ≠ 0) → ∀ x ∈ (sv.foldl (Recv.entry H now) r).s.state, x.2 ≠ 0 := by
          intro sv
          induction sv with
          | nil => intro r h; exact h
          | cons e sv ihs =>
            intro r h
            refine ihs _ fun y hy => ?_
            rw [entry_state] at hy
            split at hy
            · rcases mem_put hy with rfl | hy
              · simp only; omega
              · exact h y hy
            · exact h y hy
        exact key sv { s := svsAfter H evs } ih x hx
      · exact ih x hx
    | timer => rw [show (Svs.step H _ .timer) = if (svsAfter H evs).running then (svsAfter H evs).timerExpired else svsAfter H evs from rfl] at hx
               split at hx
               · rw [timer_state] at hx; exact ih x hx
               · exact ih x hx
    | send =>
      simp only [Svs.step] at hx
      split at hx
      · exact ih x hx
      · rw [send_state] at hx; exact ih x hx
    | run => exact ih x hx
    | halt => exact ih x hx

/-- what a reception does to suppression -/
theorem recv_suppress (H : Bytes → Nat) (evs : List SvEvent) (hon : loopOn evs = true) (sv : Vec) (hd : (sv.map fun e => nameHash H e.1).Nodup) (now : Nat) :
    let s := svsAfter H evs
    let stale := sv.any fun e => decide (e.2 < s.getSeqNo H e.1)
    let missing := !stale && (sv.foldl (Recv.entry H now) { s := s }).s.state.any fun x => !(sv.map fun e => nameHash H e.1).contains x.1
    let drop := (sv.all fun e => !decide (e.2 < s.getSeqNo H e.1) || fresh s.mtime (nameHash H e.1) now) && !missing
    (svsAfter H (.recv sv now :: evs)).suppress = if !(stale || missing) then false else if drop || s.suppress then s.suppress else true := by
  intro s stale missing drop
  have hstep : svsAfter H (.recv sv now :: evs) = s.receive H sv now := by
    show (svsAfter H evs).step H _ = _
    simp only [Svs.step, running_after, hon, if_true]
    rfl
  rw [hstep]
  obtain ⟨h1, h2⟩ := fold_flags H now sv hd { s := s }
  have h3 := fold_suppress H now sv { s := s }
  simp only [Bool.false_or, Bool.true_and] at h1 h2 h3
  have hm : (!(sv.foldl (Recv.entry H now) { s := s }).isOutdated &&
      (sv.foldl (Recv.entry H now) { s := s }).s.state.any (fun e => !(sv.foldl (Recv.entry H now) { s := s }).recvSet.contains e.1)) = missing := by
    rw [h1]
    show (!stale && _) = (!stale && _)
    congr 1
    rw [Bool.eq_iff_iff, List.any_eq_true, List.any_eq_true]
    refine exists_congr fun x => and_congr_right fun _ => ?_
    have := fold_recvSet H now sv { s := s } x.1
    simp only [List.not_mem_nil, false_or] at this
    rw [Bool.not_eq_true', Bool.not_eq_true', ← Bool.not_eq_true, ← Bool.not_eq_true, List.contains_iff_mem, List.contains_iff_mem, this]
    simp
  unfold Svs.receive
  simp only
  rw [hm, h1, h2, h3]
  show Svs.suppress (if (!(stale || missing)) = true then _ else if (drop || s.suppress) = true then _ else _) = _
  (repeat' split)
  · rfl
  · exact h3
  · rfl

/-! ## Theorems -/

/-- C75: the main loop takes a vector in which no two entries have the same hash.

1. If the vector lacks nothing — every name known here has an entry that is at least as great — suppression ends (unless a local number has wrapped around to 0).
2. If an entry is smaller than the recorded number, and this number was not raised by the network within the suppression period, the node is in suppression
   afterwards; so that its timer will send its vector (`C47_news_is_sent`) unless others do.
3. The same if no entry is too small but a known name has no entry.
4. If the node was in suppression and the vector lacks something, it stays in suppression, and the vector counts.
5. When suppression begins, no vector counts yet.

Missing: a vector with both a missing name and an entry that is too small, see `C75_missing_violated`. -/
theorem C75_answer_partial (H : Bytes → Nat) (evs : List SvEvent) (hon : loopOn evs = true) (sv : Vec) (hd : (sv.map fun e => nameHash H e.1).Nodup) (now : Nat) :
    let s := svsAfter H evs
    let s' := svsAfter H (.recv sv now :: evs)
    (NoWrap H evs → (∀ n, s.getSeqNo H n ≠ 0 → ∃ e ∈ sv, nameHash H e.1 = nameHash H n ∧ s.getSeqNo H n ≤ e.2) → s'.suppress = false) ∧
    ((∃ e ∈ sv, e.2 < s.getSeqNo H e.1 ∧ ¬ Recent H e.1 evs now) → s'.suppress = true) ∧
    ((∀ e ∈ sv, s.getSeqNo H e.1 ≤ e.2) → (∃ n, s.getSeqNo H n ≠ 0 ∧ ¬ Mentions H sv n) → s'.suppress = true) ∧
    (s.suppress = true → (∃ n, s.getSeqNo H n ≠ 0 ∧ ∀ e ∈ sv, nameHash H e.1 = nameHash H n → e.2 < s.getSeqNo H n) →
      s'.suppress = true ∧ window H (.recv sv now :: evs) = sv :: window H evs) ∧
    (s.suppress = false → s'.suppress = true → window H (.recv sv now :: evs) = []) := by
  intro s s'
  have key := recv_suppress H evs hon sv hd now
  simp only at key
  have hmiss : ∀ n, s.getSeqNo H n ≠ 0 → ¬ Mentions H sv n →
      ((sv.foldl (Recv.entry H now) { s := s }).s.state.any fun x => !(sv.map fun e => nameHash H e.1).contains x.1) = true := by
    intro n h0 hn
    have hb : best (hashIs H (nameHash H n)) sv = 0 := by
      by_cases hb : best (hashIs H (nameHash H n)) sv = 0
      · exact hb
      · obtain ⟨e, he, hp, _⟩ := best_mem hb
        exact absurd ⟨e, he, by simpa [hashIs] using hp⟩ hn
    have hs := fold_seq H now sv { s := s } (nameHash H n)
    rw [hb, Nat.max_zero] at hs
    unfold Svs.getSeqNo at h0
    simp only at hs
    rw [← hs] at h0
    unfold Svs.seq at h0
    cases hg : (sv.foldl (Recv.entry H now) { s := s }).s.state.get (nameHash H n) with
    | none => rw [hg] at h0; exact absurd rfl h0
    | some q =>
      rw [List.any_eq_true]
      refine ⟨_, mem_of_get hg, ?_⟩
      rw [Bool.not_eq_true', ← Bool.not_eq_true, List.contains_iff_mem, List.mem_map]
      exact fun ⟨e, he, h⟩ => hn ⟨e, he, h⟩
  refine ⟨?_, ?_, ?_, ?_, ?_⟩
  · intro hw hall
    have h1 : (sv.any fun e => decide (e.2 < (svsAfter H evs).getSeqNo H e.1)) = false := by
      rw [List.any_eq_false]
      intro e he h
      rw [decide_eq_true_eq] at h
      obtain ⟨f, hf, hh, hle⟩ := hall e.1 (by show (svsAfter H evs).getSeqNo H e.1 ≠ 0; omega)
      have : f = e := eq_of_nodup_map hd hf he hh
      subst this
      change (svsAfter H evs).getSeqNo H f.1 ≤ f.2 at hle
      omega
    have h2 : ((sv.foldl (Recv.entry H now) { s := svsAfter H evs }).s.state.any fun x => !(sv.map fun e => nameHash H e.1).contains x.1) = false := by
      rw [List.any_eq_false]
      intro x hx h
      rw [Bool.not_eq_true', ← Bool.not_eq_true, List.contains_iff_mem, List.mem_map] at h
      rcases fold_keys H now sv _ x hx with hx | ⟨e, he, hh⟩
      · have h0 := nonzero_after hw x hx
        have hg := get_of_mem (Inv.after H evs).nodup (show (x.1, x.2) ∈ _ from hx)
        obtain ⟨m, hm, _, _⟩ := vector_of_get (Inv.after H evs) hg
        obtain ⟨f, hf, hh, _⟩ := hall m (by unfold Svs.getSeqNo Svs.seq; rw [hm, hg]; exact h0)
        exact h ⟨f, hf, hh.trans hm⟩
      · exact h ⟨e, he, hh⟩
    rw [key, h1, h2]
    rfl
  · rintro ⟨e, he, hlt, hr⟩
    have h1 : (sv.any fun e => decide (e.2 < (svsAfter H evs).getSeqNo H e.1)) = true := List.any_eq_true.mpr ⟨e, he, by simpa using hlt⟩
    have h2 : (sv.all fun e => !decide (e.2 < (svsAfter H evs).getSeqNo H e.1) || fresh (svsAfter H evs).mtime (nameHash H e.1) now) = false := by
      rw [List.all_eq_false]
      refine ⟨e, he, ?_⟩
      rw [decide_eq_true hlt, Bool.not_true, Bool.false_or, fresh_iff]
      exact hr
    rw [key, h1, h2]
    simp only [Bool.not_true, Bool.true_or, Bool.false_and, Bool.false_or, if_false, Bool.false_eq_true]
    split
    · assumption
    · rfl
  · rintro hall ⟨n, h0, hn⟩
    have h1 : (sv.any fun e => decide (e.2 < (svsAfter H evs).getSeqNo H e.1)) = false := by
      rw [List.any_eq_false]
      intro e he h
      have := hall e he
      rw [decide_eq_true_eq] at h
      change (svsAfter H evs).getSeqNo H e.1 ≤ e.2 at this
      omega
    rw [key, h1, hmiss n h0 hn]
    simp only [Bool.not_true, Bool.not_false, Bool.and_true, Bool.false_or, Bool.and_false, if_false, Bool.false_eq_true]
    split
    · assumption
    · rfl
  · rintro hsup ⟨n, h0, hn⟩
    refine ⟨?_, ?_⟩
    · have : ((sv.any fun e => decide (e.2 < (svsAfter H evs).getSeqNo H e.1)) ||
          !(sv.any fun e => decide (e.2 < (svsAfter H evs).getSeqNo H e.1)) &&
            (sv.foldl (Recv.entry H now) { s := svsAfter H evs }).s.state.any fun x => !(sv.map fun e => nameHash H e.1).contains x.1) = true := by
        by_cases hm : Mentions H sv n
        · obtain ⟨e, he, hh⟩ := hm
          rw [Bool.or_eq_true]
          refine .inl (List.any_eq_true.mpr ⟨e, he, ?_⟩)
          have := hn e he hh
          unfold Svs.getSeqNo at this ⊢
          rw [hh]
          exact decide_eq_true this
        · rw [hmiss n h0 hm, Bool.and_true, Bool.or_not_self]
      rw [key, this]
      change (svsAfter H evs).suppress = true at hsup
      simp [hsup]
    · change (svsAfter H evs).suppress = true at hsup
      simp only [window, hon, hsup, if_true]
  · intro h1 h2
    change (svsAfter H evs).suppress = false at h1
    simp only [window, hon, h1, if_true, if_false, Bool.false_eq_true]

/-- C75, when nothing is to be done: if the vector has an entry that is too small, and every such entry is for a number raised within the suppression period,
suppression stays as it was. -/
theorem C75_dropped (H : Bytes → Nat) (evs : List SvEvent) (hon : loopOn evs = true) (sv : Vec) (hd : (sv.map fun e => nameHash H e.1).Nodup) (now : Nat)
    (hs : ∃ e ∈ sv, e.2 < (svsAfter H evs).getSeqNo H e.1) (hr : ∀ e ∈ sv, e.2 < (svsAfter H evs).getSeqNo H e.1 → Recent H e.1 evs now) :
    (svsAfter H (.recv sv now :: evs)).suppress = (svsAfter H evs).suppress := by
  have key := recv_suppress H evs hon sv hd now
  simp only at key
  obtain ⟨e, he, hlt⟩ := hs
  have h1 : (sv.any fun e => decide (e.2 < (svsAfter H evs).getSeqNo H e.1)) = true := List.any_eq_true.mpr ⟨e, he, by simpa using hlt⟩
  have h2 : (sv.all fun e => !decide (e.2 < (svsAfter H evs).getSeqNo H e.1) || fresh (svsAfter H evs).mtime (nameHash H e.1) now) = true := by
    rw [List.all_eq_true]
    intro f hf
    by_cases hl : f.2 < (svsAfter H evs).getSeqNo H f.1
    · rw [(fresh_iff H f.1 evs now).mpr (hr f hf hl), Bool.or_true]
    · rw [decide_eq_false hl, Bool.not_false, Bool.true_or]
  rw [key, h1, h2]
  simp

/-- C75 fails: node A's number 3 has been known for a second.  A vector that does not have A at all, and has an old number of B, which was raised just before, is
dropped as if it lacked nothing but that of B: names that are missing are looked for only if no entry is too small. -/
theorem C75_missing_violated :
    let evs : List SvEvent := [.recv [(nA, 3), (nB, 2)] (10 ^ 9), .recv [(nA, 3)] 1, .run]
    (svsAfter H0 evs).getSeqNo H0 nA = 3 ∧ ¬ Mentions H0 [(nB, 1)] nA ∧ ¬ Recent H0 nA evs (10 ^ 9 + 1) ∧ (svsAfter H0 evs).suppress = false ∧
    (svsAfter H0 (.recv [(nB, 1)] (10 ^ 9 + 1) :: evs)).suppress = false ∧
    (svsAfter H0 (.recv [(nB, 2)] (10 ^ 9 + 1) :: evs)).suppress = true := by
  refine ⟨by decide, ?_, ?_, by decide, by decide, by decide⟩
  · rintro ⟨e, he, h⟩
    rw [List.mem_singleton] at he
    subst he
    exact absurd h (by decide)
  · rintro ⟨t, h, hle⟩
    have : learnt H0 nA [.recv [(nA, 3), (nB, 2)] (10 ^ 9), .recv [(nA, 3)] 1, .run] = some 1 := by decide
    rw [this] at h
    cases h
    revert hle
    decide

example : let evs : List SvEvent := [.recv [(nA, 3), (nB, 2)] (10 ^ 9), .recv [(nA, 3)] 1, .run]
    loopOn evs = true ∧ ([(nA, 2), (nB, 2)].map fun e => nameHash H0 e.1).Nodup ∧ learnt H0 nB evs = some (10 ^ 9) ∧
    (svsAfter H0 (.recv [(nA, 2), (nB, 2)] (10 ^ 9 + 1) :: evs)).suppress = true ∧
    (svsAfter H0 (.recv [(nA, 3), (nB, 2)] (10 ^ 9 + 2) :: .recv [(nA, 2), (nB, 2)] (10 ^ 9 + 1) :: evs)).suppress = false ∧
    (svsAfter H0 (.recv [(nA, 3), (nB, 1)] (10 ^ 9 + 1) :: evs)).suppress = false := by decide

end Ndn.Sync
