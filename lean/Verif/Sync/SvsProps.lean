import Verif.Sync.SvsLemmas
import Verif.Codec.Props
import Verif.Enc.NameProps

/-!
# C44–C48: state vector sync

A history is a list of events, the latest first; `H` is any hash function.
-/

namespace Ndn.Sync

/-- no increment in the history wraps around at `2^64` -/
def NoWrap (H : Bytes → Nat) (evs : List SvEvent) : Prop :=
  ∀ (l : List SvEvent) (n : Name) (r : List SvEvent), evs = l ++ .incr n :: r → (svsAfter H r).getSeqNo H n < 2 ^ 64 - 1

theorem NoWrap.tail {H : Bytes → Nat} {e : SvEvent} {evs : List SvEvent} (h : NoWrap H (e :: evs)) : NoWrap H evs := by
  intro l n r hr
  exact h (e :: l) n r (by rw [hr]; rfl)

theorem NoWrap.drop {H : Bytes → Nat} {l evs : List SvEvent} (h : NoWrap H (l ++ evs)) : NoWrap H evs := by
  induction l with
  | nil => exact h
  | cons e l ih => exact ih h.tail

theorem NoWrap.seq_le {H : Bytes → Nat} {e : SvEvent} {evs : List SvEvent} (hw : NoWrap H (e :: evs)) (h : Nat) :
    (svsAfter H evs).seq h ≤ (svsAfter H (e :: evs)).seq h := by
  show _ ≤ ((svsAfter H evs).step H e).seq h
  rw [step_seq]
  cases e with
  | set n q => simp only; split <;> omega
  | incr n =>
    simp only
    split
    · rename_i hn
      have := hw [] n evs rfl
      unfold Svs.getSeqNo at this
      rw [← hn] at this
      unfold incr64
      rw [if_neg (by omega)]
      omega
    · omega
  | recv sv now => simp only; split <;> omega
  | timer => exact Nat.le_refl _
  | send => exact Nat.le_refl _
  | run => exact Nat.le_refl _
  | halt => exact Nat.le_refl _

/-! ## C44 -/

/-- C44: in any history in which no local increment wraps around, the number recorded for a name never decreases: not from one event
to the next and so not between any two moments.  Missing from the full claim: `IncrSeqNo` at `2^64 - 1`, see `C44_wrap_violated`. -/
theorem C44_monotone_partial (H : Bytes → Nat) (later earlier : List SvEvent) (hw : NoWrap H (later ++ earlier)) (n : Name) :
    (svsAfter H earlier).getSeqNo H n ≤ (svsAfter H (later ++ earlier)).getSeqNo H n := by
  induction later with
  | nil => exact Nat.le_refl _
  | cons e later ih => exact Nat.le_trans (ih hw.tail) (hw.seq_le _)

/-- C44 without restriction for what comes from the network: no received vector, in any state, lowers a number, and neither does
`SetSeqNo`. -/
theorem C44_received_monotone (H : Bytes → Nat) (evs : List SvEvent) (e : SvEvent) (he : ∀ m, e ≠ .incr m) (n : Name) :
    (svsAfter H evs).getSeqNo H n ≤ (svsAfter H (e :: evs)).getSeqNo H n := by
  show _ ≤ ((svsAfter H evs).step H e).seq _
  rw [step_seq]
  unfold Svs.getSeqNo
  cases e with
  | set n q => simp only; split <;> omega
  | incr n => exact absurd rfl (he n)
  | recv sv now => simp only; split <;> omega
  | timer => exact Nat.le_refl _
  | send => exact Nat.le_refl _
  | run => exact Nat.le_refl _
  | halt => exact Nat.le_refl _

/-- C44 for the caller: `SetSeqNo` reports an error exactly if the number is not greater than the recorded one, and then changes no number; `IncrSeqNo` returns the
number that is recorded then. -/
theorem C44_results (H : Bytes → Nat) (s : Svs) (n : Name) (q : Nat) :
    ((s.setSeqNo H n q).1 = true ↔ s.getSeqNo H n < q) ∧
    (∀ m, (s.setSeqNo H n q).1 = false → (s.setSeqNo H n q).2.getSeqNo H m = s.getSeqNo H m) ∧
    ((s.setSeqNo H n q).1 = true → (s.setSeqNo H n q).2.getSeqNo H n = q) ∧
    (s.incrSeqNo H n).1 = (s.incrSeqNo H n).2.getSeqNo H n := by
  have h : (s.setSeqNo H n q).1 = decide (s.getSeqNo H n < q) := by
    unfold Svs.setSeqNo Svs.getSeqNo
    simp only [hashName_fst, hashName_seq]
    by_cases hq : q ≤ s.seq (nameHash H n)
    · rw [if_pos hq, decide_eq_false (by omega)]
    · rw [if_neg hq, decide_eq_true (by omega)]
  rw [h]
  unfold Svs.getSeqNo
  refine ⟨by simp, fun m hm => ?_, fun hm => ?_, ?_⟩
  · rw [set_seq]
    simp only [decide_eq_false_iff_not] at hm
    split
    · rename_i hh; rw [hh]; omega
    · rfl
  · rw [set_seq, if_pos rfl]
    simp only [decide_eq_true_eq] at hm
    omega
  · rw [incr_seq, if_pos rfl]
    unfold Svs.incrSeqNo
    simp only [hashName_fst, hashName_seq]

/-- the first component of names used in the examples -/
def nA : Name := [⟨8, [97]⟩]
def nB : Name := [⟨8, [98]⟩]
/-- a hash for the examples: distinct for short names -/
def H0 (b : Bytes) : Nat := beVal b

example : (svsAfter H0 [.recv [(nA, 3), (nB, 7)] 5, .run, .set nA 4]).getSeqNo H0 nA = 4 ∧
    (svsAfter H0 [.recv [(nA, 3), (nB, 7)] 5, .run, .set nA 4]).getSeqNo H0 nB = 7 := by decide

/-- the code violates C44 (1): publishing after `2^64 - 1` starts again from 0 -/
theorem C44_wrap_violated (H : Bytes → Nat) (n : Name) :
    (svsAfter H [.set n (2 ^ 64 - 1)]).getSeqNo H n = 2 ^ 64 - 1 ∧
    (svsAfter H [.incr n, .set n (2 ^ 64 - 1)]).getSeqNo H n = 0 := by
  have h1 : (svsAfter H [.set n (2 ^ 64 - 1)]).getSeqNo H n = 2 ^ 64 - 1 := by
    show ((svsAfter H []).step H (.set n (2 ^ 64 - 1))).seq _ = _
    rw [step_seq]
    simp only [if_true]
    show max 0 _ = _
    omega
  refine ⟨h1, ?_⟩
  show ((svsAfter H [.set n (2 ^ 64 - 1)]).step H (.incr n)).seq _ = _
  rw [step_seq]
  simp only [if_true]
  unfold Svs.getSeqNo at h1
  rw [h1]
  rfl

/-! ## C45 -/

/-- what the history received for `p` is received under that name only, and `p` is not published here -/
def Alone (H : Bytes → Nat) (p : Name) : List SvEvent → Prop
  | [] => True
  | .set n _ :: evs => nameHash H n ≠ nameHash H p ∧ Alone H p evs
  | .incr n :: evs => nameHash H n ≠ nameHash H p ∧ Alone H p evs
  | .recv sv _ :: evs => (∀ e ∈ sv, e.2 < 2 ^ 64 ∧ (nameHash H e.1 = nameHash H p → e.1 = p)) ∧ Alone H p evs
  | _ :: evs => Alone H p evs

/-- the ranges reported for `p`, the latest first -/
def ranges (p : Name) (s : Svs) : List (Nat × Nat) := (s.updates.filter (fun u => u.name == p)).map (fun u => (u.low, u.high))

/-- ranges, the latest first, that are non-empty, start at 1, follow each other without gap or overlap and end at `m` -/
def Tiles : List (Nat × Nat) → Nat → Prop
  | [], m => m = 0
  | (a, b) :: l, m => b = m ∧ a ≤ b ∧ 1 ≤ a ∧ Tiles l (a - 1)

/-- how many of the ranges contain `k` -/
def times (k : Nat) (l : List (Nat × Nat)) : Nat := l.countP (fun r => decide (r.1 ≤ k) && decide (k ≤ r.2))

theorem Tiles.times {l : List (Nat × Nat)} {m : Nat} (h : Tiles l m) (k : Nat) : times k l = if 1 ≤ k ∧ k ≤ m then 1 else 0 := by
  induction l generalizing m with
  | nil =>
    cases h
    rw [if_neg (by omega)]; rfl
  | cons r l ih =>
    obtain ⟨a, b⟩ := r
    obtain ⟨rfl, h1, h2, h3⟩ := h
    have := ih h3
    unfold Sync.times at this ⊢
    rw [List.countP_cons, this]
    by_cases hk : a ≤ k ∧ k ≤ b
    · simp only [hk, decide_true, Bool.and_self, if_true]
      rw [if_neg (show ¬ (1 ≤ k ∧ k ≤ a - 1) by omega), if_pos (show 1 ≤ k ∧ True by exact ⟨by omega, trivial⟩)]
    · rw [if_neg (c := (decide (a ≤ k) && decide (k ≤ b)) = true) (by simpa using hk)]
      by_cases hk1 : 1 ≤ k ∧ k ≤ a - 1
      · rw [if_pos hk1, if_pos (by omega)]
      · rw [if_neg hk1, if_neg (by omega)]

theorem tiles_entry {H : Bytes → Nat} {p : Name} (now : Nat) {r : Recv} {e : Name × Nat} (h : Tiles (ranges p r.s) (r.s.seq (nameHash H p)))
    (he : e.2 < 2 ^ 64) (hp : nameHash H e.1 = nameHash H p → e.1 = p) :
    Tiles (ranges p (r.entry H now e).s) ((r.entry H now e).s.seq (nameHash H p)) := by
  rw [entry_seq]
  unfold ranges at h ⊢
  rw [entry_updates]
  by_cases h1 : nameHash H p = nameHash H e.1
  · have := hp h1.symm
    rw [if_pos h1]
    subst this
    split
    · rename_i h2
      rw [List.filter_cons_of_pos (by simp), List.map_cons]
      have hi : incr64 (r.s.seq (nameHash H e.1)) = r.s.seq (nameHash H e.1) + 1 := by
        unfold incr64
        rw [if_neg (by omega)]
      rw [hi]
      refine ⟨?_, ?_, Nat.le_add_left _ _, ?_⟩
      · simp only; omega
      · simp only; omega
      · rw [Nat.add_sub_cancel]; exact h
    · rename_i h2
      rw [Nat.max_eq_left (by omega)]
      exact h
  · rw [if_neg h1]
    have hne : e.1 ≠ p := by rintro rfl; exact h1 rfl
    split
    · rw [List.filter_cons_of_neg (by simp [hne])]
      exact h
    · exact h

theorem tiles_fold {H : Bytes → Nat} {p : Name} (now : Nat) (sv : Vec) {r : Recv} (h : Tiles (ranges p r.s) (r.s.seq (nameHash H p)))
    (he : ∀ e ∈ sv, e.2 < 2 ^ 64 ∧ (nameHash H e.1 = nameHash H p → e.1 = p)) :
    Tiles (ranges p (sv.foldl (Recv.entry H now) r).s) ((sv.foldl (Recv.entry H now) r).s.seq (nameHash H p)) := by
  induction sv generalizing r with
  | nil => exact h
  | cons e sv ih =>
    exact ih (tiles_entry now h (he e List.mem_cons_self).1 (he e List.mem_cons_self).2) (fun f hf => he f (List.mem_cons_of_mem _ hf))

theorem step_updates (H : Bytes → Nat) (s : Svs) (e : SvEvent) (he : ∀ sv now, e ≠ .recv sv now) : (s.step H e).updates = s.updates := by
  cases e with
  | set n q =>
    simp only [Svs.step, Svs.setSeqNo]
    have := (hashName_frame H s n).2.2.2.2.2.2.1
    by_cases hq : q ≤ (s.hashName H n).2.seq (s.hashName H n).1
    · simp only [if_pos hq]; exact this
    · simp only [if_neg hq]; exact this
  | incr n => exact (hashName_frame H s n).2.2.2.2.2.2.1
  | recv sv now => exact absurd rfl (he sv now)
  | timer => simp only [Svs.step, Svs.timerExpired]; (repeat' split) <;> rfl
  | send => simp only [Svs.step, Svs.sendSyncInterest]; (repeat' split) <;> rfl
  | run => rfl
  | halt => rfl

theorem tiles_after {H : Bytes → Nat} {p : Name} {evs : List SvEvent} (ha : Alone H p evs) :
    Tiles (ranges p (svsAfter H evs)) ((svsAfter H evs).seq (nameHash H p)) := by
  induction evs with
  | nil => exact rfl
  | cons e evs ih =>
    have keep : ∀ (_ : ∀ sv now, e ≠ .recv sv now) (_ : Alone H p evs)
        (_ : ((svsAfter H evs).step H e).seq (nameHash H p) = (svsAfter H evs).seq (nameHash H p)),
        Tiles (ranges p (svsAfter H (e :: evs))) ((svsAfter H (e :: evs)).seq (nameHash H p)) := by
      intro h1 h2 h3
      show Tiles (ranges p ((svsAfter H evs).step H e)) (((svsAfter H evs).step H e).seq (nameHash H p))
      unfold ranges
      rw [step_updates H _ e h1, h3]
      exact ih h2
    cases e with
    | set n q => exact keep (by simp) ha.2 (by rw [step_seq]; simp only [if_neg (Ne.symm ha.1)])
    | incr n => exact keep (by simp) ha.2 (by rw [step_seq]; simp only [if_neg (Ne.symm ha.1)])
    | timer => exact keep (by simp) ha (by rw [step_seq])
    | send => exact keep (by simp) ha (by rw [step_seq])
    | run => exact keep (by simp) ha (by rw [step_seq])
    | halt => exact keep (by simp) ha (by rw [step_seq])
    | recv sv now =>
      show Tiles (ranges p ((svsAfter H evs).step H _)) (((svsAfter H evs).step H _).seq (nameHash H p))
      simp only [Svs.step]
      split
      · have h1 := (receive_fold H (svsAfter H evs) sv now)
        unfold ranges Svs.seq
        rw [h1.1, h1.2.1]
        exact tiles_fold now sv (r := { s := svsAfter H evs }) (ih ha.2) ha.1
      · exact ih ha.2

/-- C45: for a remote producer whose hash no other name shares, the ranges reported are non-empty, each starts right after the end of
the one before, and every number from 1 to the recorded one — and no other — is in exactly one of them.  Missing: names whose hashes
collide (`C45_collision_violated`). -/
theorem C45_ranges_partial (H : Bytes → Nat) (p : Name) (evs : List SvEvent) (ha : Alone H p evs) :
    Tiles (ranges p (svsAfter H evs)) ((svsAfter H evs).getSeqNo H p) ∧
    (∀ k, times k (ranges p (svsAfter H evs)) = if 1 ≤ k ∧ k ≤ (svsAfter H evs).getSeqNo H p then 1 else 0) :=
  ⟨tiles_after ha, (tiles_after ha).times⟩

example : Alone H0 nA [.recv [(nA, 5)] 3, .recv [(nA, 2), (nB, 9)] 2, .recv [(nA, 3), (nA, 3)] 1, .incr nB, .run] ∧
    ranges nA (svsAfter H0 [.recv [(nA, 5)] 3, .recv [(nA, 2), (nB, 9)] 2, .recv [(nA, 3), (nA, 3)] 1, .incr nB, .run]) =
      [(4, 5), (1, 3)] := by
  refine ⟨?_, by decide⟩
  simp only [Alone, List.mem_cons, List.not_mem_nil, or_false]
  refine ⟨?_, ?_, ?_, by decide, trivial⟩
  · rintro e rfl; exact ⟨by decide, fun _ => rfl⟩
  · rintro e (rfl | rfl)
    · exact ⟨by decide, fun _ => rfl⟩
    · exact ⟨by decide, fun h => absurd h (by decide)⟩
  · rintro e (rfl | rfl) <;> exact ⟨by decide, fun _ => rfl⟩

/-! ## Names with equal hashes -/

/-- two different names that hash alike whatever the hash function: the type and the value of a component are hashed, its length is not -/
def twin1 : Name := [⟨8, [97]⟩, ⟨8, [98]⟩]
def twin2 : Name := [⟨8, [97, 0, 0, 0, 0, 0, 0, 0, 8, 98]⟩]

theorem twins (H : Bytes → Nat) : twin1 ≠ twin2 ∧ nameHash H twin1 = nameHash H twin2 := by
  refine ⟨by decide, ?_⟩
  unfold nameHash
  exact congrArg H (by decide)

/-- the code violates C45 (1): for two names with equal hashes the ranges are mixed up.  After entries 5 for the one and 7 for the
other, 6..7 is reported for the second although 1..5 never was. -/
theorem C45_collision_violated (H : Bytes → Nat) :
    let s := svsAfter H [.recv [(twin1, 5), (twin2, 7)] 0, .run]
    s.getSeqNo H twin2 = 7 ∧ ranges twin2 s = [(6, 7)] ∧ times 1 (ranges twin2 s) = 0 := by
  have hh := (twins H).2
  have hu : (svsAfter H [.recv [(twin1, 5), (twin2, 7)] 0, .run]).updates = [⟨twin2, 7, 6⟩, ⟨twin1, 5, 1⟩] := by
    show (Svs.receive H { ({} : Svs) with running := true } [(twin1, 5), (twin2, 7)] 0).updates = _
    rw [(receive_fold H _ _ 0).2.1]
    simp only [List.foldl_cons, List.foldl_nil, entry_updates, entry_seq, hh, if_true]
    rfl
  refine ⟨?_, ?_, ?_⟩
  · show (Svs.receive H { ({} : Svs) with running := true } [(twin1, 5), (twin2, 7)] 0).seq (nameHash H twin2) = _
    rw [receive_seq]
    simp only [best, hashIs, hh, List.foldr, BEq.rfl, if_true]
    rfl
  · unfold ranges; rw [hu]; decide
  · unfold ranges; rw [hu]; decide

/-! ## C46 -/

/-- is the main loop running? -/
def loopOn : List SvEvent → Bool
  | [] => false
  | .run :: _ => true
  | .halt :: _ => false
  | _ :: evs => loopOn evs

/-- everything the node was told: received entries, published numbers; an increment publishes one more than the greatest number so far -/
def told : List SvEvent → Vec
  | [] => []
  | .set n q :: evs => (n, q) :: told evs
  | .incr n :: evs => (n, best (· == n) (told evs) + 1) :: told evs
  | .recv sv _ :: evs => if loopOn evs then sv ++ told evs else told evs
  | _ :: evs => told evs

theorem running_after (H : Bytes → Nat) (evs : List SvEvent) : (svsAfter H evs).running = loopOn evs := by
  induction evs with
  | nil => rfl
  | cons e evs ih =>
    show ((svsAfter H evs).step H e).running = _
    cases e with
    | set n q =>
      simp only [Svs.step, Svs.setSeqNo]
      have := (hashName_frame H (svsAfter H evs) n).2.2.2.2.1
      by_cases hq : q ≤ ((svsAfter H evs).hashName H n).2.seq ((svsAfter H evs).hashName H n).1
      · simp only [if_pos hq]; exact this.trans ih
      · simp only [if_neg hq]; exact this.trans ih
    | incr n => exact ((hashName_frame H (svsAfter H evs) n).2.2.2.2.1).trans ih
    | recv sv now =>
      simp only [Svs.step]
      split
      · refine Eq.trans ?_ ih
        have := (fold_frame H now sv { s := svsAfter H evs }).1
        unfold Svs.receive
        simp only
        (repeat' split) <;> exact this
      · exact ih
    | timer => simp only [Svs.step, Svs.timerExpired]; (repeat' split) <;> exact ih
    | send => simp only [Svs.step, Svs.sendSyncInterest]; (repeat' split) <;> exact ih
    | run => rfl
    | halt => rfl

theorem seq_told {H : Bytes → Nat} {evs : List SvEvent} (hr : ∀ e ∈ told evs, e.2 < 2 ^ 64)
    (hc : ∀ e ∈ told evs, ∀ f ∈ told evs, nameHash H e.1 = nameHash H f.1 → e.1 = f.1) (h : Nat) :
    (svsAfter H evs).seq h = best (hashIs H h) (told evs) := by
  induction evs with
  | nil => rfl
  | cons e evs ih =>
    show ((svsAfter H evs).step H e).seq h = _
    rw [step_seq]
    cases e with
    | set n q =>
      have ih := ih (fun e he => hr e (List.mem_cons_of_mem _ he))
        (fun e he f hf => hc e (List.mem_cons_of_mem _ he) f (List.mem_cons_of_mem _ hf))
      simp only [told, best_cons, hashIs, beq_iff_eq, ih]
      by_cases h1 : h = nameHash H n
      · rw [if_pos h1, if_pos h1.symm]; exact Nat.max_comm _ _
      · rw [if_neg h1, if_neg (Ne.symm h1)]
    | incr n =>
      have ih := ih (fun e he => hr e (List.mem_cons_of_mem _ he))
        (fun e he f hf => hc e (List.mem_cons_of_mem _ he) f (List.mem_cons_of_mem _ hf))
      simp only [told, best_cons, ih]
      by_cases h1 : h = nameHash H n
      · have heq : best (hashIs H h) (told evs) = best (· == n) (told evs) := by
          apply best_congr
          intro f hf
          simp only [hashIs, h1]
          rw [Bool.eq_iff_iff, beq_iff_eq, beq_iff_eq]
          refine ⟨fun hh => ?_, fun hh => hh ▸ rfl⟩
          exact hc f (List.mem_cons_of_mem _ hf) _ (List.mem_cons_self) hh
        have hlt := hr _ (List.mem_cons_self)
        simp only at hlt
        rw [if_pos h1, if_pos (by simp [hashIs, h1]), heq]
        unfold incr64
        rw [if_neg (by omega)]
        omega
      · rw [if_neg h1, if_neg (by simp [hashIs, Ne.symm h1])]
    | recv sv now =>
      simp only [running_after, told] at hr hc ⊢
      by_cases h1 : loopOn evs = true
      · rw [if_pos h1] at hr hc
        rw [if_pos h1, if_pos h1, best_append, ih (fun e he => hr e (List.mem_append_right _ he))
          (fun e he f hf => hc e (List.mem_append_right _ he) f (List.mem_append_right _ hf))]
        exact Nat.max_comm _ _
      · rw [if_neg h1] at hr hc
        rw [if_neg h1, if_neg h1]
        exact ih hr hc
    | timer => exact ih hr hc
    | send => exact ih hr hc
    | run => exact ih hr hc
    | halt => exact ih hr hc

/-- no two names among those told, and `n`, have equal hashes -/
def Distinct (H : Bytes → Nat) (n : Name) (l : Vec) : Prop :=
  ∀ a ∈ n :: l.map (·.1), ∀ b ∈ n :: l.map (·.1), nameHash H a = nameHash H b → a = b

theorem C46_join_partial_aux {H : Bytes → Nat} {evs : List SvEvent} {n : Name} (hr : ∀ e ∈ told evs, e.2 < 2 ^ 64)
    (hc : Distinct H n (told evs)) : (svsAfter H evs).getSeqNo H n = best (· == n) (told evs) := by
  have hmem : ∀ e ∈ told evs, e.1 ∈ n :: (told evs).map (·.1) := fun e he =>
    List.mem_cons_of_mem _ (List.mem_map.mpr ⟨e, he, rfl⟩)
  unfold Svs.getSeqNo
  rw [seq_told hr (fun e he f hf => hc _ (hmem e he) _ (hmem f hf))]
  apply best_congr
  intro e he
  simp only [hashIs]
  rw [Bool.eq_iff_iff, beq_iff_eq, beq_iff_eq]
  exact ⟨fun hh => hc _ (hmem e he) _ List.mem_cons_self hh, fun hh => hh ▸ rfl⟩

/-- C46: as long as numbers stay below `2^64` and no two of the names have equal hashes, the number recorded for a name is the maximum of all
numbers published or received for it: it bounds them all and, unless it is 0, is one of them.  Missing: hash collisions
(`C46_collision_violated`) and overflow (`C44_wrap_violated`). -/
theorem C46_join_partial (H : Bytes → Nat) (evs : List SvEvent) (n : Name) (hr : ∀ e ∈ told evs, e.2 < 2 ^ 64)
    (hc : Distinct H n (told evs)) :
    (∀ q, (n, q) ∈ told evs → q ≤ (svsAfter H evs).getSeqNo H n) ∧
    ((svsAfter H evs).getSeqNo H n ≠ 0 → (n, (svsAfter H evs).getSeqNo H n) ∈ told evs) := by
  rw [C46_join_partial_aux hr hc]
  refine ⟨fun q hq => le_best (e := (n, q)) hq (by simp), fun h0 => ?_⟩
  obtain ⟨⟨m, q⟩, he, hp, heq⟩ := best_mem h0
  simp only [beq_iff_eq] at hp heq
  subst hp
  rw [← heq]; exact he

/-- C46, order and duplication: two nodes that were told the same set of entries, in any order and with any repetition, record the same
numbers. -/
theorem C46_order_partial (H : Bytes → Nat) (evs evs' : List SvEvent) (n : Name) (hr : ∀ e ∈ told evs, e.2 < 2 ^ 64)
    (hc : Distinct H n (told evs)) (hs : ∀ e, e ∈ told evs ↔ e ∈ told evs') :
    (svsAfter H evs).getSeqNo H n = (svsAfter H evs').getSeqNo H n := by
  have hmap : ∀ a, a ∈ n :: (told evs').map (·.1) → a ∈ n :: (told evs).map (·.1) := by
    intro a ha
    rcases List.mem_cons.mp ha with rfl | ha
    · exact List.mem_cons_self
    · obtain ⟨e, he, rfl⟩ := List.mem_map.mp ha
      exact List.mem_cons_of_mem _ (List.mem_map.mpr ⟨e, (hs e).mpr he, rfl⟩)
  rw [C46_join_partial_aux hr hc, C46_join_partial_aux (fun e he => hr e ((hs e).mpr he))
    (fun a ha b hb => hc a (hmap a ha) b (hmap b hb))]
  exact Nat.le_antisymm (best_set fun e he => (hs e).mp he) (best_set fun e he => (hs e).mpr he)

example : told [.recv [(nA, 3), (nB, 7)] 5, .run, .incr nA, .set nA 4] = [(nA, 3), (nB, 7), (nA, 5), (nA, 4)] ∧
    (svsAfter H0 [.recv [(nA, 3), (nB, 7)] 5, .run, .incr nA, .set nA 4]).getSeqNo H0 nA = 5 ∧
    (svsAfter H0 [.set nA 5, .recv [(nB, 7)] 9, .recv [(nA, 4)] 7, .recv [(nB, 7), (nA, 3)] 5, .run]).getSeqNo H0 nA = 5 := by
  decide

/-- a node that receives some vectors, one after the other, at any times -/
def hears (vs : List (Vec × Nat)) (evs : List SvEvent) : List SvEvent := vs.foldl (fun evs v => .recv v.1 v.2 :: evs) evs

theorem hears_loopOn (vs : List (Vec × Nat)) (evs : List SvEvent) : loopOn (hears vs evs) = loopOn evs := by
  induction vs generalizing evs with
  | nil => rfl
  | cons v vs ih => exact ih _

theorem hears_seq (H : Bytes → Nat) (vs : List (Vec × Nat)) (evs : List SvEvent) (hon : loopOn evs = true) (h : Nat) :
    (svsAfter H (hears vs evs)).seq h = max ((svsAfter H evs).seq h) (best (hashIs H h) (vs.flatMap (·.1))) := by
  induction vs generalizing evs with
  | nil => simp [hears, best]
  | cons v vs ih =>
    have hstep : (svsAfter H (.recv v.1 v.2 :: evs)).seq h = max ((svsAfter H evs).seq h) (best (hashIs H h) v.1) := by
      show ((svsAfter H evs).step H _).seq h = _
      rw [step_seq]
      simp only [running_after, hon, if_true]
    show (svsAfter H (hears vs (.recv v.1 v.2 :: evs))).seq h = _
    rw [ih (.recv v.1 v.2 :: evs) hon, hstep, List.flatMap_cons, best_append]
    omega

theorem best_flatMap_le {P : Name → Bool} {vs : List (Vec × Nat)} {m : Nat} (h : ∀ v ∈ vs, best P v.1 ≤ m) :
    best P (vs.flatMap (·.1)) ≤ m := by
  induction vs with
  | nil => exact Nat.zero_le _
  | cons v vs ih =>
    rw [List.flatMap_cons, best_append]
    have := h v List.mem_cons_self
    have := ih (fun w hw => h w (List.mem_cons_of_mem _ hw))
    omega

theorem le_best_flatMap {P : Name → Bool} {vs : List (Vec × Nat)} {v : Vec × Nat} (h : v ∈ vs) : best P v.1 ≤ best P (vs.flatMap (·.1)) := by
  apply best_set
  intro e he
  exact List.mem_flatMap.mpr ⟨v, h, he⟩

/-- C46, convergence: any number of nodes, with any histories, whose main loops run.  Every node then receives the vectors that the others
send in these states: each of them at least once, in any order, any number of times and at any times.  Then all nodes record the same number
for every name. -/
theorem C46_exchange (H : Bytes → Nat) (nodes : List (List SvEvent × List (Vec × Nat)))
    (hon : ∀ x ∈ nodes, loopOn x.1 = true)
    (hfrom : ∀ x ∈ nodes, ∀ v ∈ x.2, ∃ y ∈ nodes, v.1 = (svsAfter H y.1).vector)
    (hall : ∀ x ∈ nodes, ∀ y ∈ nodes, x = y ∨ ∃ t, ((svsAfter H y.1).vector, t) ∈ x.2) (n : Name) :
    ∀ x ∈ nodes, ∀ y ∈ nodes,
      (svsAfter H (hears x.2 x.1)).getSeqNo H n = (svsAfter H (hears y.2 y.1)).getSeqNo H n := by
  have key : ∀ x ∈ nodes, ∀ y ∈ nodes,
      (svsAfter H (hears x.2 x.1)).seq (nameHash H n) ≤ (svsAfter H (hears y.2 y.1)).seq (nameHash H n) := by
    intro x hx y hy
    have hge : ∀ z ∈ nodes, (svsAfter H z.1).seq (nameHash H n) ≤ (svsAfter H (hears y.2 y.1)).seq (nameHash H n) := by
      intro z hz
      rw [hears_seq H _ _ (hon y hy)]
      rcases hall y hy z hz with rfl | ⟨t, ht⟩
      · omega
      · have := le_best_flatMap (P := hashIs H (nameHash H n)) ht
        simp only [best_vector (Inv.after H z.1)] at this
        omega
    rw [hears_seq H _ _ (hon x hx)]
    apply Nat.max_le.mpr
    refine ⟨hge x hx, best_flatMap_le ?_⟩
    intro v hv
    obtain ⟨z, hz, hvz⟩ := hfrom x hx v hv
    rw [hvz, best_vector (Inv.after H z.1)]
    exact hge z hz
  intro x hx y hy
  exact Nat.le_antisymm (key x hx y hy) (key y hy x hx)

example : (svsAfter H0 [.incr nA, .set nB 3, .run]).vector = [(nA, 1), (nB, 3)] ∧ (svsAfter H0 [.set nA 6, .run]).vector = [(nA, 6)] ∧
    (svsAfter H0 (hears [([(nA, 6)], 4)] [.incr nA, .set nB 3, .run])).vector = [(nA, 6), (nB, 3)] ∧
    (svsAfter H0 (hears [([(nA, 1), (nB, 3)], 9), ([(nA, 1), (nB, 3)], 2)] [.set nA 6, .run])).vector = [(nA, 6), (nB, 3)] := by decide

/-- the code violates C46 (1): what is told for one name is recorded for another with the same hash -/
theorem C46_collision_violated (H : Bytes → Nat) :
    twin1 ≠ twin2 ∧ told [.set twin1 5] = [(twin1, 5)] ∧ (svsAfter H [.set twin1 5]).getSeqNo H twin2 = 5 := by
  refine ⟨(twins H).1, rfl, ?_⟩
  show ((svsAfter H []).step H _).seq (nameHash H twin2) = _
  rw [step_seq]
  simp only [if_pos (twins H).2.symm]
  rfl

/-! ## C47 -/

/-- the vectors received since suppression last began (the one that began it not included) -/
def window (H : Bytes → Nat) : List SvEvent → List Vec
  | [] => []
  | .recv sv _ :: evs => if loopOn evs then (if (svsAfter H evs).suppress then sv :: window H evs else []) else window H evs
  | _ :: evs => window H evs

theorem receive_merge (H : Bytes → Nat) (s : Svs) (sv : Vec) (now h : Nat) (hs : (s.receive H sv now).suppress = true) :
    ((s.receive H sv now).merge.get h).getD 0 = if s.suppress = true then max ((s.merge.get h).getD 0) (best (hashIs H h) sv) else 0 := by
  have hm := fold_merge H now sv { s := s } h
  have hsup := fold_suppress H now sv { s := s }
  simp only at hsup hm
  unfold Svs.receive at hs ⊢
  simp only at hs ⊢
  by_cases h1 : (!((sv.foldl (Recv.entry H now) { s := s }).isOutdated || (!(sv.foldl (Recv.entry H now) { s := s }).isOutdated &&
      (sv.foldl (Recv.entry H now) { s := s }).s.state.any
        (fun e => !(sv.foldl (Recv.entry H now) { s := s }).recvSet.contains e.1)))) = true
  · rw [if_pos h1] at hs; cases hs
  · rw [if_neg h1] at hs ⊢
    split at hs
    · rename_i h2
      rw [if_pos h2, hm]
      rw [hsup] at hs
      rw [if_pos hs, if_pos hs]
    · rename_i h2
      rw [if_neg h2]
      have : ¬ s.suppress = true := by
        rw [← hsup]
        intro h3
        exact h2 (by rw [h3, Bool.or_true])
      rw [if_neg this]
      rfl

theorem merge_window (H : Bytes → Nat) (evs : List SvEvent) (hs : (svsAfter H evs).suppress = true) (h : Nat) :
    ((svsAfter H evs).merge.get h).getD 0 = best (hashIs H h) (window H evs).flatten := by
  induction evs with
  | nil => cases hs
  | cons e evs ih =>
    have hstep : svsAfter H (e :: evs) = (svsAfter H evs).step H e := rfl
    rw [hstep] at hs ⊢
    cases e with
    | set n q =>
      simp only [Svs.step, Svs.setSeqNo, window] at hs ⊢
      have hf := (hashName_frame H (svsAfter H evs) n)
      by_cases hq : q ≤ ((svsAfter H evs).hashName H n).2.seq ((svsAfter H evs).hashName H n).1
      · simp only [if_pos hq, hf] at hs ⊢; exact ih hs
      · simp only [if_neg hq, hf] at hs ⊢; exact ih hs
    | incr n =>
      simp only [Svs.step, Svs.incrSeqNo, window] at hs ⊢
      have hf := (hashName_frame H (svsAfter H evs) n)
      simp only [hf] at hs ⊢
      exact ih hs
    | recv sv now =>
      simp only [Svs.step, window, running_after] at hs ⊢
      by_cases h1 : loopOn evs = true
      · rw [if_pos h1] at hs ⊢
        rw [if_pos h1, receive_merge H _ _ _ _ hs]
        by_cases h2 : (svsAfter H evs).suppress = true
        · rw [if_pos h2, if_pos h2, ih h2, List.flatten_cons, best_append]
          exact Nat.max_comm _ _
        · rw [if_neg h2, if_neg h2]
          rfl
      · rw [if_neg h1] at hs ⊢
        rw [if_neg h1]
        exact ih hs
    | timer =>
      simp only [Svs.step, Svs.timerExpired, window] at hs ⊢
      split at hs
      · split at hs
        · cases hs
        · rename_i h1 h2
          rw [if_pos h1, if_neg h2]; exact ih hs
      · rename_i h1
        rw [if_neg h1]; exact ih hs
    | send =>
      simp only [Svs.step, Svs.sendSyncInterest, window] at hs ⊢
      split at hs
      · rename_i h1
        rw [if_pos h1]; exact ih hs
      · rename_i h1
        rw [if_neg h1]
        split at hs
        · cases hs
        · rename_i h2
          rw [if_neg h2]; exact ih hs
    | run => exact ih hs
    | halt => exact ih hs

/-- C47, suppression: when the timer expires and no sync Interest is started, then suppression was on, and for every name whose recorded number
is not 0 a vector received during the suppression period has an entry, for a name with the same hash, that is at least as great.
If no other name in these vectors has that hash the entry is for the name itself.  Missing: distinct names with equal hashes, which the code takes
for one another. -/
theorem C47_suppressed_partial (H : Bytes → Nat) (evs : List SvEvent) (hon : loopOn evs = true)
    (hq : (svsAfter H (.timer :: evs)).spawned = (svsAfter H evs).spawned) (n : Name) (h0 : (svsAfter H evs).getSeqNo H n ≠ 0) :
    (svsAfter H evs).suppress = true ∧
    ∃ v ∈ window H evs, ∃ e ∈ v, nameHash H e.1 = nameHash H n ∧ (svsAfter H evs).getSeqNo H n ≤ e.2 ∧
      ((∀ w ∈ window H evs, ∀ f ∈ w, nameHash H f.1 = nameHash H n → f.1 = n) → e.1 = n) := by
  have hstep : svsAfter H (.timer :: evs) = (svsAfter H evs).timerExpired := by
    show (svsAfter H evs).step H .timer = _
    simp only [Svs.step, running_after, hon, if_true]
  rw [hstep] at hq
  unfold Svs.timerExpired at hq
  split at hq
  · rename_i h1
    rw [Bool.and_eq_true] at h1
    refine ⟨h1.1, ?_⟩
    unfold Svs.getSeqNo Svs.seq at h0 ⊢
    cases hg : (svsAfter H evs).state.get (nameHash H n) with
    | none => rw [hg] at h0; exact absurd rfl h0
    | some q =>
      rw [hg] at h0
      have hmem := mem_of_get hg
      have hle : q ≤ ((svsAfter H evs).merge.get (nameHash H n)).getD 0 := by
        have h2 := h1.2
        rw [Bool.not_eq_true', List.any_eq_false] at h2
        have := h2 _ hmem
        simpa using this
      rw [merge_window H evs h1.1] at hle
      simp only [Option.getD_some] at h0 ⊢
      obtain ⟨e, he, hp, heq⟩ := best_mem (P := hashIs H (nameHash H n)) (l := (window H evs).flatten) (by omega)
      obtain ⟨v, hv, hev⟩ := List.mem_flatten.mp he
      simp only [hashIs, beq_iff_eq] at hp
      exact ⟨v, hv, e, hev, hp, by omega, fun hd => hd v hv e hev hp⟩
  · simp only at hq; omega

/-- suppression with a covering vector, and the timer that then sends nothing -/
example : let evs : List SvEvent :=
      [.recv [(nA, 6)] (5 * 10 ^ 9), .recv [(nB, 2)] 2, .recv [(nA, 6)] 1, .run]
    loopOn evs = true ∧ (svsAfter H0 evs).suppress = true ∧ window H0 evs = [[(nA, 6)]] ∧
    (svsAfter H0 (.timer :: evs)).spawned = (svsAfter H0 evs).spawned + 1 ∧
    (let evs := SvEvent.recv [(nB, 3)] (6 * 10 ^ 9) :: evs
     window H0 evs = [[(nB, 3)], [(nA, 6)]] ∧ (svsAfter H0 evs).suppress = true ∧ (svsAfter H0 evs).getSeqNo H0 nA = 6 ∧
     (svsAfter H0 (.timer :: evs)).spawned = (svsAfter H0 evs).spawned) := by decide

/-- C47, the other half of the decision: the timer starts a sync Interest whenever some recorded number is greater than every number
received for that hash during suppression, and whenever there is no suppression. -/
theorem C47_news_is_sent (H : Bytes → Nat) (evs : List SvEvent) (hon : loopOn evs = true)
    (hnews : (svsAfter H evs).suppress = false ∨
      ∃ n, (svsAfter H evs).getSeqNo H n ≠ 0 ∧ ∀ v ∈ window H evs, ∀ e ∈ v, nameHash H e.1 = nameHash H n → e.2 < (svsAfter H evs).getSeqNo H n) :
    (svsAfter H (.timer :: evs)).spawned = (svsAfter H evs).spawned + 1 := by
  have hstep : svsAfter H (.timer :: evs) = (svsAfter H evs).timerExpired := by
    show (svsAfter H evs).step H .timer = _
    simp only [Svs.step, running_after, hon, if_true]
  by_cases hq : (svsAfter H (.timer :: evs)).spawned = (svsAfter H evs).spawned
  · exfalso
    rcases hnews with h1 | ⟨n, h0, hn⟩
    · rw [hstep] at hq
      unfold Svs.timerExpired at hq
      rw [h1] at hq
      simp only [Bool.false_and, Bool.false_eq_true, if_false] at hq
      omega
    · obtain ⟨_, v, hv, e, he, hh, hle, _⟩ := C47_suppressed_partial H evs hon hq n h0
      have := hn v hv e he hh
      omega
  · rw [hstep] at hq ⊢
    unfold Svs.timerExpired at hq ⊢
    split
    · rename_i h1; rw [if_pos h1] at hq; exact absurd rfl hq
    · rfl

/-- C47, publication: `SetSeqNo` with a greater number and `IncrSeqNo` start a sync Interest, whatever the suppression; and a sync Interest that is
sent while the main loop runs carries, for every recorded name, the number recorded at that time. -/
theorem C47_publication (H : Bytes → Nat) (evs : List SvEvent) :
    (∀ n q, (svsAfter H evs).getSeqNo H n < q →
      (svsAfter H (.set n q :: evs)).spawned = (svsAfter H evs).spawned + 1 ∧ (svsAfter H (.set n q :: evs)).getSeqNo H n = q) ∧
    (∀ n, (svsAfter H (.incr n :: evs)).spawned = (svsAfter H evs).spawned + 1 ∧
      ((svsAfter H evs).getSeqNo H n < 2 ^ 64 - 1 → (svsAfter H (.incr n :: evs)).getSeqNo H n = (svsAfter H evs).getSeqNo H n + 1)) ∧
    (loopOn evs = true → 0 < (svsAfter H evs).spawned →
      (svsAfter H (.send :: evs)).spawned + 1 = (svsAfter H evs).spawned ∧
      ∃ v, (svsAfter H (.send :: evs)).sent = v :: (svsAfter H evs).sent ∧
        ∀ n, (svsAfter H evs).getSeqNo H n ≠ 0 → ∃ m, nameHash H m = nameHash H n ∧ (m, (svsAfter H evs).getSeqNo H n) ∈ v) := by
  refine ⟨?_, ?_, ?_⟩
  · intro n q hq
    refine ⟨?_, ?_⟩
    · show ((svsAfter H evs).step H (.set n q)).spawned = _
      simp only [Svs.step, Svs.setSeqNo]
      rw [if_neg ?_]
      · simp only [(hashName_frame H (svsAfter H evs) n).2.2.2.2.2.1]
      · rw [hashName_fst, hashName_seq]
        unfold Svs.getSeqNo at hq
        omega
    · show ((svsAfter H evs).step H (.set n q)).seq _ = _
      rw [step_seq]
      unfold Svs.getSeqNo at hq
      simp only [if_true]
      omega
  · intro n
    refine ⟨?_, ?_⟩
    · show ((svsAfter H evs).step H (.incr n)).spawned = _
      simp only [Svs.step, Svs.incrSeqNo, (hashName_frame H (svsAfter H evs) n).2.2.2.2.2.1]
    · intro hlt
      show ((svsAfter H evs).step H (.incr n)).seq _ = _
      rw [step_seq]
      unfold Svs.getSeqNo at hlt ⊢
      simp only [if_true]
      unfold incr64
      rw [if_neg (by omega)]
  · intro hon hsp
    have hstep : svsAfter H (.send :: evs) =
        { svsAfter H evs with spawned := (svsAfter H evs).spawned - 1, suppress := false, sent := (svsAfter H evs).vector :: (svsAfter H evs).sent } := by
      show (svsAfter H evs).step H .send = _
      simp only [Svs.step, Svs.sendSyncInterest, running_after, hon, if_true, if_neg (Nat.pos_iff_ne_zero.mp hsp)]
      rfl
    rw [hstep]
    refine ⟨by simp only; omega, _, rfl, ?_⟩
    intro n h0
    unfold Svs.getSeqNo Svs.seq at h0 ⊢
    cases hg : (svsAfter H evs).state.get (nameHash H n) with
    | none => rw [hg] at h0; exact absurd rfl h0
    | some q =>
      obtain ⟨m, hm, _, hv⟩ := vector_of_get (Inv.after H evs) hg
      exact ⟨m, hm, hv⟩

example : let evs : List SvEvent := [.incr nA, .recv [(nA, 5), (nB, 2)] (4 * 10 ^ 9), .recv [(nB, 2)] 2, .recv [(nA, 6)] 1, .run]
    (svsAfter H0 evs).suppress = true ∧ (svsAfter H0 evs).spawned = 1 ∧ (svsAfter H0 (.send :: evs)).sent = [[(nA, 7), (nB, 2)]] := by decide

theorem receive_sends (H : Bytes → Nat) (s : Svs) (sv : Vec) (now : Nat) :
    (s.receive H sv now).spawned = s.spawned ∧ (s.receive H sv now).sent = s.sent := by
  obtain ⟨_, h2, h3⟩ := fold_frame H now sv { s := s }
  unfold Svs.receive
  simp only
  split
  · exact ⟨h2, h3⟩
  · split <;> exact ⟨h2, h3⟩

/-- an event that is not `send` takes no waiting goroutine away -/
theorem spawned_mono (H : Bytes → Nat) (evs : List SvEvent) {e : SvEvent} (he : e ≠ .send) :
    (svsAfter H evs).spawned ≤ (svsAfter H (e :: evs)).spawned := by
  show _ ≤ ((svsAfter H evs).step H e).spawned
  cases e with
  | set n q =>
    simp only [Svs.step, Svs.setSeqNo]
    split <;> simp only [(hashName_frame H (svsAfter H evs) n).2.2.2.2.2.1] <;> omega
  | incr n => simp only [Svs.step, Svs.incrSeqNo, (hashName_frame H (svsAfter H evs) n).2.2.2.2.2.1]; omega
  | recv sv now =>
    simp only [Svs.step]
    split
    · rw [(receive_sends H _ sv now).1]; exact Nat.le_refl _
    · exact Nat.le_refl _
  | timer =>
    simp only [Svs.step, Svs.timerExpired]
    split
    · split
      · exact Nat.le_refl _
      · exact Nat.le_succ _
    · exact Nat.le_refl _
  | send => exact absurd rfl he
  | run => exact Nat.le_refl _
  | halt => exact Nat.le_refl _

/-- no event takes back what was sent -/
theorem sent_step (H : Bytes → Nat) (evs : List SvEvent) (e : SvEvent) : ∃ w, (svsAfter H (e :: evs)).sent = w ++ (svsAfter H evs).sent := by
  show ∃ w, ((svsAfter H evs).step H e).sent = _
  cases e with
  | set n q =>
    refine ⟨[], ?_⟩
    simp only [Svs.step, Svs.setSeqNo]
    split <;> simp only [(hashName_frame H (svsAfter H evs) n).2.2.2.2.2.2.2, List.nil_append]
  | incr n => exact ⟨[], by simp only [Svs.step, Svs.incrSeqNo, (hashName_frame H (svsAfter H evs) n).2.2.2.2.2.2.2, List.nil_append]⟩
  | recv sv now =>
    refine ⟨[], ?_⟩
    simp only [Svs.step]
    split
    · rw [(receive_sends H _ sv now).2]; rfl
    · rfl
  | timer =>
    refine ⟨[], ?_⟩
    simp only [Svs.step, Svs.timerExpired]
    split
    · split <;> rfl
    · rfl
  | send =>
    simp only [Svs.step, Svs.sendSyncInterest]
    split
    · exact ⟨[], rfl⟩
    · split
      · exact ⟨[_], rfl⟩
      · exact ⟨[], rfl⟩
  | run => exact ⟨[], rfl⟩
  | halt => exact ⟨[], rfl⟩

/-- C47, what becomes of a publication in every schedule: let a publication have started a sync Interest while the main loop runs, and let it run on.
Whatever else happens, a goroutine is waiting to send until one has run; and as soon as one has run, whether it was started for this publication or not, a
vector was sent that has an entry with the published number or a greater one.  (For numbers that do not wrap, and up to names with equal hashes.) -/
theorem C47_publication_sent_partial (H : Bytes → Nat) (later evs : List SvEvent) (pub : SvEvent) (n : Name) (q : Nat)
    (hp : pub = .set n q ∧ (svsAfter H evs).getSeqNo H n < q ∨ pub = .incr n ∧ q = (svsAfter H evs).getSeqNo H n + 1)
    (hw : NoWrap H (later ++ pub :: evs)) (hon : loopOn evs = true) (hh : SvEvent.halt ∉ later) :
    (SvEvent.send ∉ later → 0 < (svsAfter H (later ++ pub :: evs)).spawned) ∧
    (SvEvent.send ∈ later → ∃ new, (svsAfter H (later ++ pub :: evs)).sent = new ++ (svsAfter H evs).sent ∧
      ∃ v ∈ new, ∃ e ∈ v, nameHash H e.1 = nameHash H n ∧ q ≤ e.2) := by
  have hpub := C47_publication H evs
  have hw' : NoWrap H (pub :: evs) := by
    clear hh
    induction later with
    | nil => exact hw
    | cons e later ih => exact ih hw.tail
  have hq : (svsAfter H (pub :: evs)).getSeqNo H n = q := by
    rcases hp with ⟨rfl, h⟩ | ⟨rfl, h⟩
    · exact (hpub.1 n q h).2
    · rw [h]; exact (hpub.2.1 n).2 (hw' [] n evs rfl)
  have hq0 : q ≠ 0 := by rcases hp with ⟨rfl, h⟩ | ⟨rfl, h⟩ <;> omega
  have hsp : 0 < (svsAfter H (pub :: evs)).spawned := by
    rcases hp with ⟨rfl, h⟩ | ⟨rfl, h⟩
    · rw [(hpub.1 n q h).1]; omega
    · rw [(hpub.2.1 n).1]; omega
  have hsent : ∃ w, (svsAfter H (pub :: evs)).sent = w ++ (svsAfter H evs).sent := sent_step H evs pub
  have hon' : loopOn (pub :: evs) = true := by rcases hp with ⟨rfl, _⟩ | ⟨rfl, _⟩ <;> exact hon
  induction later with
  | nil => exact ⟨fun _ => hsp, fun h => absurd h (List.not_mem_nil)⟩
  | cons e later ih =>
    have ih := ih hw.tail (fun h => hh (List.mem_cons_of_mem _ h))
    have honl : loopOn (later ++ pub :: evs) = true := by
      have : ∀ l : List SvEvent, SvEvent.halt ∉ l → loopOn (l ++ pub :: evs) = true := by
        intro l hl
        induction l with
        | nil => exact hon'
        | cons a l ihl =>
          have := ihl fun h => hl (List.mem_cons_of_mem _ h)
          cases a <;> first | exact this | rfl | exact absurd List.mem_cons_self hl
      exact this later fun h => hh (List.mem_cons_of_mem _ h)
    refine ⟨fun h => ?_, fun h => ?_⟩
    · have hne : e ≠ .send := fun he => h (he ▸ List.mem_cons_self)
      exact Nat.lt_of_lt_of_le (ih.1 fun k => h (List.mem_cons_of_mem _ k)) (spawned_mono H _ hne)
    · by_cases hl : SvEvent.send ∈ later
      · obtain ⟨new, h1, v, hv, h2⟩ := ih.2 hl
        obtain ⟨w, hw1⟩ := sent_step H (later ++ pub :: evs) e
        exact ⟨w ++ new, by rw [List.cons_append, hw1, h1, List.append_assoc], v, List.mem_append_right _ hv, h2⟩
      · have he : e = .send := by
          rcases List.mem_cons.mp h with h | h
          · exact h.symm
          · exact absurd h hl
        subst he
        obtain ⟨_, v, h1, h2⟩ := (C47_publication H (later ++ pub :: evs)).2.2 honl (ih.1 hl)
        have hmono := C44_monotone_partial H later (pub :: evs) hw.tail n
        rw [hq] at hmono
        obtain ⟨m, hm, hv⟩ := h2 n (by omega)
        have hold : ∃ w, (svsAfter H (later ++ pub :: evs)).sent = w ++ (svsAfter H evs).sent := by
          have : ∀ l : List SvEvent, ∃ w, (svsAfter H (l ++ pub :: evs)).sent = w ++ (svsAfter H evs).sent := by
            intro l
            induction l with
            | nil => exact hsent
            | cons a l ihl =>
              obtain ⟨w, hw⟩ := ihl
              obtain ⟨w', hw'⟩ := sent_step H (l ++ pub :: evs) a
              exact ⟨w' ++ w, by rw [List.cons_append, hw', hw, List.append_assoc]⟩
          exact this later
        obtain ⟨w, hw1⟩ := hold
        exact ⟨v :: w, by rw [List.cons_append, h1, hw1]; rfl, v, List.mem_cons_self, (m, _), hv, hm, hmono⟩

example : let evs : List SvEvent := [.recv [(nA, 5), (nB, 2)] (4 * 10 ^ 9), .recv [(nB, 2)] 2, .recv [(nA, 6)] 1, .run]
    loopOn evs = true ∧ (svsAfter H0 evs).suppress = true ∧ (svsAfter H0 evs).sent = [] ∧
      (svsAfter H0 ([.send, .timer, .recv [(nB, 3)] 3] ++ .incr nA :: evs)).sent = [[(nA, 7), (nB, 3)]] := by decide

/-! ## C48 -/

/-- in canonical order of names, each name once -/
def Canonical (v : Vec) : Prop := v.Pairwise (fun a b => Name.compare a.1 b.1 < 0)

theorem insertVec_canonical {e : Name × Nat} {l : Vec} (h : Canonical l) (hne : ∀ f ∈ l, f.1 ≠ e.1) : Canonical (insertVec e l) := by
  have hcmp := C13_name_compare_total.1
  induction l with
  | nil => exact List.pairwise_singleton _ _
  | cons f l ih =>
    have hp := List.pairwise_cons.mp h
    unfold insertVec
    split
    · rename_i hlt
      refine List.pairwise_cons.mpr ⟨?_, h⟩
      intro g hg
      rcases List.mem_cons.mp hg with rfl | hg
      · exact hlt
      · exact hcmp.trans _ _ _ hlt (hp.1 g hg)
    · rename_i hge
      refine List.pairwise_cons.mpr ⟨?_, ih hp.2 (fun g hg => hne g (List.mem_cons_of_mem _ hg))⟩
      intro g hg
      rcases List.mem_cons.mp ((insertVec_perm e l).mem_iff.mp hg) with rfl | hg
      · have h1 : Name.compare g.1 f.1 ≠ 0 := fun h0 => hne f List.mem_cons_self ((hcmp.zero _ _).mp h0).symm
        have h2 := hcmp.neg g.1 f.1
        omega
      · exact hp.1 g hg

theorem foldr_canonical {l : Vec} (h : (l.map (·.1)).Nodup) : Canonical (l.foldr insertVec []) := by
  induction l with
  | nil => exact List.Pairwise.nil
  | cons e l ih =>
    rw [List.map_cons, List.nodup_cons] at h
    refine insertVec_canonical (ih h.2) ?_
    intro f hf heq
    exact h.1 (List.mem_map.mpr ⟨f, (foldr_insertVec_perm l).mem_iff.mp hf, heq⟩)

theorem Canonical.unique {l l' : Vec} (h : Canonical l) (h' : Canonical l') (hp : l.Perm l') : l = l' := by
  have hcmp := C13_name_compare_total.1
  induction l generalizing l' with
  | nil => exact (List.nil_perm.mp hp).symm
  | cons a l ih =>
    cases l' with
    | nil => exact absurd hp.length_eq (by simp)
    | cons b l' =>
      have hpa := List.pairwise_cons.mp h
      have hpb := List.pairwise_cons.mp h'
      have hab : a = b := by
        rcases List.mem_cons.mp (hp.mem_iff.mp List.mem_cons_self) with h1 | h1
        · exact h1
        · rcases List.mem_cons.mp (hp.mem_iff.mpr List.mem_cons_self) with h2 | h2
          · exact h2.symm
          · have h3 := hpb.1 a h1
            have h4 := hpa.1 b h2
            have h5 := hcmp.neg a.1 b.1
            omega
      subst hab
      rw [ih hpa.2 hpb.2 hp.cons_inv]

/-- the message of `encodeSv`, svs.go:349-353 -/
def wireOf (v : Vec) : Codec.Schema.stateVectorAppParam.V := (some (v.map (fun e => ((some e.1, (e.2, ())) : Option Name × (Nat × Unit))), ()), ())

/-- what `onReceiveStateVector` reads of the parsed message, svs.go:174-175 -/
def ofWire (w : Codec.Schema.stateVectorAppParam.V) : Option Vec :=
  match (w : Option (List (Option Name × (Nat × Unit)) × Unit) × Unit).1 with
  | some x => some (x.1.map (fun e => (e.1.getD [], e.2.1)))
  | none => none

theorem ofWire_wireOf (v : Vec) : ofWire (wireOf v) = some v := by
  show some ((v.map (fun e => ((some e.1, (e.2, ())) : Option Name × (Nat × Unit)))).map (fun e => (e.1.getD [], e.2.1))) = _
  rw [List.map_map]
  congr 1
  conv => rhs; rw [← List.map_id v]
  apply List.map_congr_left
  rintro ⟨n, q⟩ _
  rfl

/-- C48, content and order: the vector that is sent has each name once, in canonical order; it lists a number for a name exactly if the
number is recorded for the name's hash and the name is the one remembered for it; every name with a number other than 0 is listed by a name of
the same hash.  It is the only canonical arrangement of these entries, so neither the order of map iteration nor the sorting algorithm matters. -/
theorem C48_vector (H : Bytes → Nat) (evs : List SvEvent) :
    Canonical (svsAfter H evs).vector ∧
    (∀ n q, (n, q) ∈ (svsAfter H evs).vector → (svsAfter H evs).getSeqNo H n = q) ∧
    (∀ n, (svsAfter H evs).getSeqNo H n ≠ 0 →
      ∃ m, nameHash H m = nameHash H n ∧ (m, (svsAfter H evs).getSeqNo H n) ∈ (svsAfter H evs).vector) ∧
    (∀ v : Vec, Canonical v → (∀ e, e ∈ v ↔ e ∈ (svsAfter H evs).vector) → v = (svsAfter H evs).vector) := by
  have hi := Inv.after H evs
  have hcan : Canonical (svsAfter H evs).vector := by
    refine foldr_canonical ?_
    have := vector_names_nodup hi
    exact ((vector_perm _).map (·.1)).nodup_iff.mp this
  refine ⟨hcan, ?_, ?_, ?_⟩
  · intro n q h
    unfold Svs.getSeqNo Svs.seq
    rw [(mem_vector hi n q h).1]; rfl
  · intro n h0
    unfold Svs.getSeqNo Svs.seq at h0 ⊢
    cases hg : (svsAfter H evs).state.get (nameHash H n) with
    | none => rw [hg] at h0; exact absurd rfl h0
    | some q =>
      obtain ⟨m, hm, _, hv⟩ := vector_of_get hi hg
      exact ⟨m, hm, hv⟩
  · intro v hv hmem
    have nd : ∀ {l : Vec}, Canonical l → l.Nodup := by
      intro l hl
      refine hl.imp ?_
      rintro a b hab rfl
      rw [C13_name_compare_total.1.refl] at hab
      omega
    exact hv.unique hcan ((List.perm_ext_iff_of_nodup (nd hv) (nd hcan)).mpr hmem)

/-- C48, round trip: what a node sends is parsed to the same vector.  Partial: the components of the names have at most 252 bytes (the encoder
writes longer lengths wrongly, see `C19_long_component_violated`), numbers are `uint64`, the message is under 8 TiB. -/
theorem C48_roundtrip_partial (H : Bytes → Nat) (evs : List SvEvent)
    (hc : ∀ e ∈ (svsAfter H evs).vector, e.2 < 2 ^ 64 ∧ ∀ c ∈ e.1, c.Small)
    (hl : (Codec.Schema.stateVectorAppParam.enc (wireOf (svsAfter H evs).vector)).length < 2 ^ 43) :
    ∃ b, Codec.Schema.stateVectorAppParam.encode (wireOf (svsAfter H evs).vector) = .ok b ∧
      ∀ (ic : Bool) (fuel : Nat), b.length < fuel → ∃ w r, Codec.Schema.stateVectorAppParam.parse ic fuel (BR.new b) = some (.ok w, r) ∧
        ofWire w = some (svsAfter H evs).vector := by
  have hv : Codec.Schema.stateVectorAppParam.InRange (wireOf (svsAfter H evs).vector) := by
    refine ⟨⟨?_, trivial⟩, trivial⟩
    intro x hx
    obtain ⟨e, he, rfl⟩ := List.mem_map.mp hx
    exact ⟨(hc e he).2, (hc e he).1, trivial⟩
  obtain ⟨b, h1, h2⟩ := Codec.C19_codec_roundtrip_partial _ Codec.Schema.stateVectorAppParam_wf _ hv hl
  refine ⟨b, h1, fun ic fuel hf => ?_⟩
  obtain ⟨r, hr⟩ := h2 ic fuel hf
  exact ⟨_, r, hr, ofWire_wireOf _⟩

example : (svsAfter H0 [.recv [(nB, 4), (nA, 2), ([], 1)] 0, .run]).vector = [([], 1), (nA, 2), (nB, 4)] := by decide
example : let v := (svsAfter H0 [.recv [(nB, 4), (nA, 2)] 0, .run]).vector
    (∀ e ∈ v, e.2 < 2 ^ 64 ∧ ∀ c ∈ e.1, c.typ < 2 ^ 64 ∧ c.val.length ≤ 0xfc) := by decide
example : Codec.Schema.stateVectorAppParam.enc (wireOf [(nA, 2), (nB, 4)]) =
    [0xc9, 20, 0xca, 8, 7, 3, 8, 1, 97, 0xcc, 1, 2, 0xca, 8, 7, 3, 8, 1, 98, 0xcc, 1, 4] := by decide

end Ndn.Sync
