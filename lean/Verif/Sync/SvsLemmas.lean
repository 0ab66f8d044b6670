import Verif.Sync.Svs

/-!
# Lemmas about state vector sync
-/

namespace Ndn.Sync

theorem get_put {β : Type} (m : GMap β) (k : Nat) (v : β) (k' : Nat) : (m.put k v).get k' = if k' = k then some v else m.get k' := by
  unfold GMap.put GMap.get
  by_cases hany : m.any (fun e => e.1 == k) = true
  · rw [if_pos hany]
    induction m with
    | nil => simp at hany
    | cons e m ih =>
      rw [List.map_cons, List.find?_cons, List.find?_cons]
      by_cases hek : e.1 = k
      · by_cases hk : k' = k
        · subst hk
          simp [hek]
        · have h1 : (e.1 == k) = true := by simp [hek]
          have h2 : (k == k') = false := by simp [Ne.symm hk]
          have h3 : (e.1 == k') = false := by rw [hek]; exact h2
          simp only [h1, if_true, h2, h3, hk, if_false]
          by_cases hany' : m.any (fun e => e.1 == k) = true
          · have := ih hany'
            simp only [hk, if_false] at this
            exact this
          · have hmap : m.map (fun e => if (e.1 == k) = true then (k, v) else e) = m := by
              conv => rhs; rw [← List.map_id m]
              apply List.map_congr_left
              intro f hf
              rw [if_neg ?_]
              · rfl
              · intro hf'
                exact hany' (List.any_eq_true.mpr ⟨f, hf, hf'⟩)
            rw [hmap]
      · have h1 : (e.1 == k) = false := by simp [hek]
        simp only [h1, Bool.false_eq_true, if_false]
        have hany' : m.any (fun e => e.1 == k) = true := by
          rw [List.any_cons, h1, Bool.false_or] at hany
          exact hany
        cases h3 : e.1 == k' with
        | true =>
          have : k' ≠ k := by
            rw [beq_iff_eq] at h3
            rw [← h3]; exact hek
          simp [this]
        | false => exact ih hany'
  · rw [if_neg hany, List.find?_append]
    cases hf : m.find? (fun e => e.1 == k') with
    | none =>
      by_cases hk : k' = k
      · subst hk; simp
      · simp [hk, Ne.symm hk]
    | some e =>
      have h1 := List.mem_of_find?_eq_some hf
      have h2 := List.find?_some hf
      have : k' ≠ k := by
        rintro rfl
        exact hany (List.any_eq_true.mpr ⟨e, h1, h2⟩)
      simp [this]

theorem get_none_iff {β : Type} (m : GMap β) (k : Nat) : m.get k = none ↔ ∀ e ∈ m, e.1 ≠ k := by
  unfold GMap.get
  rw [Option.map_eq_none_iff, List.find?_eq_none]
  simp

theorem mem_of_get {β : Type} {m : GMap β} {k : Nat} {v : β} (h : m.get k = some v) : (k, v) ∈ m := by
  unfold GMap.get at h
  rw [Option.map_eq_some_iff] at h
  obtain ⟨e, he, rfl⟩ := h
  have h1 := List.mem_of_find?_eq_some he
  have h2 := List.find?_some he
  simp only [beq_iff_eq] at h2
  rw [← h2]; exact h1

theorem get_of_mem {β : Type} {m : GMap β} (hn : (m.map (·.1)).Nodup) {k : Nat} {v : β} (h : (k, v) ∈ m) : m.get k = some v := by
  induction m with
  | nil => cases h
  | cons e m ih =>
    rw [List.map_cons, List.nodup_cons] at hn
    unfold GMap.get
    rw [List.find?_cons]
    rcases List.mem_cons.mp h with rfl | h
    · simp
    · have : e.1 ≠ k := by
        rintro rfl
        exact hn.1 (List.mem_map.mpr ⟨_, h, rfl⟩)
      simp only [beq_eq_false_iff_ne.mpr this]
      exact ih hn.2 h

theorem put_keys {β : Type} (m : GMap β) (k : Nat) (v : β) :
    (m.put k v).map (·.1) = if m.any (fun e => e.1 == k) then m.map (·.1) else m.map (·.1) ++ [k] := by
  unfold GMap.put
  split
  · rw [List.map_map]
    apply List.map_congr_left
    intro e _
    simp only [Function.comp]
    by_cases h : (e.1 == k) = true
    · rw [if_pos h]; exact (beq_iff_eq.mp h).symm
    · rw [if_neg h]
  · simp

theorem put_nodup {β : Type} {m : GMap β} (hn : (m.map (·.1)).Nodup) (k : Nat) (v : β) : ((m.put k v).map (·.1)).Nodup := by
  rw [put_keys]
  split
  · exact hn
  · rename_i h
    rw [List.nodup_append]
    refine ⟨hn, by simp, ?_⟩
    intro a ha b hb
    rw [List.mem_singleton] at hb
    subst hb
    rintro rfl
    obtain ⟨e, he, hk⟩ := List.mem_map.mp ha
    exact h (List.any_eq_true.mpr ⟨e, he, by simp [hk]⟩)

/-! ## hashName -/

theorem hashName_fst (H : Bytes → Nat) (s : Svs) (n : Name) : (s.hashName H n).1 = nameHash H n := rfl

theorem hashName_frame (H : Bytes → Nat) (s : Svs) (n : Name) :
    (s.hashName H n).2.state = s.state ∧ (s.hashName H n).2.mtime = s.mtime ∧ (s.hashName H n).2.suppress = s.suppress ∧
    (s.hashName H n).2.merge = s.merge ∧ (s.hashName H n).2.running = s.running ∧ (s.hashName H n).2.spawned = s.spawned ∧
    (s.hashName H n).2.updates = s.updates ∧ (s.hashName H n).2.sent = s.sent := by
  unfold Svs.hashName
  simp only
  split <;> exact ⟨rfl, rfl, rfl, rfl, rfl, rfl, rfl, rfl⟩

theorem hashName_seq (H : Bytes → Nat) (s : Svs) (n : Name) (h : Nat) : (s.hashName H n).2.seq h = s.seq h := by
  unfold Svs.seq; rw [(hashName_frame H s n).1]

/-- the name of a hash, once known, stays -/
theorem hashName_names (H : Bytes → Nat) (s : Svs) (n : Name) (h : Nat) :
    (s.hashName H n).2.names.get h = if (s.names.get h).isSome then s.names.get h else if h = nameHash H n then some n else none := by
  unfold Svs.hashName
  simp only
  by_cases h1 : (s.names.get (nameHash H n)).isSome
  · rw [if_pos h1]
    split
    · rfl
    · rename_i h2
      split
      · rename_i h3; subst h3; exact absurd h1 h2
      · simpa using h2
  · rw [if_neg h1]
    simp only [get_put]
    by_cases h2 : h = nameHash H n
    · subst h2; simp [h1]
    · simp only [h2, if_false]
      split
      · rfl
      · rename_i h3; simpa using h3

theorem seq_put (s : Svs) (k v h : Nat) : Svs.seq { s with state := s.state.put k v } h = if h = k then v else s.seq h := by
  unfold Svs.seq
  simp only [get_put]
  split <;> rfl

/-! ## One entry -/

theorem entry_seq (H : Bytes → Nat) (now : Nat) (r : Recv) (e : Name × Nat) (h : Nat) :
    (r.entry H now e).s.seq h = if h = nameHash H e.1 then max (r.s.seq h) e.2 else r.s.seq h := by
  have hseq : (r.entry H now e).s.state =
      if e.2 > r.s.seq (nameHash H e.1) then r.s.state.put (nameHash H e.1) e.2 else r.s.state := by
    unfold Recv.entry
    simp only [hashName_fst, hashName_seq]
    have hf := (hashName_frame H r.s e.1).1
    (repeat' split) <;> simp only [hf]
  unfold Svs.seq at hseq ⊢
  rw [hseq]
  by_cases h1 : e.2 > (GMap.get r.s.state (nameHash H e.1)).getD 0
  · rw [if_pos h1, get_put]
    by_cases h2 : h = nameHash H e.1
    · subst h2
      simp only [if_true, Option.getD_some]
      omega
    · simp only [h2, if_false]
  · rw [if_neg h1]
    by_cases h2 : h = nameHash H e.1
    · subst h2
      simp only [if_true]
      omega
    · simp only [h2, if_false]

theorem entry_updates (H : Bytes → Nat) (now : Nat) (r : Recv) (e : Name × Nat) :
    (r.entry H now e).s.updates = if e.2 > r.s.seq (nameHash H e.1)
      then ⟨e.1, e.2, incr64 (r.s.seq (nameHash H e.1))⟩ :: r.s.updates else r.s.updates := by
  unfold Recv.entry
  simp only [hashName_fst, hashName_seq]
  have hf := (hashName_frame H r.s e.1).2.2.2.2.2.2.1
  (repeat' split) <;> simp only [hf]

theorem entry_suppress (H : Bytes → Nat) (now : Nat) (r : Recv) (e : Name × Nat) : (r.entry H now e).s.suppress = r.s.suppress := by
  unfold Recv.entry
  simp only [hashName_fst, hashName_seq]
  have hf := (hashName_frame H r.s e.1).2.2.1
  (repeat' split) <;> simp only [hf]

theorem entry_frame (H : Bytes → Nat) (now : Nat) (r : Recv) (e : Name × Nat) :
    (r.entry H now e).s.running = r.s.running ∧ (r.entry H now e).s.spawned = r.s.spawned ∧ (r.entry H now e).s.sent = r.s.sent := by
  unfold Recv.entry
  simp only [hashName_fst, hashName_seq]
  have hf := (hashName_frame H r.s e.1)
  (repeat' split) <;> simp only [hf, and_self]

theorem entry_merge (H : Bytes → Nat) (now : Nat) (r : Recv) (e : Name × Nat) (h : Nat) :
    ((r.entry H now e).s.merge.get h).getD 0 = if r.s.suppress = true ∧ h = nameHash H e.1 then max ((r.s.merge.get h).getD 0) e.2
      else (r.s.merge.get h).getD 0 := by
  have hm : (r.entry H now e).s.merge = if r.s.suppress && decide (e.2 > (r.s.merge.get (nameHash H e.1)).getD 0)
      then r.s.merge.put (nameHash H e.1) e.2 else r.s.merge := by
    unfold Recv.entry
    simp only [hashName_fst, hashName_seq]
    have hf := (hashName_frame H r.s e.1)
    split
    · simp only [hf]
      split <;> simp only [hf]
    · split
      · simp only [hf]
        split <;> simp only [hf]
      · simp only [hf]
        split <;> simp only [hf]
  rw [hm]
  by_cases h0 : r.s.suppress = true
  · by_cases h1 : e.2 > (r.s.merge.get (nameHash H e.1)).getD 0
    · rw [if_pos (by simp [h0, h1]), get_put]
      by_cases h2 : h = nameHash H e.1
      · subst h2
        simp only [h0, and_self, if_true, Option.getD_some]
        omega
      · simp only [h2, and_false, if_false]
    · rw [if_neg (by simp [h1])]
      by_cases h2 : h = nameHash H e.1
      · subst h2
        simp only [h0, and_self, if_true]
        omega
      · simp only [h2, and_false, if_false]
  · rw [if_neg (by simp [h0]), if_neg (by simp [h0])]

theorem entry_names (H : Bytes → Nat) (now : Nat) (r : Recv) (e : Name × Nat) : (r.entry H now e).s.names = (r.s.hashName H e.1).2.names := by
  unfold Recv.entry
  simp only [hashName_fst, hashName_seq]
  (repeat' split) <;> rfl

theorem entry_state (H : Bytes → Nat) (now : Nat) (r : Recv) (e : Name × Nat) :
    (r.entry H now e).s.state = if e.2 > r.s.seq (nameHash H e.1) then r.s.state.put (nameHash H e.1) e.2 else r.s.state := by
  unfold Recv.entry
  simp only [hashName_fst, hashName_seq]
  have hf := (hashName_frame H r.s e.1).1
  (repeat' split) <;> simp only [hf]

/-! ## The whole vector -/

/-- greatest value of the entries whose name satisfies `P` (0 when there is none) -/
def best (P : Name → Bool) (l : Vec) : Nat := l.foldr (fun e m => if P e.1 then max e.2 m else m) 0

theorem best_cons (P : Name → Bool) (e : Name × Nat) (l : Vec) : best P (e :: l) = if P e.1 then max e.2 (best P l) else best P l := rfl

theorem best_append (P : Name → Bool) (l l' : Vec) : best P (l ++ l') = max (best P l) (best P l') := by
  induction l with
  | nil => simp [best]
  | cons e l ih =>
    rw [List.cons_append, best_cons, best_cons, ih]
    split <;> omega

theorem le_best {P : Name → Bool} {l : Vec} {e : Name × Nat} (h : e ∈ l) (hp : P e.1 = true) : e.2 ≤ best P l := by
  induction l with
  | nil => cases h
  | cons f l ih =>
    rw [best_cons]
    rcases List.mem_cons.mp h with rfl | h
    · rw [if_pos hp]; omega
    · have := ih h
      split <;> omega

theorem best_mem {P : Name → Bool} {l : Vec} (h : best P l ≠ 0) : ∃ e ∈ l, P e.1 = true ∧ e.2 = best P l := by
  induction l with
  | nil => exact absurd rfl h
  | cons f l ih =>
    rw [best_cons] at h ⊢
    split
    · rename_i hp
      rw [if_pos hp] at h
      by_cases h1 : best P l ≤ f.2
      · exact ⟨f, List.mem_cons_self, hp, by omega⟩
      · obtain ⟨e, he, h2, h3⟩ := ih (by omega)
        exact ⟨e, List.mem_cons_of_mem _ he, h2, by omega⟩
    · rename_i hp
      rw [if_neg hp] at h
      obtain ⟨e, he, h2, h3⟩ := ih h
      exact ⟨e, List.mem_cons_of_mem _ he, h2, h3⟩

theorem best_congr {P Q : Name → Bool} {l : Vec} (h : ∀ e ∈ l, P e.1 = Q e.1) : best P l = best Q l := by
  induction l with
  | nil => rfl
  | cons f l ih =>
    rw [best_cons, best_cons, h f List.mem_cons_self, ih (fun e he => h e (List.mem_cons_of_mem _ he))]

/-- equal sets of entries have equal maxima -/
theorem best_set {P : Name → Bool} {l l' : Vec} (h : ∀ e, e ∈ l → e ∈ l') : best P l ≤ best P l' := by
  by_cases h0 : best P l = 0
  · omega
  · obtain ⟨e, he, hp, heq⟩ := best_mem h0
    rw [← heq]
    exact le_best (h e he) hp

def hashIs (H : Bytes → Nat) (h : Nat) (n : Name) : Bool := nameHash H n == h

theorem fold_seq (H : Bytes → Nat) (now : Nat) (sv : Vec) (r : Recv) (h : Nat) :
    (sv.foldl (Recv.entry H now) r).s.seq h = max (r.s.seq h) (best (hashIs H h) sv) := by
  induction sv generalizing r with
  | nil => simp [best]
  | cons e sv ih =>
    rw [List.foldl_cons, ih, entry_seq, best_cons]
    simp only [hashIs, beq_iff_eq]
    by_cases h1 : h = nameHash H e.1
    · rw [if_pos h1, if_pos h1.symm]; omega
    · rw [if_neg h1, if_neg (Ne.symm h1)]

theorem fold_suppress (H : Bytes → Nat) (now : Nat) (sv : Vec) (r : Recv) :
    (sv.foldl (Recv.entry H now) r).s.suppress = r.s.suppress := by
  induction sv generalizing r with
  | nil => rfl
  | cons e sv ih => rw [List.foldl_cons, ih, entry_suppress]

theorem fold_frame (H : Bytes → Nat) (now : Nat) (sv : Vec) (r : Recv) :
    (sv.foldl (Recv.entry H now) r).s.running = r.s.running ∧ (sv.foldl (Recv.entry H now) r).s.spawned = r.s.spawned ∧
    (sv.foldl (Recv.entry H now) r).s.sent = r.s.sent := by
  induction sv generalizing r with
  | nil => exact ⟨rfl, rfl, rfl⟩
  | cons e sv ih =>
    rw [List.foldl_cons]
    obtain ⟨h1, h2, h3⟩ := ih (r.entry H now e)
    obtain ⟨g1, g2, g3⟩ := entry_frame H now r e
    exact ⟨h1.trans g1, h2.trans g2, h3.trans g3⟩

theorem fold_merge (H : Bytes → Nat) (now : Nat) (sv : Vec) (r : Recv) (h : Nat) :
    ((sv.foldl (Recv.entry H now) r).s.merge.get h).getD 0 = if r.s.suppress = true
      then max ((r.s.merge.get h).getD 0) (best (hashIs H h) sv) else (r.s.merge.get h).getD 0 := by
  induction sv generalizing r with
  | nil => simp [best]
  | cons e sv ih =>
    rw [List.foldl_cons, ih, entry_suppress, entry_merge, best_cons]
    simp only [hashIs, beq_iff_eq]
    by_cases h0 : r.s.suppress = true
    · by_cases h1 : h = nameHash H e.1
      · simp only [h0, ← h1, and_self, if_true]; omega
      · simp only [h0, h1, Ne.symm h1, and_false, if_false, if_true]
    · rw [if_neg h0, if_neg h0, if_neg (fun h => h0 h.1)]

theorem receive_fold (H : Bytes → Nat) (s : Svs) (sv : Vec) (now : Nat) :
    (s.receive H sv now).state = (sv.foldl (Recv.entry H now) { s := s }).s.state ∧
    (s.receive H sv now).updates = (sv.foldl (Recv.entry H now) { s := s }).s.updates ∧
    (s.receive H sv now).names = (sv.foldl (Recv.entry H now) { s := s }).s.names := by
  unfold Svs.receive
  simp only
  split
  · exact ⟨rfl, rfl, rfl⟩
  · split <;> exact ⟨rfl, rfl, rfl⟩

theorem receive_seq (H : Bytes → Nat) (s : Svs) (sv : Vec) (now : Nat) (h : Nat) :
    (s.receive H sv now).seq h = max (s.seq h) (best (hashIs H h) sv) := by
  have := fold_seq H now sv { s := s } h
  unfold Svs.seq at this ⊢
  rw [(receive_fold H s sv now).1]
  exact this

theorem timer_state (s : Svs) : s.timerExpired.state = s.state := by
  unfold Svs.timerExpired; split <;> rfl

theorem send_state (s : Svs) : s.sendSyncInterest.state = s.state := by
  unfold Svs.sendSyncInterest; split <;> rfl

theorem set_seq (H : Bytes → Nat) (s : Svs) (n : Name) (q h : Nat) :
    (s.setSeqNo H n q).2.seq h = if h = nameHash H n then max (s.seq h) q else s.seq h := by
  unfold Svs.setSeqNo
  simp only [hashName_fst, hashName_seq]
  split
  · simp only [hashName_seq]
    split
    · rename_i h1 h2; subst h2; omega
    · rfl
  · have := seq_put { (s.hashName H n).2 with spawned := (s.hashName H n).2.spawned + 1 } (nameHash H n) q h
    unfold Svs.seq at this ⊢
    simp only at this ⊢
    rw [this]
    split
    · rename_i h1 h2
      subst h2
      have := hashName_seq H s n (nameHash H n)
      unfold Svs.seq at this h1
      omega
    · exact hashName_seq H s n h

theorem incr_seq (H : Bytes → Nat) (s : Svs) (n : Name) (h : Nat) :
    (s.incrSeqNo H n).2.seq h = if h = nameHash H n then incr64 (s.seq h) else s.seq h := by
  unfold Svs.incrSeqNo
  simp only [hashName_fst, hashName_seq]
  have := seq_put { (s.hashName H n).2 with spawned := (s.hashName H n).2.spawned + 1 } (nameHash H n) (incr64 (s.seq (nameHash H n))) h
  unfold Svs.seq at this ⊢
  simp only at this ⊢
  rw [this]
  split
  · rename_i h2
    subst h2; rfl
  · exact hashName_seq H s n h

theorem step_seq (H : Bytes → Nat) (s : Svs) (e : SvEvent) (h : Nat) :
    (s.step H e).seq h = match e with
      | .set n q => if h = nameHash H n then max (s.seq h) q else s.seq h
      | .incr n => if h = nameHash H n then incr64 (s.seq h) else s.seq h
      | .recv sv _ => if s.running then max (s.seq h) (best (hashIs H h) sv) else s.seq h
      | _ => s.seq h := by
  cases e with
  | set n q => exact set_seq H s n q h
  | incr n => exact incr_seq H s n h
  | recv sv now =>
    simp only [Svs.step]
    split
    · exact receive_seq H s sv now h
    · rfl
  | timer =>
    simp only [Svs.step]
    split
    · unfold Svs.seq; rw [timer_state]
    · rfl
  | send =>
    simp only [Svs.step]
    split
    · rfl
    · unfold Svs.seq; rw [send_state]
  | run => rfl
  | halt => rfl

end Ndn.Sync

namespace Ndn.Sync

/-! ## The table of names -/

/-- the keys of the state are distinct, every key has a name, and a name is stored under its hash -/
structure Inv (H : Bytes → Nat) (state : GMap Nat) (names : GMap Name) : Prop where
  nodup : (state.map (·.1)).Nodup
  hash : ∀ (k : Nat) (n : Name), names.get k = some n → nameHash H n = k
  named : ∀ (e : Nat × Nat), e ∈ state → (names.get e.1).isSome = true

theorem mem_put {β : Type} {m : GMap β} {k : Nat} {v : β} {e : Nat × β} (h : e ∈ m.put k v) : e = (k, v) ∨ e ∈ m := by
  unfold GMap.put at h
  split at h
  · obtain ⟨f, hf, h⟩ := List.mem_map.mp h
    split at h
    · exact .inl h.symm
    · exact .inr (h ▸ hf)
  · rcases List.mem_append.mp h with h | h
    · exact .inr h
    · exact .inl (List.mem_singleton.mp h)

theorem Inv.hashName {H : Bytes → Nat} {s : Svs} (h : Inv H s.state s.names) (n : Name) :
    Inv H s.state (s.hashName H n).2.names ∧ ((s.hashName H n).2.names.get (nameHash H n)).isSome = true := by
  refine ⟨⟨h.nodup, ?_, ?_⟩, ?_⟩
  · intro k m hm
    rw [hashName_names] at hm
    split at hm
    · exact h.hash k m hm
    · split at hm
      · rename_i hk; cases hm; exact hk.symm
      · cases hm
  · intro e he
    rw [hashName_names, if_pos (h.named e he)]
    exact h.named e he
  · rw [hashName_names]
    split
    · assumption
    · simp

theorem Inv.put {H : Bytes → Nat} {st : GMap Nat} {nm : GMap Name} (h : Inv H st nm) {k : Nat} (hk : (nm.get k).isSome = true) (v : Nat) :
    Inv H (st.put k v) nm := by
  refine ⟨put_nodup h.nodup k v, h.hash, ?_⟩
  intro e he
  rcases mem_put he with rfl | he
  · exact hk
  · exact h.named e he

theorem Inv.entry {H : Bytes → Nat} {r : Recv} (h : Inv H r.s.state r.s.names) (now : Nat) (e : Name × Nat) :
    Inv H (r.entry H now e).s.state (r.entry H now e).s.names := by
  rw [entry_state, entry_names]
  obtain ⟨h1, h2⟩ := h.hashName e.1
  split
  · exact h1.put h2 _
  · exact h1

theorem Inv.fold {H : Bytes → Nat} (now : Nat) (sv : Vec) {r : Recv} (h : Inv H r.s.state r.s.names) :
    Inv H (sv.foldl (Recv.entry H now) r).s.state (sv.foldl (Recv.entry H now) r).s.names := by
  induction sv generalizing r with
  | nil => exact h
  | cons e sv ih => exact ih (h.entry now e)

theorem Inv.step {H : Bytes → Nat} {s : Svs} (h : Inv H s.state s.names) (e : SvEvent) : Inv H (s.step H e).state (s.step H e).names := by
  cases e with
  | set n q =>
    simp only [Svs.step, Svs.setSeqNo, hashName_fst]
    obtain ⟨h1, h2⟩ := h.hashName n
    by_cases hq : q ≤ (s.hashName H n).2.seq (nameHash H n)
    · simp only [if_pos hq, (hashName_frame H s n).1]; exact h1
    · simp only [if_neg hq, (hashName_frame H s n).1]; exact h1.put h2 _
  | incr n =>
    simp only [Svs.step, Svs.incrSeqNo, hashName_fst]
    obtain ⟨h1, h2⟩ := h.hashName n
    simp only [(hashName_frame H s n).1]; exact h1.put h2 _
  | recv sv now =>
    simp only [Svs.step]
    split
    · rw [(receive_fold H s sv now).1, (receive_fold H s sv now).2.2]
      exact Inv.fold now sv (r := { s := s }) h
    · exact h
  | timer =>
    simp only [Svs.step, Svs.timerExpired]
    (repeat' split) <;> exact h
  | send =>
    simp only [Svs.step, Svs.sendSyncInterest]
    (repeat' split) <;> exact h
  | run => exact h
  | halt => exact h

theorem Inv.after (H : Bytes → Nat) (evs : List SvEvent) : Inv H (svsAfter H evs).state (svsAfter H evs).names := by
  induction evs with
  | nil => exact ⟨List.nodup_nil, (fun _ _ h => nomatch h), (fun _ h => nomatch h)⟩
  | cons e evs ih => exact ih.step e

/-! ## The vector that is sent -/

theorem insertVec_perm (e : Name × Nat) (l : Vec) : (insertVec e l).Perm (e :: l) := by
  induction l with
  | nil => exact .refl _
  | cons f l ih =>
    unfold insertVec
    split
    · exact .refl _
    · exact (ih.cons f).trans (.swap e f l)

theorem foldr_insertVec_perm (l : Vec) : (l.foldr insertVec []).Perm l := by
  induction l with
  | nil => exact .refl _
  | cons e l ih => exact (insertVec_perm e _).trans (ih.cons e)

theorem vector_perm (s : Svs) : s.vector.Perm (s.state.map (fun e => ((s.names.get e.1).getD [], e.2))) := foldr_insertVec_perm _

/-- an entry of the vector for each entry of the state -/
theorem mem_vector {H : Bytes → Nat} {s : Svs} (hi : Inv H s.state s.names) (n : Name) (q : Nat) (h : (n, q) ∈ s.vector) :
    s.state.get (nameHash H n) = some q ∧ s.names.get (nameHash H n) = some n := by
  have := (vector_perm s).mem_iff.mp h
  obtain ⟨e, he, heq⟩ := List.mem_map.mp this
  obtain ⟨m, hm⟩ := Option.isSome_iff_exists.mp (hi.named e he)
  rw [hm] at heq
  cases heq
  show s.state.get (nameHash H m) = _ ∧ s.names.get (nameHash H m) = some m
  rw [hi.hash _ _ hm]
  exact ⟨get_of_mem hi.nodup he, hm⟩

theorem vector_of_get {H : Bytes → Nat} {s : Svs} (hi : Inv H s.state s.names) {k q : Nat} (h : s.state.get k = some q) :
    ∃ n, nameHash H n = k ∧ s.names.get k = some n ∧ (n, q) ∈ s.vector := by
  have he := mem_of_get h
  obtain ⟨m, hm⟩ := Option.isSome_iff_exists.mp (hi.named _ he)
  refine ⟨m, hi.hash _ _ hm, hm, (vector_perm s).mem_iff.mpr (List.mem_map.mpr ⟨_, he, ?_⟩)⟩
  simp only at hm ⊢
  rw [hm]
  rfl

theorem best_vector {H : Bytes → Nat} {s : Svs} (hi : Inv H s.state s.names) (h : Nat) : best (hashIs H h) s.vector = s.seq h := by
  apply Nat.le_antisymm
  · by_cases h0 : best (hashIs H h) s.vector = 0
    · omega
    · obtain ⟨⟨n, q⟩, he, hp, heq⟩ := best_mem h0
      rw [← heq]
      simp only [hashIs, beq_iff_eq] at hp
      unfold Svs.seq
      rw [← hp, (mem_vector hi n q he).1]
      exact Nat.le_refl _
  · unfold Svs.seq
    cases hg : s.state.get h with
    | none => exact Nat.zero_le _
    | some q =>
      obtain ⟨n, hn, _, hm⟩ := vector_of_get hi hg
      exact le_best (e := (n, q)) hm (by simp [hashIs, hn])

theorem vector_names_nodup {H : Bytes → Nat} {s : Svs} (hi : Inv H s.state s.names) : (s.vector.map (·.1)).Nodup := by
  have hp := (vector_perm s).map (·.1)
  rw [hp.nodup_iff, List.map_map]
  have hkey : ((s.state.map ((·.1) ∘ fun e => ((s.names.get e.1).getD [], e.2))).map (nameHash H)) = s.state.map (·.1) := by
    rw [List.map_map]
    apply List.map_congr_left
    intro e he
    obtain ⟨m, hm⟩ := Option.isSome_iff_exists.mp (hi.named e he)
    simp only [Function.comp, hm, Option.getD_some]
    exact hi.hash _ _ hm
  have := hi.nodup
  rw [← hkey] at this
  exact List.Pairwise.of_map (nameHash H) (fun _ _ h h' => h (congrArg _ h')) this

end Ndn.Sync
