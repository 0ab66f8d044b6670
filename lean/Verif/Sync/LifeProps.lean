import Verif.Sync.Life

/-!
# C80: starting and stopping SVS
-/

namespace Ndn.Sync

variable {V : Type}

/-- a property of all steps is one of all histories -/
theorem Life.run_inv (P : Life V → Prop) (hs : ∀ w a, w.panicked = false → P w → P (w.step a)) (as : List (Act V)) : ∀ w, P w → P (w.run as) := by
  induction as with
  | nil => intro w h; exact h
  | cons a as ih =>
    intro w h
    rw [Life.run]
    split
    · exact h
    · rename_i hp
      exact ih _ (hs w a (by simpa using hp) h)

/-- no vector is lost, doubled or overtaken -/
structure Flow (w : Life V) : Prop where
  fifo : w.taken ++ w.queue = w.accepted
  all : (w.accepted ++ w.handlers).Perm w.arrived
  cap : w.queue.length ≤ 128

theorem perm_eraseIdx {α : Type} : ∀ (l : List α) (i : Nat) (v : α), l[i]? = some v → (v :: l.eraseIdx i).Perm l
  | [], i, v, h => by simp at h
  | x :: xs, 0, v, h => by
    simp at h; subst h; simp
  | x :: xs, i + 1, v, h => by
    simp only [List.getElem?_cons_succ] at h
    rw [List.eraseIdx_cons_succ]
    exact (List.Perm.swap x v _).trans (List.Perm.cons x (perm_eraseIdx xs i v h))

theorem flow_step (w : Life V) (a : Act V) (h : Flow w) : Flow (w.step a) := by
  cases a with
  | start => unfold Life.step; simp only; split <;> exact ⟨h.1, h.2, h.3⟩
  | other => unfold Life.step; simp only; split <;> exact ⟨h.1, h.2, h.3⟩
  | arrive v =>
    unfold Life.step; simp only
    split
    · refine ⟨h.1, ?_, h.3⟩
      rw [← List.append_assoc]
      exact h.2.append_right _
    · exact h
  | send i =>
    unfold Life.step; simp only
    split
    · exact h
    · rename_i v hv
      split
      · exact ⟨h.1, h.2, h.3⟩
      · split
        · rename_i hc
          refine ⟨by rw [← List.append_assoc, h.1], ?_, ?_⟩
          · refine List.Perm.trans ?_ h.2
            rw [List.append_assoc]
            exact List.Perm.append_left _ (perm_eraseIdx _ i v hv)
          · simp only [List.length_append, List.length_singleton]
            simp only [recvCap] at hc
            omega
        · exact h
  | begin i => unfold Life.step; simp only; split <;> exact ⟨h.1, h.2, h.3⟩
  | tick i b =>
    unfold Life.step; simp only
    split
    · split <;> exact ⟨h.1, h.2, h.3⟩
    · exact h
  | recv i =>
    unfold Life.step; simp only
    split
    · split
      · exact h
      · split
        · rename_i v q hq
          refine ⟨?_, h.2, ?_⟩
          · show (w.taken ++ [v]) ++ q = w.accepted
            rw [← h.1, hq]; simp
          · have := h.3
            rw [hq, List.length_cons] at this
            show q.length ≤ 128
            omega
        · split <;> exact ⟨h.1, h.2, h.3⟩
    · exact h
  | finish i => unfold Life.step; simp only; split <;> exact ⟨h.1, h.2, h.3⟩
  | callStop i => unfold Life.step; simp only; split <;> exact ⟨h.1, h.2, h.3⟩
  | resume i =>
    unfold Life.step; simp only
    split
    · split <;> exact ⟨h.1, h.2, h.3⟩
    · exact h
  | quit i => unfold Life.step; simp only; split <;> exact ⟨h.1, h.2, h.3⟩
  | stop => exact ⟨h.1, h.2, h.3⟩
  | meet i j => unfold Life.step; simp only; split <;> exact ⟨h.1, h.2, h.3⟩
  | adv j =>
    unfold Life.step; simp only
    split
    · split <;> exact ⟨h.1, h.2, h.3⟩
    · split <;> exact ⟨h.1, h.2, h.3⟩
    · split <;> exact ⟨h.1, h.2, h.3⟩
    · exact h
  | emit =>
    unfold Life.step; simp only
    split
    · exact h
    · split
      · exact ⟨h.1, h.2, h.3⟩
      · split <;> exact ⟨h.1, h.2, h.3⟩

/-- C80, for every history: the main loop gets the vectors in the order in which they were put into the channel, each at most once; each of these came
in a Sync Interest, and each Sync Interest's vector is there or still with its goroutine; no more than 128 wait. -/
theorem C80_flow (as : List (Act V)) :
    let w := ({} : Life V).run as
    w.taken ++ w.queue = w.accepted ∧ (w.accepted ++ w.handlers).Perm w.arrived ∧ w.queue.length ≤ 128 := by
  have h := Life.run_inv (V := V) Flow (fun w a _ h => flow_step w a h) as {} ⟨rfl, .refl _, by simp⟩
  exact ⟨h.1, h.2, h.3⟩

/-- one life: `Start` once, `Stop` once and after it, and `Stop` gets to close the channel only when no handler's goroutine is left -/
def okAct (w : Life V) : Act V → Prop
  | .start => w.mains = [] ∧ w.stoppers = []
  | .stop => w.mains ≠ [] ∧ w.stoppers = []
  | .callStop _ => w.stoppers = []
  | .adv j => w.stoppers[j]? = some .closing2 → w.handlers = []
  | _ => True

def OneLife : Life V → List (Act V) → Prop
  | _, [] => True
  | w, a :: as => okAct w a ∧ OneLife (w.step a) as

/-- how far one life has got -/
inductive Phase (w : Life V) : Prop where
  | new (h1 : w.mains = []) (h2 : w.stoppers = []) (h3 : w.stopClosed = false) (h4 : w.recvClosed = false) (h5 : w.fib ≠ some .mine)
  | live (m : MainPc V) (h1 : w.mains = [m]) (h2 : w.stoppers = []) (h3 : w.stopClosed = false) (h4 : w.recvClosed = false) (hm : m ≠ .done)
  | asked (m : MainPc V) (h1 : w.mains = [m]) (h2 : w.stoppers = [.waiting]) (h3 : w.stopClosed = false) (h4 : w.recvClosed = false)
      (h5 : w.fib ≠ some .mine) (hm : m ≠ .done)
  | over1 (h1 : w.mains = [.done]) (h2 : w.stoppers = [.closing1]) (h3 : w.stopClosed = false) (h4 : w.recvClosed = false)
      (h5 : w.fib ≠ some .mine) (h6 : w.running = false)
  | over2 (h1 : w.mains = [.done]) (h2 : w.stoppers = [.closing2]) (h3 : w.stopClosed = true) (h4 : w.recvClosed = false)
      (h5 : w.fib ≠ some .mine) (h6 : w.running = false)
  | over3 (h1 : w.mains = [.done]) (h2 : w.stoppers = [.done]) (h3 : w.stopClosed = true) (h4 : w.recvClosed = true)
      (h5 : w.fib ≠ some .mine) (h6 : w.running = false) (h7 : w.handlers = [])

theorem Phase.congr {w w' : Life V} (h : Phase w) (e1 : w'.mains = w.mains) (e2 : w'.stoppers = w.stoppers) (e3 : w'.stopClosed = w.stopClosed)
    (e4 : w'.recvClosed = w.recvClosed) (e5 : w'.fib = some .mine → w.fib = some .mine) (e6 : w'.running = w.running)
    (e7 : w.recvClosed = true → w.handlers = [] → w'.handlers = []) : Phase w' := by
  cases h with
  | new h1 h2 h3 h4 h5 => exact .new (e1 ▸ h1) (e2 ▸ h2) (e3 ▸ h3) (e4 ▸ h4) (fun h => h5 (e5 h))
  | live m h1 h2 h3 h4 hm => exact .live m (e1 ▸ h1) (e2 ▸ h2) (e3 ▸ h3) (e4 ▸ h4) hm
  | asked m h1 h2 h3 h4 h5 hm => exact .asked m (e1 ▸ h1) (e2 ▸ h2) (e3 ▸ h3) (e4 ▸ h4) (fun h => h5 (e5 h)) hm
  | over1 h1 h2 h3 h4 h5 h6 => exact .over1 (e1 ▸ h1) (e2 ▸ h2) (e3 ▸ h3) (e4 ▸ h4) (fun h => h5 (e5 h)) (e6 ▸ h6)
  | over2 h1 h2 h3 h4 h5 h6 => exact .over2 (e1 ▸ h1) (e2 ▸ h2) (e3 ▸ h3) (e4 ▸ h4) (fun h => h5 (e5 h)) (e6 ▸ h6)
  | over3 h1 h2 h3 h4 h5 h6 h7 => exact .over3 (e1 ▸ h1) (e2 ▸ h2) (e3 ▸ h3) (e4 ▸ h4) (fun h => h5 (e5 h)) (e6 ▸ h6) (e7 h4 h7)

theorem one {α : Type} {m x : α} {i : Nat} (h : ([m] : List α)[i]? = some x) : i = 0 ∧ m = x := by
  cases i with
  | zero => simpa using h
  | succ i => simp at h

theorem isLoop_iff (w : Life V) (i : Nat) : w.isLoop i = true ↔ w.mains[i]? = some .loop := by
  unfold Life.isLoop
  split
  · rename_i h; simp [h]
  · rename_i h; simp; exact h

theorem isFresh_iff (w : Life V) (i : Nat) : w.isFresh i = true ↔ w.mains[i]? = some .fresh := by
  unfold Life.isFresh
  split
  · rename_i h; simp [h]
  · rename_i h; simp; exact h

theorem isBusy_iff (w : Life V) (i : Nat) : w.isBusy i = true ↔ ∃ v, w.mains[i]? = some (.busy v) := by
  unfold Life.isBusy
  split
  · rename_i v h; simp [h]
  · rename_i h; simp; exact h

/-- a main loop that is not done keeps the life from being over -/
theorem Phase.main {w : Life V} (h : Phase w) {i : Nat} {m : MainPc V} (hm : w.mains[i]? = some m) (hd : m ≠ .done) :
    i = 0 ∧ w.mains = [m] ∧ w.stopClosed = false ∧ w.recvClosed = false ∧
      (w.stoppers = [] ∨ w.stoppers = [.waiting] ∧ w.fib ≠ some .mine) := by
  cases h with
  | new h1 => rw [h1] at hm; simp at hm
  | live m h1 h2 h3 h4 => rw [h1] at hm; obtain ⟨rfl, rfl⟩ := one hm; exact ⟨rfl, h1, h3, h4, .inl h2⟩
  | asked m h1 h2 h3 h4 h5 => rw [h1] at hm; obtain ⟨rfl, rfl⟩ := one hm; exact ⟨rfl, h1, h3, h4, .inr ⟨h2, h5⟩⟩
  | over1 h1 => rw [h1] at hm; exact absurd (one hm).2.symm hd
  | over2 h1 => rw [h1] at hm; exact absurd (one hm).2.symm hd
  | over3 h1 => rw [h1] at hm; exact absurd (one hm).2.symm hd

/-- moving the main loop -/
theorem Phase.move {w w' : Life V} (h : Phase w) {i : Nat} {m m' : MainPc V} (hm : w.mains[i]? = some m) (hd : m ≠ .done)
    (hd' : m' ≠ .done) (e1 : w'.mains = w.mains.set i m')
    (e2 : w'.stoppers = w.stoppers) (e3 : w'.stopClosed = w.stopClosed) (e4 : w'.recvClosed = w.recvClosed) (e5 : w'.fib = w.fib) : Phase w' := by
  obtain ⟨rfl, h1, h2, h3, h4⟩ := h.main hm hd
  have h5 : w'.mains = [m'] := by rw [e1, h1]; rfl
  rcases h4 with h4 | ⟨h4, h6⟩
  · exact .live m' h5 (e2 ▸ h4) (e3 ▸ h2) (e4 ▸ h3) hd'
  · exact .asked m' h5 (e2 ▸ h4) (e3 ▸ h2) (e4 ▸ h3) (e5 ▸ h6) hd'

theorem phase_step (w : Life V) (a : Act V) (ho : okAct w a) (h : Phase w) (hp : w.panicked = false) :
    Phase (w.step a) ∧ (w.step a).panicked = false := by
  cases a with
  | start =>
    unfold Life.step; simp only
    split
    · obtain ⟨o1, o2⟩ := ho
      refine ⟨?_, hp⟩
      cases h with
      | new h1 h2 h3 h4 h5 => exact .live .fresh (by simp [h1]) h2 h3 h4 (by simp)
      | live m h1 => rw [o1] at h1; cases h1
      | asked m h1 => rw [o1] at h1; cases h1
      | over1 h1 => rw [o1] at h1; cases h1
      | over2 h1 => rw [o1] at h1; cases h1
      | over3 h1 => rw [o1] at h1; cases h1
    · exact ⟨h, hp⟩
  | other =>
    unfold Life.step; simp only
    split
    · exact ⟨h.congr rfl rfl rfl rfl (fun h => by cases h) rfl (fun _ h => h), hp⟩
    · exact ⟨h, hp⟩
  | arrive v =>
    unfold Life.step; simp only
    split
    · rename_i hf
      refine ⟨h.congr rfl rfl rfl rfl (fun h => h) rfl ?_, hp⟩
      intro hrc
      cases h with
      | new h1 h2 h3 h4 h5 => exact absurd hf h5
      | live m h1 h2 h3 h4 => rw [h4] at hrc; cases hrc
      | asked m h1 h2 h3 h4 h5 => exact absurd hf h5
      | over1 h1 h2 h3 h4 h5 => exact absurd hf h5
      | over2 h1 h2 h3 h4 h5 => exact absurd hf h5
      | over3 h1 h2 h3 h4 h5 => exact absurd hf h5
    · exact ⟨h, hp⟩
  | send i =>
    unfold Life.step; simp only
    split
    · exact ⟨h, hp⟩
    · rename_i v hv
      split
      · rename_i hrc
        exfalso
        cases h with
        | new h1 h2 h3 h4 => rw [h4] at hrc; cases hrc
        | live m h1 h2 h3 h4 => rw [h4] at hrc; cases hrc
        | asked m h1 h2 h3 h4 => rw [h4] at hrc; cases hrc
        | over1 h1 h2 h3 h4 => rw [h4] at hrc; cases hrc
        | over2 h1 h2 h3 h4 => rw [h4] at hrc; cases hrc
        | over3 h1 h2 h3 h4 h5 h6 h7 => rw [h7] at hv; simp at hv
      · rename_i hrc
        split
        · exact ⟨h.congr rfl rfl rfl rfl (fun h => h) rfl (fun hx => absurd hx hrc), hp⟩
        · exact ⟨h, hp⟩
  | begin i =>
    unfold Life.step; simp only
    split
    · rename_i hf
      exact ⟨h.move ((isFresh_iff w i).mp hf) (by simp) (by simp) rfl rfl rfl rfl rfl, hp⟩
    · exact ⟨h, hp⟩
  | tick i b =>
    unfold Life.step; simp only
    split
    · split
      · exact ⟨h.congr rfl rfl rfl rfl (fun h => h) rfl (fun _ h => h), hp⟩
      · exact ⟨h, hp⟩
    · exact ⟨h, hp⟩
  | recv i =>
    unfold Life.step; simp only
    split
    · rename_i hl
      have hl := (isLoop_iff w i).mp hl
      split
      · exact ⟨h, hp⟩
      · split
        · exact ⟨h.move hl (by simp) (by simp) rfl rfl rfl rfl rfl, hp⟩
        · rw [(h.main hl (by simp)).2.2.2.1]
          exact ⟨h, hp⟩
    · exact ⟨h, hp⟩
  | finish i =>
    unfold Life.step; simp only
    split
    · rename_i hf
      obtain ⟨v, hv⟩ := (isBusy_iff w i).mp hf
      exact ⟨h.move hv (by simp) (by simp) rfl rfl rfl rfl rfl, hp⟩
    · exact ⟨h, hp⟩
  | callStop i =>
    unfold Life.step; simp only
    split
    · rename_i v hv
      obtain ⟨rfl, h1, h2, h3, h4⟩ := h.main hv (by simp)
      refine ⟨.asked (.inStop v w.stoppers.length) ?_ ?_ h2 h3 ?_ (by simp), hp⟩
      · show w.mains.set 0 _ = _
        rw [h1]; rfl
      · show w.stoppers ++ _ = _
        rw [show w.stoppers = [] from ho]; rfl
      · intro hx; cases hx
    · exact ⟨h, hp⟩
  | resume i =>
    unfold Life.step; simp only
    split
    · rename_i v j hv
      split
      · exact ⟨h.move hv (by simp) (by simp) rfl rfl rfl rfl rfl, hp⟩
      · exact ⟨h, hp⟩
    · exact ⟨h, hp⟩
  | quit i =>
    unfold Life.step; simp only
    split
    · rename_i hl
      rw [Bool.and_eq_true] at hl
      have := (h.main ((isLoop_iff w i).mp hl.1) (by simp)).2.2.1
      rw [this] at hl
      exact absurd hl.2 (by simp)
    · exact ⟨h, hp⟩
  | stop =>
    obtain ⟨o1, o2⟩ := ho
    refine ⟨?_, hp⟩
    have key : ∀ m, m ≠ .done → w.mains = [m] → w.stopClosed = false → w.recvClosed = false → Phase (w.step .stop) := by
      intro m hm h1 h3 h4
      refine .asked m h1 ?_ h3 h4 (fun hx => by cases hx) hm
      show w.stoppers ++ _ = _
      rw [o2]; rfl
    cases h with
    | new h1 => exact absurd h1 o1
    | live m h1 h2 h3 h4 hm => exact key m hm h1 h3 h4
    | asked m h1 h2 => rw [o2] at h2; cases h2
    | over1 h1 h2 => rw [o2] at h2; cases h2
    | over2 h1 h2 => rw [o2] at h2; cases h2
    | over3 h1 h2 => rw [o2] at h2; cases h2
  | meet i j =>
    unfold Life.step; simp only
    split
    · rename_i hl
      simp only [Bool.and_eq_true, decide_eq_true_eq] at hl
      obtain ⟨⟨l1, l2⟩, -⟩ := hl
      obtain ⟨rfl, h1, h2, h3, h4⟩ := h.main ((isLoop_iff w i).mp l1) (by simp)
      refine ⟨?_, hp⟩
      rcases h4 with h4 | ⟨h4, h5⟩
      · rw [h4] at l2; simp at l2
      · rw [h4] at l2
        obtain ⟨rfl, -⟩ := one l2
        refine .over1 ?_ ?_ h2 h3 h5 rfl
        · show w.mains.set 0 _ = _
          rw [h1]; rfl
        · show w.stoppers.set 0 _ = _
          rw [h4]; rfl
    · exact ⟨h, hp⟩
  | adv j =>
    cases h with
    | new h1 h2 h3 h4 h5 =>
      have : w.step (.adv j) = w := by unfold Life.step; simp [h2]
      rw [this]; exact ⟨.new h1 h2 h3 h4 h5, hp⟩
    | live m h1 h2 h3 h4 hm =>
      have : w.step (.adv j) = w := by unfold Life.step; simp [h2]
      rw [this]; exact ⟨.live m h1 h2 h3 h4 hm, hp⟩
    | asked m h1 h2 h3 h4 h5 hm =>
      have : w.step (.adv j) = w := by
        unfold Life.step
        simp only [h2]
        cases j with
        | zero => simp [h3]
        | succ j => simp
      rw [this]; exact ⟨.asked m h1 h2 h3 h4 h5 hm, hp⟩
    | over1 h1 h2 h3 h4 h5 h6 =>
      cases j with
      | zero =>
        have : w.step (.adv 0) = { w.setStop 0 .closing2 with stopClosed := true } := by unfold Life.step; simp [h2, h3]
        rw [this]
        refine ⟨.over2 h1 ?_ rfl h4 h5 h6, hp⟩
        show w.stoppers.set 0 _ = _
        rw [h2]; rfl
      | succ j =>
        have : w.step (.adv (j + 1)) = w := by unfold Life.step; simp [h2]
        rw [this]; exact ⟨.over1 h1 h2 h3 h4 h5 h6, hp⟩
    | over2 h1 h2 h3 h4 h5 h6 =>
      cases j with
      | zero =>
        have : w.step (.adv 0) = { w.setStop 0 .done with recvClosed := true } := by unfold Life.step; simp [h2, h4]
        rw [this]
        refine ⟨.over3 h1 ?_ h3 rfl h5 h6 (ho (by rw [h2]; rfl)), hp⟩
        show w.stoppers.set 0 _ = _
        rw [h2]; rfl
      | succ j =>
        have : w.step (.adv (j + 1)) = w := by unfold Life.step; simp [h2]
        rw [this]; exact ⟨.over2 h1 h2 h3 h4 h5 h6, hp⟩
    | over3 h1 h2 h3 h4 h5 h6 h7 =>
      have : w.step (.adv j) = w := by
        unfold Life.step
        cases j with
        | zero => simp [h2]
        | succ j => simp [h2]
      rw [this]; exact ⟨.over3 h1 h2 h3 h4 h5 h6 h7, hp⟩
  | emit =>
    unfold Life.step; simp only
    split
    · exact ⟨h, hp⟩
    · split
      · exact ⟨h.congr rfl rfl rfl rfl (fun h => h) rfl (fun _ h => h), hp⟩
      · split
        · exact ⟨h, hp⟩
        · exact ⟨h.congr rfl rfl rfl rfl (fun h => h) rfl (fun _ h => h), hp⟩

theorem phase_run (as : List (Act V)) : ∀ w : Life V, OneLife w as → Phase w → w.panicked = false → Phase (w.run as) ∧ (w.run as).panicked = false := by
  induction as with
  | nil => intro w _ h hp; exact ⟨h, hp⟩
  | cons a as ih =>
    intro w ho h hp
    rw [Life.run, hp]
    obtain ⟨h1, h2⟩ := phase_step w a ho.1 h hp
    exact ih _ ho.2 h1 h2

theorem phase_init : Phase ({} : Life V) := .new rfl rfl rfl rfl (by simp)

/-- C80: one life, in which no handler's goroutine is left when `Stop` closes the channel, never panics. -/
theorem C80_calm_partial (as : List (Act V)) (h : OneLife {} as) : (({} : Life V).run as).panicked = false :=
  (phase_run as {} h phase_init rfl).2

/-- C80: when `Stop` has returned, the main loop has ended, and whatever happens then the application is told nothing more: no further vector is taken and no
Sync Interest is sent. -/
theorem C80_stopped_partial (as bs : List (Act V)) (h : OneLife {} as) (hb : OneLife (({} : Life V).run as) bs)
    (hd : StopPc.done ∈ (({} : Life V).run as).stoppers) :
    let w := ({} : Life V).run as
    w.mains = [.done] ∧ w.running = false ∧ w.handlers = [] ∧ (w.run bs).taken = w.taken ∧ (w.run bs).sent = w.sent := by
  have main : ∀ w : Life V, Phase w → StopPc.done ∈ w.stoppers →
      w.mains = [.done] ∧ w.stoppers = [.done] ∧ w.running = false ∧ w.handlers = [] := by
    intro w h hd
    cases h with
    | new h1 h2 => rw [h2] at hd; simp at hd
    | live m h1 h2 => rw [h2] at hd; simp at hd
    | asked m h1 h2 => rw [h2] at hd; simp at hd
    | over1 h1 h2 => rw [h2] at hd; simp at hd
    | over2 h1 h2 => rw [h2] at hd; simp at hd
    | over3 h1 h2 h3 h4 h5 h6 h7 => exact ⟨h1, h2, h6, h7⟩
  obtain ⟨p1, p2⟩ := phase_run as {} h phase_init rfl
  generalize ({} : Life V).run as = w at *
  obtain ⟨m1, m2, m3, m4⟩ := main w p1 hd
  refine ⟨m1, m3, m4, ?_⟩
  clear h m4
  induction bs generalizing w with
  | nil => exact ⟨rfl, rfl⟩
  | cons b bs ih =>
    rw [Life.run, p2]
    obtain ⟨q1, q2⟩ := phase_step w b hb.1 p1 p2
    have hl : ∀ i, w.isLoop i = false := by
      intro i
      rw [Bool.eq_false_iff]
      intro hx
      have := (isLoop_iff w i).mp hx
      rw [m1] at this
      cases (one this).2
    have hs : (w.step b).stoppers = w.stoppers ∧ (w.step b).taken = w.taken ∧ (w.step b).sent = w.sent := by
      cases b with
      | start => rw [hb.1.1] at m1; cases m1
      | stop => rw [hb.1.2] at m2; cases m2
      | callStop i => rw [show w.stoppers = [] from hb.1] at m2; cases m2
      | other => unfold Life.step; simp only; split <;> exact ⟨rfl, rfl, rfl⟩
      | arrive v => unfold Life.step; simp only; split <;> exact ⟨rfl, rfl, rfl⟩
      | send i =>
        unfold Life.step; simp only
        split
        · exact ⟨rfl, rfl, rfl⟩
        · split
          · exact ⟨rfl, rfl, rfl⟩
          · split <;> exact ⟨rfl, rfl, rfl⟩
      | begin i => unfold Life.step; simp only; split <;> exact ⟨rfl, rfl, rfl⟩
      | tick i b => unfold Life.step; simp only [hl]; exact ⟨rfl, rfl, rfl⟩
      | recv i => unfold Life.step; simp only [hl]; exact ⟨rfl, rfl, rfl⟩
      | finish i => unfold Life.step; simp only; split <;> exact ⟨rfl, rfl, rfl⟩
      | resume i =>
        unfold Life.step; simp only
        split
        · split <;> exact ⟨rfl, rfl, rfl⟩
        · exact ⟨rfl, rfl, rfl⟩
      | quit i => unfold Life.step; simp only [hl]; exact ⟨rfl, rfl, rfl⟩
      | meet i j => unfold Life.step; simp only [hl]; exact ⟨rfl, rfl, rfl⟩
      | adv j =>
        have : w.step (.adv j) = w := by
          unfold Life.step
          cases j with
          | zero => simp [m2]
          | succ j => simp [m2]
        rw [this]; exact ⟨rfl, rfl, rfl⟩
      | emit =>
        unfold Life.step; simp only [m3]
        split <;> exact ⟨rfl, rfl, rfl⟩
    have hd' : StopPc.done ∈ (w.step b).stoppers := by rw [hs.1]; exact hd
    obtain ⟨n1, n2, n3, -⟩ := main _ q1 hd'
    obtain ⟨r1, r2⟩ := ih (w.step b) hb.2 hd' q1 q2 n1 n2 n3
    exact ⟨r1.trans hs.2.1, r2.trans hs.2.2⟩

/-- C80: a `Stop` that the application has not called from `onUpdate` can always get to the point where it closes the channel, without anybody's help but the
main loop's, and returns if no handler's goroutine is left. -/
theorem C80_stop_completes_partial (as : List (Act V)) (h : OneLife {} as) (hd : (({} : Life V).run as).stoppers = [.waiting])
    (hn : ∀ v j, .inStop v j ∉ (({} : Life V).run as).mains) :
    let w := ({} : Life V).run as
    ∃ bs, (∀ b ∈ bs, b = .begin 0 ∨ b = .finish 0 ∨ b = .meet 0 0 ∨ b = .adv 0) ∧ (w.run bs).stoppers = [.closing2] ∧
      (w.handlers = [] → (w.run (bs ++ [.adv 0])).stoppers = [.done] ∧ OneLife w (bs ++ [.adv 0])) := by
  obtain ⟨p1, p2⟩ := phase_run as {} h phase_init rfl
  generalize ({} : Life V).run as = w at *
  cases p1 with
  | new h1 h2 => rw [h2] at hd; cases hd
  | live m h1 h2 => rw [h2] at hd; cases hd
  | over1 h1 h2 => rw [h2] at hd; cases hd
  | over2 h1 h2 => rw [h2] at hd; cases hd
  | over3 h1 h2 => rw [h2] at hd; cases hd
  | asked m h1 h2 h3 h4 h5 hm =>
    obtain ⟨fib, running, sc, rc, queue, handlers, arrived, accepted, taken, mains, stoppers, senders, sent, panicked⟩ := w
    simp only at h1 h2 h3 h4 h5 p2 hn
    subst h1 h2 h3 h4 p2
    cases m with
    | done => exact absurd rfl hm
    | inStop v j => exact absurd List.mem_cons_self (hn v j)
    | fresh => exact ⟨[.begin 0, .meet 0 0, .adv 0], by simp, rfl, fun he => ⟨rfl, trivial, trivial, (fun hx => by cases hx), fun _ => he, trivial⟩⟩
    | loop => exact ⟨[.meet 0 0, .adv 0], by simp, rfl, fun he => ⟨rfl, trivial, (fun hx => by cases hx), fun _ => he, trivial⟩⟩
    | busy v => exact ⟨[.finish 0, .meet 0 0, .adv 0], by simp, rfl, fun he => ⟨rfl, trivial, trivial, (fun hx => by cases hx), fun _ => he, trivial⟩⟩

/-! A life with two vectors: one is processed, one is left over. -/

def exLife : List (Act Nat) :=
  [.start, .begin 0, .emit, .arrive 1, .arrive 2, .send 1, .recv 0, .finish 0, .send 0, .stop, .meet 0 0, .adv 0, .adv 0]

example : OneLife {} exLife := by
  simp [exLife, OneLife, okAct, Life.step, Life.isFresh, Life.isLoop, Life.isBusy, Life.setMain, Life.setStop, Life.enterStop, Life.held, recvCap]

example : (({} : Life Nat).run exLife).taken = [2] ∧ (({} : Life Nat).run exLife).queue = [1] ∧ (({} : Life Nat).run exLife).sent = 1 ∧
    (({} : Life Nat).run exLife).stoppers = [.done] := by decide

theorem Life.run_append (as bs : List (Act V)) : ∀ w : Life V, w.run (as ++ bs) = (w.run as).run bs := by
  induction as with
  | nil => intro w; rfl
  | cons a as ih =>
    intro w
    rw [List.cons_append, Life.run, Life.run]
    split
    · rename_i hp
      cases bs with
      | nil => rfl
      | cons b bs => rw [Life.run, if_pos hp]
    · exact ih _

/-- C80 fails: a Sync Interest whose goroutine has not sent its vector when `Stop` closes the channel makes the process panic. -/
theorem C80_late_panics (v : V) :
    (({} : Life V).run [.start, .begin 0, .arrive v, .stop, .meet 0 0, .adv 0, .adv 0, .send 0]).panicked = true := by
  simp [Life.run, Life.step, Life.isFresh, Life.isLoop, Life.setMain, Life.setStop, Life.enterStop, Life.held]

/-- C80 fails: a second `Stop` panics. -/
theorem C80_stop_twice_panics : (({} : Life V).run [.start, .begin 0, .stop, .meet 0 0, .adv 0, .adv 0, .stop, .adv 1]).panicked = true := by
  simp [Life.run, Life.step, Life.isFresh, Life.isLoop, Life.setMain, Life.setStop, Life.enterStop, Life.held]

/-- C80 fails: `Start` after `Stop` succeeds, but the main loop may then receive nil from the closed channel, and panics. -/
theorem C80_restart_panics :
    (({} : Life V).run [.start, .begin 0, .stop, .meet 0 0, .adv 0, .adv 0, .start, .begin 1, .recv 1]).panicked = true := by
  simp [Life.run, Life.step, Life.isFresh, Life.isLoop, Life.setMain, Life.setStop, Life.enterStop, Life.held]

/-- C80 fails: the Sync Interest that `Start` is to send is not sent if its goroutine runs before the main loop begins. -/
theorem C80_first_violated : let w := ({} : Life V).run [.start, .emit, .begin 0]
    w.sent = 0 ∧ w.senders = 0 ∧ w.running = true := ⟨rfl, rfl, rfl⟩

/-- nothing but `Start` makes a new main loop, and a main loop that has returned does nothing -/
def NoStart (bs : List (Act V)) : Prop := ∀ b ∈ bs, b ≠ .start

theorem run_inv_noStart (P : Life V → Prop) (hs : ∀ w a, a ≠ .start → P w → P (w.step a)) (bs : List (Act V)) :
    ∀ w, NoStart bs → P w → P (w.run bs) := by
  induction bs with
  | nil => intro w _ h; exact h
  | cons b bs ih =>
    intro w hb h
    rw [Life.run]
    split
    · exact h
    · exact ih _ (fun x hx => hb x (List.mem_cons_of_mem _ hx)) (hs w b (hb b List.mem_cons_self) h)

/-- the main loops and the vectors taken stay as they are if no main loop is fresh, in `select` or busy, and none waits for a `Stop` that has returned -/
theorem still (w : Life V) (a : Act V) (ha : a ≠ .start) (h1 : ∀ i, w.isFresh i = false ∧ w.isLoop i = false ∧ w.isBusy i = false)
    (h2 : ∀ (i : Nat) (v : V) (j : Nat), w.mains[i]? = some (.inStop v j) → w.stoppers[j]? ≠ some .done) :
    (w.step a).mains = w.mains ∧ (w.step a).taken = w.taken := by
  cases a with
  | start => exact absurd rfl ha
  | stop => exact ⟨rfl, rfl⟩
  | callStop i =>
    unfold Life.step; simp only
    split
    · rename_i v hv
      have := (isBusy_iff w i).mpr ⟨v, hv⟩
      rw [(h1 i).2.2] at this; cases this
    · exact ⟨rfl, rfl⟩
  | other => unfold Life.step; simp only; split <;> exact ⟨rfl, rfl⟩
  | arrive v => unfold Life.step; simp only; split <;> exact ⟨rfl, rfl⟩
  | send i =>
    unfold Life.step; simp only
    split
    · exact ⟨rfl, rfl⟩
    · split
      · exact ⟨rfl, rfl⟩
      · split <;> exact ⟨rfl, rfl⟩
  | begin i => unfold Life.step; simp only [h1]; exact ⟨rfl, rfl⟩
  | tick i b => unfold Life.step; simp only [h1]; exact ⟨rfl, rfl⟩
  | recv i => unfold Life.step; simp only [h1]; exact ⟨rfl, rfl⟩
  | finish i => unfold Life.step; simp only [h1]; exact ⟨rfl, rfl⟩
  | resume i =>
    unfold Life.step; simp only
    split
    · rename_i v j hv
      rw [if_neg (h2 i v j hv)]; exact ⟨rfl, rfl⟩
    · exact ⟨rfl, rfl⟩
  | quit i => unfold Life.step; simp only [h1]; exact ⟨rfl, rfl⟩
  | meet i j => unfold Life.step; simp only [h1]; exact ⟨rfl, rfl⟩
  | adv j =>
    unfold Life.step; simp only
    split
    · split <;> exact ⟨rfl, rfl⟩
    · split <;> exact ⟨rfl, rfl⟩
    · split <;> exact ⟨rfl, rfl⟩
    · exact ⟨rfl, rfl⟩
  | emit =>
    unfold Life.step; simp only
    split
    · exact ⟨rfl, rfl⟩
    · split
      · exact ⟨rfl, rfl⟩
      · split <;> exact ⟨rfl, rfl⟩

/-- callers of `Stop` wait as long as no main loop is in `select` and the channel is open -/
theorem wait_step (w : Life V) (a : Act V) (h1 : ∀ i, w.isLoop i = false) (h2 : ∀ s ∈ w.stoppers, s = .waiting) (h3 : w.stopClosed = false) :
    (∀ s ∈ (w.step a).stoppers, s = .waiting) ∧ (w.step a).stopClosed = false ∧ w.stoppers <+: (w.step a).stoppers := by
  have hset : ∀ s ∈ w.stoppers ++ [StopPc.waiting], s = .waiting := by
    intro s hs
    rcases List.mem_append.mp hs with h | h
    · exact h2 s h
    · exact List.mem_singleton.mp h
  cases a with
  | start => unfold Life.step; simp only; split <;> exact ⟨h2, h3, List.prefix_rfl⟩
  | stop => exact ⟨hset, h3, List.prefix_append _ _⟩
  | callStop i =>
    unfold Life.step; simp only
    split
    · exact ⟨hset, h3, List.prefix_append _ _⟩
    · exact ⟨h2, h3, List.prefix_rfl⟩
  | other => unfold Life.step; simp only; split <;> exact ⟨h2, h3, List.prefix_rfl⟩
  | arrive v => unfold Life.step; simp only; split <;> exact ⟨h2, h3, List.prefix_rfl⟩
  | send i =>
    unfold Life.step; simp only
    split
    · exact ⟨h2, h3, List.prefix_rfl⟩
    · split
      · exact ⟨h2, h3, List.prefix_rfl⟩
      · split <;> exact ⟨h2, h3, List.prefix_rfl⟩
  | begin i => unfold Life.step; simp only; split <;> exact ⟨h2, h3, List.prefix_rfl⟩
  | tick i b => unfold Life.step; simp only [h1]; exact ⟨h2, h3, List.prefix_rfl⟩
  | recv i => unfold Life.step; simp only [h1]; exact ⟨h2, h3, List.prefix_rfl⟩
  | finish i => unfold Life.step; simp only; split <;> exact ⟨h2, h3, List.prefix_rfl⟩
  | resume i =>
    unfold Life.step; simp only
    split
    · split <;> exact ⟨h2, h3, List.prefix_rfl⟩
    · exact ⟨h2, h3, List.prefix_rfl⟩
  | quit i => unfold Life.step; simp only [h1]; exact ⟨h2, h3, List.prefix_rfl⟩
  | meet i j => unfold Life.step; simp only [h1]; exact ⟨h2, h3, List.prefix_rfl⟩
  | adv j =>
    have : w.step (.adv j) = w := by
      unfold Life.step; simp only
      split
      · simp [h3]
      · rename_i hj; cases h2 _ (List.mem_of_getElem? hj)
      · rename_i hj; cases h2 _ (List.mem_of_getElem? hj)
      · rfl
    rw [this]; exact ⟨h2, h3, List.prefix_rfl⟩
  | emit =>
    unfold Life.step; simp only
    split
    · exact ⟨h2, h3, List.prefix_rfl⟩
    · split
      · exact ⟨h2, h3, List.prefix_rfl⟩
      · split <;> exact ⟨h2, h3, List.prefix_rfl⟩

/-- C80 fails: an application that calls `Stop` from `onUpdate` blocks the main loop, and itself, for ever (or until `Start` is called again). -/
theorem C80_callback_diverges (v : V) (bs : List (Act V)) (hb : NoStart bs) :
    let w := ({} : Life V).run ([.start, .begin 0, .arrive v, .send 0, .recv 0, .callStop 0] ++ bs)
    w.mains = [.inStop v 0] ∧ w.stoppers.head? = some .waiting ∧ w.taken = [v] := by
  have key := run_inv_noStart (V := V)
    (fun w => w.mains = [.inStop v 0] ∧ [.waiting] <+: w.stoppers ∧ w.taken = [v] ∧ (∀ s ∈ w.stoppers, s = .waiting) ∧ w.stopClosed = false) ?_ bs
    (({} : Life V).run [.start, .begin 0, .arrive v, .send 0, .recv 0, .callStop 0]) hb
    ⟨rfl, List.prefix_rfl, rfl, by intro s hs; exact List.mem_singleton.mp hs, rfl⟩
  · simp only [Life.run_append]
    obtain ⟨k1, ⟨l, k2⟩, k3, -⟩ := key
    refine ⟨k1, ?_, k3⟩
    rw [← k2]; rfl
  · intro w a ha ⟨k1, k2, k3, k4, k5⟩
    have hno : ∀ i, w.isFresh i = false ∧ w.isLoop i = false ∧ w.isBusy i = false := by
      intro i
      unfold Life.isFresh Life.isLoop Life.isBusy
      rw [k1]
      cases i <;> simp
    obtain ⟨s1, s2⟩ := still w a ha hno (fun i v' j hj hx => by cases k4 _ (List.mem_of_getElem? hx))
    obtain ⟨t1, t2, t3⟩ := wait_step w a (fun i => (hno i).2.1) k4 k5
    exact ⟨s1.trans k1, k2.trans t3, s2.trans k3, t1, t2⟩

/-- C80 fails: if `Start` has failed because there is another handler at the prefix, `Stop` removes that handler, and never returns. -/
theorem C80_not_started_diverges (bs : List (Act V)) (hb : NoStart bs) :
    (({} : Life V).run [.other, .start, .stop]).fib = none ∧ (({} : Life V).run ([.other, .start, .stop] ++ bs)).stoppers.head? = some .waiting := by
  refine ⟨rfl, ?_⟩
  have key := run_inv_noStart (V := V)
    (fun w => w.mains = [] ∧ [.waiting] <+: w.stoppers ∧ (∀ s ∈ w.stoppers, s = .waiting) ∧ w.stopClosed = false) ?_ bs
    (({} : Life V).run [.other, .start, .stop]) hb
    ⟨rfl, List.prefix_rfl, by intro s hs; exact List.mem_singleton.mp hs, rfl⟩
  · rw [Life.run_append]
    obtain ⟨k1, ⟨l, k2⟩, -⟩ := key
    rw [← k2]; rfl
  · intro w a ha ⟨k1, k2, k4, k5⟩
    have hno : ∀ i, w.isFresh i = false ∧ w.isLoop i = false ∧ w.isBusy i = false := by
      intro i
      unfold Life.isFresh Life.isLoop Life.isBusy
      rw [k1]
      simp
    obtain ⟨s1, s2⟩ := still w a ha hno (fun i v' j hj hx => by rw [k1] at hj; simp at hj)
    obtain ⟨t1, t2, t3⟩ := wait_step w a (fun i => (hno i).2.1) k4 k5
    exact ⟨s1.trans k1, k2.trans t3, t1, t2⟩

/-- C80 fails: a vector that is in the channel when `Stop` is called may never be looked at. -/
theorem C80_lost_violated (v : V) (bs : List (Act V)) (hb : NoStart bs) :
    let w := ({} : Life V).run ([.start, .begin 0, .arrive v, .send 0, .stop, .meet 0 0] ++ bs)
    w.taken = [] := by
  have key := run_inv_noStart (V := V) (fun w => w.mains = [.done] ∧ w.taken = []) ?_ bs
    (({} : Life V).run [.start, .begin 0, .arrive v, .send 0, .stop, .meet 0 0]) hb ⟨rfl, rfl⟩
  · simp only [Life.run_append]; exact key.2
  · intro w a ha ⟨k1, k2⟩
    have hno : ∀ i, w.isFresh i = false ∧ w.isLoop i = false ∧ w.isBusy i = false := by
      intro i
      unfold Life.isFresh Life.isLoop Life.isBusy
      rw [k1]
      cases i <;> simp
    obtain ⟨s1, s2⟩ := still w a ha hno (fun i v' j hj hx => by rw [k1] at hj; cases (one hj).2)
    exact ⟨s1.trans k1, s2.trans k2⟩

example : NoStart ([.stop, .arrive 3, .send 0, .adv 0] : List (Act Nat)) := by
  intro b hb
  simp at hb
  rcases hb with rfl | rfl | rfl | rfl <;> simp

end Ndn.Sync
