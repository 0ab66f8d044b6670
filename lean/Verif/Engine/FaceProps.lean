import Verif.Engine.Face

/-! # Properties of opening and closing faces: C82 -/

namespace Ndn.Engine.Face

theorem after_append (s : St) (a b : List Ev) : s.after (a ++ b) = (s.after a).after b := by
  induction a generalizing s with
  | nil => rfl
  | cons e a ih => exact ih _

/-- induction over executions -/
theorem after_induction {P : St → Prop} (s : St) (h0 : P s) (hs : ∀ s e, P s → P (s.step e)) (evs : List Ev) : P (s.after evs) := by
  induction evs generalizing s with
  | nil => exact h0
  | cons e evs ih => exact ih _ (hs s e h0)

/-- the connection that a `Run` reads from -/
def RunPc.conn : RunPc → Option Nat
  | .check c => some c
  | .reading c => some c
  | .got c _ => some c
  | .failed c => some c
  | _ => none

/-- the invariant -/
structure Inv (s : St) : Prop where
  one : s.runs.length ≤ 1
  conn : s.conn.isSome ↔ s.runs ≠ [] ∨ s.main = .start3 ∨ s.main = .start4
  alone : s.main = .start2 ∨ s.main = .start3 ∨ s.main = .start4 → s.runs = []
  reads : ∀ pc ∈ s.runs, ∀ c, pc.conn = some c → s.conn = some c
  running : s.running = true → s.runs ≠ [] ∨ s.main = .start4
  off : s.main = .start1 ∨ s.main = .start2 ∨ s.main = .start3 ∨ s.main = .stop3 → s.running = false
  on : s.main = .start4 → s.running = true
  fresh : ∀ c, s.conn = some c → c < s.next
  open' : ∀ c, s.next ≤ c → s.closed c = false
  cur : ∀ c, s.conn = some c → s.closed c = true → s.running = false ∧ s.main ≠ .start3 ∧ s.main ≠ .start4
  ex : RunPc.exit2 ∈ s.runs → s.running = false

theorem inv_init (ws : Bool) : Inv { ws := ws } := by
  constructor <;> simp

theorem runs_one {s : St} (h : s.runs.length ≤ 1) {k : Nat} {pc : RunPc} (hk : s.runs[k]? = some pc) : k = 0 ∧ s.runs = [pc] := by
  cases hr : s.runs with
  | nil => rw [hr] at hk; simp at hk
  | cons a l =>
    rw [hr] at h hk
    cases l with
    | cons b l => simp at h
    | nil =>
      cases k with
      | zero => simp at hk; exact ⟨rfl, by rw [hk]⟩
      | succ k => simp at hk

theorem inv_main {s : St} (h : Inv s) (ok : Bool) : Inv (s.mainStep ok) := by
  obtain ⟨h1, h2, h3, h4, h5, h6, h7, h8, h9, h10, h11⟩ := h
  unfold St.mainStep
  split
  · exact ⟨h1, h2, h3, h4, h5, h6, h7, h8, h9, h10, h11⟩
  · next hm =>
    rw [hm] at h2 h3 h5 h6 h7 h10
    split
    · constructor <;> simp_all <;> exact h4
    · constructor <;> simp_all <;> exact h4
  · next hm =>
    rw [hm] at h2 h3 h5 h6 h7 h10
    split
    · constructor <;> simp_all
      intro c hc
      exact h9 c (by omega)
    · constructor <;> simp_all <;> exact h4
  · next hm =>
    rw [hm] at h2 h3 h5 h6 h7 h10
    constructor <;> simp_all <;> exact h4
  · next hm =>
    rw [hm] at h2 h3 h5 h6 h7 h10
    constructor <;> simp_all [RunPc.conn]
  · next hm =>
    rw [hm] at h2 h3 h5 h6 h7 h10
    split
    · constructor <;> simp_all <;> exact h4
    · constructor <;> simp_all <;> exact h4
  · next hm =>
    rw [hm] at h2 h3 h5 h6 h7 h10
    constructor <;> simp_all <;> exact h4
  · next hm =>
    rw [hm] at h2 h3 h5 h6 h7 h10
    split
    · constructor <;> simp_all <;> exact h4
    · next c hc =>
      constructor <;> (try simp_all; done)
      · simpa [hc] using h4
      · intro c' hc'
        have : c' ≠ c := by
          have := h8 c hc
          simp only at hc'
          omega
        simp only [upd, if_neg this]
        exact h9 c' hc'

theorem inv_send {s : St} (h : Inv s) (i : Nat) : Inv (s.sendStep i) := by
  obtain ⟨h1, h2, h3, h4, h5, h6, h7, h8, h9, h10, h11⟩ := h
  unfold St.sendStep St.sendDone
  split
  · exact ⟨h1, h2, h3, h4, h5, h6, h7, h8, h9, h10, h11⟩
  · split
    · exact ⟨h1, h2, h3, h4, h5, h6, h7, h8, h9, h10, h11⟩
    · split <;> exact ⟨h1, h2, h3, h4, h5, h6, h7, h8, h9, h10, h11⟩
  · exact ⟨h1, h2, h3, h4, h5, h6, h7, h8, h9, h10, h11⟩
  · split
    · exact ⟨h1, h2, h3, h4, h5, h6, h7, h8, h9, h10, h11⟩
    · split <;> exact ⟨h1, h2, h3, h4, h5, h6, h7, h8, h9, h10, h11⟩

theorem inv_set {s : St} (h : Inv s) {pc pc' : RunPc} (hr : s.runs = [pc]) (hc : ∀ c, pc'.conn = some c → s.conn = some c) (he : pc' ≠ .exit2) :
    Inv { s with runs := s.runs.set 0 pc' } := by
  obtain ⟨h1, h2, h3, h4, h5, h6, h7, h8, h9, h10, h11⟩ := h
  have hset : s.runs.set 0 pc' = [pc'] := by rw [hr]; rfl
  have hne : s.runs ≠ [] := by rw [hr]; simp
  rw [hset]
  refine ⟨by simp, ?_, fun hm => absurd (h3 hm) hne, ?_, fun _ => Or.inl (by simp), h6, h7, h8, h9, h10, ?_⟩
  · exact ⟨fun _ => Or.inl (by simp), fun _ => h2.mpr (Or.inl hne)⟩
  · intro q hq c hqc
    rw [List.mem_singleton.mp hq] at hqc
    exact hc c hqc
  · intro hq
    exact absurd (List.mem_singleton.mp hq).symm he

theorem inv_run {s : St} (h : Inv s) (ok : Bool) {pc : RunPc} (hr : s.runs = [pc]) :
    Inv (match s.runStep ok pc with
      | (s', some pc') => { s' with runs := s'.runs.set 0 pc' }
      | (s', none) => { s' with runs := s'.runs.eraseIdx 0 }) := by
  have hne : s.runs ≠ [] := by rw [hr]; simp
  have hm : s.main ≠ .start2 ∧ s.main ≠ .start3 ∧ s.main ≠ .start4 :=
    ⟨fun hm => hne (h.alone (Or.inl hm)), fun hm => hne (h.alone (Or.inr (Or.inl hm))), fun hm => hne (h.alone (Or.inr (Or.inr hm)))⟩
  obtain ⟨m2, m3, m4⟩ := hm
  obtain ⟨c0, hc0⟩ : ∃ c, s.conn = some c := Option.isSome_iff_exists.mp (h.conn.mpr (Or.inl hne))
  have hno : ∀ pc' : RunPc, pc'.conn = none → pc' ≠ .exit2 → Inv { s with runs := s.runs.set 0 pc' } := fun pc' h1 h2 =>
    inv_set h hr (fun c hc => by rw [h1] at hc; cases hc) h2
  have hyes : ∀ (pc' : RunPc) (c : Nat), pc.conn = some c → pc'.conn = some c → Inv { s with runs := s.runs.set 0 pc' } := fun pc' c h0 h1 =>
    inv_set h hr (fun c' hc => by
      rw [h1] at hc
      injection hc with hc
      subst hc
      exact h.reads pc (by rw [hr]; simp) _ h0) (by rintro rfl; cases h1)
  cases pc with
  | init =>
    simp only [St.runStep]
    rw [hc0]
    exact inv_set (pc' := .check c0) h hr (fun c hc => by injection hc with hc; subst hc; exact hc0) (by simp)
  | check c =>
    simp only [St.runStep]
    by_cases hrun : s.running = true
    · simp only [hrun, if_true]
      have := hyes (.reading c) c rfl rfl
      simpa [hrun] using this
    · simp only [if_neg hrun]
      exact hno .exit1 rfl (by simp)
  | reading c =>
    simp only [St.runStep]
    cases ok with
    | false =>
      by_cases hl : (s.lost c || s.closed c) = true
      · simp only [hl, if_true]
        exact hyes (.failed c) c rfl rfl
      · simp only [if_neg hl]
        exact hyes (.reading c) c rfl rfl
    | true =>
      cases hq : s.inq c with
      | nil =>
        simp only
        exact hyes (.reading c) c rfl rfl
      | cons p ps =>
        simp only
        have := hyes (.got c p) c rfl rfl
        exact ⟨this.1, this.2, this.3, this.4, this.5, this.6, this.7, this.8, this.9, this.10, this.11⟩
  | got c p =>
    simp only [St.runStep]
    cases ok with
    | true =>
      have := hyes (.check c) c rfl rfl
      exact ⟨this.1, this.2, this.3, this.4, this.5, this.6, this.7, this.8, this.9, this.10, this.11⟩
    | false =>
      have := hno .exit1 rfl (by simp)
      exact ⟨this.1, this.2, this.3, this.4, this.5, this.6, this.7, this.8, this.9, this.10, this.11⟩
  | failed c =>
    simp only [St.runStep]
    by_cases hw : s.ws = true
    · simp only [hw, if_true]
      have := hyes (.check c) c rfl rfl
      simpa [hw] using this
    · simp only [if_neg hw]
      exact hno .exit1 rfl (by simp)
  | exit1 =>
    simp only [St.runStep]
    have hset : s.runs.set 0 .exit2 = [.exit2] := by rw [hr]; rfl
    rw [hset]
    refine ⟨by simp, ?_, fun hm => absurd (h.alone hm) hne, ?_, fun hf => (nomatch hf), fun _ => rfl, fun hm => absurd hm m4, h.fresh, h.open', ?_, fun _ => rfl⟩
    · exact ⟨fun _ => Or.inl (by simp), fun _ => h.conn.mpr (Or.inl hne)⟩
    · intro q hq c hqc
      rw [List.mem_singleton.mp hq] at hqc
      cases hqc
    · exact fun c hc hcl => ⟨rfl, m3, m4⟩
  | exit2 =>
    simp only [St.runStep]
    have hset : s.runs.eraseIdx 0 = [] := by rw [hr]; rfl
    have hoff : s.running = false := h.ex (by rw [hr]; simp)
    rw [hset]
    refine ⟨by simp, ?_, fun _ => rfl, fun q hq => (nomatch hq), fun hf => ?_, h.off, fun hm => absurd hm m4, fun c hc => (nomatch hc), h.open', fun c hc => (nomatch hc), fun hq => (nomatch hq)⟩
    · constructor
      · intro hf; cases hf
      · rintro (hf | hf | hf)
        · exact absurd rfl hf
        · exact absurd hf m3
        · exact absurd hf m4
    · simp only at hf
      rw [hoff] at hf
      cases hf

theorem inv_step {s : St} (h : Inv s) (e : Ev) : Inv (s.step e) := by
  unfold St.step
  split
  · exact h
  · cases e with
    | arrive c p => exact ⟨h.1, h.2, h.3, h.4, h.5, h.6, h.7, h.8, h.9, h.10, h.11⟩
    | lose c => exact ⟨h.1, h.2, h.3, h.4, h.5, h.6, h.7, h.8, h.9, h.10, h.11⟩
    | callStart =>
      simp only
      split
      · next hm =>
        split
        · exact ⟨h.1, h.2, h.3, h.4, h.5, h.6, h.7, h.8, h.9, h.10, h.11⟩
        · obtain ⟨h1, h2, h3, h4, h5, h6, h7, h8, h9, h10, h11⟩ := h
          constructor <;> simp_all <;> exact h4
      · exact h
    | callStop =>
      simp only
      split
      · next hm =>
        split
        · obtain ⟨h1, h2, h3, h4, h5, h6, h7, h8, h9, h10, h11⟩ := h
          constructor <;> simp_all <;> exact h4
        · exact ⟨h.1, h.2, h.3, h.4, h.5, h.6, h.7, h.8, h.9, h.10, h.11⟩
      · exact h
    | main ok => exact inv_main h ok
    | callSend i pkt =>
      simp only
      split
      · split <;> exact ⟨h.1, h.2, h.3, h.4, h.5, h.6, h.7, h.8, h.9, h.10, h.11⟩
      · exact h
    | send i => exact inv_send h i
    | run k ok =>
      simp only
      cases hk : s.runs[k]? with
      | none => exact h
      | some pc =>
        obtain ⟨rfl, hr⟩ := runs_one h.one hk
        exact inv_run h ok hr

/-! ## Starting -/

theorem inv_after (ws : Bool) (evs : List Ev) : Inv (St.after { ws := ws } evs) := after_induction _ (inv_init ws) (fun _ e h => inv_step h e) evs

/-- C82: there is never more than one `Run`, and it reads from the connection that `Send` writes to and `Close` closes. -/
theorem C82_one_reader (ws : Bool) (evs : List Ev) :
    (St.after { ws := ws } evs).runs.length ≤ 1 ∧
    ∀ pc ∈ (St.after { ws := ws } evs).runs, ∀ c, pc.conn = some c → (St.after { ws := ws } evs).conn = some c :=
  ⟨(inv_after ws evs).one, (inv_after ws evs).reads⟩

/-- C82: when `Start` returns nil the face is running with a connection that is not closed, and one `Run` has begun. -/
theorem C82_started (ws : Bool) (evs : List Ev) (e : Ev) (s : St) (hs : s = St.after { ws := ws } evs)
    (h : (s.step e).returned = .start true :: s.returned) :
    (s.step e).running = true ∧ (s.step e).runs = [.init] ∧ ∃ c, (s.step e).conn = some c ∧ (s.step e).closed c = false := by
  have hi : Inv s := hs ▸ inv_after ws evs
  have hself : ¬s.returned = Call.start true :: s.returned := fun h => by
    have := congrArg List.length h
    simp at this
  unfold St.step at h ⊢
  by_cases hp : s.panicked = true
  · rw [if_pos hp] at h; exact absurd h hself
  rw [if_neg hp] at h ⊢
  cases e with
  | arrive c p => exact absurd h hself
  | lose c => exact absurd h hself
  | callStart =>
    simp only at h
    split at h
    · split at h
      · simp at h
      · exact absurd h hself
    · exact absurd h hself
  | callStop =>
    simp only at h
    split at h
    · split at h
      · exact absurd h hself
      · simp at h
    · exact absurd h hself
  | callSend i pkt =>
    simp only at h
    split at h
    · split at h
      · exact absurd h hself
      · simp at h
    · exact absurd h hself
  | send i =>
    exfalso
    simp only [St.sendStep] at h
    split at h
    · exact hself h
    · split at h
      · exact hself h
      · split at h <;> exact hself h
    · simp [St.sendDone] at h
    · split at h
      · exact hself h
      · split at h
        · simp [St.sendDone] at h
        · exact hself h
  | run k ok =>
    exfalso
    simp only at h
    cases hk : s.runs[k]? with
    | none => rw [hk] at h; exact hself h
    | some pc =>
      rw [hk] at h
      simp only at h
      have hret : (s.runStep ok pc).1.returned = s.returned := by
        unfold St.runStep
        cases pc <;> simp only
        · cases s.conn <;> rfl
        · split <;> rfl
        · split
          · rfl
          · rfl
          · split <;> rfl
        · split <;> rfl
        · split <;> rfl
      split at h
      · next s' pc' he =>
        rw [he] at hret
        simp only at h hret
        rw [hret] at h
        exact hself h
      · next s' he =>
        rw [he] at hret
        simp only at h hret
        rw [hret] at h
        exact hself h
  | main ok =>
    simp only [St.mainStep] at h ⊢
    split at h
    · exact absurd h hself
    · split at h
      · simp at h
      · exact absurd h hself
    · split at h
      · exact absurd h hself
      · simp at h
    · exact absurd h hself
    · next hm =>
      simp only
      have hr : s.runs = [] := hi.alone (Or.inr (Or.inr hm))
      obtain ⟨c, hc⟩ := Option.isSome_iff_exists.mp (hi.conn.mpr (Or.inr (Or.inr hm)))
      refine ⟨hi.on hm, by rw [hr]; rfl, c, hc, ?_⟩
      cases hcl : s.closed c with
      | false => rfl
      | true => exact absurd hm (hi.cur c hc hcl).2.2
    · split at h
      · simp at h
      · exact absurd h hself
    · exact absurd h hself
    · split at h
      · exact absurd h hself
      · simp at h

/-- C82: when the goroutine `Run` has ended, the next `Start` succeeds if the connection can be dialled. -/
theorem C82_restart (ws : Bool) (evs : List Ev) (s : St) (hs : s = St.after { ws := ws } evs) (hp : s.panicked = false) (hm : s.main = .idle)
    (hr : s.runs = []) : (s.after [.callStart, .main true, .main true, .main true, .main true]).returned = .start true :: s.returned := by
  have hi : Inv s := hs ▸ inv_after ws evs
  have hc : s.conn = none := by
    cases hc : s.conn with
    | none => rfl
    | some c =>
      rcases hi.conn.mp (by rw [hc]; rfl) with h | h | h
      · exact absurd hr h
      · rw [hm] at h; cases h
      · rw [hm] at h; cases h
  have hrun : s.running = false := by
    cases hrun : s.running with
    | false => rfl
    | true =>
      rcases hi.running hrun with h | h
      · exact absurd hr h
      · rw [hm] at h; cases h
  simp [St.after, St.step, St.mainStep, hp, hm, hc, hrun]

/-! ## Stopping -/

/-- `Shutdown` has returned nil and `Start` has not been called since -/
structure Stopped (s : St) : Prop where
  inv : Inv s
  idle : s.main = .idle
  off : s.running = false
  shut : ∀ c, s.conn = some c → s.closed c = true

/-- can `Run` still give a packet to the engine? -/
def RunPc.may : RunPc → Nat
  | .reading _ => 1
  | .got _ _ => 1
  | _ => 0

/-- the number of packets that may be delivered at the most -/
def St.may (s : St) : Nat := (s.runs.map RunPc.may).sum

/-- what a step of the only `Run` does -/
inductive RunRel (s : St) : RunPc → St → Prop
  | init (c : Nat) (h : s.conn = some c) : RunRel s .init { s with runs := [.check c] }
  | go (c : Nat) (h : s.running = true) : RunRel s (.check c) { s with runs := [.reading c] }
  | leave (c : Nat) (h : s.running = false) : RunRel s (.check c) { s with runs := [.exit1] }
  | read (c p : Nat) (ps : List Nat) (h : s.inq c = p :: ps) : RunRel s (.reading c) { s with inq := upd s.inq c ps, runs := [.got c p] }
  | wait (c : Nat) : RunRel s (.reading c) { s with runs := [.reading c] }
  | fail (c : Nat) (h : s.lost c = true ∨ s.closed c = true) : RunRel s (.reading c) { s with runs := [.failed c] }
  | deliver (c p : Nat) : RunRel s (.got c p) { s with delivered := s.delivered ++ [(c, p)], runs := [.check c] }
  | last (c p : Nat) : RunRel s (.got c p) { s with delivered := s.delivered ++ [(c, p)], runs := [.exit1] }
  | again (c : Nat) (h : s.ws = true) : RunRel s (.failed c) { s with runs := [.check c] }
  | quit (c : Nat) (h : s.ws = false) : RunRel s (.failed c) { s with runs := [.exit1] }
  | off : RunRel s .exit1 { s with running := false, runs := [.exit2] }
  | gone : RunRel s .exit2 { s with conn := none, runs := [] }

theorem runRel {s : St} (h : Inv s) (k : Nat) (ok : Bool) : s.step (.run k ok) = s ∨ ∃ pc, k = 0 ∧ s.panicked = false ∧ s.runs = [pc] ∧ RunRel s pc (s.step (.run k ok)) := by
  unfold St.step
  cases hp : s.panicked with
  | true => left; rfl
  | false =>
  rw [if_neg (by simp)]
  simp only
  cases hk : s.runs[k]? with
  | none => left; rfl
  | some pc =>
    right
    obtain ⟨rfl, hr⟩ := runs_one h.one hk
    refine ⟨pc, rfl, trivial, hr, ?_⟩
    dsimp only
    have hset : ∀ q, s.runs.set 0 q = [q] := fun q => by rw [hr]; rfl
    have hdel : s.runs.eraseIdx 0 = [] := by rw [hr]; rfl
    obtain ⟨c0, hc0⟩ : ∃ c, s.conn = some c := Option.isSome_iff_exists.mp (h.conn.mpr (Or.inl (by rw [hr]; simp)))
    cases pc with
    | init =>
      have : s.runStep ok .init = (s, some (.check c0)) := by simp only [St.runStep]; rw [hc0]
      rw [this]
      simp only [hset]
      exact .init c0 hc0
    | check c =>
      cases hrun : s.running with
      | true =>
        have : s.runStep ok (.check c) = (s, some (.reading c)) := by simp only [St.runStep, hrun]; rfl
        rw [this]
        simp only [hset]
        exact .go c hrun
      | false =>
        have : s.runStep ok (.check c) = (s, some .exit1) := by simp only [St.runStep, hrun]; rfl
        rw [this]
        simp only [hset]
        exact .leave c hrun
    | reading c =>
      cases ok with
      | false =>
        by_cases hl : (s.lost c || s.closed c) = true
        · have : s.runStep false (.reading c) = (s, some (.failed c)) := by simp only [St.runStep, hl]; rfl
          rw [this]
          simp only [hset]
          exact .fail c (by simpa using hl)
        · have : s.runStep false (.reading c) = (s, some (.reading c)) := by simp only [St.runStep, hl]; rfl
          rw [this]
          simp only [hset]
          exact .wait c
      | true =>
        cases hq : s.inq c with
        | nil =>
          have : s.runStep true (.reading c) = (s, some (.reading c)) := by simp only [St.runStep, hq]
          rw [this]
          simp only [hset]
          exact .wait c
        | cons p ps =>
          have : s.runStep true (.reading c) = ({ s with inq := upd s.inq c ps }, some (.got c p)) := by simp only [St.runStep, hq]
          rw [this]
          simp only [hset]
          exact .read c p ps hq
    | got c p =>
      cases ok with
      | true =>
        simp only [St.runStep, if_true, hset]
        exact .deliver c p
      | false =>
        simp only [St.runStep, Bool.false_eq_true, if_false, hset]
        exact .last c p
    | failed c =>
      cases hw : s.ws with
      | true =>
        have : s.runStep ok (.failed c) = (s, some (.check c)) := by simp only [St.runStep, hw]; rfl
        rw [this]
        simp only [hset]
        exact .again c hw
      | false =>
        have : s.runStep ok (.failed c) = (s, some .exit1) := by simp only [St.runStep, hw]; rfl
        rw [this]
        simp only [hset]
        exact .quit c hw
    | exit1 =>
      simp only [St.runStep, hset]
      exact .off
    | exit2 =>
      simp only [St.runStep, hdel]
      exact .gone

/-- what a step of a `Send` does -/
inductive SendRel (s : St) (i : Nat) : St → Prop
  | skip : SendRel s i s
  | message (pkt : Wire) (h : s.senders i = .checked pkt) (hw : s.ws = true) :
    SendRel s i { s with senders := upd s.senders i (.writing [pkt.flatten]) }
  | lock (pkt : Wire) (h : s.senders i = .checked pkt) (hw : s.ws = false) (hl : s.lock = none) :
    SendRel s i { s with senders := upd s.senders i (.writing pkt), lock := some i }
  | done (h : s.senders i = .writing []) : SendRel s i (s.sendDone i true)
  | crash (b : Bytes) (bs : Wire) (h : s.senders i = .writing (b :: bs)) (hc : s.conn = none) : SendRel s i { s with panicked := true }
  | fail (b : Bytes) (bs : Wire) (c : Nat) (h : s.senders i = .writing (b :: bs)) (hc : s.conn = some c) (hd : (s.lost c || s.closed c) = true) :
    SendRel s i (s.sendDone i false)
  | write (b : Bytes) (bs : Wire) (c : Nat) (h : s.senders i = .writing (b :: bs)) (hc : s.conn = some c) (hd : (s.lost c || s.closed c) = false) :
    SendRel s i { s with senders := upd s.senders i (.writing bs), written := upd s.written c (s.written c ++ [b]) }

theorem sendRel (s : St) (i : Nat) : SendRel s i (s.sendStep i) := by
  unfold St.sendStep
  cases hs : s.senders i with
  | idle => exact .skip
  | checked pkt =>
    dsimp only
    cases hw : s.ws with
    | true => rw [if_pos rfl]; have := SendRel.message pkt hs hw; rw [hw] at this; exact this
    | false =>
      rw [if_neg (by simp)]
      cases hl : s.lock with
      | some j => exact .skip
      | none => have := SendRel.lock pkt hs hw hl; rw [hw] at this; exact this
  | writing rest =>
    cases rest with
    | nil => exact .done hs
    | cons b bs =>
      dsimp only
      cases hc : s.conn with
      | none => have := SendRel.crash b bs hs hc; rw [hc] at this; exact this
      | some c =>
        dsimp only
        cases hd : (s.lost c || s.closed c) with
        | true => exact .fail b bs c hs hc hd
        | false => have := SendRel.write b bs c hs hc hd; rw [hc] at this; exact this

/-- while the face is stopped, every event but a call of `Start` keeps it stopped, nothing is written, and no more packets are delivered than `Run` may -/
theorem stopped_step {s : St} (h : Stopped s) (e : Ev) (he : e ≠ .callStart) :
    Stopped (s.step e) ∧ (s.step e).delivered.length + (s.step e).may ≤ s.delivered.length + s.may ∧ (s.step e).written = s.written := by
  have hi := inv_step h.inv e
  have hidle := h.idle
  have hoff := h.off
  have hshut := h.shut
  cases hp : s.panicked with
  | true =>
    have : s.step e = s := by unfold St.step; rw [hp]; rfl
    rw [this]
    exact ⟨h, Nat.le_refl _, rfl⟩
  | false =>
  cases e with
  | callStart => exact absurd rfl he
  | run k ok =>
    rcases runRel h.inv k ok with hs | ⟨pc, rfl, _, hr, hs⟩
    · rw [hs]; exact ⟨h, Nat.le_refl _, rfl⟩
    · generalize hs' : s.step (.run 0 ok) = s' at hi hs ⊢
      have hmay : s.may = pc.may := by simp [St.may, hr]
      rw [hmay]
      cases hs <;> refine ⟨⟨hi, hidle, ?_, ?_⟩, ?_, rfl⟩ <;> simp_all [St.may, RunPc.may]
  | arrive c p =>
    simp only [St.step, hp] at hi ⊢
    exact ⟨⟨hi, hidle, hoff, hshut⟩, Nat.le_refl _, rfl⟩
  | lose c =>
    simp only [St.step, hp] at hi ⊢
    exact ⟨⟨hi, hidle, hoff, hshut⟩, Nat.le_refl _, rfl⟩
  | callStop =>
    have : s.step .callStop = { s with returned := .stop false :: s.returned } := by simp [St.step, hp, hidle, hoff]
    rw [this] at hi ⊢
    exact ⟨⟨hi, hidle, hoff, hshut⟩, Nat.le_refl _, rfl⟩
  | main ok =>
    have : s.step (.main ok) = s := by simp [St.step, hp, St.mainStep, hidle]
    rw [this]
    exact ⟨h, Nat.le_refl _, rfl⟩
  | callSend i pkt =>
    cases hsd : s.senders i with
    | idle =>
      have : s.step (.callSend i pkt) = { s with returned := .send i false :: s.returned } := by simp [St.step, hp, hsd, hoff]
      rw [this] at hi ⊢
      exact ⟨⟨hi, hidle, hoff, hshut⟩, Nat.le_refl _, rfl⟩
    | checked q =>
      have : s.step (.callSend i pkt) = s := by simp [St.step, hp, hsd]
      rw [this]
      exact ⟨h, Nat.le_refl _, rfl⟩
    | writing q =>
      have : s.step (.callSend i pkt) = s := by simp [St.step, hp, hsd]
      rw [this]
      exact ⟨h, Nat.le_refl _, rfl⟩
  | send i =>
    have hst : s.step (.send i) = s.sendStep i := by simp [St.step, hp]
    rw [hst] at hi ⊢
    have hs := sendRel s i
    generalize s.sendStep i = s' at hi hs ⊢
    cases hs with
    | skip => exact ⟨h, Nat.le_refl _, rfl⟩
    | message pkt hx hw => exact ⟨⟨hi, hidle, hoff, hshut⟩, Nat.le_refl _, rfl⟩
    | lock pkt hx hw hl => exact ⟨⟨hi, hidle, hoff, hshut⟩, Nat.le_refl _, rfl⟩
    | done hx => exact ⟨⟨hi, hidle, hoff, hshut⟩, Nat.le_refl _, rfl⟩
    | crash b bs hx hc => exact ⟨⟨hi, hidle, hoff, hshut⟩, Nat.le_refl _, rfl⟩
    | fail b bs c hx hc hd => exact ⟨⟨hi, hidle, hoff, hshut⟩, Nat.le_refl _, rfl⟩
    | write b bs c hx hc hd =>
      rw [hshut c hc] at hd
      simp at hd

theorem stopped_after {s : St} (h : Stopped s) (evs : List Ev) (he : .callStart ∉ evs) :
    Stopped (s.after evs) ∧ (s.after evs).delivered.length + (s.after evs).may ≤ s.delivered.length + s.may ∧ (s.after evs).written = s.written := by
  induction evs generalizing s with
  | nil => exact ⟨h, Nat.le_refl _, rfl⟩
  | cons e evs ih =>
    obtain ⟨h1, h2, h3⟩ := stopped_step h e (fun hx => he (hx ▸ List.mem_cons_self))
    obtain ⟨g1, g2, g3⟩ := ih h1 (fun hx => he (List.mem_cons_of_mem _ hx))
    exact ⟨g1, Nat.le_trans g2 h2, g3.trans h3⟩

theorem run_returned {s : St} (hi : Inv s) (k : Nat) (ok : Bool) : (s.step (.run k ok)).returned = s.returned := by
  rcases runRel hi k ok with hs | ⟨pc, rfl, _, hr, hs⟩
  · rw [hs]
  · generalize s.step (.run 0 ok) = s' at hs ⊢
    cases hs <;> rfl

theorem stop_returned {s : St} (hi : Inv s) (e : Ev) (h : (s.step e).returned = .stop true :: s.returned) : Stopped (s.step e) := by
  have hi' := inv_step hi e
  have hself : ¬s.returned = Call.stop true :: s.returned := fun h => by
    have := congrArg List.length h
    simp at this
  by_cases hp : s.panicked = true
  · have : s.step e = s := by unfold St.step; rw [if_pos hp]
    rw [this] at h
    exact absurd h hself
  have hpf : s.panicked = false := by simpa using hp
  cases e with
  | arrive c p => simp only [St.step, hpf] at h; exact absurd h hself
  | lose c => simp only [St.step, hpf] at h; exact absurd h hself
  | callStart =>
    simp only [St.step, if_neg hp] at h
    split at h
    · split at h
      · simp at h
      · exact absurd h hself
    · exact absurd h hself
  | callStop =>
    simp only [St.step, if_neg hp] at h
    split at h
    · split at h
      · exact absurd h hself
      · simp at h
    · exact absurd h hself
  | callSend i pkt =>
    simp only [St.step, if_neg hp] at h
    split at h
    · split at h
      · exact absurd h hself
      · simp at h
    · exact absurd h hself
  | send i =>
    have hst : s.step (.send i) = s.sendStep i := by simp [St.step, hpf]
    rw [hst] at h
    have hs := sendRel s i
    generalize s.sendStep i = s' at hs h
    cases hs <;> first | exact absurd h hself | simp [St.sendDone] at h
  | run k ok => rw [run_returned hi] at h; exact absurd h hself
  | main ok =>
    have hst : s.step (.main ok) = s.mainStep ok := by simp [St.step, hpf]
    rw [hst] at h hi' ⊢
    cases hm : s.main with
    | idle => simp only [St.mainStep, hm] at h; exact absurd h hself
    | start1 =>
      simp only [St.mainStep, hm] at h
      split at h
      · simp at h
      · exact absurd h hself
    | start2 =>
      simp only [St.mainStep, hm] at h
      split at h
      · exact absurd h hself
      · simp at h
    | start3 => simp only [St.mainStep, hm] at h; exact absurd h hself
    | start4 => simp [St.mainStep, hm] at h
    | stop1 =>
      simp only [St.mainStep, hm] at h
      split at h
      · simp at h
      · exact absurd h hself
    | stop2 => simp only [St.mainStep, hm] at h; exact absurd h hself
    | stop3 =>
      cases hc : s.conn with
      | none => simp only [St.mainStep, hm, hc] at h; exact absurd h hself
      | some c =>
        refine ⟨hi', ?_, ?_, ?_⟩
        · simp only [St.mainStep, hm, hc]
        · simp only [St.mainStep, hm, hc]
          exact hi.off (Or.inr (Or.inr (Or.inr hm)))
        · intro c' hc'
          simp only [St.mainStep, hm, hc] at hc' ⊢
          injection hc' with hc'
          subst hc'
          simp [upd]

theorem may_le_one {s : St} (h : s.runs.length ≤ 1) : s.may ≤ 1 := by
  unfold St.may
  match hr : s.runs with
  | [] => simp
  | [pc] => cases pc <;> simp [RunPc.may]
  | a :: b :: l => rw [hr] at h; simp at h

/-- C82: from the moment when `Shutdown` has returned nil until `Start` is called again, the face is not running (so that every `Send` that begins returns an
error), nothing more is written to any connection, and at most one more packet is given to the engine. -/
theorem C82_stopped (ws : Bool) (evs : List Ev) (e : Ev) (s : St) (hs : s = St.after { ws := ws } evs)
    (h : (s.step e).returned = .stop true :: s.returned) (evs' : List Ev) (he : .callStart ∉ evs') :
    ((s.step e).after evs').running = false ∧ ((s.step e).after evs').written = (s.step e).written ∧
    ((s.step e).after evs').delivered.length ≤ (s.step e).delivered.length + 1 := by
  have hi : Inv s := hs ▸ inv_after ws evs
  have hst := stop_returned hi e h
  obtain ⟨h1, h2, h3⟩ := stopped_after hst evs' he
  have := may_le_one hst.inv.one
  exact ⟨h1.off, h3, by omega⟩

/-- steps until `Run` has ended, at the most -/
def RunPc.rank : RunPc → Nat
  | .init => 4
  | .check _ => 3
  | .reading _ => 5
  | .got _ _ => 4
  | .failed _ => 4
  | .exit1 => 2
  | .exit2 => 1

/-- a step of `Run`, in which reading fails -/
def Ev.isRun : Ev → Bool
  | .run 0 false => true
  | _ => false

def St.rank (s : St) : Nat := (s.runs.map RunPc.rank).sum

theorem runs_same {s : St} (hidle : s.main = .idle) (e : Ev) (he : ∀ k ok, e ≠ .run k ok) : (s.step e).runs = s.runs := by
  unfold St.step
  split
  · rfl
  · cases e with
    | arrive c p => rfl
    | lose c => rfl
    | callStart =>
      dsimp only
      split
      · split <;> rfl
      · rfl
    | callStop =>
      dsimp only
      split
      · split <;> rfl
      · rfl
    | callSend i pkt =>
      dsimp only
      split
      · split <;> rfl
      · rfl
    | send i =>
      dsimp only
      have hs := sendRel s i
      generalize s.sendStep i = s' at hs ⊢
      cases hs <;> rfl
    | run k ok => exact absurd rfl (he k ok)
    | main ok => simp [St.mainStep, hidle]

/-- C82: after `Shutdown` has returned nil the goroutine `Run` ends: every step that it takes brings it nearer to its end (reading from the closed connection
fails), whatever else happens, and five steps are enough. -/
theorem C82_stop_ends (ws : Bool) (evs : List Ev) (e : Ev) (s : St) (hs : s = St.after { ws := ws } evs)
    (h : (s.step e).returned = .stop true :: s.returned) (evs' : List Ev) (he : .callStart ∉ evs')
    (hn : 5 ≤ (evs'.filter Ev.isRun).length) (hp : ((s.step e).after evs').panicked = false) :
    ((s.step e).after evs').runs = [] ∧ ((s.step e).after evs').conn = none := by
  have hi : Inv s := hs ▸ inv_after ws evs
  have hst := stop_returned hi e h
  clear h hs hi
  generalize s.step e = s at hst hp ⊢
  have hle : s.rank ≤ 5 := by
    unfold St.rank
    have := hst.inv.one
    match hr : s.runs with
    | [] => simp
    | [pc] => cases pc <;> simp [RunPc.rank]
    | a :: b :: l => rw [hr] at this; simp at this
  have key : ∀ (evs : List Ev) (s : St), Stopped s → .callStart ∉ evs → (s.after evs).panicked = false →
      (s.after evs).rank ≤ s.rank - (evs.filter Ev.isRun).length := by
    intro evs
    induction evs with
    | nil => intro s _ _ _; simp [St.after]
    | cons e evs ih =>
      intro s hst he hp
      have hst' := (stopped_step hst e (fun hx => he (hx ▸ List.mem_cons_self))).1
      have h1 := ih (s.step e) hst' (fun hx => he (List.mem_cons_of_mem _ hx)) hp
      have h2 : (s.step e).rank ≤ s.rank - (if e.isRun then 1 else 0) := by
        by_cases hrun : ∃ k ok, e = .run k ok
        · obtain ⟨k, ok, rfl⟩ := hrun
          by_cases hpp : s.panicked = true
          · exfalso
            have hpst : ∀ (evs : List Ev) (s : St), s.panicked = true → (s.after evs).panicked = true := by
              intro evs
              induction evs with
              | nil => intro s h; exact h
              | cons e evs ih =>
                intro s h
                refine ih _ ?_
                unfold St.step
                rw [if_pos h]
                exact h
            rw [hpst (_ :: evs) s hpp] at hp
            cases hp
          · cases hr : s.runs with
            | nil =>
              have : s.step (.run k ok) = s := by simp [St.step, hpp, hr]
              rw [this]
              simp [St.rank, hr]
            | cons pc l =>
              have hl : l = [] := by
                have := hst.inv.one
                rw [hr] at this
                cases l with
                | nil => rfl
                | cons _ _ => simp at this
              subst hl
              have hrank : s.rank = pc.rank := by simp [St.rank, hr]
              cases k with
              | succ k =>
                have : s.step (.run (k + 1) ok) = s := by simp [St.step, hpp, hr]
                rw [this]
                simp [Ev.isRun]
              | zero =>
                obtain ⟨c0, hc0⟩ : ∃ c, s.conn = some c := Option.isSome_iff_exists.mp (hst.inv.conn.mpr (Or.inl (by rw [hr]; simp)))
                have hoff := hst.off
                have hreads := hst.inv.reads pc (by rw [hr]; simp)
                rw [hrank]
                cases ok with
                | true =>
                  rcases runRel hst.inv 0 true with hs | ⟨pc', _, _, hr', hs⟩
                  · rw [hs, hrank]; simp [Ev.isRun]
                  · rw [hr] at hr'
                    injection hr' with hr'
                    subst hr'
                    generalize s.step (.run 0 true) = s' at hs ⊢
                    cases hs <;> simp_all [St.rank, RunPc.rank, Ev.isRun]
                | false =>
                  cases pc with
                  | init => simp [St.step, hpp, hr, St.runStep, hc0, St.rank, RunPc.rank, Ev.isRun]
                  | check c => simp [St.step, hpp, hr, St.runStep, hoff, St.rank, RunPc.rank, Ev.isRun]
                  | reading c =>
                    have hcl : s.closed c = true := hst.shut c (hreads c rfl)
                    simp [St.step, hpp, hr, St.runStep, hcl, St.rank, RunPc.rank, Ev.isRun]
                  | got c p => simp [St.step, hpp, hr, St.runStep, St.rank, RunPc.rank, Ev.isRun]
                  | failed c =>
                    cases hw : s.ws <;> simp [St.step, hpp, hr, St.runStep, hw, St.rank, RunPc.rank, Ev.isRun]
                  | exit1 => simp [St.step, hpp, hr, St.runStep, St.rank, RunPc.rank, Ev.isRun]
                  | exit2 => simp [St.step, hpp, hr, St.runStep, St.rank, RunPc.rank, Ev.isRun]
        · have hne : ∀ k ok, e ≠ .run k ok := fun k ok hx => hrun ⟨k, ok, hx⟩
          have hm : e.isRun = false := by
            cases e <;> first | rfl | exact absurd rfl (hne _ _)
          rw [hm]
          unfold St.rank
          rw [runs_same hst.idle e hne]
          simp
      rw [List.filter_cons]
      show ((s.step e).after evs).rank ≤ _
      split
      · next hx => rw [if_pos hx] at h2; simp only [List.length_cons]; omega
      · next hx => rw [if_neg hx] at h2; omega
  have hk := key evs' s hst he hp
  have hinv := (stopped_after hst evs' he).1
  have hz : (s.after evs').rank = 0 := by omega
  have hr : (s.after evs').runs = [] := by
    cases hr : (s.after evs').runs with
    | nil => rfl
    | cons pc l =>
      unfold St.rank at hz
      rw [hr] at hz
      cases pc <;> simp [RunPc.rank] at hz <;> omega
  refine ⟨hr, ?_⟩
  cases hc : (s.after evs').conn with
  | none => rfl
  | some c =>
    rcases hinv.inv.conn.mp (by rw [hc]; rfl) with h | h | h
    · exact absurd hr h
    · rw [hinv.idle] at h; cases h
    · rw [hinv.idle] at h; cases h

/-! ## Receiving -/

/-- the packet that `Run` has read from connection `c` and not yet given to the engine -/
def RunPc.pending (c : Nat) : RunPc → List Nat
  | .got c' p => if c' = c then [p] else []
  | _ => []

/-- what was delivered from connection `c`, then what is to be delivered -/
def St.log (s : St) (c : Nat) : List Nat := (s.delivered.filter (·.1 = c)).map (·.2) ++ s.runs.flatMap (RunPc.pending c) ++ s.inq c

/-- the packets that arrive at connection `c` -/
def arrivals (c : Nat) (evs : List Ev) : List Nat := evs.filterMap fun e => match e with
  | .arrive c' p => if c' = c then some p else none
  | _ => none

theorem log_step {s : St} (hi : Inv s) (hp : s.panicked = false) (e : Ev) (c : Nat) : (s.step e).log c = s.log c ++ arrivals c [e] := by
  cases e with
  | arrive c' p =>
    simp only [St.step, hp, St.log, arrivals]
    by_cases hc : c = c'
    · subst hc; simp [upd]
    · have hc' : ¬ c' = c := fun h => hc h.symm
      simp [upd, hc, hc']
  | lose c' => simp [St.step, hp, St.log, arrivals]
  | callStart =>
    have : (s.step .callStart).delivered = s.delivered ∧ (s.step .callStart).runs = s.runs ∧ (s.step .callStart).inq = s.inq := by
      simp only [St.step, hp]
      cases s.main <;> cases s.running <;> exact ⟨rfl, rfl, rfl⟩
    simp [St.log, arrivals, this]
  | callStop =>
    have : (s.step .callStop).delivered = s.delivered ∧ (s.step .callStop).runs = s.runs ∧ (s.step .callStop).inq = s.inq := by
      simp only [St.step, hp]
      cases s.main <;> cases s.running <;> exact ⟨rfl, rfl, rfl⟩
    simp [St.log, arrivals, this]
  | callSend i pkt =>
    have : (s.step (.callSend i pkt)).delivered = s.delivered ∧ (s.step (.callSend i pkt)).runs = s.runs ∧ (s.step (.callSend i pkt)).inq = s.inq := by
      simp only [St.step, hp]
      cases s.senders i <;> cases s.running <;> exact ⟨rfl, rfl, rfl⟩
    simp [St.log, arrivals, this]
  | send i =>
    have : (s.step (.send i)).delivered = s.delivered ∧ (s.step (.send i)).runs = s.runs ∧ (s.step (.send i)).inq = s.inq := by
      simp only [St.step, hp, Bool.false_eq_true, if_false]
      have hs := sendRel s i
      generalize s.sendStep i = s' at hs ⊢
      cases hs <;> exact ⟨rfl, rfl, rfl⟩
    simp [St.log, arrivals, this]
  | main ok =>
    have : (s.step (.main ok)).delivered = s.delivered ∧ (s.step (.main ok)).runs.flatMap (RunPc.pending c) = s.runs.flatMap (RunPc.pending c) ∧
        (s.step (.main ok)).inq = s.inq := by
      simp only [St.step, hp, Bool.false_eq_true, if_false, St.mainStep]
      split
      · exact ⟨rfl, rfl, rfl⟩
      · split <;> exact ⟨rfl, rfl, rfl⟩
      · split <;> exact ⟨rfl, rfl, rfl⟩
      · exact ⟨rfl, rfl, rfl⟩
      · exact ⟨rfl, by simp [RunPc.pending], rfl⟩
      · split <;> exact ⟨rfl, rfl, rfl⟩
      · exact ⟨rfl, rfl, rfl⟩
      · split <;> exact ⟨rfl, rfl, rfl⟩
    simp [St.log, arrivals, this]
  | run k ok =>
    have ha : arrivals c [.run k ok] = [] := rfl
    rw [ha, List.append_nil]
    rcases runRel hi k ok with hs | ⟨pc, rfl, _, hr, hs⟩
    · rw [hs]
    · unfold St.log
      rw [hr]
      generalize s.step (.run 0 ok) = s' at hs ⊢
      cases hs with
      | read c' p ps hq =>
        by_cases hc : c = c'
        · subst hc; simp [RunPc.pending, upd, hq]
        · have hc' : ¬ c' = c := fun h => hc h.symm
          simp [RunPc.pending, upd, hc, hc']
      | deliver c' p =>
        by_cases hc : c' = c
        · subst hc; simp [RunPc.pending]
        · simp [RunPc.pending, hc]
      | last c' p =>
        by_cases hc : c' = c
        · subst hc; simp [RunPc.pending]
        · simp [RunPc.pending, hc]
      | _ => simp [RunPc.pending]

theorem panicked_after (evs : List Ev) (s : St) (h : s.panicked = true) : (s.after evs).panicked = true := by
  induction evs generalizing s with
  | nil => exact h
  | cons e evs ih =>
    refine ih _ ?_
    unfold St.step
    rw [if_pos h]
    exact h

theorem log_after {s : St} (hi : Inv s) (evs : List Ev) (hp : (s.after evs).panicked = false) (c : Nat) :
    (s.after evs).log c = s.log c ++ arrivals c evs := by
  induction evs generalizing s with
  | nil => simp [St.after, arrivals]
  | cons e evs ih =>
    have hps : s.panicked = false := by
      cases h : s.panicked with
      | false => rfl
      | true => rw [panicked_after (e :: evs) s h] at hp; cases hp
    have h1 := ih (inv_step hi e) hp
    rw [log_step hi hps e c] at h1
    show ((s.step e).after evs).log c = _
    rw [h1, List.append_assoc]
    congr 1
    unfold arrivals
    rw [← List.filterMap_append]
    rfl

/-- C82: the packets that are given to the engine from a connection are those that arrived at it, in order and each once: followed by the one that `Run` holds and
by those that are not read yet they are all that arrived. -/
theorem C82_in_order (ws : Bool) (evs : List Ev) (hp : (St.after { ws := ws } evs).panicked = false) (c : Nat) :
    ((St.after { ws := ws } evs).delivered.filter (·.1 = c)).map (·.2) ++ (St.after { ws := ws } evs).runs.flatMap (RunPc.pending c) ++
      (St.after { ws := ws } evs).inq c = arrivals c evs :=
  (log_after (inv_init ws) evs hp c).trans rfl

/-! ## Sending -/

/-- no connection is dialled while a `Send` is in the midst of writing -/
def Quiet (s : St) : List Ev → Prop
  | [] => True
  | e :: es => (s.main = .start2 → e = .main true → s.lock = none) ∧ Quiet (s.step e) es

theorem quiet_append (s : St) (a b : List Ev) : Quiet s (a ++ b) ↔ Quiet s a ∧ Quiet (s.after a) b := by
  induction a generalizing s with
  | nil => simp [Quiet, St.after]
  | cons e a ih => simp [Quiet, St.after, ih, and_assoc]

def St.alive (s : St) (c : Nat) : Prop := s.conn = some c ∧ s.lost c = false ∧ s.closed c = false

/-- the invariant of sending: `S` are the packets that may be found whole on a connection, `T i` those that the goroutine `i` may be sending -/
structure Sending (S : Wire → Prop) (T : Nat → Wire → Prop) (s : St) : Prop where
  stream : s.ws = false
  sub : ∀ j p, T j p → S p
  mutex : ∀ j r, s.senders j = .writing r → s.lock = some j
  held : ∀ j, s.lock = some j → ∃ r, s.senders j = .writing r
  chk : ∀ j p, s.senders j = .checked p → T j p
  fresh : ∀ c, s.next ≤ c → s.written c = []
  bound : ∀ c, s.conn = some c → c < s.next
  free : s.lock = none → ∀ c, s.alive c → ∃ pkts : List Wire, (∀ p ∈ pkts, S p) ∧ s.written c = pkts.flatten
  hold : ∀ j r, s.senders j = .writing r → ∃ d, T j (d ++ r) ∧
    (∀ c, s.alive c → ∃ pkts : List Wire, (∀ p ∈ pkts, S p) ∧ s.written c = pkts.flatten ++ d) ∧
    (d ≠ [] → ∃ (c : Nat) (pkts : List Wire), (∀ p ∈ pkts, S p) ∧ s.written c = pkts.flatten ++ d ∧ ∀ c', s.conn = some c' → c' = c)
  all : ∀ c, ∃ (pkts : List Wire) (part : Wire), (∀ p ∈ pkts, S p) ∧ (part = [] ∨ ∃ r, S (part ++ r)) ∧ s.written c = pkts.flatten ++ part

/-- a step that writes nothing, leaves the senders alone, and keeps no connection alive that was not -/
theorem Sending.weaken {S : Wire → Prop} {T : Nat → Wire → Prop} {s s' : St} (h : Sending S T s) (hw : s'.ws = s.ws) (hs : s'.senders = s.senders)
    (hl : s'.lock = s.lock) (hwr : s'.written = s.written) (hn : s'.next = s.next) (hc : ∀ c, s'.conn = some c → s.conn = some c)
    (ha : ∀ c, s'.alive c → s.alive c) : Sending S T s' where
  stream := hw ▸ h.stream
  sub := h.sub
  mutex := by rw [hs, hl]; exact h.mutex
  held := by rw [hs, hl]; exact h.held
  chk := by rw [hs]; exact h.chk
  fresh := by rw [hn, hwr]; exact h.fresh
  bound := fun c hc' => hn ▸ h.bound c (hc c hc')
  free := fun hf c hc' => by rw [hwr]; exact h.free (hl ▸ hf) c (ha c hc')
  hold := fun j r hj => by
    obtain ⟨d, h1, h2, h3⟩ := h.hold j r (hs ▸ hj)
    refine ⟨d, h1, fun c hc' => by rw [hwr]; exact h2 c (ha c hc'), fun hd => ?_⟩
    obtain ⟨c, pkts, a, b, e⟩ := h3 hd
    exact ⟨c, pkts, a, hwr ▸ b, fun c' hc' => e c' (hc c' hc')⟩
  all := by rw [hwr]; exact h.all

theorem Sending.send {S : Wire → Prop} {T : Nat → Wire → Prop} {s : St} (h : Sending S T s) (i : Nat) : Sending S T (s.sendStep i) := by
  have hr := sendRel s i
  generalize s.sendStep i = s' at hr ⊢
  cases hr with
  | skip => exact h
  | message pkt _ hw => rw [h.stream] at hw; cases hw
  | crash b bs hs hc => exact h.weaken rfl rfl rfl rfl rfl (fun _ => id) (fun _ => id)
  | lock pkt hs hw hl =>
    have hno : ∀ j r, s.senders j ≠ .writing r := fun j r hj => by have := h.mutex j r hj; rw [hl] at this; cases this
    exact {
      stream := h.stream
      sub := h.sub
      mutex := fun j r hj => by
        by_cases hji : j = i
        · subst hji; rfl
        · simp only [upd, if_neg hji] at hj; exact absurd hj (hno j r)
      held := fun j hj => by
        cases hj
        exact ⟨pkt, by simp [upd]⟩
      chk := fun j p hj => by
        by_cases hji : j = i
        · subst hji; simp [upd] at hj
        · simp only [upd, if_neg hji] at hj; exact h.chk j p hj
      fresh := h.fresh
      bound := h.bound
      free := fun hf => by cases hf
      hold := fun j r hj => by
        by_cases hji : j = i
        · subst hji
          simp [upd] at hj
          subst hj
          refine ⟨[], h.chk _ _ hs, fun c hc => ?_, fun hd => absurd rfl hd⟩
          obtain ⟨pkts, a, b⟩ := h.free hl c hc
          exact ⟨pkts, a, by rw [List.append_nil]; exact b⟩
        · simp only [upd, if_neg hji] at hj; exact absurd hj (hno j r)
      all := h.all }
  | done hs =>
    have hl := h.mutex i _ hs
    obtain ⟨d, h1, h2, h3⟩ := h.hold i _ hs
    rw [List.append_nil] at h1
    have hno : ∀ j r, j ≠ i → s.senders j ≠ .writing r := fun j r hne hj => by
      have := h.mutex j r hj; rw [hl] at this; cases this; exact hne rfl
    exact {
      stream := h.stream
      sub := h.sub
      mutex := fun j r hj => by
        by_cases hji : j = i
        · subst hji; simp [St.sendDone, upd] at hj
        · simp only [St.sendDone, upd, if_neg hji] at hj; exact absurd hj (hno j r hji)
      held := fun j hj => by simp [St.sendDone, h.stream] at hj
      chk := fun j p hj => by
        by_cases hji : j = i
        · subst hji; simp [St.sendDone, upd] at hj
        · simp only [St.sendDone, upd, if_neg hji] at hj; exact h.chk j p hj
      fresh := h.fresh
      bound := h.bound
      free := fun _ c hc => by
        obtain ⟨pkts, a, b⟩ := h2 c hc
        refine ⟨pkts ++ [d], fun p hp => ?_, by simpa [St.sendDone] using b⟩
        rcases List.mem_append.mp hp with hp | hp
        · exact a p hp
        · cases List.mem_singleton.mp hp
          exact h.sub _ _ h1
      hold := fun j r hj => by
        by_cases hji : j = i
        · subst hji; simp [St.sendDone, upd] at hj
        · simp only [St.sendDone, upd, if_neg hji] at hj; exact absurd hj (hno j r hji)
      all := h.all }
  | fail b bs c hs hc hd =>
    have hl := h.mutex i _ hs
    have hno : ∀ j r, j ≠ i → s.senders j ≠ .writing r := fun j r hne hj => by
      have := h.mutex j r hj; rw [hl] at this; cases this; exact hne rfl
    exact {
      stream := h.stream
      sub := h.sub
      mutex := fun j r hj => by
        by_cases hji : j = i
        · subst hji; simp [St.sendDone, upd] at hj
        · simp only [St.sendDone, upd, if_neg hji] at hj; exact absurd hj (hno j r hji)
      held := fun j hj => by simp [St.sendDone, h.stream] at hj
      chk := fun j p hj => by
        by_cases hji : j = i
        · subst hji; simp [St.sendDone, upd] at hj
        · simp only [St.sendDone, upd, if_neg hji] at hj; exact h.chk j p hj
      fresh := h.fresh
      bound := h.bound
      free := fun _ c' hc' => by
        obtain ⟨a, b, e⟩ := hc'
        have : c' = c := by
          have a' : s.conn = some c' := a
          rw [hc] at a'; cases a'; rfl
        subst this
        have b' : s.lost c' = false := b
        have e' : s.closed c' = false := e
        rw [b', e'] at hd
        cases hd
      hold := fun j r hj => by
        by_cases hji : j = i
        · subst hji; simp [St.sendDone, upd] at hj
        · simp only [St.sendDone, upd, if_neg hji] at hj; exact absurd hj (hno j r hji)
      all := h.all }
  | write b bs c hs hc hd =>
    have hl := h.mutex i _ hs
    have halive : s.alive c := ⟨hc, by simpa using (Bool.or_eq_false_iff.mp hd).1, (Bool.or_eq_false_iff.mp hd).2⟩
    obtain ⟨d, h1, h2, h3⟩ := h.hold i _ hs
    obtain ⟨pkts, hp, hw⟩ := h2 c halive
    have hno : ∀ j r, j ≠ i → s.senders j ≠ .writing r := fun j r hne hj => by
      have := h.mutex j r hj; rw [hl] at this; cases this; exact hne rfl
    have hnew : upd s.written c (s.written c ++ [b]) c = pkts.flatten ++ (d ++ [b]) := by simp [upd, hw]
    exact {
      stream := h.stream
      sub := h.sub
      mutex := fun j r hj => by
        by_cases hji : j = i
        · subst hji; exact hl
        · simp only [upd, if_neg hji] at hj; exact absurd hj (hno j r hji)
      held := fun j hj => by
        have hj' : s.lock = some j := hj
        rw [hl] at hj'; cases hj'
        exact ⟨bs, by simp [upd]⟩
      chk := fun j p hj => by
        by_cases hji : j = i
        · subst hji; simp [upd] at hj
        · simp only [upd, if_neg hji] at hj; exact h.chk j p hj
      fresh := fun c' hc' => by
        have : c' ≠ c := fun he => by subst he; have := h.bound c' hc; exact Nat.lt_irrefl _ (Nat.lt_of_lt_of_le this hc')
        simp only [upd, if_neg this]
        exact h.fresh c' hc'
      bound := h.bound
      free := fun hf => by
        have hf' : s.lock = none := hf
        rw [hl] at hf'; cases hf'
      hold := fun j r hj => by
        by_cases hji : j = i
        · subst hji
          simp [upd] at hj
          subst hj
          refine ⟨d ++ [b], by simpa using h1, fun c' hc' => ?_, fun _ => ⟨c, pkts, hp, hnew, fun c' hc' => ?_⟩⟩
          · have a' : s.conn = some c' := hc'.1
            rw [hc] at a'; cases a'
            exact ⟨pkts, hp, hnew⟩
          · have a' : s.conn = some c' := hc'
            rw [hc] at a'; cases a'
            rfl
        · simp only [upd, if_neg hji] at hj; exact absurd hj (hno j r hji)
      all := fun c' => by
        by_cases hcc : c' = c
        · subst hcc
          exact ⟨pkts, d ++ [b], hp, .inr ⟨bs, h.sub i _ (by simpa using h1)⟩, hnew⟩
        · obtain ⟨pkts', part, a, b, e⟩ := h.all c'
          exact ⟨pkts', part, a, b, by simp only [upd, if_neg hcc]; exact e⟩ }

theorem Sending.step {S : Wire → Prop} {T : Nat → Wire → Prop} {s : St} (hi : Inv s) (h : Sending S T s) (e : Ev)
    (hq : s.main = .start2 → e = .main true → s.lock = none) (hT : ∀ i p, e = .callSend i p → T i p) : Sending S T (s.step e) := by
  cases hp : s.panicked with
  | true =>
    have : s.step e = s := by unfold St.step; rw [hp]; rfl
    rw [this]; exact h
  | false =>
  cases e with
  | arrive c p =>
    simp only [St.step, hp]
    exact h.weaken rfl rfl rfl rfl rfl (fun _ => id) (fun _ => id)
  | lose c =>
    simp only [St.step, hp]
    refine h.weaken rfl rfl rfl rfl rfl (fun _ => id) (fun c' hc' => ⟨hc'.1, ?_, hc'.2.2⟩)
    have := hc'.2.1
    by_cases hcc : c' = c
    · subst hcc; simp [upd] at this
    · simpa [upd, hcc] using this
  | callStart =>
    simp only [St.step, hp]
    cases s.main <;> cases s.running <;> exact h.weaken rfl rfl rfl rfl rfl (fun _ => id) (fun _ => id)
  | callStop =>
    simp only [St.step, hp]
    cases s.main <;> cases s.running <;> exact h.weaken rfl rfl rfl rfl rfl (fun _ => id) (fun _ => id)
  | send i =>
    have : s.step (.send i) = s.sendStep i := by simp [St.step, hp]
    rw [this]; exact h.send i
  | callSend i pkt =>
    simp only [St.step, hp]
    cases hs : s.senders i with
    | idle =>
      cases s.running with
      | false => exact h.weaken rfl rfl rfl rfl rfl (fun _ => id) (fun _ => id)
      | true =>
        have hcase : ∀ j pc, (∀ p, pc ≠ .checked p) → pc ≠ .idle → upd s.senders i (.checked pkt) j = pc → s.senders j = pc := by
          intro j pc h1 h2 hj
          by_cases hji : j = i
          · subst hji; simp [upd] at hj; exact absurd hj.symm (h1 pkt)
          · simpa [upd, hji] using hj
        exact {
          stream := h.stream
          sub := h.sub
          mutex := fun j r hj => h.mutex j r (hcase j _ (fun _ => by simp) (by simp) hj)
          held := fun j hj => by
            obtain ⟨r, hr⟩ := h.held j hj
            refine ⟨r, ?_⟩
            have hji : j ≠ i := fun he => by subst he; rw [hs] at hr; cases hr
            simpa [upd, hji] using hr
          chk := fun j p hj => by
            by_cases hji : j = i
            · subst hji
              simp [upd] at hj
              subst hj
              exact hT _ _ rfl
            · exact h.chk j p (by simpa [upd, hji] using hj)
          fresh := h.fresh
          bound := h.bound
          free := h.free
          hold := fun j r hj => h.hold j r (hcase j _ (fun _ => by simp) (by simp) hj)
          all := h.all }
    | _ => exact h
  | run k ok =>
    rcases runRel hi k ok with hs | ⟨pc, rfl, _, hr, hs⟩
    · rw [hs]; exact h
    · generalize s.step (.run 0 ok) = s' at hs ⊢
      cases hs with
      | gone => exact h.weaken rfl rfl rfl rfl rfl (fun _ hc => by cases hc) (fun _ hc => by cases hc.1)
      | _ => exact h.weaken rfl rfl rfl rfl rfl (fun _ => id) (fun _ => id)
  | main ok =>
    simp only [St.step, hp, Bool.false_eq_true, if_false, St.mainStep]
    cases hm : s.main with
    | start2 =>
      cases ok with
      | false => exact h.weaken rfl rfl rfl rfl rfl (fun _ => id) (fun _ => id)
      | true =>
        have hl := hq hm rfl
        have hno : ∀ j r, s.senders j ≠ .writing r := fun j r hj => by have := h.mutex j r hj; rw [hl] at this; cases this
        exact {
          stream := h.stream
          sub := h.sub
          mutex := h.mutex
          held := h.held
          chk := h.chk
          fresh := fun c hc => h.fresh c (by have : s.next + 1 ≤ c := hc; omega)
          bound := fun c hc => by cases hc; exact Nat.lt_succ_self _
          free := fun _ c hc => by
            have : c = s.next := by
              have := hc.1
              simp at this
              exact this.symm
            subst this
            exact ⟨[], by simp, h.fresh _ (Nat.le_refl _)⟩
          hold := fun j r hj => absurd hj (hno j r)
          all := h.all }
    | stop3 =>
      dsimp only
      split
      · exact h.weaken rfl rfl rfl rfl rfl (fun _ => id) (fun _ => id)
      · rename_i c hc
        refine h.weaken rfl rfl rfl rfl rfl (fun _ => id) (fun c' hc' => ⟨hc'.1, hc'.2.1, ?_⟩)
        have := hc'.2.2
        by_cases hcc : c' = c
        · subst hcc; simp [upd] at this
        · simpa [upd, hcc] using this
    | idle => exact h
    | start1 => dsimp only; split <;> exact h.weaken rfl rfl rfl rfl rfl (fun _ => id) (fun _ => id)
    | stop1 => dsimp only; split <;> exact h.weaken rfl rfl rfl rfl rfl (fun _ => id) (fun _ => id)
    | _ => exact h.weaken rfl rfl rfl rfl rfl (fun _ => id) (fun _ => id)

theorem Sending.after {S : Wire → Prop} {T : Nat → Wire → Prop} {s : St} (hi : Inv s) (h : Sending S T s) (evs : List Ev)
    (hq : Quiet s evs) (hT : ∀ i p, .callSend i p ∈ evs → T i p) : Sending S T (s.after evs) := by
  induction evs generalizing s with
  | nil => exact h
  | cons e evs ih =>
    refine ih (inv_step hi e) (h.step hi e hq.1 fun i p he => hT i p (by rw [he]; exact List.mem_cons_self ..)) hq.2 fun i p hm => hT i p (List.mem_cons_of_mem _ hm)

theorem sending_init (S : Wire → Prop) (T : Nat → Wire → Prop) (hsub : ∀ j p, T j p → S p) : Sending S T {} where
  stream := rfl
  sub := hsub
  mutex := by simp
  held := by simp
  chk := by simp
  fresh := by simp
  bound := by simp
  free := fun _ _ hc => by cases hc.1
  hold := by simp
  all := fun c => ⟨[], [], by simp, .inl rfl, rfl⟩

/-- C82: if no connection is dialled while a `Send` is writing, what is written to a connection of a `StreamFace` is a sequence of whole packets, and at its end
possibly a packet that is cut short: packets that are sent at the same time are not mixed. -/
theorem C82_whole_partial (evs : List Ev) (hq : Quiet {} evs) (c : Nat) :
    ∃ (pkts : List Wire) (part : Wire), (∀ p ∈ pkts, ∃ i, .callSend i p ∈ evs) ∧ (part = [] ∨ ∃ rest i, .callSend i (part ++ rest) ∈ evs) ∧
      (St.after {} evs).written c = pkts.flatten ++ part := by
  have := ((sending_init (fun p => ∃ i, .callSend i p ∈ evs) (fun i p => .callSend i p ∈ evs) (fun j _ h => ⟨j, h⟩)).after (inv_init false) evs hq
    (fun _ _ => id)).all c
  exact this

/-- C82: if no connection is dialled while a `Send` is writing, a `Send` that returns nil has written its packet whole and in one piece to one connection. -/
theorem C82_sent_partial (evs : List Ev) (i : Nat) (pkt : Wire) (evs' : List Ev) (s s' : St) (hs : s = St.after {} evs)
    (hcall : s.panicked = false ∧ s.senders i = .idle ∧ s.running = true) (hs' : s' = (s.step (.callSend i pkt)).after evs')
    (hone : ∀ p, .callSend i p ∉ evs') (hq : Quiet {} (evs ++ .callSend i pkt :: evs')) (e : Ev) (he : (s'.step e).returned = .send i true :: s'.returned) :
    pkt = [] ∨ ∃ (c : Nat) (before : Wire), (s'.step e).written c = before ++ pkt := by
  rw [quiet_append] at hq
  have hi : Inv s := hs ▸ inv_after false evs
  have h0 : Sending (fun _ => True) (fun _ _ => True) s := by
    rw [hs]
    exact (sending_init _ _ (fun _ _ _ => trivial)).after (inv_init false) evs hq.1 (fun _ _ _ => trivial)
  have h1 : Sending (fun _ => True) (fun _ _ => True) (s.step (.callSend i pkt)) := h0.step hi _ (fun _ h => by cases h) (fun _ _ _ => trivial)
  have hs1 : (s.step (.callSend i pkt)).senders i = .checked pkt := by simp [St.step, hcall, upd]
  have h2 : Sending (fun _ => True) (fun j p => j = i → p = pkt) (s.step (.callSend i pkt)) := {
    h1 with
    sub := fun _ _ _ => trivial
    chk := fun j p hj hji => by subst hji; rw [hs1] at hj; cases hj; rfl
    hold := fun j r hj => by
      obtain ⟨d, _, b⟩ := h1.hold j r hj
      refine ⟨d, fun hji => ?_, b⟩
      subst hji; rw [hs1] at hj; cases hj }
  have hq2 : Quiet (s.step (.callSend i pkt)) evs' := by
    have := hq.2
    rw [← hs] at this
    exact this.2
  have h3 := h2.after (inv_step hi _) evs' hq2 (fun j p hm hji => by subst hji; exact absurd hm (hone p))
  have hi' := after_induction _ (inv_step hi (.callSend i pkt)) (fun _ e h => inv_step h e) evs'
  rw [← hs'] at h3 hi'
  clear hs' hq hq2 h2 h1 h0
  have hself : ∀ x : Call, ¬s'.returned = x :: s'.returned := fun x h => by
    have := congrArg List.length h
    simp at this
  cases hp : s'.panicked with
  | true =>
    have : s'.step e = s' := by unfold St.step; rw [hp]; rfl
    rw [this] at he
    exact absurd he (hself _)
  | false =>
  cases e with
  | send j =>
    have hst : s'.step (.send j) = s'.sendStep j := by simp [St.step, hp]
    rw [hst] at he ⊢
    have hr := sendRel s' j
    generalize s'.sendStep j = s'' at hr he ⊢
    cases hr with
    | done h =>
      simp [St.sendDone] at he
      subst he
      obtain ⟨d, a, _, b⟩ := h3.hold _ _ h
      have hd := a rfl
      rw [List.append_nil] at hd
      subst hd
      cases d with
      | nil => exact .inl rfl
      | cons x xs =>
        obtain ⟨c, pkts, _, hw, _⟩ := b (by simp)
        exact .inr ⟨c, pkts.flatten, hw⟩
    | fail => simp [St.sendDone] at he
    | _ => exact absurd he (hself _)
  | run k ok => rw [run_returned hi'] at he; exact absurd he (hself _)
  | arrive c p => simp only [St.step, hp] at he; exact absurd he (hself _)
  | lose c => simp only [St.step, hp] at he; exact absurd he (hself _)
  | callStart =>
    simp only [St.step, hp] at he
    cases hm : s'.main <;> cases hr : s'.running <;> rw [hm, hr] at he <;> first | exact absurd he (hself _) | simp at he
  | callStop =>
    simp only [St.step, hp] at he
    cases hm : s'.main <;> cases hr : s'.running <;> rw [hm, hr] at he <;> first | exact absurd he (hself _) | simp at he
  | callSend j p =>
    simp only [St.step, hp] at he
    cases hm : s'.senders j <;> cases hr : s'.running <;> rw [hm, hr] at he <;> first | exact absurd he (hself _) | simp at he
  | main ok =>
    simp only [St.step, hp, Bool.false_eq_true, if_false, St.mainStep] at he
    split at he
    · exact absurd he (hself _)
    · split at he
      · simp at he
      · exact absurd he (hself _)
    · split at he
      · exact absurd he (hself _)
      · simp at he
    · exact absurd he (hself _)
    · simp at he
    · split at he
      · simp at he
      · exact absurd he (hself _)
    · exact absurd he (hself _)
    · split at he
      · exact absurd he (hself _)
      · simp at he

/-! ## What goes wrong -/

/-- `Start`, with the connection dialled -/
def start : List Ev := [.callStart, .main true, .main true, .main true, .main true]

/-- `Shutdown`, not interrupted -/
def stop : List Ev := [.callStop, .main true, .main true, .main true]

/-- C82 fails: a packet is split over two connections, and `Send` returns nil. -/
theorem C82_split_violated :
    let s := St.after {} (start ++ [.callSend 0 [[1], [2]], .send 0, .send 0] ++ stop ++ [.run 0 true, .run 0 true, .run 0 true, .run 0 true] ++ start ++
      [.send 0, .send 0])
    s.panicked = false ∧ s.written 0 = [[1]] ∧ s.written 1 = [[2]] ∧ s.returned.head? = some (.send 0 true) := by
  decide

/-- C82 fails: if the connection is lost, `Run` may set it to nil between the check in `Send` and the write; the program crashes. -/
theorem C82_send_panics :
    (St.after {} (start ++ [.callSend 0 [[1]], .send 0, .run 0 true, .run 0 true, .lose 0, .run 0 false, .run 0 true, .run 0 true, .run 0 true])).panicked = false ∧
    (St.after {} (start ++ [.callSend 0 [[1]], .send 0, .run 0 true, .run 0 true, .lose 0, .run 0 false, .run 0 true, .run 0 true, .run 0 true,
      .send 0])).panicked = true := by
  decide

/-- C82 fails: `Run` may see that the face is not running any more and set the connection to nil before `Close` closes it; the program crashes. -/
theorem C82_stop_panics :
    (St.after {} (start ++ [.run 0 true, .callStop, .main true, .main true, .run 0 true, .run 0 true, .run 0 true, .main true])).panicked = true := by
  decide

/-- C82 fails: a `Start` right after a `Shutdown` that returned nil is refused, because `Run` has not ended yet. -/
theorem C82_restart_violated : (St.after {} (start ++ stop ++ [.callStart, .main true])).returned = [.start false, .stop true, .start true] := by
  decide

/-- C82 fails: a packet is given to the engine after `Shutdown` has returned nil. -/
theorem C82_late_violated :
    (St.after {} (start ++ [.arrive 0 7, .run 0 true, .run 0 true, .run 0 true] ++ stop)).returned.head? = some (.stop true) ∧
    (St.after {} (start ++ [.arrive 0 7, .run 0 true, .run 0 true, .run 0 true] ++ stop)).delivered = [] ∧
    (St.after {} (start ++ [.arrive 0 7, .run 0 true, .run 0 true, .run 0 true] ++ stop ++ [.run 0 true])).delivered = [(0, 7)] := by
  decide

/-- a connection that the face has let go of without closing it is never closed -/
theorem leak_after {s : St} (hi : Inv s) {c : Nat} (hc : s.conn ≠ some c) (hn : c < s.next) (ho : s.closed c = false) (evs : List Ev) :
    (s.after evs).closed c = false := by
  have key : ∀ (s : St), (Inv s ∧ s.conn ≠ some c ∧ c < s.next ∧ s.closed c = false) → ∀ e,
      Inv (s.step e) ∧ (s.step e).conn ≠ some c ∧ c < (s.step e).next ∧ (s.step e).closed c = false := by
    rintro s ⟨hi, hc, hn, ho⟩ e
    refine ⟨inv_step hi e, ?_⟩
    cases hp : s.panicked with
    | true =>
      have : s.step e = s := by unfold St.step; rw [hp]; rfl
      rw [this]; exact ⟨hc, hn, ho⟩
    | false =>
    cases e with
    | arrive c p => simp only [St.step, hp]; exact ⟨hc, hn, ho⟩
    | lose c => simp only [St.step, hp]; exact ⟨hc, hn, ho⟩
    | callStart => simp only [St.step, hp]; cases s.main <;> cases s.running <;> exact ⟨hc, hn, ho⟩
    | callStop => simp only [St.step, hp]; cases s.main <;> cases s.running <;> exact ⟨hc, hn, ho⟩
    | callSend i p => simp only [St.step, hp]; cases s.senders i <;> cases s.running <;> exact ⟨hc, hn, ho⟩
    | send i =>
      have : s.step (.send i) = s.sendStep i := by simp [St.step, hp]
      rw [this]
      have hr := sendRel s i
      generalize s.sendStep i = s' at hr ⊢
      cases hr <;> exact ⟨hc, hn, ho⟩
    | run k ok =>
      rcases runRel hi k ok with hs | ⟨pc, rfl, _, hr, hs⟩
      · rw [hs]; exact ⟨hc, hn, ho⟩
      · generalize s.step (.run 0 ok) = s' at hs ⊢
        cases hs with
        | gone => exact ⟨by simp, hn, ho⟩
        | _ => exact ⟨hc, hn, ho⟩
    | main ok =>
      simp only [St.step, hp, Bool.false_eq_true, if_false, St.mainStep]
      split
      · exact ⟨hc, hn, ho⟩
      · split <;> exact ⟨hc, hn, ho⟩
      · split
        · refine ⟨fun h => ?_, Nat.lt_succ_of_lt hn, ho⟩
          simp at h
          omega
        · exact ⟨hc, hn, ho⟩
      · exact ⟨hc, hn, ho⟩
      · exact ⟨hc, hn, ho⟩
      · split <;> exact ⟨hc, hn, ho⟩
      · exact ⟨hc, hn, ho⟩
      · split
        · exact ⟨hc, hn, ho⟩
        · rename_i c' hc'
          refine ⟨hc, hn, ?_⟩
          have : c ≠ c' := fun h => hc (h ▸ hc')
          simp [upd, this, ho]
  exact (after_induction s ⟨hi, hc, hn, ho⟩ (fun s e h => key s h e) evs).2.2.2

/-- C82 fails: a connection that is lost is never closed, whatever is done afterwards: `Run` forgets it. -/
theorem C82_leak_violated (evs : List Ev) :
    (St.after {} (start ++ [.run 0 true, .run 0 true, .lose 0, .run 0 false, .run 0 true, .run 0 true, .run 0 true])).conn = none ∧
    (St.after {} (start ++ [.run 0 true, .run 0 true, .lose 0, .run 0 false, .run 0 true, .run 0 true, .run 0 true] ++ evs)).closed 0 = false := by
  refine ⟨by decide, ?_⟩
  rw [after_append]
  exact leak_after (inv_after false _) (by decide) (by decide) (by decide) evs

/-- C82 fails: the `Run` of a `WebSocketFace` whose connection is lost goes round for ever, and the face is `running` all the time: after any number of rounds
the state is the same.  (The library, which is not modelled, may stop the program after some number of failed reads.) -/
theorem C82_ws_diverges (n : Nat) :
    let s := St.after { ws := true } (start ++ [.lose 0, .run 0 true])
    s.after (List.replicate n [.run 0 true, .run 0 false, .run 0 true]).flatten = s ∧ s.running = true ∧ s.runs = [.check 0] := by
  intro s
  have h1 : s.after [.run 0 true, .run 0 false, .run 0 true] = s := rfl
  refine ⟨?_, rfl, rfl⟩
  clear_value s
  induction n with
  | zero => rfl
  | succ n ih =>
    rw [List.replicate_succ, List.flatten_cons, after_append, h1]
    exact ih

/-! ## Examples -/

/-- two goroutines send, a packet arrives and is delivered, and the face is shut down: the hypotheses of the theorems are met -/
def session : List Ev := start ++ [.callSend 0 [[1], [2]], .callSend 1 [[3]], .send 0, .send 1, .send 0, .send 1, .arrive 0 9, .run 0 true, .run 0 true,
  .run 0 true, .send 0, .send 0, .send 1, .run 0 true, .send 1]

example : (St.after {} session).panicked = false ∧ (St.after {} session).written 0 = [[1], [2], [3]] ∧ (St.after {} session).delivered = [(0, 9)] ∧
    ((St.after {} session).step (.send 1)).returned = .send 1 true :: (St.after {} session).returned ∧
    (St.after {} (session ++ [.send 1] ++ stop)).returned.head? = some (.stop true) ∧
    (St.after {} (session ++ [.send 1] ++ stop ++ [.run 0 true, .run 0 true, .run 0 true, .run 0 true])).runs = [] ∧
    (St.after {} (session ++ [.send 1] ++ stop ++ [.run 0 true, .run 0 true, .run 0 true] ++ start)).returned.head? = some (.start true) := by
  decide

example : Quiet {} session := by
  simp [Quiet, session, start, St.step, St.mainStep, St.sendStep, St.sendDone, St.runStep, upd]

end Ndn.Engine.Face
