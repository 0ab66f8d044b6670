import Verif.Schema.SvsLife
import Verif.Schema.SvsNodeProps

/-!
# C85: attaching, running and detaching the sync node of a schema tree
-/

namespace Ndn.Schema.Svs

/-! ## Specification -/

/-- Calls made while the tree stays attached: everything but `attach` and `detach`, with vectors that parse. -/
def Call.Calm : Call → Prop
  | .recv => True
  | .newData _ => True
  | .sync r => r ≠ none
  | .timer => False
  | .detach => False
  | .attach => False

/-- A goroutine at its beginning that will only make such calls. -/
def Thr.Calm (t : Thr) : Prop := t.pc = .idle ∧ ∀ c ∈ t.rest, c.Calm

/-- A goroutine that has taken the lock and not released it. -/
def Thr.holds (t : Thr) : Bool :=
  match t.pc with
  | .loop _ _ _ => true
  | .inside _ => true
  | .unlock _ => true
  | _ => false

/-- A goroutine of the timer that has not yet scheduled the next one. -/
def Thr.timing (t : Thr) : Prop := t.pc = .want .timer ∨ t.pc = .inside .timer

/-! ## Proof -/

/-- the positions that occur while the tree stays attached -/
def Pc.Calm : Pc → Prop
  | .idle => True
  | .want c => c = .timer ∨ (c.Calm ∧ c ≠ .recv)
  | .loop _ _ _ => True
  | .inside c => c = .timer ∨ ∃ p, c = .newData p
  | .unlock l => l = false
  | .leaving => False

/-- the number of goroutines that hold the lock -/
def holders (ts : List Thr) : Nat := ts.countP Thr.holds

theorem holders_set {ts : List Thr} {i : Nat} {t : Thr} (ht : ts[i]? = some t) (t' : Thr) :
    holders (ts.set i t') + (if t.holds then 1 else 0) = holders ts + (if t'.holds then 1 else 0) := by
  induction ts generalizing i with
  | nil => simp at ht
  | cons a ts ih =>
    cases i with
    | zero =>
      simp only [List.getElem?_cons_zero, Option.some.injEq] at ht
      subst ht
      simp only [holders, List.set_cons_zero, List.countP_cons]
      omega
    | succ i =>
      simp only [List.getElem?_cons_succ] at ht
      have := ih ht
      simp only [holders, List.set_cons_succ, List.countP_cons] at this ⊢
      omega

theorem holders_pos {ts : List Thr} {i : Nat} {t : Thr} (ht : ts[i]? = some t) (h : t.holds = true) : 0 < holders ts :=
  List.countP_pos_iff.mpr ⟨t, List.mem_of_getElem? ht, h⟩

theorem get_set {ts : List Thr} {i j : Nat} {t t' u : Thr} (ht : ts[i]? = some t) (h : (ts.set i t')[j]? = some u) :
    (j = i ∧ u = t') ∨ (j ≠ i ∧ ts[j]? = some u) := by
  by_cases hij : i = j
  · subst hij
    have hlt : i < ts.length := by
      rcases Nat.lt_or_ge i ts.length with h' | h'
      · exact h'
      · rw [List.getElem?_eq_none h'] at ht
        cases ht
    rw [List.getElem?_set_self hlt] at h
    exact .inl ⟨rfl, (Option.some.inj h).symm⟩
  · rw [List.getElem?_set_ne hij] at h
    exact .inr ⟨fun he => hij he.symm, h⟩

theorem set_get_self {ts : List Thr} {i : Nat} {t : Thr} (ht : ts[i]? = some t) (t' : Thr) : (ts.set i t')[i]? = some t' := by
  have hlt : i < ts.length := by
    rcases Nat.lt_or_ge i ts.length with h' | h'
    · exact h'
    · rw [List.getElem?_eq_none h'] at ht
      cases ht
  exact List.getElem?_set_self hlt

/-- two goroutines that hold the lock are one -/
theorem one_holder {ts : List Thr} {i j : Nat} {t u : Thr} (hi : ts[i]? = some t) (hj : ts[j]? = some u) (ht : t.holds = true) (hu : u.holds = true)
    (h : holders ts ≤ 1) : i = j := by
  apply Classical.byContradiction
  intro hne
  have h1 := holders_set hi ⟨.idle, []⟩
  have hj' : (ts.set i ⟨.idle, []⟩)[j]? = some u := by
    rw [List.getElem?_set_ne hne]
    exact hj
  have h2 := holders_pos hj' hu
  rw [if_pos ht] at h1
  simp only [Thr.holds, Bool.false_eq_true, if_false] at h1
  omega

/-- What holds while the tree stays attached. -/
structure Good (me : Bytes) (s : Life) : Prop where
  alive : s.dead = none
  attached : s.attached = true
  isOpen : s.closed = false
  calm : ∀ (i : Nat) (t : Thr), s.threads[i]? = some t → t.pc.Calm ∧ ∀ c ∈ t.rest, c.Calm
  lock : holders s.threads = if s.locked then 1 else 0
  timers : (s.live = [] ∨ s.live = [s.tok]) ∧ s.tok < s.next
  ticking : s.live = [s.tok] ∨ ∃ (i : Nat) (t : Thr), s.threads[i]? = some t ∧ t.timing
  node : ∃ n, svsNAfter me s.log = .ok n ∧
    (∀ (i : Nat) (t : Thr) (v r : SVec) (b : Bool), s.threads[i]? = some t → t.pc = .loop v r b →
      ∃ pre, v = pre ++ r ∧ (s.node, b) = pre.foldl SvsN.entry (n, false)) ∧
    ((∀ (i : Nat) (t : Thr) (v r : SVec) (b : Bool), s.threads[i]? = some t → t.pc ≠ .loop v r b) → s.node = n)
  room : s.got ≤ s.node.missing.length

theorem Good.start {me : Bytes} {cap : Nat} {ts : List Thr} (h : ∀ t ∈ ts, t.Calm) : Good me (Life.start me cap ts) := by
  have hpc : ∀ (i : Nat) (t : Thr), ts[i]? = some t → t.pc = .idle := fun i t ht => (h t (List.mem_of_getElem? ht)).1
  constructor
  · rfl
  · rfl
  · rfl
  · intro i t ht
    have := h t (List.mem_of_getElem? ht)
    rw [this.1]
    exact ⟨trivial, this.2⟩
  · show holders ts = 0
    apply List.countP_eq_zero.mpr
    intro t ht
    simp [Thr.holds, (h t ht).1]
  · exact ⟨.inr rfl, Nat.zero_lt_one⟩
  · exact .inl rfl
  · refine ⟨SvsN.attach me, rfl, ?_, fun _ => rfl⟩
    intro i t v r b ht hp
    rw [hpc i t ht] at hp
    cases hp
  · exact Nat.zero_le _

/-- the timer after `cancel` and `schedule` -/
theorem resched {l : List Nat} {tok next : Nat} (h : l = [] ∨ l = [tok]) : next :: l.erase tok = [next] := by
  rcases h with rfl | rfl <;> simp

/-- A step of goroutine `i` that leaves node, channel, timers and lock as they are. -/
theorem Good.plain {me : Bytes} {s : Life} {i : Nat} {t t' : Thr} (hs : Good me s) (hi : s.threads[i]? = some t)
    (hpc : t'.pc.Calm) (hr : ∀ c ∈ t'.rest, c.Calm) (hh : t'.holds = t.holds) (htm : t.timing → t'.timing)
    (hl : ∀ v r b, t.pc ≠ .loop v r b) (hl' : ∀ v r b, t'.pc ≠ .loop v r b) (g : Nat) (hg : g ≤ s.node.missing.length) :
    Good me ({ s with got := g }.put i t') := by
  refine ⟨hs.alive, hs.attached, hs.isOpen, ?_, ?_, hs.timers, ?_, ?_, hg⟩
  · intro j u hu
    rcases get_set hi hu with ⟨rfl, rfl⟩ | ⟨_, hu⟩
    · exact ⟨hpc, hr⟩
    · exact hs.calm j u hu
  · have := holders_set hi t'
    rw [hh] at this
    exact (Nat.add_right_cancel this).trans hs.lock
  · rcases hs.ticking with h | ⟨j, u, hj, hu⟩
    · exact .inl h
    · by_cases hji : j = i
      · subst hji
        rw [hi] at hj
        cases hj
        exact .inr ⟨j, t', set_get_self hi t', htm hu⟩
      · refine .inr ⟨j, u, ?_, hu⟩
        simp only [Life.put]
        rw [List.getElem?_set_ne (fun he => hji he.symm)]
        exact hj
  · obtain ⟨n, h1, h2, h3⟩ := hs.node
    refine ⟨n, h1, ?_, ?_⟩
    · intro j u v r b hu hp
      rcases get_set hi hu with ⟨rfl, rfl⟩ | ⟨_, hu⟩
      · exact absurd hp (hl' v r b)
      · exact h2 j u v r b hu hp
    · intro hno
      apply h3
      intro j u v r b hu hp
      by_cases hji : j = i
      · subst hji
        rw [hi] at hu
        cases hu
        exact hl v r b hp
      · refine hno j u v r b ?_ hp
        simp only [Life.put]
        rw [List.getElem?_set_ne (fun he => hji he.symm)]
        exact hu

/-- The end of a function that holds the lock: the goroutine gets to `Unlock`. -/
theorem Good.body {me : Bytes} {s : Life} {i : Nat} {t : Thr} (hs : Good me s) (hi : s.threads[i]? = some t) (hh : t.holds = true)
    (n' : SvsN) (e : SvsNEvent) (live : List Nat) (tok next : Nat)
    (hn : ∀ n, svsNAfter me s.log = .ok n →
      ((∀ v r b, t.pc ≠ .loop v r b) → s.node = n) →
      (∀ v r b, t.pc = .loop v r b → ∃ pre, v = pre ++ r ∧ (s.node, b) = pre.foldl SvsN.entry (n, false)) → n.step e = .ok n')
    (hgot : s.got ≤ n'.missing.length)
    (htim : (live = [] ∨ live = [tok]) ∧ tok < next)
    (htick : live = [tok] ∨ (live = s.live ∧ tok = s.tok ∧ ¬ t.timing)) :
    Good me ({ s with node := n', log := e :: s.log, live := live, tok := tok, next := next }.put i ⟨.unlock false, t.rest⟩) := by
  have hone : ∀ (j : Nat) (u : Thr), s.threads[j]? = some u → u.holds = true → j = i := by
    intro j u hu huh
    refine one_holder hu hi huh hh ?_
    rw [hs.lock]
    split <;> omega
  have nolp : ∀ (j : Nat) (u : Thr) (v r : SVec) (b : Bool), j ≠ i → s.threads[j]? = some u → u.pc ≠ .loop v r b := by
    intro j u v r b hji hu hp
    exact hji (hone j u hu (by simp [Thr.holds, hp]))
  refine ⟨hs.alive, hs.attached, hs.isOpen, ?_, ?_, htim, ?_, ?_, hgot⟩
  · intro j u hu
    rcases get_set hi hu with ⟨rfl, rfl⟩ | ⟨_, hu⟩
    · exact ⟨rfl, (hs.calm j t hi).2⟩
    · exact hs.calm j u hu
  · have := holders_set hi ⟨.unlock false, t.rest⟩
    rw [if_pos hh] at this
    exact (Nat.add_right_cancel this).trans hs.lock
  · rcases htick with h | ⟨h1, h2, h3⟩
    · exact .inl h
    · subst h1 h2
      rcases hs.ticking with h | ⟨j, u, hj, hu⟩
      · exact .inl h
      · have hji : j ≠ i := by
          rintro rfl
          rw [hi] at hj
          cases hj
          exact h3 hu
        refine .inr ⟨j, u, ?_, hu⟩
        simp only [Life.put]
        rw [List.getElem?_set_ne (fun he => hji he.symm)]
        exact hj
  · obtain ⟨n, h1, h2, h3⟩ := hs.node
    have hst := hn n h1 (fun hnl => h3 (fun j u v r b hu hp => by
        by_cases hji : j = i
        · subst hji
          rw [hi] at hu
          cases hu
          exact hnl v r b hp
        · exact nolp j u v r b hji hu hp)) (fun v r b hp => h2 i t v r b hi hp)
    refine ⟨n', ?_, ?_, fun _ => rfl⟩
    · simp only [Life.put, svsNAfter, h1]
      exact hst
    · intro j u v r b hu hp
      rcases get_set hi hu with ⟨rfl, rfl⟩ | ⟨hji, hu⟩
      · cases hp
      · exact absurd hp (nolp j u v r b hji hu)

theorem entry_missing_le (st : SvsN × Bool) (cur : Bytes × Nat) : st.1.missing.length ≤ (SvsN.entry st cur).1.missing.length := by
  unfold SvsN.entry
  split
  · simp
  · split
    · simp
    · split <;> simp

theorem onSyncTimer_eq (n : SvsN) : n.onSyncTimer.missing = n.missing := (timer_frame n).2.1

/-- Taking the lock. -/
theorem Good.take {me : Bytes} {s : Life} {i : Nat} {t t' : Thr} (hs : Good me s) (hi : s.threads[i]? = some t) (hl : s.locked = false)
    (hpc : t'.pc.Calm) (hr : ∀ c ∈ t'.rest, c.Calm) (hh : t.holds = false) (hh' : t'.holds = true) (htm : t.timing → t'.timing)
    (hloop : ∀ v r b, t'.pc = .loop v r b → r = v ∧ b = false) :
    Good me ({ s with locked := true }.put i t') := by
  have h0 : holders s.threads = 0 := by
    rw [hs.lock, hl]
    rfl
  have nol : ∀ (j : Nat) (u : Thr) (v r : SVec) (b : Bool), s.threads[j]? = some u → u.pc ≠ .loop v r b := by
    intro j u v r b hu hp
    have := holders_pos hu (by simp [Thr.holds, hp])
    omega
  refine ⟨hs.alive, hs.attached, hs.isOpen, ?_, ?_, hs.timers, ?_, ?_, hs.room⟩
  · intro j u hu
    rcases get_set hi hu with ⟨rfl, rfl⟩ | ⟨_, hu⟩
    · exact ⟨hpc, hr⟩
    · exact hs.calm j u hu
  · have := holders_set hi t'
    rw [if_pos hh', hh, h0] at this
    show holders (s.threads.set i t') = 1
    simpa using this
  · rcases hs.ticking with h | ⟨j, u, hj, hu⟩
    · exact .inl h
    · by_cases hji : j = i
      · subst hji
        rw [hi] at hj
        cases hj
        exact .inr ⟨j, t', set_get_self hi t', htm hu⟩
      · refine .inr ⟨j, u, ?_, hu⟩
        simp only [Life.put]
        rw [List.getElem?_set_ne (fun he => hji he.symm)]
        exact hj
  · obtain ⟨n, h1, h2, h3⟩ := hs.node
    have hn := h3 (fun j u v r b hu => nol j u v r b hu)
    refine ⟨n, h1, ?_, fun _ => hn⟩
    intro j u v r b hu hp
    rcases get_set hi hu with ⟨rfl, rfl⟩ | ⟨_, hu⟩
    · obtain ⟨rfl, rfl⟩ := hloop v r b hp
      exact ⟨[], rfl, by simp [Life.put, hn]⟩
    · exact absurd hp (nol j u v r b hu)

/-- One turn of the loop. -/
theorem Good.turn {me : Bytes} {s : Life} {i : Nat} {t : Thr} {v cs : SVec} {cur : Bytes × Nat} {b : Bool} (hs : Good me s)
    (hi : s.threads[i]? = some t) (hp : t.pc = .loop v (cur :: cs) b) :
    Good me ({ s with node := (SvsN.entry (s.node, b) cur).1 }.put i ⟨.loop v cs (SvsN.entry (s.node, b) cur).2, t.rest⟩) := by
  have hh : t.holds = true := by simp [Thr.holds, hp]
  have hone : ∀ (j : Nat) (u : Thr), s.threads[j]? = some u → u.holds = true → j = i := by
    intro j u hu huh
    refine one_holder hu hi huh hh ?_
    rw [hs.lock]
    split <;> omega
  refine ⟨hs.alive, hs.attached, hs.isOpen, ?_, ?_, hs.timers, ?_, ?_, ?_⟩
  · intro j u hu
    rcases get_set hi hu with ⟨rfl, rfl⟩ | ⟨_, hu⟩
    · exact ⟨trivial, (hs.calm j t hi).2⟩
    · exact hs.calm j u hu
  · have := holders_set hi ⟨.loop v cs (SvsN.entry (s.node, b) cur).2, t.rest⟩
    rw [if_pos hh] at this
    exact (Nat.add_right_cancel this).trans hs.lock
  · rcases hs.ticking with h | ⟨j, u, hj, hu⟩
    · exact .inl h
    · have hji : j ≠ i := by
        rintro rfl
        rw [hi] at hj
        cases hj
        rcases hu with hu | hu <;> rw [hp] at hu <;> cases hu
      refine .inr ⟨j, u, ?_, hu⟩
      simp only [Life.put]
      rw [List.getElem?_set_ne (fun he => hji he.symm)]
      exact hj
  · obtain ⟨n, h1, h2, h3⟩ := hs.node
    refine ⟨n, h1, ?_, ?_⟩
    · intro j u v' r b' hu hp'
      rcases get_set hi hu with ⟨rfl, rfl⟩ | ⟨hji, hu⟩
      · cases hp'
        obtain ⟨pre, hv, hf⟩ := h2 j t v (cur :: cs) b hi hp
        refine ⟨pre ++ [cur], by simp [hv], ?_⟩
        rw [List.foldl_append, ← hf]
        rfl
      · exact absurd (hone j u hu (by simp [Thr.holds, hp'])) hji
    · intro hno
      exact absurd rfl (hno i _ v cs _ (set_get_self hi _))
  · exact Nat.le_trans hs.room (entry_missing_le (s.node, b) cur)

/-- Releasing the lock. -/
theorem Good.release {me : Bytes} {s : Life} {i : Nat} {t : Thr} (hs : Good me s) (hi : s.threads[i]? = some t) (hp : t.pc = .unlock false) :
    s.locked = true ∧ Good me ({ s with locked := false }.put i ⟨.idle, t.rest⟩) := by
  have hh : t.holds = true := by simp [Thr.holds, hp]
  have hpos := holders_pos hi hh
  have hl : s.locked = true := by
    have := hs.lock
    cases h : s.locked
    · rw [h] at this
      simp at this
      omega
    · rfl
  have hone : ∀ (j : Nat) (u : Thr), s.threads[j]? = some u → u.holds = true → j = i := by
    intro j u hu huh
    refine one_holder hu hi huh hh ?_
    rw [hs.lock]
    split <;> omega
  have nol : ∀ (j : Nat) (u : Thr) (v r : SVec) (b : Bool), s.threads[j]? = some u → u.pc ≠ .loop v r b := by
    intro j u v r b hu hp'
    have := hone j u hu (by simp [Thr.holds, hp'])
    subst this
    rw [hi] at hu
    cases hu
    rw [hp] at hp'
    cases hp'
  refine ⟨hl, hs.alive, hs.attached, hs.isOpen, ?_, ?_, hs.timers, ?_, ?_, hs.room⟩
  · intro j u hu
    rcases get_set hi hu with ⟨rfl, rfl⟩ | ⟨_, hu⟩
    · exact ⟨trivial, (hs.calm j t hi).2⟩
    · exact hs.calm j u hu
  · have := holders_set hi ⟨.idle, t.rest⟩
    rw [if_pos hh, hs.lock, hl] at this
    show holders (s.threads.set i ⟨.idle, t.rest⟩) = 0
    simpa [Thr.holds] using this
  · rcases hs.ticking with h | ⟨j, u, hj, hu⟩
    · exact .inl h
    · have hji : j ≠ i := by
        rintro rfl
        rw [hi] at hj
        cases hj
        rcases hu with hu | hu <;> rw [hp] at hu <;> cases hu
      refine .inr ⟨j, u, ?_, hu⟩
      simp only [Life.put]
      rw [List.getElem?_set_ne (fun he => hji he.symm)]
      exact hj
  · obtain ⟨n, h1, h2, h3⟩ := hs.node
    have hn := h3 (fun j u v r b hu => nol j u v r b hu)
    refine ⟨n, h1, ?_, fun _ => hn⟩
    intro j u v r b hu hp'
    rcases get_set hi hu with ⟨rfl, rfl⟩ | ⟨_, hu⟩
    · cases hp'
    · exact absurd hp' (nol j u v r b hu)

theorem Good.step {me : Bytes} {s s' : Life} {i : Nat} (hs : Good me s) (h : s.step i = some s') : Good me s' := by
  unfold Life.step at h
  split at h
  · rename_i hd
    rw [hs.alive] at hd
    cases hd
  cases hi : s.threads[i]? with
  | none => rw [hi] at h; cases h
  | some t =>
    rw [hi] at h
    dsimp only at h
    have hc := hs.calm i t hi
    cases hp : t.pc with
    | idle =>
      rw [hp] at h
      dsimp only at h
      have hh : t.holds = false := by simp [Thr.holds, hp]
      have hnt : ¬ t.timing := by
        rintro (h | h) <;> rw [hp] at h <;> cases h
      have hnl : ∀ v r b, t.pc ≠ .loop v r b := by
        intro v r b h
        rw [hp] at h
        cases h
      cases hr : t.rest with
      | nil => rw [hr] at h; cases h
      | cons c r =>
        rw [hr] at h
        have hcc := hc.2
        rw [hr] at hcc
        have hc0 := hcc c (by simp)
        have hcr : ∀ c ∈ r, c.Calm := fun c hc => hcc c (by simp [hc])
        cases c with
        | recv =>
          dsimp only at h
          split at h
          · rename_i hlt
            obtain rfl := Option.some.inj h
            exact hs.plain hi (t' := ⟨.idle, r⟩) trivial hcr (by rw [hh]; rfl) (fun h => absurd h hnt) hnl (fun _ _ _ h => nomatch h) _ hlt
          · rw [hs.isOpen] at h
            simp at h
        | newData p =>
          obtain rfl := Option.some.inj h
          exact hs.plain hi (t' := ⟨.want (.newData p), r⟩) (.inr ⟨trivial, fun h => nomatch h⟩) hcr (by rw [hh]; rfl) (fun h => absurd h hnt) hnl
            (fun _ _ _ h => nomatch h) s.got hs.room
        | sync v =>
          obtain rfl := Option.some.inj h
          exact hs.plain hi (t' := ⟨.want (.sync v), r⟩) (.inr ⟨hc0, fun h => nomatch h⟩) hcr (by rw [hh]; rfl) (fun h => absurd h hnt) hnl
            (fun _ _ _ h => nomatch h) s.got hs.room
        | timer => exact absurd hc0 id
        | detach => exact absurd hc0 id
        | attach => exact absurd hc0 id
    | want c =>
      rw [hp] at h
      dsimp only at h
      have hh : t.holds = false := by simp [Thr.holds, hp]
      have hcp := hc.1
      rw [hp] at hcp
      split at h
      · cases h
      · rename_i hl
        have hl : s.locked = false := by simpa using hl
        cases c with
        | recv => exact absurd rfl (hcp.resolve_left (fun h => nomatch h)).2
        | newData p =>
          obtain rfl := Option.some.inj h
          refine hs.take hi hl (t' := ⟨.inside (.newData p), t.rest⟩) (.inr ⟨p, rfl⟩) hc.2 hh rfl ?_ (fun _ _ _ h => nomatch h)
          rintro (h | h) <;> rw [hp] at h <;> cases h
        | sync v =>
          cases v with
          | none => exact absurd rfl (hcp.resolve_left (fun h => nomatch h)).1
          | some v =>
            obtain rfl := Option.some.inj h
            refine hs.take hi hl (t' := ⟨.loop v v false, t.rest⟩) trivial hc.2 hh rfl ?_ ?_
            · rintro (h | h) <;> rw [hp] at h <;> cases h
            · intro v' r b h
              cases h
              exact ⟨rfl, rfl⟩
        | timer =>
          obtain rfl := Option.some.inj h
          exact hs.take hi hl (t' := ⟨.inside .timer, t.rest⟩) (.inl rfl) hc.2 hh rfl (fun _ => .inr rfl) (fun _ _ _ h => nomatch h)
        | detach => exact absurd (hcp.resolve_left (fun h => nomatch h)).1 id
        | attach => exact absurd (hcp.resolve_left (fun h => nomatch h)).1 id
    | loop v r b =>
      rw [hp] at h
      have hh : t.holds = true := by simp [Thr.holds, hp]
      cases r with
      | cons cur cs =>
        dsimp only at h
        split at h
        · obtain rfl := Option.some.inj h
          exact hs.turn hi hp
        · rw [if_neg (by simp [hs.isOpen])] at h
          split at h
          · cases h
          · obtain rfl := Option.some.inj h
            exact hs.turn hi hp
      | nil =>
        dsimp only at h
        obtain rfl := Option.some.inj h
        have hnt : ¬ t.timing := by
          rintro (h | h) <;> rw [hp] at h <;> cases h
        have hsync : ∀ n, (∀ v' r b', t.pc = .loop v' r b' → ∃ pre, v' = pre ++ r ∧ (s.node, b') = pre.foldl SvsN.entry (n, false)) →
            (s.node, b) = v.foldl SvsN.entry (n, false) := by
          intro n hn
          obtain ⟨pre, hv, hf⟩ := hn v [] b hp
          rw [List.append_nil] at hv
          rw [hv]
          exact hf
        unfold Life.finish
        dsimp only
        split
        · rename_i hnn
          split
          · rename_i hsup
            refine hs.body hi hh { s.node with suppress := true, agg := v } (.sync (some v)) (s.next :: s.live.erase s.tok) s.next (s.next + 1) ?_ hs.room
              ⟨.inr (resched hs.timers.1), Nat.lt_succ_self _⟩ (.inl (resched hs.timers.1))
            intro n _ _ hl
            have := hsync n hl
            simp only [SvsN.step, SvsN.onSyncInt, ← this]
            rw [if_pos hnn, if_pos hsup]
          · rename_i hsup
            refine hs.body hi hh { s.node with agg := v.foldl aggEntry s.node.agg } (.sync (some v)) s.live s.tok s.next ?_ hs.room hs.timers
              (.inr ⟨rfl, rfl, hnt⟩)
            intro n _ _ hl
            have := hsync n hl
            simp only [SvsN.step, SvsN.onSyncInt, ← this]
            rw [if_pos hnn, if_neg hsup]
        · rename_i hnn
          refine hs.body hi hh s.node (.sync (some v)) (s.next :: s.live.erase s.tok) s.next (s.next + 1) ?_ hs.room
            ⟨.inr (resched hs.timers.1), Nat.lt_succ_self _⟩ (.inl (resched hs.timers.1))
          intro n _ _ hl
          have := hsync n hl
          simp only [SvsN.step, SvsN.onSyncInt, ← this]
          rw [if_neg hnn]
    | inside c =>
      rw [hp] at h
      have hh : t.holds = true := by simp [Thr.holds, hp]
      have hcp := hc.1
      rw [hp] at hcp
      have hnl : ∀ v r b, t.pc ≠ .loop v r b := by
        intro v r b h
        rw [hp] at h
        cases h
      rcases hcp with rfl | ⟨p, rfl⟩
      · dsimp only at h
        rw [if_neg (by simp [hs.attached])] at h
        obtain rfl := Option.some.inj h
        refine hs.body hi hh s.node.onSyncTimer .timer (s.next :: s.live.erase s.tok) s.next (s.next + 1) ?_ ?_
          ⟨.inr (resched hs.timers.1), Nat.lt_succ_self _⟩ (.inl (resched hs.timers.1))
        · intro n _ hn _
          rw [hn hnl]
          rfl
        · rw [onSyncTimer_eq]
          exact hs.room
      · dsimp only at h
        rw [if_pos hs.attached] at h
        obtain rfl := Option.some.inj h
        refine hs.body hi hh (s.node.newData p) (.newData p) s.live s.tok s.next ?_ ?_ hs.timers (.inr ⟨rfl, rfl, ?_⟩)
        · intro n _ hn _
          rw [hn hnl]
          rfl
        · rw [(newData_frame s.node p).1]
          exact hs.room
        · rintro (h | h) <;> rw [hp] at h <;> cases h
    | unlock l =>
      rw [hp] at h
      have hcp := hc.1
      rw [hp] at hcp
      obtain rfl : l = false := hcp
      obtain ⟨hl, hg⟩ := hs.release hi hp
      dsimp only at h
      rw [if_pos hl] at h
      obtain rfl := Option.some.inj h
      exact hg
    | leaving =>
      have hcp := hc.1
      rw [hp] at hcp
      exact absurd hcp id

theorem Good.fire {me : Bytes} {s s' : Life} {n : Nat} (hs : Good me s) (h : s.fire n = some s') : Good me s' := by
  unfold Life.fire at h
  split at h
  · rename_i hd
    rw [hs.alive] at hd
    cases hd
  split at h
  · rename_i hn
    obtain rfl := Option.some.inj h
    have hlive : s.live = [s.tok] := hs.timers.1.resolve_left (fun h => by rw [h] at hn; cases hn)
    rw [hlive] at hn
    obtain rfl : n = s.tok := by simpa using hn
    have key : ∀ (j : Nat) (u : Thr), (s.threads ++ [(⟨.want .timer, []⟩ : Thr)])[j]? = some u →
        s.threads[j]? = some u ∨ u = ⟨.want .timer, []⟩ := by
      intro j u hu
      rw [List.getElem?_append] at hu
      split at hu
      · exact .inl hu
      · right
        have := List.mem_of_getElem? hu
        simpa using this
    refine ⟨hs.alive, hs.attached, hs.isOpen, ?_, ?_, ⟨.inl ?_, hs.timers.2⟩, ?_, ?_, hs.room⟩
    · intro j u hu
      rcases key j u hu with hu | rfl
      · exact hs.calm j u hu
      · exact ⟨.inl rfl, fun c hc => nomatch hc⟩
    · have : holders (s.threads ++ [(⟨.want .timer, []⟩ : Thr)]) = holders s.threads := by
        simp [holders, List.countP_append, Thr.holds]
      exact this.trans hs.lock
    · rw [hlive]
      simp
    · exact .inr ⟨s.threads.length, ⟨.want .timer, []⟩, by simp, .inl rfl⟩
    · obtain ⟨n, h1, h2, h3⟩ := hs.node
      refine ⟨n, h1, ?_, ?_⟩
      · intro j u v r b hu hp
        rcases key j u hu with hu | rfl
        · exact h2 j u v r b hu hp
        · cases hp
      · intro hno
        apply h3
        intro j u v r b hu
        refine hno j u v r b ?_
        have hlt : j < s.threads.length := by
          rcases Nat.lt_or_ge j s.threads.length with h' | h'
          · exact h'
          · rw [List.getElem?_eq_none h'] at hu
            cases hu
        rw [List.getElem?_append_left hlt]
        exact hu
  · cases h

theorem Good.leads {me : Bytes} {s s' : Life} (hs : Good me s) (h : Leads s s') : Good me s' := by
  induction h with
  | refl => exact hs
  | step _ h ih => exact ih.step h
  | fire _ h ih => exact ih.fire h

/-! ### Calls end -/

/-- steps of a call -/
def Call.cost : Call → Nat
  | .sync (some v) => v.length + 5
  | _ => 5

/-- steps to the end of the present call -/
def Pc.cost : Pc → Nat
  | .idle => 0
  | .want (.sync (some v)) => v.length + 4
  | .want _ => 4
  | .loop _ r _ => r.length + 3
  | .inside _ => 3
  | .unlock _ => 2
  | .leaving => 1

def Thr.cost (t : Thr) : Nat := t.pc.cost + (t.rest.map Call.cost).sum

def Life.cost (s : Life) : Nat := (s.threads.map Thr.cost).sum

theorem cost_set {ts : List Thr} {i : Nat} {t t' : Thr} (ht : ts[i]? = some t) (h : t'.cost < t.cost) :
    ((ts.set i t').map Thr.cost).sum < (ts.map Thr.cost).sum := by
  induction ts generalizing i with
  | nil => simp at ht
  | cons a ts ih =>
    cases i with
    | zero =>
      simp only [List.getElem?_cons_zero, Option.some.injEq] at ht
      subst ht
      simp only [List.set_cons_zero, List.map_cons, List.sum_cons]
      omega
    | succ i =>
      simp only [List.getElem?_cons_succ] at ht
      have := ih ht
      simp only [List.set_cons_succ, List.map_cons, List.sum_cons]
      omega

/-- What a step does to the goroutines and to the size of the channel. -/
theorem step_shape {s s' : Life} {i : Nat} (h : s.step i = some s') :
    s'.cap = s.cap ∧ (s'.dead ≠ none ∨ ∃ t t', s.threads[i]? = some t ∧ s'.threads = s.threads.set i t' ∧ t'.cost < t.cost) := by
  unfold Life.step at h
  split at h
  · cases h
  · cases hi : s.threads[i]? with
    | none => rw [hi] at h; cases h
    | some t =>
      rw [hi] at h
      dsimp only at h
      obtain ⟨pc, rest⟩ := t
      cases pc with
      | idle =>
        dsimp only at h
        cases rest with
        | nil => cases h
        | cons c r =>
          cases c with
          | recv =>
            dsimp only at h
            split at h
            · obtain rfl := Option.some.inj h
              exact ⟨rfl, .inr ⟨_, _, rfl, rfl, by simp [Thr.cost, Pc.cost, Call.cost]⟩⟩
            · split at h
              · obtain rfl := Option.some.inj h
                exact ⟨rfl, .inr ⟨_, _, rfl, rfl, by simp [Thr.cost, Pc.cost, Call.cost]⟩⟩
              · cases h
          | sync v =>
            obtain rfl := Option.some.inj h
            refine ⟨rfl, .inr ⟨_, _, rfl, rfl, ?_⟩⟩
            cases v <;> simp [Thr.cost, Pc.cost, Call.cost] <;> omega
          | newData p =>
            obtain rfl := Option.some.inj h
            exact ⟨rfl, .inr ⟨_, _, rfl, rfl, by simp [Thr.cost, Pc.cost, Call.cost]⟩⟩
          | timer =>
            obtain rfl := Option.some.inj h
            exact ⟨rfl, .inr ⟨_, _, rfl, rfl, by simp [Thr.cost, Pc.cost, Call.cost]⟩⟩
          | detach =>
            obtain rfl := Option.some.inj h
            exact ⟨rfl, .inr ⟨_, _, rfl, rfl, by simp [Thr.cost, Pc.cost, Call.cost]⟩⟩
          | attach =>
            obtain rfl := Option.some.inj h
            exact ⟨rfl, .inr ⟨_, _, rfl, rfl, by simp [Thr.cost, Pc.cost, Call.cost]⟩⟩
      | want c =>
        dsimp only at h
        split at h
        · cases h
        · cases c with
          | sync v =>
            cases v with
            | none =>
              obtain rfl := Option.some.inj h
              exact ⟨rfl, .inl (fun h => nomatch h)⟩
            | some v =>
              obtain rfl := Option.some.inj h
              exact ⟨rfl, .inr ⟨_, _, rfl, rfl, by simp [Thr.cost, Pc.cost]⟩⟩
          | recv =>
            obtain rfl := Option.some.inj h
            exact ⟨rfl, .inr ⟨_, _, rfl, rfl, by simp [Thr.cost, Pc.cost]⟩⟩
          | newData p =>
            obtain rfl := Option.some.inj h
            exact ⟨rfl, .inr ⟨_, _, rfl, rfl, by simp [Thr.cost, Pc.cost]⟩⟩
          | timer =>
            obtain rfl := Option.some.inj h
            exact ⟨rfl, .inr ⟨_, _, rfl, rfl, by simp [Thr.cost, Pc.cost]⟩⟩
          | detach =>
            obtain rfl := Option.some.inj h
            exact ⟨rfl, .inr ⟨_, _, rfl, rfl, by simp [Thr.cost, Pc.cost]⟩⟩
          | attach =>
            obtain rfl := Option.some.inj h
            exact ⟨rfl, .inr ⟨_, _, rfl, rfl, by simp [Thr.cost, Pc.cost]⟩⟩
      | loop v r b =>
        cases r with
        | cons cur cs =>
          dsimp only at h
          split at h
          · obtain rfl := Option.some.inj h
            exact ⟨rfl, .inr ⟨_, _, rfl, rfl, by simp [Thr.cost, Pc.cost]⟩⟩
          · split at h
            · obtain rfl := Option.some.inj h
              exact ⟨rfl, .inl (fun h => nomatch h)⟩
            · split at h
              · cases h
              · obtain rfl := Option.some.inj h
                exact ⟨rfl, .inr ⟨_, _, rfl, rfl, by simp [Thr.cost, Pc.cost]⟩⟩
        | nil =>
          obtain rfl := Option.some.inj h
          have h1 : (s.finish v b).cap = s.cap ∧ (s.finish v b).threads = s.threads := by
            unfold Life.finish
            dsimp only
            split
            · split <;> exact ⟨rfl, rfl⟩
            · exact ⟨rfl, rfl⟩
          refine ⟨h1.1, .inr ⟨_, ⟨.unlock false, rest⟩, rfl, ?_, by simp [Thr.cost, Pc.cost]⟩⟩
          simp only [Life.put, h1.2]
      | inside c =>
        cases c with
        | timer =>
          dsimp only at h
          split at h
          · obtain rfl := Option.some.inj h
            exact ⟨rfl, .inl (fun h => nomatch h)⟩
          · obtain rfl := Option.some.inj h
            exact ⟨rfl, .inr ⟨_, _, rfl, rfl, by simp [Thr.cost, Pc.cost]⟩⟩
        | newData p =>
          dsimp only at h
          split at h
          · obtain rfl := Option.some.inj h
            exact ⟨rfl, .inr ⟨_, _, rfl, rfl, by simp [Thr.cost, Pc.cost]⟩⟩
          · obtain rfl := Option.some.inj h
            exact ⟨rfl, .inl (fun h => nomatch h)⟩
        | detach =>
          dsimp only at h
          split at h
          · obtain rfl := Option.some.inj h
            exact ⟨rfl, .inl (fun h => nomatch h)⟩
          · obtain rfl := Option.some.inj h
            exact ⟨rfl, .inr ⟨_, _, rfl, rfl, by simp [Thr.cost, Pc.cost]⟩⟩
        | attach =>
          dsimp only at h
          split at h
          · obtain rfl := Option.some.inj h
            exact ⟨rfl, .inl (fun h => nomatch h)⟩
          · obtain rfl := Option.some.inj h
            exact ⟨rfl, .inr ⟨_, _, rfl, rfl, by simp [Thr.cost, Pc.cost]⟩⟩
        | recv => cases h
        | sync v => cases h
      | unlock l =>
        dsimp only at h
        split at h
        · obtain rfl := Option.some.inj h
          refine ⟨rfl, .inr ⟨_, _, rfl, rfl, ?_⟩⟩
          cases l <;> simp [Thr.cost, Pc.cost]
        · obtain rfl := Option.some.inj h
          exact ⟨rfl, .inl (fun h => nomatch h)⟩
      | leaving =>
        obtain rfl := Option.some.inj h
        exact ⟨rfl, .inr ⟨_, _, rfl, rfl, by simp [Thr.cost, Pc.cost]⟩⟩

theorem leads_cap {s s' : Life} (h : Leads s s') : s'.cap = s.cap := by
  induction h with
  | refl => rfl
  | step _ h ih => exact (step_shape h).1.trans ih
  | @fire a b n _ h ih =>
    unfold Life.fire at h
    split at h
    · cases h
    · split at h
      · obtain rfl := Option.some.inj h
        exact ih
      · cases h

/-! ## The theorems -/

/-- While the tree stays attached, whatever the goroutines that receive Sync Interests, publish and read the channel do, and whenever the timers expire:
no panic, and at most one goroutine is between `Lock` and `Unlock`. -/
theorem C85_calm_partial (me : Bytes) (cap : Nat) (ts : List Thr) (h : ∀ t ∈ ts, t.Calm) (s : Life) (hr : Leads (Life.start me cap ts) s) :
    s.dead = none ∧ ∀ (i j : Nat) (t u : Thr), s.threads[i]? = some t → s.threads[j]? = some u → t.holds = true → u.holds = true → i = j := by
  have hs := (Good.start h).leads hr
  refine ⟨hs.alive, fun i j t u hi hj ht hu => one_holder hi hj ht hu ?_⟩
  rw [hs.lock]
  split <;> omega

/-- The node never falls silent and never has two timers: one is scheduled, which the next call cancels, or the goroutine of the one that expired is about to
schedule the next. -/
theorem C85_ticking_partial (me : Bytes) (cap : Nat) (ts : List Thr) (h : ∀ t ∈ ts, t.Calm) (s : Life) (hr : Leads (Life.start me cap ts) s) :
    s.live = [s.tok] ∨ (s.live = [] ∧ ∃ t ∈ s.threads, t.timing) := by
  have hs := (Good.start h).leads hr
  rcases hs.timers.1 with h0 | h1
  · rcases hs.ticking with h | ⟨i, t, hi, ht⟩
    · exact .inl h
    · exact .inr ⟨h0, t, List.mem_of_getElem? hi, ht⟩
  · exact .inl h1

/-- The functions of the node behave as if they ran one after the other, in the order in which they got the lock: when no one holds it, the node is what
the sequential model makes of that history (so that C56 and C62 hold with any goroutines). -/
theorem C85_refines_partial (me : Bytes) (cap : Nat) (ts : List Thr) (h : ∀ t ∈ ts, t.Calm) (s : Life) (hr : Leads (Life.start me cap ts) s)
    (hfree : ∀ t ∈ s.threads, t.holds = false) : svsNAfter me s.log = .ok s.node := by
  have hs := (Good.start h).leads hr
  obtain ⟨n, h1, _, h3⟩ := hs.node
  rw [h3 ?_]
  · exact h1
  · intro i t v r b hi hp
    have := hfree t (List.mem_of_getElem? hi)
    simp [Thr.holds, hp] at this

/-- As long as a goroutine goes on reading the channel, nobody waits for ever: if some goroutine is in a call (or about to make one that does not wait for
data), some goroutine can go on. -/
theorem C85_progress_partial (me : Bytes) (cap : Nat) (hcap : 0 < cap) (ts : List Thr) (h : ∀ t ∈ ts, t.Calm) (s : Life)
    (hr : Leads (Life.start me cap ts) s) {k : Nat} {r : List Call} (hk : s.threads[k]? = some ⟨.idle, .recv :: r⟩)
    {j : Nat} {t : Thr} (hj : s.threads[j]? = some t) (hbusy : t.pc ≠ .idle ∨ ∃ c r, t.rest = c :: r ∧ c ≠ .recv) :
    ∃ i s', s.step i = some s' := by
  have hs := (Good.start h).leads hr
  have hd := hs.alive
  have hsc : s.cap = cap := leads_cap hr
  cases hl : s.locked with
  | true =>
    have hpos : 0 < holders s.threads := by
      rw [hs.lock, hl]
      exact Nat.one_pos
    obtain ⟨u, hu, huh⟩ := List.countP_pos_iff.mp hpos
    obtain ⟨i, hi⟩ := List.mem_iff_getElem?.mp hu
    have hc := (hs.calm i u hi).1
    cases hp : u.pc with
    | idle => simp [Thr.holds, hp] at huh
    | want c => simp [Thr.holds, hp] at huh
    | leaving => simp [Thr.holds, hp] at huh
    | loop v rest b =>
      cases rest with
      | nil => exact ⟨i, _, by simp only [Life.step, hd, hi, hp]; rfl⟩
      | cons cur cs =>
        by_cases hm : (SvsN.entry (s.node, b) cur).1.missing.length = s.node.missing.length
        · exact ⟨i, _, by simp only [Life.step, hd, hi, hp]; rw [if_pos hm]⟩
        · by_cases hf : s.cap ≤ s.node.missing.length - s.got
          · have hlt : s.got < s.node.missing.length := by omega
            exact ⟨k, _, by simp only [Life.step, hd, hk]; rw [if_pos hlt]⟩
          · exact ⟨i, _, by
              simp only [Life.step, hd, hi, hp]
              rw [if_neg hm, if_neg (by simp [hs.isOpen]), if_neg hf]⟩
    | inside c =>
      rw [hp] at hc
      rcases hc with rfl | ⟨p, rfl⟩
      · exact ⟨i, _, by simp only [Life.step, hd, hi, hp]; rw [if_neg (by simp [hs.attached])]⟩
      · exact ⟨i, _, by simp only [Life.step, hd, hi, hp]; rw [if_pos hs.attached]⟩
    | unlock l => exact ⟨i, _, by simp only [Life.step, hd, hi, hp]; rw [if_pos hl]⟩
  | false =>
    have hnl : t.holds = false := by
      cases ht : t.holds
      · rfl
      · have := holders_pos hj ht
        rw [hs.lock, hl] at this
        simp at this
    have hc := hs.calm j t hj
    cases hp : t.pc with
    | idle =>
      rcases hbusy with h' | ⟨c, r', hrest, hne⟩
      · exact absurd hp h'
      · have hcc := hc.2 c (by rw [hrest]; simp)
        cases c with
        | recv => exact absurd rfl hne
        | newData p => exact ⟨j, _, by simp only [Life.step, hd, hj, hp, hrest]; rfl⟩
        | sync v => exact ⟨j, _, by simp only [Life.step, hd, hj, hp, hrest]; rfl⟩
        | timer => exact absurd hcc id
        | detach => exact absurd hcc id
        | attach => exact absurd hcc id
    | want c =>
      have hcp := hc.1
      rw [hp] at hcp
      have hnl' : ¬ s.locked = true := by simp [hl]
      cases c with
      | recv => exact absurd rfl (hcp.resolve_left (fun h => nomatch h)).2
      | newData p => exact ⟨j, _, by simp only [Life.step, hd, hj, hp]; rw [if_neg hnl']⟩
      | sync v =>
        cases v with
        | none => exact absurd rfl (hcp.resolve_left (fun h => nomatch h)).1
        | some v => exact ⟨j, _, by simp only [Life.step, hd, hj, hp]; rw [if_neg hnl']⟩
      | timer => exact ⟨j, _, by simp only [Life.step, hd, hj, hp]; rw [if_neg hnl']⟩
      | detach => exact absurd (hcp.resolve_left (fun h => nomatch h)).1 id
      | attach => exact absurd (hcp.resolve_left (fun h => nomatch h)).1 id
    | loop v rest b => simp [Thr.holds, hp] at hnl
    | inside c => simp [Thr.holds, hp] at hnl
    | unlock l => simp [Thr.holds, hp] at hnl
    | leaving => exact ⟨j, _, by simp only [Life.step, hd, hj, hp]; rfl⟩

/-- Between two expirations of timers the goroutines do not go on for ever: with `C85_progress_partial`, every call comes to its end while the channel is
read. -/
theorem C85_returns_partial (me : Bytes) (cap : Nat) (ts : List Thr) (h : ∀ t ∈ ts, t.Calm) (s : Life) (hr : Leads (Life.start me cap ts) s) :
    ¬ ∃ f : Nat → Life, f 0 = s ∧ ∀ n, ∃ i, (f n).step i = some (f (n + 1)) := by
  rintro ⟨f, h0, hf⟩
  have hs := (Good.start h).leads hr
  have hg : ∀ n, Good me (f n) := by
    intro n
    induction n with
    | zero => rw [h0]; exact hs
    | succ n ih =>
      obtain ⟨i, hi⟩ := hf n
      exact ih.step hi
  have hc : ∀ n, (f n).cost + n ≤ (f 0).cost := by
    intro n
    induction n with
    | zero => exact Nat.le_refl _
    | succ n ih =>
      obtain ⟨i, hi⟩ := hf n
      rcases (step_shape hi).2 with h | ⟨t, t', ht, hts, hlt⟩
      · exact absurd (hg (n + 1)).alive h
      · have := cost_set ht hlt
        simp only [Life.cost] at ih ⊢
        rw [hts]
        omega
  have := hc ((f 0).cost + 1)
  omega

/-! ## Where it fails -/

/-- a schedule: `.inl i`: goroutine `i` goes on, `.inr n`: timer `n` expires -/
def Life.run : Life → List (Nat ⊕ Nat) → Option Life
  | s, [] => some s
  | s, .inl i :: r => match s.step i with
    | some s' => s'.run r
    | none => none
  | s, .inr n :: r => match s.fire n with
    | some s' => s'.run r
    | none => none

theorem Leads.trans {a b c : Life} (h : Leads a b) (h' : Leads b c) : Leads a c := by
  induction h' with
  | refl => exact h
  | step _ hs ih => exact .step ih hs
  | fire _ hs ih => exact .fire ih hs

theorem Life.run_leads {s s' : Life} {l : List (Nat ⊕ Nat)} (h : s.run l = some s') : Leads s s' := by
  induction l generalizing s with
  | nil =>
    obtain rfl := Option.some.inj h
    exact .refl
  | cons a l ih =>
    cases a with
    | inl i =>
      simp only [Life.run] at h
      cases hs : s.step i with
      | none => rw [hs] at h; cases h
      | some s1 =>
        rw [hs] at h
        exact (Leads.step .refl hs).trans (ih h)
    | inr n =>
      simp only [Life.run] at h
      cases hs : s.fire n with
      | none => rw [hs] at h; cases h
      | some s1 =>
        rw [hs] at h
        exact (Leads.fire .refl hs).trans (ih h)

/-- An entry of an unknown node makes one more value to send. -/
theorem entry_fresh {n : SvsN} {b : Bool} {cur : Bytes × Nat} (h : n.sv.get cur.1 = none) :
    SvsN.entry (n, b) cur = ({ n with sv := n.sv ++ [cur], missing := n.missing ++ [⟨cur.1, 1, next64 cur.2⟩] }, b) := by
  simp only [SvsN.entry, h]

theorem get_snoc {v : SVec} {cur : Bytes × Nat} {id : Bytes} (h : v.get id = none) (hne : cur.1 ≠ id) : SVec.get (v ++ [cur]) id = none := by
  induction v with
  | nil => simp [SVec.get, hne]
  | cons e v ih =>
    simp only [SVec.get, List.cons_append] at h ⊢
    split at h
    · cases h
    · rename_i hn
      rw [if_neg hn]
      exact ih h

/-- The channel takes the values as long as there is room. -/
theorem fill (v : SVec) (e : Bytes × Nat) (T : Thr) (rest : List Call) (r : SVec) (s : Life) (b : Bool) (hd : s.dead = none) (hc : s.closed = false) (hgot : s.got = 0)
    (ht : s.threads = [⟨.loop v (r ++ [e]) b, rest⟩, T]) (hroom : s.node.missing.length + r.length ≤ s.got + s.cap)
    (hfresh : ∀ x ∈ r ++ [e], s.node.sv.get x.1 = none) (hnd : ((r ++ [e]).map Prod.fst).Nodup) :
    ∃ s', Leads s s' ∧ s'.dead = none ∧ s'.closed = false ∧ s'.locked = s.locked ∧ s'.got = s.got ∧ s'.cap = s.cap ∧
      s'.threads = [⟨.loop v [e] b, rest⟩, T] ∧ s'.node.missing.length = s.node.missing.length + r.length ∧ s'.node.sv.get e.1 = none := by
  induction r generalizing s with
  | nil => exact ⟨s, .refl, hd, hc, rfl, rfl, rfl, ht, rfl, hfresh e (by simp)⟩
  | cons a r ih =>
    have hfa := hfresh a (by simp)
    have hst : s.step 0 = some { s with
        node := { s.node with sv := s.node.sv ++ [a], missing := s.node.missing ++ [⟨a.1, 1, next64 a.2⟩] },
        threads := [⟨.loop v (r ++ [e]) b, rest⟩, T] } := by
      unfold Life.step
      rw [hd]
      simp only [ht, List.getElem?_cons_zero, List.cons_append, entry_fresh hfa, List.length_append, List.length_singleton]
      rw [if_neg (by omega), if_neg (by simp [hc]), if_neg (by simp only [List.length_cons] at hroom; omega)]
      simp only [Life.put, List.set_cons_zero]
    obtain ⟨s', h1, h2, h3, h4, h5, h6, h7, h8, h9⟩ := ih { s with
        node := { s.node with sv := s.node.sv ++ [a], missing := s.node.missing ++ [⟨a.1, 1, next64 a.2⟩] },
        threads := [⟨.loop v (r ++ [e]) b, rest⟩, T] } hd hc hgot rfl (by simp only [List.length_append, List.length_cons, List.length_nil] at hroom ⊢; omega)
        (by
          intro x hx
          refine get_snoc (hfresh x (by simp only [List.cons_append, List.mem_cons]; exact .inr hx)) ?_
          intro he
          rw [List.cons_append, List.map_cons, List.nodup_cons] at hnd
          exact hnd.1 (he ▸ List.mem_map_of_mem hx))
        (by rw [List.cons_append, List.map_cons, List.nodup_cons] at hnd; exact hnd.2)
    refine ⟨s', (Leads.step .refl hst).trans h1, h2, h3, h4, h5, h6, h7, ?_, h9⟩
    rw [h8]
    simp only [List.length_append, List.length_cons, List.length_nil]
    omega

/-- The state in which `onSyncInt` waits for room in the channel, with the lock, and the goroutine that reads the channel waits for the lock. -/
structure Stuck (v : SVec) (e : Bytes × Nat) (b : Bool) (rest : List Call) (s : Life) : Prop where
  alive : s.dead = none
  isOpen : s.closed = false
  lock : s.locked = true
  full : s.cap ≤ s.node.missing.length - s.got
  fresh : s.node.sv.get e.1 = none
  threads : ∃ n, s.threads = ⟨.loop v [e] b, []⟩ :: ⟨.want (.newData true), rest⟩ :: List.replicate n ⟨.want .timer, []⟩

theorem Stuck.step {v : SVec} {e : Bytes × Nat} {b : Bool} {rest : List Call} {s : Life} (h : Stuck v e b rest s) (i : Nat) : s.step i = none := by
  obtain ⟨n, hn⟩ := h.threads
  unfold Life.step
  rw [h.alive]
  dsimp only
  match i with
  | 0 =>
    simp only [hn, List.getElem?_cons_zero, entry_fresh h.fresh, List.length_append, List.length_singleton]
    rw [if_neg (by omega), if_neg (by simp [h.isOpen]), if_pos h.full]
  | 1 => simp only [hn, List.getElem?_cons_zero, List.getElem?_cons_succ, h.lock, if_true]
  | i + 2 =>
    simp only [hn, List.getElem?_cons_succ, List.getElem?_replicate]
    by_cases hi : i < n
    · rw [if_pos hi]
      simp only [h.lock, if_true]
    · rw [if_neg hi]

theorem Stuck.leads {v : SVec} {e : Bytes × Nat} {b : Bool} {rest : List Call} {s s' : Life} (h : Stuck v e b rest s) (hr : Leads s s') :
    Stuck v e b rest s' := by
  induction hr with
  | refl => exact h
  | step _ hs ih =>
    rw [ih.step] at hs
    cases hs
  | fire _ hs ih =>
    unfold Life.fire at hs
    split at hs
    · cases hs
    · split at hs
      · obtain rfl := Option.some.inj hs
        obtain ⟨n, hn⟩ := ih.threads
        refine ⟨ih.alive, ih.isOpen, ih.lock, ih.full, ih.fresh, n + 1, ?_⟩
        dsimp only
        rw [hn, List.replicate_succ']
        rfl
      · cases hs

/-- **A goroutine that publishes and reads may stop the node for ever**: whatever the size of the channel, one Sync Interest with one entry more than it
holds keeps the lock while it waits for a reader; the reader, if it calls `NewData` first, waits for the lock.  From then on no goroutine goes on, whatever
timers expire. -/
theorem C85_reader_violated (me : Bytes) (cap : Nat) (reads : List Call) : ∃ (v : SVec) (s : Life),
    Leads (Life.start me cap [⟨.idle, [.sync (some v)]⟩, ⟨.idle, .newData true :: reads⟩]) s ∧
    ∀ s', Leads s s' → s'.threads[1]? = some ⟨.want (.newData true), reads⟩ ∧ ∀ i, s'.step i = none := by
  let f : Nat → Bytes × Nat := fun k => (List.replicate (me.length + k + 1) 0, 1)
  let r : SVec := (List.range cap).map f
  let v : SVec := r ++ [f cap]
  have hne : ∀ k, (f k).1 ≠ me := by
    intro k h
    have := congrArg List.length h
    simp only [f, List.length_replicate] at this
    omega
  have hmem : ∀ x ∈ v, ∃ k, x = f k := by
    intro x hx
    simp only [v, r, List.mem_append, List.mem_map, List.mem_singleton] at hx
    rcases hx with ⟨k, _, h⟩ | h
    · exact ⟨k, h.symm⟩
    · exact ⟨cap, h⟩
  have hv : v = (List.range (cap + 1)).map f := by
    simp only [v, r, List.range_succ, List.map_append, List.map_cons, List.map_nil]
  have hnd : (v.map Prod.fst).Nodup := by
    rw [hv, List.map_map]
    refine List.Pairwise.map _ ?_ List.nodup_range
    intro a b hab h
    have := congrArg List.length h
    simp only [f, Function.comp, List.length_replicate] at this
    omega
  have hrun : (Life.start me cap [⟨.idle, [.sync (some v)]⟩, ⟨.idle, .newData true :: reads⟩]).run [.inl 0, .inl 0, .inl 1] =
      some { Life.start me cap [⟨.loop v (r ++ [f cap]) false, []⟩, ⟨.want (.newData true), reads⟩] with locked := true } := rfl
  obtain ⟨s, h1, h2, h3, h4, h5, h6, h7, h8, h9⟩ := fill v (f cap) ⟨.want (.newData true), reads⟩ [] r
    { Life.start me cap [⟨.loop v (r ++ [f cap]) false, []⟩, ⟨.want (.newData true), reads⟩] with locked := true } false rfl rfl rfl rfl
    (by simp [Life.start, SvsN.attach, r])
    (by
      intro x hx
      obtain ⟨k, rfl⟩ := hmem x hx
      show SVec.get [(me, 0)] (f k).1 = none
      simp only [SVec.get]
      rw [if_neg (fun h => hne k h.symm)])
    hnd
  have hs : Stuck v (f cap) false reads s := by
    refine ⟨h2, h3, h4, ?_, h9, 0, h7⟩
    rw [h6, h8, h5]
    simp [Life.start, SvsN.attach, r]
  refine ⟨v, s, (Life.run_leads hrun).trans h1, fun s' hs' => ?_⟩
  have hs2 := hs.leads hs'
  refine ⟨?_, hs2.step⟩
  obtain ⟨n, hn⟩ := hs2.threads
  rw [hn]
  rfl

/-- **A Sync Interest that arrives as the tree is detached ends the process**: its handler is a goroutine of its own that may get the lock after
`onDetach`, and sends on the closed channel. -/
theorem C85_late_sync_panics (me : Bytes) (cap : Nat) (id : Bytes) (hid : id ≠ me) (q : Nat) : ∃ s,
    Leads (Life.start me cap [⟨.idle, [.sync (some [(id, q)])]⟩, ⟨.idle, [.detach]⟩]) s ∧ s.dead = some .closedSend := by
  have hg : SVec.get [(me, 0)] id = none := by
    simp only [SVec.get]
    rw [if_neg (fun h => hid h.symm)]
  let s1 : Life := { Life.start me cap [⟨.loop [(id, q)] [(id, q)] false, []⟩, ⟨.leaving, []⟩] with locked := true, closed := true, live := [] }
  have h1 : (Life.start me cap [⟨.idle, [.sync (some [(id, q)])]⟩, ⟨.idle, [.detach]⟩]).run [.inl 0, .inl 1, .inl 1, .inl 1, .inl 1, .inl 0] = some s1 := rfl
  have h2 : s1.step 0 = some (s1.die .closedSend) := by
    have he : SvsN.entry (s1.node, false) (id, q) = _ := entry_fresh (n := s1.node) (b := false) (cur := (id, q)) hg
    unfold Life.step
    simp only [s1, Life.start, List.getElem?_cons_zero]
    simp only [s1, Life.start] at he
    rw [he, if_neg (by simp), if_pos trivial]
  exact ⟨_, .step (Life.run_leads h1) h2, rfl⟩

/-- **A timer that expires as the tree is detached ends the process**: its goroutine waits for the lock that `onDetach` has, and then calls `Apply` on
a node without engine. -/
theorem C85_late_timer_panics (me : Bytes) (cap : Nat) : ∃ s, Leads (Life.start me cap [⟨.idle, [.detach]⟩]) s ∧ s.dead = some .detached := by
  refine ⟨_, Life.run_leads (l := [.inl 0, .inl 0, .inr 0, .inl 0, .inl 0, .inl 0, .inl 1, .inl 1]) rfl, rfl⟩

/-- **Detaching twice ends the process**: the channel is closed twice. -/
theorem C85_detach_twice_panics (me : Bytes) (cap : Nat) : ∃ s, Leads (Life.start me cap [⟨.idle, [.detach, .detach]⟩]) s ∧ s.dead = some .closedClose := by
  refine ⟨_, Life.run_leads (l := [.inl 0, .inl 0, .inl 0, .inl 0, .inl 0, .inl 0, .inl 0, .inl 0]) rfl, rfl⟩

/-- **Attaching again is no new start**: `onAttach` makes the lock anew while a goroutine may still be between `Lock` and `Unlock`; two goroutines
are then in the part that the lock protects, and one of them unlocks a mutex that is not locked, which no `recover` catches. -/
theorem C85_reattach_violated (me : Bytes) (cap : Nat) :
    (∃ s, Leads (Life.start me cap [⟨.idle, [.detach, .attach]⟩]) s ∧ s.dead = none ∧
      ∃ t u, s.threads[0]? = some t ∧ s.threads[1]? = some u ∧ t.holds = true ∧ u.holds = true) ∧
    ∃ s, Leads (Life.start me cap [⟨.idle, [.detach, .attach]⟩]) s ∧ s.dead = some .unlocked := by
  refine ⟨⟨_, Life.run_leads (l := [.inl 0, .inr 0, .inl 0, .inl 0, .inl 0, .inl 0, .inl 1, .inl 0, .inl 0]) rfl, rfl, _, _, rfl, rfl, rfl, rfl⟩,
    _, Life.run_leads (l := [.inl 0, .inr 0, .inl 0, .inl 0, .inl 0, .inl 0, .inl 1, .inl 0, .inl 0, .inl 0, .inl 0, .inl 1, .inl 1]) rfl, rfl⟩

/-- **Whoever listens to OnMissingData ends the process when the tree is attached**: the goroutine that would call the listeners is not written. -/
theorem C85_listener_panics (me : Bytes) (cap : Nat) : ∃ s,
    Leads { Life.start me cap [⟨.idle, [.detach, .attach]⟩] with listener := true } s ∧ s.dead = some .todo := by
  refine ⟨_, Life.run_leads (l := [.inl 0, .inl 0, .inl 0, .inl 0, .inl 0, .inl 0, .inl 0, .inl 0]) rfl, rfl⟩

/-! ## Intervals -/

/-- The time to the next Sync Interest is within one eighth of the configured one, whatever the random number; for less than four nanoseconds there is none
(`rand.Int63n` panics). -/
theorem C85_sync_interval (S r : Nat) (hr : r < S / 4 ∨ S / 4 = 0) :
    (S < 4 → syncIntv S r = none) ∧ (4 ≤ S → ∃ d : Int, syncIntv S r = some d ∧ 0 < d ∧ 7 * (S : Int) ≤ 8 * d ∧ 8 * d ≤ 9 * (S : Int) + 8) := by
  constructor
  · intro h
    simp only [syncIntv]
    rw [if_pos (by omega)]
  · intro h
    simp only [syncIntv]
    rw [if_neg (by omega)]
    refine ⟨_, rfl, ?_, ?_, ?_⟩ <;> omega

/-- The time of the suppression is between half and one and a half of the configured one. -/
theorem C85_agg_interval (S r : Nat) (hS : 0 < S) (hr : r < S) :
    ∃ d : Int, aggIntv S r = some d ∧ 0 < d ∧ (S : Int) ≤ 2 * d ∧ 2 * d ≤ 3 * (S : Int) := by
  simp only [aggIntv]
  rw [if_neg (by omega)]
  refine ⟨_, rfl, ?_, ?_, ?_⟩ <;> omega

/-- The hypotheses of the theorems for calm goroutines: three goroutines, of which one reads. -/
example : (∀ t ∈ [(⟨.idle, [.recv, .recv]⟩ : Thr), ⟨.idle, [.newData true]⟩, ⟨.idle, [.sync (some [([9], 3)])]⟩], t.Calm) ∧
    ∃ s, Leads (Life.start [7] 1 [⟨.idle, [.recv, .recv]⟩, ⟨.idle, [.newData true]⟩, ⟨.idle, [.sync (some [([9], 3)])]⟩]) s ∧
      s.threads[0]? = some ⟨.idle, [.recv]⟩ ∧ s.threads[1]? = some ⟨.want (.newData true), []⟩ ∧ s.got = 1 := by
  refine ⟨?_, _, Life.run_leads (l := [.inl 1, .inl 2, .inl 2, .inl 2, .inl 0, .inl 2, .inl 2]) rfl, rfl, rfl, rfl⟩
  intro t ht
  simp only [List.mem_cons, List.not_mem_nil, or_false] at ht
  rcases ht with rfl | rfl | rfl <;> refine ⟨rfl, ?_⟩ <;> simp [Call.Calm]

end Ndn.Schema.Svs
