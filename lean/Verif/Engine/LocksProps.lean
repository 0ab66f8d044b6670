import Verif.Engine.Locks

/-!
# C84: no goroutine waits for ever for a lock

The specification: `App`, `Callback`, `Packet`, `Timeout`, `Start` say which
code the goroutines of an application may run (any sequence of calls of the
library, any nesting of callbacks; `Callback` is what a function given to
`Engine.Express` itself may do); `Done` says that all of them have returned.
-/

namespace Ndn.Engine.Locks

/-! ## Specification -/

/-- What listeners of OnSearchStorage may do: read storages. -/
inductive Search : Prog → Prop
  | cache (a b : Bool) : Search (searchCache a b)

/-- What listeners of OnSaveStorage may do: write storages. -/
inductive Save : Prog → Prop
  | storage (a b : Bool) : Save (saveStorage a b)

/-- What listeners of OnAttach may do: set up the sync node, register a prefix
(which sends an Interest), attach handlers. -/
inductive OnAttach : Prog → Prop
  | nil : OnAttach []
  | svs : OnAttach svsAttach
  | register : OnAttach express
  | handler : OnAttach attachHandler
  | seq {p q : Prog} : OnAttach p → OnAttach q → OnAttach (p ++ q)

/-- What listeners of OnDetach may do. -/
inductive OnDetach : Prog → Prop
  | nil : OnDetach []
  | svs : OnDetach svsDetach
  | handler : OnDetach detachHandler
  | seq {p q : Prog} : OnDetach p → OnDetach q → OnDetach (p ++ q)

/-- The code of an application that holds no lock: goroutines of its own,
handlers of Interests, callbacks given to `NeedCallback`, listeners of
OnInterest and of the validations. -/
inductive App : Prog → Prop
  | nil : App []
  | seq {p q : Prog} : App p → App q → App (p ++ q)
  | spawn {p : Prog} : App p → App [.go p]
  | attachHandler : App attachHandler
  | detachHandler : App detachHandler
  | reply : App send
  | express : App express
  | memGet : App memGet
  | memPut : App memPut
  | need {s k : Prog} (o : Outcome) : Search s → App k → App (need s o k)
  | provide {s : Prog} : Save s → App (provide s)
  | newData {s r : Prog} (made : Bool) (o : Outcome) : Save s → Search r → App (newData s made r o)
  | syncInt : App onSyncInt
  | attach {p : Prog} : OnAttach p → App (treeAttach p)
  | detach {p : Prog} : OnDetach p → App (treeDetach p)
  | putNode : App putNode
  | rlock : App (withRLock [])

/-- What a function given to `Engine.Express` may do: start goroutines, and
attach, detach and answer. -/
inductive Callback : Prog → Prop
  | nil : Callback []
  | seq {p q : Prog} : Callback p → Callback q → Callback (p ++ q)
  | spawn {p : Prog} : App p → Callback [.go p]
  | need {v s k : Prog} : App v → Save s → App k → Callback (needCallback v s k)
  | attachHandler : Callback attachHandler
  | detachHandler : Callback detachHandler
  | reply : Callback send

/-- What the goroutine of the face does with one packet. -/
inductive Packet : Prog → Prop
  | dropped : Packet []
  | interest {h : Prog} : App h → Packet (onInterest h)
  | unexpected : Packet (onInterest (intHandler none))
  | tree {s v k : Prog} (hit : Bool) : Search s → App v → App k →
      Packet (onInterest (intHandler (some (onInterestNode s hit v k))))
  | data {cbs : List Prog} : (∀ cb ∈ cbs, Callback cb) → Packet (onData cbs)
  | nack {cbs : List Prog} : (∀ cb ∈ cbs, Callback cb) → Packet (onNack cbs)

/-- What a timer does when it expires. -/
inductive Timeout : Prog → Prop
  | interest {cbs : List Prog} : (∀ cb ∈ cbs, Callback cb) → Timeout (onTimeout cbs)
  | sync {s : Prog} (necessary : Bool) (o : Outcome) : Search s →
      Timeout (onSyncTimer necessary s o)
  | app {p : Prog} : App p → Timeout p

/-- The goroutines that there may be: of the application, of the face, of
timers; and `MoveForward` of the timer of the tests (dummy/timer.go 38-63),
which runs what has expired between two uses of its lock. -/
inductive Start : Prog → Prop
  | app {p : Prog} : App p → Start p
  | run {ps : List Prog} : (∀ p ∈ ps, Packet p) → Start ps.flatten
  | timer {p : Prog} : Timeout p → Start p
  | moveForward {ps : List Prog} : (∀ p ∈ ps, Timeout p) →
      Start (schedule ++ ps.flatten ++ schedule)

/-- All goroutines have returned. -/
def St.Done (s : St) : Prop := ∀ t ∈ s.threads, t.code = []

/-! ## Proof -/

/-- The order in which locks are taken. -/
def Lock.rank : Lock → Nat
  | .tree => 0 | .data => 1 | .store => 2 | .key => 3 | .pit => 4 | .fib => 5
  | .clock => 6 | .send => 7

def Hold.lock : Hold → Lock
  | .w l => l
  | .r l => l

/-- Code that, run with the locks `h` held, takes a lock only after locks that are
`R`-related to it, uses only the data of locks that it holds, releases what it
holds and ends with nothing. -/
inductive Ok (R : Lock → Lock → Prop) : List Hold → Prog → Prop
  | nil : Ok R [] []
  | acq {h : List Hold} {l : Lock} {p : Prog} : (∀ x ∈ h, R x.lock l) → Ok R (.w l :: h) p →
      Ok R h (.acq l :: p)
  | enter {h : List Hold} {l : Lock} {p : Prog} : (∀ x ∈ h, R x.lock l) → Ok R (.w l :: h) p →
      Ok R (.w l :: h) (.enter l :: p)
  | rel {h : List Hold} {l : Lock} {p : Prog} : .w l ∈ h → Ok R (h.erase (.w l)) p → Ok R h (.rel l :: p)
  | racq {h : List Hold} {l : Lock} {p : Prog} : (∀ x ∈ h, R x.lock l) → Ok R (.r l :: h) p →
      Ok R h (.racq l :: p)
  | rrel {h : List Hold} {l : Lock} {p : Prog} : .r l ∈ h → Ok R (h.erase (.r l)) p → Ok R h (.rrel l :: p)
  | use {h : List Hold} {l : Lock} {p : Prog} : .w l ∈ h → Ok R h p → Ok R h (.use l :: p)
  | look {h : List Hold} {l : Lock} {p : Prog} : .r l ∈ h → Ok R h p → Ok R h (.look l :: p)
  | go {h : List Hold} {q p : Prog} : Ok R [] q → Ok R h p → Ok R h (.go q :: p)

/-- The order of ranks. -/
def Below (a b : Lock) : Prop := a.rank < b.rank

/-- No order. -/
def Any (_ _ : Lock) : Prop := True

/-- Code that may be run under any locks of rank less than `n`. -/
def Safe (n : Nat) (p : Prog) : Prop :=
  ∀ h q, (∀ x ∈ h, x.lock.rank < n) → Ok Below h q → Ok Below h (p ++ q)

theorem Safe.nil (n : Nat) : Safe n [] := fun _ _ _ hq => hq

theorem Safe.append {n : Nat} {p q : Prog} (hp : Safe n p) (hq : Safe n q) : Safe n (p ++ q) := by
  intro h r hh hr
  rw [List.append_assoc]
  exact hp h _ hh (hq h r hh hr)

theorem Safe.mono {n m : Nat} {p : Prog} (hnm : n ≤ m) (hp : Safe m p) : Safe n p :=
  fun h q hh hq => hp h q (fun x hx => Nat.lt_of_lt_of_le (hh x hx) hnm) hq

theorem Safe.ok {p : Prog} (hp : Safe 0 p) : Ok Below [] p := by
  have := hp [] [] (fun _ hx => nomatch hx) .nil
  simpa using this

theorem Safe.go {n : Nat} {p : Prog} (hp : Safe 0 p) : Safe n [.go p] :=
  fun _ _ _ hq => .go hp.ok hq

theorem Safe.flatten {n : Nat} {ps : List Prog} (h : ∀ p ∈ ps, Safe n p) : Safe n ps.flatten := by
  induction ps with
  | nil => exact Safe.nil n
  | cons p ps ih =>
    rw [List.flatten_cons]
    exact (h p (by simp)).append (ih (fun q hq => h q (by simp [hq])))

theorem Safe.flatMap {n : Nat} {ps : List Prog} {f : Prog → Prog} (h : ∀ p ∈ ps, Safe n (f p)) :
    Safe n (ps.flatMap f) := by
  rw [List.flatMap]
  apply Safe.flatten
  intro p hp
  obtain ⟨q, hq, rfl⟩ := List.mem_map.mp hp
  exact h q hq

/-- A part of the code between `Lock` and `Unlock`. -/
theorem Safe.crit {n : Nat} (l : Lock) {p : Prog} (hn : n ≤ l.rank) (hp : Safe (l.rank + 1) p) :
    Safe n ([.acq l, .use l] ++ p ++ [.use l, .rel l]) := by
  intro h q hh hq
  have hlt : ∀ x ∈ h, x.lock.rank < l.rank := fun x hx => Nat.lt_of_lt_of_le (hh x hx) hn
  simp only [List.cons_append, List.nil_append, List.append_assoc]
  refine .acq hlt (.use (by simp) (hp _ _ ?_ (.use (by simp) (.rel (by simp) (by simpa using hq)))))
  intro x hx
  rcases List.mem_cons.mp hx with rfl | hx
  · exact Nat.lt_succ_self _
  · exact Nat.lt_succ_of_lt (hlt x hx)

theorem Safe.short {n : Nat} (l : Lock) (hn : n ≤ l.rank) : Safe n [.acq l, .use l, .rel l] := by
  intro h q hh hq
  exact .acq (fun x hx => Nat.lt_of_lt_of_le (hh x hx) hn)
    (.use (by simp) (.rel (by simp) (by simpa using hq)))

theorem Safe.read {n : Nat} (l : Lock) {p : Prog} (hn : n ≤ l.rank) (hp : Safe (l.rank + 1) p) :
    Safe n ([.racq l, .look l] ++ p ++ [.rrel l]) := by
  intro h q hh hq
  have hlt : ∀ x ∈ h, x.lock.rank < l.rank := fun x hx => Nat.lt_of_lt_of_le (hh x hx) hn
  simp only [List.cons_append, List.nil_append, List.append_assoc]
  refine .racq hlt (.look (by simp) (hp _ _ ?_ (.rrel (by simp) (by simpa using hq))))
  intro x hx
  rcases List.mem_cons.mp hx with rfl | hx
  · exact Nat.lt_succ_self _
  · exact Nat.lt_succ_of_lt (hlt x hx)

theorem safe_fib {n : Nat} (h : n ≤ 5) : Safe n attachHandler := Safe.short .fib h
theorem safe_fib' {n : Nat} (h : n ≤ 5) : Safe n detachHandler := Safe.short .fib h
theorem safe_send {n : Nat} (h : n ≤ 7) : Safe n send := Safe.short .send h
theorem safe_clock {n : Nat} (h : n ≤ 6) : Safe n schedule := Safe.short .clock h
theorem safe_clock' {n : Nat} (h : n ≤ 6) : Safe n cancel := Safe.short .clock h

theorem safe_express {n : Nat} (h : n ≤ 4) : Safe n express := by
  unfold express
  exact (Safe.crit .pit h (safe_clock (by decide))).append (safe_send (by omega))

theorem safe_memGet {n : Nat} (h : n ≤ 2) : Safe n memGet := Safe.read .store h (Safe.nil _)
theorem safe_memPut {n : Nat} (h : n ≤ 2) : Safe n memPut := Safe.short .store h

theorem safe_search {n : Nat} (h : n ≤ 2) {p : Prog} (hp : Search p) : Safe n p := by
  cases hp with
  | cache a b =>
    unfold searchCache
    refine Safe.append ?_ ?_
    · cases a
      · exact Safe.nil _
      · exact safe_memGet h
    · cases b
      · exact Safe.nil _
      · exact Safe.read .key (by simp only [Lock.rank]; omega) (Safe.nil _)

theorem safe_save {n : Nat} (h : n ≤ 2) {p : Prog} (hp : Save p) : Safe n p := by
  cases hp with
  | storage a b =>
    unfold saveStorage
    refine Safe.append ?_ ?_
    · cases a
      · exact Safe.nil _
      · exact safe_memPut h
    · cases b
      · exact Safe.nil _
      · exact Safe.short .key (by simp only [Lock.rank]; omega)

theorem safe_need {n : Nat} (h : n ≤ 2) {s k : Prog} (o : Outcome) (hs : Search s) (hk : Safe 0 k) :
    Safe n (need s o k) := by
  unfold need
  refine (safe_search h hs).append ?_
  cases o
  · exact Safe.go hk
  · exact Safe.go hk
  · exact safe_express (by omega)
  · exact (safe_express (by omega)).append (Safe.go hk)

theorem safe_onAttach {p : Prog} (hp : OnAttach p) : Safe 1 p := by
  induction hp with
  | nil => exact Safe.nil _
  | svs => exact Safe.crit .data (by decide) (safe_clock (by decide))
  | register => exact safe_express (by decide)
  | handler => exact safe_fib (by decide)
  | seq _ _ h1 h2 => exact h1.append h2

theorem safe_onDetach {p : Prog} (hp : OnDetach p) : Safe 1 p := by
  induction hp with
  | nil => exact Safe.nil _
  | svs => exact Safe.crit .data (by decide) (safe_clock' (by decide))
  | handler => exact safe_fib' (by decide)
  | seq _ _ h1 h2 => exact h1.append h2

theorem safe_app {p : Prog} (hp : App p) : Safe 0 p := by
  induction hp with
  | nil => exact Safe.nil _
  | seq _ _ h1 h2 => exact h1.append h2
  | spawn _ h => exact Safe.go h
  | attachHandler => exact safe_fib (by decide)
  | detachHandler => exact safe_fib' (by decide)
  | reply => exact safe_send (by decide)
  | express => exact safe_express (by decide)
  | memGet => exact safe_memGet (by decide)
  | memPut => exact safe_memPut (by decide)
  | need o hs _ hk => exact safe_need (by decide) o hs hk
  | provide hs => exact safe_save (by decide) hs
  | newData made o hs hr =>
    unfold newData
    rw [List.append_assoc [Instr.acq Lock.data, Instr.use Lock.data]]
    refine Safe.crit .data (by decide) ((safe_save (by decide) hs).append ?_)
    cases made
    · exact Safe.nil _
    · exact safe_need (by decide) o hr (Safe.nil _)
  | syncInt =>
    unfold onSyncInt
    rw [List.append_assoc [Instr.acq Lock.data, Instr.use Lock.data]]
    exact Safe.crit .data (by decide) ((safe_clock' (by decide)).append (safe_clock (by decide)))
  | attach hp =>
    unfold treeAttach
    rw [List.append_assoc [Instr.acq Lock.tree, Instr.use Lock.tree]]
    exact Safe.crit .tree (by decide) ((safe_onAttach hp).append (safe_fib (by decide)))
  | detach hp =>
    unfold treeDetach
    rw [List.append_assoc [Instr.acq Lock.tree, Instr.use Lock.tree]]
    exact Safe.crit .tree (by decide) ((safe_fib' (by decide)).append (safe_onDetach hp))
  | putNode => exact Safe.short .tree (by decide)
  | rlock => exact Safe.read .tree (by decide) (Safe.nil _)

theorem safe_callback {p : Prog} (hp : Callback p) : Safe 5 p := by
  induction hp with
  | nil => exact Safe.nil _
  | seq _ _ h1 h2 => exact h1.append h2
  | spawn h => exact Safe.go (safe_app h)
  | need hv hs hk =>
    exact Safe.go (((safe_app hv).append (safe_save (by decide) hs)).append (safe_app hk))
  | attachHandler => exact safe_fib (by decide)
  | detachHandler => exact safe_fib' (by decide)
  | reply => exact safe_send (by decide)

theorem safe_onData {cbs : List Prog} (h : ∀ cb ∈ cbs, Callback cb) : Safe 0 (onData cbs) :=
  Safe.crit .pit (by decide)
    (Safe.flatMap fun cb hcb => (safe_clock' (by decide)).append (safe_callback (h cb hcb)))

theorem safe_packet {p : Prog} (hp : Packet p) : Safe 0 p := by
  cases hp with
  | dropped => exact Safe.nil _
  | interest h => exact (Safe.short .fib (by decide)).append (safe_app h)
  | unexpected => exact (Safe.short .fib (by decide)).append (Safe.read .tree (by decide) (Safe.nil _))
  | tree hit hs hv hk =>
    refine (Safe.short .fib (by decide)).append (Safe.read .tree (by decide) ?_)
    simp only [Option.getD_some]
    unfold onInterestNode
    refine (safe_search (by decide) hs).append ?_
    cases hit
    · exact Safe.go ((safe_app hv).append (safe_app hk))
    · exact safe_send (by decide)
  | data h => exact safe_onData h
  | nack h => exact safe_onData h

theorem safe_timeout {p : Prog} (hp : Timeout p) : Safe 0 p := by
  cases hp with
  | interest h =>
    exact Safe.crit .pit (by decide) (Safe.flatten fun cb hcb => safe_callback (h cb hcb))
  | sync necessary o hs =>
    unfold onSyncTimer
    rw [List.append_assoc [Instr.acq Lock.data, Instr.use Lock.data],
      List.append_assoc [Instr.acq Lock.data, Instr.use Lock.data]]
    refine Safe.crit .data (by decide) (Safe.append (Safe.append ?_ (safe_clock' (by decide)))
      (safe_clock (by decide)))
    cases necessary
    · exact Safe.nil _
    · exact safe_need (by decide) o hs (Safe.nil _)
  | app h => exact safe_app h

theorem safe_start {p : Prog} (hp : Start p) : Ok Below [] p := by
  cases hp with
  | app h => exact (safe_app h).ok
  | run h => exact (Safe.flatten fun p hp => safe_packet (h p hp)).ok
  | timer h => exact (safe_timeout h).ok
  | moveForward h =>
    exact (((safe_clock (by decide)).append (Safe.flatten fun p hp => safe_timeout (h p hp))).append
      (safe_clock (by decide))).ok

/-! ### The invariant -/

/-- The number of holds `x` of all goroutines. -/
def total (ts : List Thread) (x : Hold) : Nat := (ts.map (fun t => t.held.count x)).sum

theorem total_set {ts : List Thread} {i : Nat} {t : Thread} (ht : ts[i]? = some t) (t' : Thread)
    (x : Hold) : total (ts.set i t') x + t.held.count x = total ts x + t'.held.count x := by
  induction ts generalizing i with
  | nil => simp at ht
  | cons a ts ih =>
    cases i with
    | zero =>
      simp only [List.getElem?_cons_zero, Option.some.injEq] at ht
      subst ht
      simp only [total, List.set_cons_zero, List.map_cons, List.sum_cons]
      omega
    | succ i =>
      simp only [List.getElem?_cons_succ] at ht
      have := ih ht
      simp only [total, List.set_cons_succ, List.map_cons, List.sum_cons] at this ⊢
      omega

theorem total_append (ts : List Thread) (t : Thread) (x : Hold) :
    total (ts ++ [t]) x = total ts x + t.held.count x := by
  simp [total]

theorem count_le_total {ts : List Thread} {i : Nat} {t : Thread} (ht : ts[i]? = some t) (x : Hold) :
    t.held.count x ≤ total ts x := by
  have := total_set ht ⟨t.code, []⟩ x
  simp only [List.count_nil] at this
  omega

theorem exists_of_total {ts : List Thread} {x : Hold} (h : 0 < total ts x) :
    ∃ (i : Nat) (t : Thread), ts[i]? = some t ∧ x ∈ t.held := by
  induction ts with
  | nil => simp [total] at h
  | cons a ts ih =>
    by_cases ha : x ∈ a.held
    · exact ⟨0, a, by simp, ha⟩
    · have h0 : a.held.count x = 0 := List.count_eq_zero.mpr ha
      have : 0 < total ts x := by
        simp only [total, List.map_cons, List.sum_cons] at h ⊢
        omega
      obtain ⟨i, t, hi, ht⟩ := ih this
      exact ⟨i + 1, t, by simpa using hi, ht⟩

/-- A goroutine is past the second half of `Lock`. -/
def Thread.inside (t : Thread) (l : Lock) : Prop :=
  .w l ∈ t.held ∧ ∀ p, t.code ≠ .enter l :: p

structure Sound (R : Lock → Lock → Prop) (s : St) : Prop where
  alive : s.dead = false
  ok : ∀ (i : Nat) (t : Thread), s.threads[i]? = some t → Ok R t.held t.code
  locked : ∀ l, total s.threads (.w l) = if s.locked l then 1 else 0
  readers : ∀ l, total s.threads (.r l) = s.readers l
  inside : ∀ (i : Nat) (t : Thread) (l : Lock), s.threads[i]? = some t → t.inside l → s.readers l = 0

theorem Sound.init {R : Lock → Lock → Prop} {ps : List Prog} (h : ∀ p ∈ ps, Ok R [] p) : Sound R (St.init ps) := by
  have h0 : ∀ x, total (St.init ps).threads x = 0 := by
    intro x
    simp only [St.init]
    clear h
    induction ps with
    | nil => rfl
    | cons p ps ih => simpa [total] using ih
  constructor
  · rfl
  · intro i t ht
    simp only [St.init, List.getElem?_map, Option.map_eq_some_iff] at ht
    obtain ⟨p, hp, rfl⟩ := ht
    exact h p (List.mem_of_getElem? hp)
  · intro l
    rw [h0]
    rfl
  · intro l
    rw [h0]
    rfl
  · intro i t l ht _
    rfl

/-- What a changed list of goroutines looks like. -/
theorem getElem_set {ts : List Thread} {i j : Nat} {t t' u : Thread} (ht : ts[i]? = some t)
    (h : (ts.set i t')[j]? = some u) : (j = i ∧ u = t') ∨ (j ≠ i ∧ ts[j]? = some u) := by
  by_cases hij : i = j
  · subst hij
    have hlt : i < ts.length := by
      rcases Nat.lt_or_ge i ts.length with h' | h'
      · exact h'
      · rw [List.getElem?_eq_none h'] at ht
        cases ht
    rw [List.getElem?_set_self hlt] at h
    exact .inl ⟨rfl, (Option.some.inj h).symm⟩
  · rw [List.getElem?_set_ne hij] at h
    exact .inr ⟨fun he => hij he.symm, h⟩

theorem Hold.w_ne_r {l l' : Lock} : Hold.w l ≠ Hold.r l' := by intro h; cases h

theorem Sound.step {R : Lock → Lock → Prop} {s s' : St} {i : Nat} (hs : Sound R s) (h : s.step i = some s') : Sound R s' := by
  unfold St.step at h
  rw [hs.alive] at h
  simp only [Bool.false_eq_true, if_false] at h
  cases hi : s.threads[i]? with
  | none => rw [hi] at h; cases h
  | some t =>
    rw [hi] at h
    dsimp only at h
    have hok := hs.ok i t hi
    obtain ⟨code, held⟩ := t
    dsimp only at h hok
    cases hok with
    | nil => cases h
    | @acq _ l p hlt hok =>
      dsimp only at h
      split at h
      · cases h
      · rename_i hl
        have hl : s.locked l = false := by simpa using hl
        obtain rfl := Option.some.inj h
        refine ⟨rfl, ?_, ?_, ?_, ?_⟩
        · intro j u hu
          rcases getElem_set hi hu with ⟨rfl, rfl⟩ | ⟨_, hu⟩
          · exact .enter hlt hok
          · exact hs.ok j u hu
        · intro l'
          have := total_set hi ⟨.enter l :: p, .w l :: held⟩ (.w l')
          have hL := hs.locked l'
          simp only [List.count_cons, upd] at this ⊢
          by_cases hll : l' = l
          · subst hll
            rw [hl] at hL
            simp at this hL ⊢
            omega
          · have : ¬ (Hold.w l = Hold.w l') := fun he => hll (by cases he; rfl)
            simp_all
        · intro l'
          have := total_set hi ⟨.enter l :: p, .w l :: held⟩ (.r l')
          have hR := hs.readers l'
          simp at this ⊢
          omega
        · intro j u l' hu hin
          rcases getElem_set hi hu with ⟨rfl, rfl⟩ | ⟨_, hu⟩
          · have hne : l' ≠ l := by
              rintro rfl
              exact hin.2 p rfl
            refine hs.inside _ ⟨.acq l :: p, held⟩ l' hi ⟨?_, ?_⟩
            · have := hin.1
              simp only [List.mem_cons, Hold.w.injEq] at this
              exact this.resolve_left hne
            · intro q hq
              cases hq
          · exact hs.inside j u l' hu hin
    | @enter h' l p hlt hok =>
      dsimp only at h
      split at h
      · rename_i hr
        obtain rfl := Option.some.inj h
        refine ⟨rfl, ?_, ?_, ?_, ?_⟩
        · intro j u hu
          rcases getElem_set hi hu with ⟨rfl, rfl⟩ | ⟨_, hu⟩
          · exact hok
          · exact hs.ok j u hu
        · intro l'
          have := total_set hi ⟨p, .w l :: h'⟩ (.w l')
          have hL := hs.locked l'
          dsimp only at this ⊢
          omega
        · intro l'
          have := total_set hi ⟨p, .w l :: h'⟩ (.r l')
          have hR := hs.readers l'
          dsimp only at this ⊢
          omega
        · intro j u l' hu hin
          rcases getElem_set hi hu with ⟨rfl, rfl⟩ | ⟨_, hu⟩
          · by_cases hll : l' = l
            · rw [hll]
              exact hr
            · refine hs.inside _ ⟨.enter l :: p, .w l :: h'⟩ l' hi ⟨hin.1, ?_⟩
              intro q hq
              cases hq
              exact hll rfl
          · exact hs.inside j u l' hu hin
      · cases h
    | @rel _ l p hmem hok =>
      have hcnt : 0 < held.count (.w l) := List.count_pos_iff.mpr hmem
      have hle := count_le_total hi (.w l)
      have hL := hs.locked l
      have hl : s.locked l = true := by
        cases hlk : s.locked l
        · rw [hlk] at hL
          simp at hL hle
          omega
        · rfl
      dsimp only at h
      rw [if_pos hl] at h
      obtain rfl := Option.some.inj h
      refine ⟨rfl, ?_, ?_, ?_, ?_⟩
      · intro j u hu
        rcases getElem_set hi hu with ⟨rfl, rfl⟩ | ⟨_, hu⟩
        · exact hok
        · exact hs.ok j u hu
      · intro l'
        have := total_set hi ⟨p, held.erase (.w l)⟩ (.w l')
        have hL' := hs.locked l'
        simp only [upd] at this ⊢
        by_cases hll : l' = l
        · subst hll
          rw [List.count_erase_self] at this
          rw [hl] at hL
          simp at hL hle ⊢
          omega
        · have hne : (Hold.w l') ≠ (Hold.w l) := fun he => hll (by cases he; rfl)
          rw [List.count_erase_of_ne hne] at this
          simp only [hll, if_false]
          omega
      · intro l'
        have := total_set hi ⟨p, held.erase (.w l)⟩ (.r l')
        have hR := hs.readers l'
        dsimp only at this
        rw [List.count_erase_of_ne Hold.w_ne_r.symm] at this
        dsimp only
        omega
      · intro j u l' hu hin
        rcases getElem_set hi hu with ⟨rfl, rfl⟩ | ⟨_, hu⟩
        · refine hs.inside _ ⟨.rel l :: p, held⟩ l' hi ⟨List.mem_of_mem_erase hin.1, ?_⟩
          intro q hq
          cases hq
        · exact hs.inside j u l' hu hin
    | @racq _ l p hlt hok =>
      dsimp only at h
      split at h
      · cases h
      · rename_i hl
        have hl : s.locked l = false := by simpa using hl
        obtain rfl := Option.some.inj h
        have hL0 := hs.locked l
        rw [hl] at hL0
        refine ⟨rfl, ?_, ?_, ?_, ?_⟩
        · intro j u hu
          rcases getElem_set hi hu with ⟨rfl, rfl⟩ | ⟨_, hu⟩
          · exact hok
          · exact hs.ok j u hu
        · intro l'
          have := total_set hi ⟨p, .r l :: held⟩ (.w l')
          have hL := hs.locked l'
          simp at this ⊢
          omega
        · intro l'
          have := total_set hi ⟨p, .r l :: held⟩ (.r l')
          have hR := hs.readers l'
          simp only [List.count_cons, upd] at this ⊢
          by_cases hll : l' = l
          · subst hll
            simp at this ⊢
            omega
          · have : ¬ (Hold.r l = Hold.r l') := fun he => hll (by cases he; rfl)
            simp_all
        · intro j u l' hu hin
          have hne : l' ≠ l := by
            rintro rfl
            have h1 : Hold.w l' ∈ u.held := hin.1
            rcases getElem_set hi hu with ⟨rfl, rfl⟩ | ⟨_, hu⟩
            · have : Hold.w l' ∈ held := by simpa using h1
              have h2 := count_le_total hi (.w l')
              have h3 := List.count_pos_iff.mpr this
              simp at hL0 h2
              omega
            · have h2 := count_le_total hu (.w l')
              have h3 := List.count_pos_iff.mpr h1
              simp at hL0 h2
              omega
          dsimp only [upd]
          rw [if_neg hne]
          rcases getElem_set hi hu with ⟨rfl, rfl⟩ | ⟨_, hu⟩
          · refine hs.inside _ ⟨.racq l :: p, held⟩ l' hi ⟨?_, ?_⟩
            · simpa using hin.1
            · intro q hq
              cases hq
          · exact hs.inside j u l' hu hin
    | @rrel _ l p hmem hok =>
      have hcnt : 0 < held.count (.r l) := List.count_pos_iff.mpr hmem
      have hle := count_le_total hi (.r l)
      have hR0 := hs.readers l
      have hr : s.readers l ≠ 0 := by
        dsimp only at hle
        omega
      dsimp only at h
      rw [if_neg hr] at h
      obtain rfl := Option.some.inj h
      refine ⟨rfl, ?_, ?_, ?_, ?_⟩
      · intro j u hu
        rcases getElem_set hi hu with ⟨rfl, rfl⟩ | ⟨_, hu⟩
        · exact hok
        · exact hs.ok j u hu
      · intro l'
        have := total_set hi ⟨p, held.erase (.r l)⟩ (.w l')
        have hL := hs.locked l'
        dsimp only at this
        rw [List.count_erase_of_ne Hold.w_ne_r] at this
        dsimp only
        omega
      · intro l'
        have := total_set hi ⟨p, held.erase (.r l)⟩ (.r l')
        have hR := hs.readers l'
        simp only [upd] at this ⊢
        by_cases hll : l' = l
        · subst hll
          rw [List.count_erase_self] at this
          simp
          omega
        · have hne : (Hold.r l') ≠ (Hold.r l) := fun he => hll (by cases he; rfl)
          rw [List.count_erase_of_ne hne] at this
          simp only [hll, if_false]
          omega
      · intro j u l' hu hin
        have h0 : s.readers l' = 0 := by
          rcases getElem_set hi hu with ⟨rfl, rfl⟩ | ⟨_, hu⟩
          · refine hs.inside _ ⟨.rrel l :: p, held⟩ l' hi ⟨List.mem_of_mem_erase hin.1, ?_⟩
            intro q hq
            cases hq
          · exact hs.inside j u l' hu hin
        dsimp only [upd]
        split
        · rename_i hll
          rw [hll] at h0
          omega
        · exact h0
    | @use _ l p hmem hok =>
      obtain rfl := Option.some.inj h
      refine ⟨rfl, ?_, ?_, ?_, ?_⟩
      · intro j u hu
        rcases getElem_set hi hu with ⟨rfl, rfl⟩ | ⟨_, hu⟩
        · exact hok
        · exact hs.ok j u hu
      · intro l'
        have := total_set hi ⟨p, held⟩ (.w l')
        have hL := hs.locked l'
        dsimp only at this ⊢
        omega
      · intro l'
        have := total_set hi ⟨p, held⟩ (.r l')
        have hR := hs.readers l'
        dsimp only at this ⊢
        omega
      · intro j u l' hu hin
        rcases getElem_set hi hu with ⟨rfl, rfl⟩ | ⟨_, hu⟩
        · exact hs.inside _ ⟨.use l :: p, held⟩ l' hi ⟨hin.1, fun q hq => nomatch hq⟩
        · exact hs.inside j u l' hu hin
    | @look _ l p hmem hok =>
      obtain rfl := Option.some.inj h
      refine ⟨rfl, ?_, ?_, ?_, ?_⟩
      · intro j u hu
        rcases getElem_set hi hu with ⟨rfl, rfl⟩ | ⟨_, hu⟩
        · exact hok
        · exact hs.ok j u hu
      · intro l'
        have := total_set hi ⟨p, held⟩ (.w l')
        have hL := hs.locked l'
        dsimp only at this ⊢
        omega
      · intro l'
        have := total_set hi ⟨p, held⟩ (.r l')
        have hR := hs.readers l'
        dsimp only at this ⊢
        omega
      · intro j u l' hu hin
        rcases getElem_set hi hu with ⟨rfl, rfl⟩ | ⟨_, hu⟩
        · exact hs.inside _ ⟨.look l :: p, held⟩ l' hi ⟨hin.1, fun q hq => nomatch hq⟩
        · exact hs.inside j u l' hu hin
    | @go _ q p hq hok =>
      obtain rfl := Option.some.inj h
      have key : ∀ (j : Nat) (u : Thread),
          (s.threads.set i ⟨p, held⟩ ++ [(⟨q, []⟩ : Thread)])[j]? = some u →
          (s.threads.set i ⟨p, held⟩)[j]? = some u ∨ u = ⟨q, []⟩ := by
        intro j u hu
        rw [List.getElem?_append] at hu
        split at hu
        · exact .inl hu
        · right
          have := List.mem_of_getElem? hu
          simpa using this
      refine ⟨rfl, ?_, ?_, ?_, ?_⟩
      · intro j u hu
        rcases key j u hu with hu | rfl
        · rcases getElem_set hi hu with ⟨rfl, rfl⟩ | ⟨_, hu⟩
          · exact hok
          · exact hs.ok j u hu
        · exact hq
      · intro l'
        have := total_set hi ⟨p, held⟩ (.w l')
        have hL := hs.locked l'
        dsimp only at this ⊢
        rw [total_append]
        simp only [List.count_nil]
        omega
      · intro l'
        have := total_set hi ⟨p, held⟩ (.r l')
        have hR := hs.readers l'
        dsimp only at this ⊢
        rw [total_append]
        simp only [List.count_nil]
        omega
      · intro j u l' hu hin
        rcases key j u hu with hu | rfl
        · rcases getElem_set hi hu with ⟨rfl, rfl⟩ | ⟨_, hu⟩
          · exact hs.inside _ ⟨.go q :: p, held⟩ l' hi ⟨hin.1, fun q hq => nomatch hq⟩
          · exact hs.inside j u l' hu hin
        · have := hin.1
          cases this

theorem Sound.reach {R : Lock → Lock → Prop} {ps : List Prog} (h : ∀ p ∈ ps, Ok R [] p) {s : St} (hr : Reach (St.init ps) s) :
    Sound R s := by
  induction hr with
  | refl => exact Sound.init h
  | tail _ hst ih => exact ih.step hst

/-! ### Progress -/

/-- The lock that a goroutine wants next. -/
def Thread.wants (t : Thread) : Option Lock :=
  match t.code with
  | .acq l :: _ => some l
  | .enter l :: _ => some l
  | .racq l :: _ => some l
  | _ => none

/-- What it means that goroutine `i` cannot move. -/
theorem blocked {s : St} (hs : Sound Below s) {i : Nat} {t : Thread} (hi : s.threads[i]? = some t)
    (hne : t.code ≠ []) (hb : s.step i = none) :
    ∃ l, t.wants = some l ∧
      ((s.locked l = true ∧ ∀ x ∈ t.held, x.lock.rank < l.rank) ∨
       (s.readers l ≠ 0 ∧ ∀ x ∈ t.held, x.lock.rank < l.rank ∨ x = .w l)) := by
  unfold St.step at hb
  rw [hs.alive, hi] at hb
  simp only [Bool.false_eq_true, if_false] at hb
  have hok := hs.ok i t hi
  obtain ⟨code, held⟩ := t
  dsimp only at hb hok hne
  cases hok with
  | nil => exact absurd rfl hne
  | @acq _ l p hlt hok =>
    dsimp only at hb
    split at hb
    · rename_i hl
      exact ⟨l, rfl, .inl ⟨hl, hlt⟩⟩
    · cases hb
  | @enter h' l p hlt hok =>
    dsimp only at hb
    split at hb
    · cases hb
    · rename_i hr
      refine ⟨l, rfl, .inr ⟨hr, ?_⟩⟩
      intro x hx
      rcases List.mem_cons.mp hx with rfl | hx
      · exact .inr rfl
      · exact .inl (hlt x hx)
  | rel => dsimp only at hb; split at hb <;> cases hb
  | @racq _ l p hlt hok =>
    dsimp only at hb
    split at hb
    · rename_i hl
      exact ⟨l, rfl, .inl ⟨hl, hlt⟩⟩
    · cases hb
  | rrel => dsimp only at hb; split at hb <;> cases hb
  | use => cases hb
  | look => cases hb
  | go => cases hb

theorem held_code {R : Lock → Lock → Prop} {s : St} (hs : Sound R s) {i : Nat} {t : Thread} (hi : s.threads[i]? = some t)
    {x : Hold} (hx : x ∈ t.held) : t.code ≠ [] := by
  intro hc
  have hok := hs.ok i t hi
  rw [hc] at hok
  generalize t.held = h at hok hx
  cases hok
  cases hx

/-- Somebody can move, unless everybody has returned. -/
theorem progress {s : St} (hs : Sound Below s) (hnd : ¬ s.Done) : ∃ i s', s.step i = some s' := by
  apply Classical.byContradiction
  intro hno
  have hb : ∀ i, s.step i = none := by
    intro i
    cases h : s.step i with
    | none => rfl
    | some s' => exact absurd ⟨i, s', h⟩ hno
  -- every goroutine that wants a lock: another one wants a lock of greater rank
  have up : ∀ (n i : Nat) (t : Thread) (l : Lock), s.threads[i]? = some t → t.wants = some l →
      t.code ≠ [] → 8 - l.rank ≤ n → False := by
    intro n
    induction n with
    | zero =>
      intro i t l _ _ _ hn
      cases l <;> simp [Lock.rank] at hn
    | succ n ih =>
      intro i t l hi hw hne hn
      -- a reader of `l` wants more than `l`
      have hread : s.readers l ≠ 0 → False := by
        intro hr
        have : 0 < total s.threads (.r l) := by
          rw [hs.readers l]
          omega
        obtain ⟨j, u, hj, hu⟩ := exists_of_total this
        have hune := held_code hs hj hu
        obtain ⟨l', hw', hc⟩ := blocked hs hj hune (hb j)
        have hlt : l.rank < l'.rank := by
          rcases hc with ⟨_, h⟩ | ⟨_, h⟩
          · exact h _ hu
          · rcases h _ hu with h | h
            · exact h
            · cases h
        exact ih j u l' hj hw' hune (by omega)
      obtain ⟨l₁, hw₁, hc⟩ := blocked hs hi hne (hb i)
      rw [hw] at hw₁
      cases hw₁
      rcases hc with ⟨hl, _⟩ | ⟨hr, _⟩
      · have : 0 < total s.threads (.w l) := by
          rw [hs.locked l, hl]
          exact Nat.one_pos
        obtain ⟨j, u, hj, hu⟩ := exists_of_total this
        have hune := held_code hs hj hu
        obtain ⟨l', hw', hc⟩ := blocked hs hj hune (hb j)
        rcases hc with ⟨_, h⟩ | ⟨hr', h⟩
        · exact ih j u l' hj hw' hune (by have := h _ hu; simp only [Hold.lock] at this; omega)
        · rcases h _ hu with h | h
          · exact ih j u l' hj hw' hune (by simp only [Hold.lock] at h; omega)
          · cases h
            exact hread hr'
      · exact hread hr
  apply hnd
  intro t ht
  apply Classical.byContradiction
  intro hne
  obtain ⟨i, hi⟩ := List.mem_iff_getElem?.mp ht
  obtain ⟨l, hw, _⟩ := blocked hs hi hne (hb i)
  exact up 8 i t l hi hw hne (by omega)

/-! ### Termination -/

mutual
/-- The number of steps that an instruction takes, with those of the goroutines
that it starts. -/
def Instr.cost : Instr → Nat
  | .acq _ => 2
  | .enter _ => 1
  | .rel _ => 1
  | .racq _ => 1
  | .rrel _ => 1
  | .use _ => 1
  | .look _ => 1
  | .go p => 1 + progCost p
/-- The same for a program. -/
def progCost : List Instr → Nat
  | [] => 0
  | i :: p => i.cost + progCost p
end

/-- The steps still to be done. -/
def St.cost (s : St) : Nat := (s.threads.map (fun t => progCost t.code)).sum

theorem cost_set {ts : List Thread} {i : Nat} {t : Thread} (ht : ts[i]? = some t) (t' : Thread) :
    ((ts.set i t').map (fun t => progCost t.code)).sum + progCost t.code
      = (ts.map (fun t => progCost t.code)).sum + progCost t'.code := by
  induction ts generalizing i with
  | nil => simp at ht
  | cons a ts ih =>
    cases i with
    | zero =>
      simp only [List.getElem?_cons_zero, Option.some.injEq] at ht
      subst ht
      simp only [List.set_cons_zero, List.map_cons, List.sum_cons]
      omega
    | succ i =>
      simp only [List.getElem?_cons_succ] at ht
      have := ih ht
      simp only [List.set_cons_succ, List.map_cons, List.sum_cons]
      omega

/-- Every step (of a process that does not die) is one less to do. -/
theorem cost_step {s s' : St} {i : Nat} (h : s.step i = some s') (hd : s'.dead = false) :
    s'.cost + 1 = s.cost := by
  unfold St.step at h
  split at h
  · cases h
  · cases hi : s.threads[i]? with
    | none => rw [hi] at h; cases h
    | some t =>
      rw [hi] at h
      obtain ⟨code, held⟩ := t
      dsimp only at h
      cases code with
      | nil => cases h
      | cons c p =>
        have key := fun t' => cost_set hi t'
        cases c <;> dsimp only at h
        case acq l =>
          split at h
          · cases h
          · obtain rfl := Option.some.inj h
            have := key ⟨.enter l :: p, .w l :: held⟩
            simp only [progCost, Instr.cost, St.cost] at this ⊢
            omega
        case enter l =>
          split at h
          · obtain rfl := Option.some.inj h
            have := key ⟨p, held⟩
            simp only [progCost, Instr.cost, St.cost] at this ⊢
            omega
          · cases h
        case rel l =>
          split at h
          · obtain rfl := Option.some.inj h
            have := key ⟨p, held.erase (.w l)⟩
            simp only [progCost, Instr.cost, St.cost] at this ⊢
            omega
          · obtain rfl := Option.some.inj h
            cases hd
        case racq l =>
          split at h
          · cases h
          · obtain rfl := Option.some.inj h
            have := key ⟨p, .r l :: held⟩
            simp only [progCost, Instr.cost, St.cost] at this ⊢
            omega
        case rrel l =>
          split at h
          · obtain rfl := Option.some.inj h
            cases hd
          · obtain rfl := Option.some.inj h
            have := key ⟨p, held.erase (.r l)⟩
            simp only [progCost, Instr.cost, St.cost] at this ⊢
            omega
        case use l =>
          obtain rfl := Option.some.inj h
          have := key ⟨p, held⟩
          simp only [progCost, Instr.cost, St.cost] at this ⊢
          omega
        case look l =>
          obtain rfl := Option.some.inj h
          have := key ⟨p, held⟩
          simp only [progCost, Instr.cost, St.cost] at this ⊢
          omega
        case go q =>
          obtain rfl := Option.some.inj h
          have := key ⟨p, held⟩
          simp only [progCost, Instr.cost, St.cost, List.map_append, List.sum_append, List.map_cons,
            List.map_nil, List.sum_cons, List.sum_nil] at this ⊢
          omega

/-! ## The theorems -/

/-- However many goroutines use the engine, the tree, its storages and its sync
node, and however they interleave: as long as one of them has not returned,
some goroutine can go on; and no lock is released that is not held.  (Partial:
a callback given to `Engine.Express` must not itself use the PIT, the storages
or the tree; waiting for channels is not modelled.) -/
theorem C84_no_deadlock_partial (ps : List Prog) (h : ∀ p ∈ ps, Start p) (s : St)
    (hr : Reach (St.init ps) s) : s.dead = false ∧ (s.Done ∨ ∃ i s', s.step i = some s') := by
  have hs := Sound.reach (fun p hp => safe_start (h p hp)) hr
  refine ⟨hs.alive, ?_⟩
  by_cases hd : s.Done
  · exact .inl hd
  · exact .inr (progress hs hd)

/-- No schedule goes on for ever; with `C84_no_deadlock_partial`, every schedule
that is continued as long as possible ends with the return of every call. -/
theorem C84_returns_partial (ps : List Prog) (h : ∀ p ∈ ps, Start p) :
    ¬ ∃ f : Nat → St, f 0 = St.init ps ∧ ∀ n, ∃ i, (f n).step i = some (f (n + 1)) := by
  rintro ⟨f, h0, hf⟩
  have hr : ∀ n, Reach (St.init ps) (f n) := by
    intro n
    induction n with
    | zero => rw [h0]; exact .refl
    | succ n ih =>
      obtain ⟨i, hi⟩ := hf n
      exact .tail ih hi
  have hc : ∀ n, (f n).cost + n = (f 0).cost := by
    intro n
    induction n with
    | zero => rfl
    | succ n ih =>
      obtain ⟨i, hi⟩ := hf n
      have := cost_step hi (C84_no_deadlock_partial ps h _ (hr (n + 1))).1
      omega
  have := hc ((f 0).cost + 1)
  omega

/-- When all have returned, no lock is left taken. -/
theorem C84_released_partial (ps : List Prog) (h : ∀ p ∈ ps, Start p) (s : St)
    (hr : Reach (St.init ps) s) (hd : s.Done) (l : Lock) :
    s.locked l = false ∧ s.readers l = 0 := by
  have hs := Sound.reach (fun p hp => safe_start (h p hp)) hr
  have h0 : ∀ x, total s.threads x = 0 := by
    intro x
    rcases Nat.eq_zero_or_pos (total s.threads x) with h | h
    · exact h
    · obtain ⟨i, t, hi, hx⟩ := exists_of_total h
      exact absurd (hd t (List.mem_of_getElem? hi)) (held_code hs hi hx)
  have h1 := hs.locked l
  have h2 := hs.readers l
  rw [h0] at h1 h2
  refine ⟨?_, h2.symm⟩
  cases hl : s.locked l
  · rfl
  · rw [hl] at h1
    cases h1

/-- The data of a lock are written by one goroutine at a time, while nobody
else reads or writes them. -/
theorem C84_alone_partial (ps : List Prog) (h : ∀ p ∈ ps, Start p) (s : St)
    (hr : Reach (St.init ps) s) {i j : Nat} {t u : Thread} {l : Lock} {p q : Prog}
    (hi : s.threads[i]? = some t) (hj : s.threads[j]? = some u) (hij : i ≠ j)
    (ht : t.code = .use l :: p) : u.code ≠ .use l :: q ∧ u.code ≠ .look l :: q := by
  have hs := Sound.reach (fun p hp => safe_start (h p hp)) hr
  have hti : .w l ∈ t.held := by
    have := hs.ok i t hi
    rw [ht] at this
    generalize t.held = g at this
    cases this
    assumption
  constructor
  · intro hu
    have huj : .w l ∈ u.held := by
      have := hs.ok j u hj
      rw [hu] at this
      generalize u.held = g at this
      cases this
      assumption
    have h1 := total_set hi ⟨t.code, []⟩ (.w l)
    have hj' : (s.threads.set i ⟨t.code, []⟩)[j]? = some u := by
      rw [List.getElem?_set_ne hij]
      exact hj
    have h2 := count_le_total hj' (.w l)
    have h3 := List.count_pos_iff.mpr hti
    have h4 := List.count_pos_iff.mpr huj
    have h5 := hs.locked l
    simp only [List.count_nil] at h1
    split at h5 <;> omega
  · intro hu
    have huj : .r l ∈ u.held := by
      have := hs.ok j u hj
      rw [hu] at this
      generalize u.held = g at this
      cases this
      assumption
    have h0 := hs.inside i t l hi ⟨hti, fun q hq => by rw [ht] at hq; cases hq⟩
    have h2 := count_le_total hj (.r l)
    have h4 := List.count_pos_iff.mpr huj
    have h5 := hs.readers l
    omega

/-- The hypotheses can be met: a goroutine of the application that fetches and
publishes, the goroutine of the face that gives Data to a callback made by
`NeedCallback` (whose own callback fetches again) and an Interest to the tree,
a timer that expires, and the detaching of the tree. -/
example : ∀ p ∈ ([need (searchCache true true) .sent [] ++ newData (saveStorage true false) true (searchCache true false) .sent,
      [onData [needCallback [] (saveStorage true false) (need (searchCache true false) .failed [])],
        onInterest (intHandler (some (onInterestNode (searchCache true true) false [] onSyncInt)))].flatten,
      onTimeout [needCallback [] (saveStorage false false) []],
      onSyncTimer true (searchCache true false) .sent,
      treeDetach svsDetach] : List Prog), Start p := by
  intro p hp
  simp only [List.mem_cons, List.not_mem_nil, or_false] at hp
  rcases hp with rfl | rfl | rfl | rfl | rfl
  · exact .app (.seq (.need _ (.cache _ _) .nil) (.newData _ _ (.storage _ _) (.cache _ _)))
  · refine .run ?_
    intro p hp
    simp only [List.mem_cons, List.not_mem_nil, or_false] at hp
    rcases hp with rfl | rfl
    · refine .data ?_
      intro cb hcb
      simp only [List.mem_cons, List.not_mem_nil, or_false] at hcb
      subst hcb
      exact .need .nil (.storage _ _) (.need _ (.cache _ _) .nil)
    · exact .tree _ (.cache _ _) .nil .syncInt
  · refine .timer (.interest ?_)
    intro cb hcb
    simp only [List.mem_cons, List.not_mem_nil, or_false] at hcb
    subst hcb
    exact .need .nil (.storage _ _) .nil
  · exact .timer (.sync _ _ (.cache _ _))
  · exact .app (.detach .svs)

/-! ## Failures -/

theorem Ok.any {R : Lock → Lock → Prop} {h : List Hold} {p : Prog} (hp : Ok R h p) : Ok Any h p := by
  induction hp with
  | nil => exact .nil
  | acq _ _ ih => exact .acq (fun _ _ => trivial) ih
  | enter _ _ ih => exact .enter (fun _ _ => trivial) ih
  | rel h _ ih => exact .rel h ih
  | racq _ _ ih => exact .racq (fun _ _ => trivial) ih
  | rrel h _ ih => exact .rrel h ih
  | use h _ ih => exact .use h ih
  | look h _ ih => exact .look h ih
  | go _ _ ih1 ih2 => exact .go ih1 ih2

theorem Reach.trans {a b c : St} (h1 : Reach a b) (h2 : Reach b c) : Reach a c := by
  induction h2 with
  | refl => exact h1
  | tail _ hst ih => exact .tail ih hst

theorem Sound.later {R : Lock → Lock → Prop} {a b : St} (h : Sound R a) (hr : Reach a b) :
    Sound R b := by
  induction hr with
  | refl => exact h
  | tail _ hst ih => exact ih.step hst

/-- A step of one goroutine does not touch the others. -/
theorem step_other {s s' : St} {i j : Nat} {t : Thread} (h : s.step j = some s') (hij : i ≠ j)
    (hi : s.threads[i]? = some t) : s'.threads[i]? = some t := by
  have hlt : i < s.threads.length := by
    rcases Nat.lt_or_ge i s.threads.length with h' | h'
    · exact h'
    · rw [List.getElem?_eq_none h'] at hi
      cases hi
  have key : ∀ u, (s.threads.set j u)[i]? = some t := by
    intro u
    rw [List.getElem?_set_ne (fun he => hij he.symm)]
    exact hi
  unfold St.step at h
  split at h
  · cases h
  · split at h
    · cases h
    · split at h
      · cases h
      all_goals (try split at h)
      all_goals first | cases h | skip
      all_goals first | exact key _ | exact hi | skip
      rw [List.getElem?_append_left (by simpa using hlt)]
      exact key _

/-- A goroutine that holds a lock and takes it again waits for ever, and so do
all that wait for this lock. -/
theorem stuck {s s' : St} (hs : Sound Any s) (hr : Reach s s') {i : Nat} {t : Thread} {l : Lock}
    {p : Prog} (hi : s.threads[i]? = some t) (ht : t.code = .acq l :: p) (hw : .w l ∈ t.held) :
    s'.threads[i]? = some t ∧ s'.locked l = true ∧
      ∀ (j : Nat) (u : Thread) (q : Prog), s.threads[j]? = some u → (u.code = .acq l :: q ∨ u.code = .racq l :: q) →
        s'.threads[j]? = some u := by
  have lk : ∀ s : St, Sound Any s → s.threads[i]? = some t → s.locked l = true := by
    intro s hs hi
    have h1 := count_le_total hi (.w l)
    have h2 := List.count_pos_iff.mpr hw
    have h3 := hs.locked l
    cases hl : s.locked l
    · rw [hl] at h3
      simp at h3
      omega
    · rfl
  have stay : ∀ (s s' : St) (j k : Nat) (u : Thread) (q : Prog), s.locked l = true →
      s.threads[j]? = some u → (u.code = .acq l :: q ∨ u.code = .racq l :: q) →
      s.step k = some s' → s'.threads[j]? = some u := by
    intro s s' j k u q hl hj hu hst
    by_cases hjk : j = k
    · subst hjk
      unfold St.step at hst
      rw [hj] at hst
      split at hst
      · cases hst
      · dsimp only at hst
        rcases hu with hu | hu <;> rw [hu] at hst <;> dsimp only at hst <;> rw [if_pos hl] at hst <;> cases hst
    · exact step_other hst hjk hj
  have all : s'.threads[i]? = some t ∧ ∀ (j : Nat) (u : Thread) (q : Prog), s.threads[j]? = some u →
      (u.code = .acq l :: q ∨ u.code = .racq l :: q) → s'.threads[j]? = some u := by
    induction hr with
    | refl => exact ⟨hi, fun j u q hj _ => hj⟩
    | @tail a b k har hst ih =>
      have hl := lk a (hs.later har) ih.1
      exact ⟨stay a b i k t p hl ih.1 (.inl ht) hst,
        fun j u q hj hu => stay a b j k u q hl (ih.2 j u q hj hu) hu hst⟩
  exact ⟨all.1, lk s' (hs.later hr) all.1, all.2⟩

/-- Steps of goroutine 0 alone. -/
def St.run (s : St) : Nat → Option St
  | 0 => some s
  | n + 1 => match s.step 0 with
    | none => none
    | some s' => s'.run n

theorem Reach.head {a b c : St} {i : Nat} (h : a.step i = some b) (hr : Reach b c) : Reach a c := by
  induction hr with
  | refl => exact .tail .refl h
  | tail _ hst ih => exact .tail ih hst

theorem run_reach {s s' : St} {n : Nat} (h : s.run n = some s') : Reach s s' := by
  induction n generalizing s with
  | zero => cases h; exact .refl
  | succ n ih =>
    simp only [St.run] at h
    split at h
    · cases h
    · rename_i b hb
      exact .head hb (ih h)

theorem safe_any {p : Prog} (hp : Start p) : Ok Any [] p := (safe_start hp).any

/-- A callback that expresses another Interest - the usual way to fetch one
packet after the other - stops the engine: `onData` calls it with the PIT
locked and `Express` locks the PIT.  Whatever other goroutines there are, the
face's goroutine never returns, the PIT stays locked and every `Express` waits
for ever. -/
theorem C84_reentrant_violated (ps : List Prog) (h : ∀ p ∈ ps, Start p) :
    ∃ s, Reach (St.init (onData [express] :: express :: ps)) s ∧
      ∀ s', Reach s s' → s'.locked .pit = true ∧
        (∃ t, s'.threads[0]? = some t ∧ t.code ≠ []) ∧
        (∃ t, s'.threads[1]? = some t ∧ t.code = express) := by
  have hstart : ∀ p ∈ onData [express] :: express :: ps, Ok Any [] p := by
    intro p hp
    simp only [List.mem_cons] at hp
    rcases hp with rfl | rfl | hp
    · refine .acq (fun _ _ => trivial) (.use (by simp) (.acq (fun _ _ => trivial) (.use (by simp)
        (.rel (by simp) ?_))))
      refine .acq (fun _ _ => trivial) (.use (by simp) (.acq (fun _ _ => trivial) (.use (by simp)
        (.rel (by simp) (.use (by simp) (.rel (by simp) ?_))))))
      refine .acq (fun _ _ => trivial) (.use (by simp) (.rel (by simp) (.use (by simp)
        (.rel (by simp) ?_))))
      simp
      exact .nil
    · exact (safe_express (n := 0) (by decide)).ok.any
    · exact safe_any (h p hp)
  have hs0 : Sound Any (St.init (onData [express] :: express :: ps)) := Sound.init hstart
  refine ⟨_, run_reach (n := 7) (s := St.init (onData [express] :: express :: ps)) rfl, ?_⟩
  intro s' hr
  have hs := hs0.later (run_reach (n := 7) (s := St.init (onData [express] :: express :: ps)) rfl)
  obtain ⟨h1, h2, h3⟩ := stuck hs hr (i := 0) (l := .pit) rfl rfl (by simp)
  exact ⟨h2, ⟨_, h1, by simp⟩, ⟨_, h3 1 ⟨express, []⟩ _ rfl (.inl rfl), rfl⟩⟩

/-- A listener of OnAttach that puts a node into its tree never returns, nor
does `Attach`. -/
theorem C84_attach_violated (ps : List Prog) (h : ∀ p ∈ ps, Start p) :
    ∃ s, Reach (St.init (treeAttach putNode :: ps)) s ∧
      ∀ s', Reach s s' → s'.locked .tree = true ∧ ∃ t, s'.threads[0]? = some t ∧ t.code ≠ [] := by
  have hstart : ∀ p ∈ treeAttach putNode :: ps, Ok Any [] p := by
    intro p hp
    simp only [List.mem_cons] at hp
    rcases hp with rfl | hp
    · refine .acq (fun _ _ => trivial) (.use (by simp) (.acq (fun _ _ => trivial) (.use (by simp)
        (.rel (by simp) ?_))))
      refine .acq (fun _ _ => trivial) (.use (by simp) (.rel (by simp) (.use (by simp)
        (.rel (by simp) ?_))))
      simp
      exact .nil
    · exact safe_any (h p hp)
  have hs0 : Sound Any (St.init (treeAttach putNode :: ps)) := Sound.init hstart
  refine ⟨_, run_reach (n := 3) (s := St.init (treeAttach putNode :: ps)) rfl, ?_⟩
  intro s' hr
  have hs := hs0.later (run_reach (n := 3) (s := St.init (treeAttach putNode :: ps)) rfl)
  obtain ⟨h1, h2, _⟩ := stuck hs hr (i := 0) (l := .tree) rfl rfl (by simp)
  exact ⟨h2, ⟨_, h1, by simp⟩⟩

end Ndn.Engine.Locks
