import Verif.Schema.SvsNode

/-! # Properties of the sync node of the schema tree: C56, C62 -/

namespace Ndn.Schema

/-! ## Vectors -/

theorem SVec.get_set (v : SVec) (id id' : Bytes) (q : Nat) : (v.set id q).get id' = if id' = id then (v.get id).map (fun _ => q) else v.get id' := by
  induction v with
  | nil => simp [SVec.set, SVec.get]
  | cons e v ih =>
    rw [SVec.set]
    by_cases h : e.1 = id
    · rw [if_pos h, SVec.get, SVec.get, if_pos h, SVec.get]
      by_cases h' : id' = id
      · rw [if_pos (by rw [h, h']), if_pos h']; rfl
      · rw [if_neg (by rw [h]; exact fun x => h' x.symm), if_neg h', if_neg (by rw [h]; exact fun x => h' x.symm)]
    · rw [if_neg h, SVec.get, SVec.get, if_neg h, ih, SVec.get]
      by_cases h' : id' = id
      · rw [if_pos h', if_neg (by rw [h']; exact h), if_pos h']
      · rw [if_neg h', if_neg h']

theorem SVec.get_append (v : SVec) (e : Bytes × Nat) (id : Bytes) : SVec.get (v ++ [e]) id = (v.get id).or (if e.1 = id then some e.2 else none) := by
  induction v with
  | nil => rfl
  | cons a v ih =>
    rw [List.cons_append, SVec.get, SVec.get, ih]
    by_cases h : a.1 = id
    · rw [if_pos h, if_pos h]; rfl
    · rw [if_neg h, if_neg h]

theorem SVec.mem_of_get {v : SVec} {id : Bytes} {q : Nat} (h : v.get id = some q) : (id, q) ∈ v := by
  induction v with
  | nil => cases h
  | cons e v ih =>
    rw [SVec.get] at h
    by_cases he : e.1 = id
    · rw [if_pos he] at h
      injection h with h
      rw [← he, ← h]; exact List.mem_cons_self
    · rw [if_neg he] at h
      exact List.mem_cons_of_mem _ (ih h)

theorem SVec.mem_set {v : SVec} {id : Bytes} {q : Nat} {e : Bytes × Nat} (h : e ∈ v.set id q) : e = (id, q) ∨ e ∈ v := by
  induction v with
  | nil => cases h
  | cons a v ih =>
    rw [SVec.set] at h
    by_cases ha : a.1 = id
    · rw [if_pos ha, ha] at h
      rcases List.mem_cons.mp h with h | h
      · exact .inl h
      · exact .inr (List.mem_cons_of_mem _ h)
    · rw [if_neg ha] at h
      rcases List.mem_cons.mp h with h | h
      · exact .inr (h ▸ List.mem_cons_self)
      · exact (ih h).imp_right (List.mem_cons_of_mem _)

/-! ## The recorded numbers -/

theorem entry_recorded (st : SvsN × Bool) (cur : Bytes × Nat) (p : Bytes) :
    (SvsN.entry st cur).1.recorded p = if cur.1 = p then max (st.1.recorded p) cur.2 else st.1.recorded p := by
  unfold SvsN.entry SvsN.recorded
  cases hg : st.1.sv.get cur.1 with
  | none =>
    simp only [SVec.get_append]
    by_cases h : cur.1 = p
    · rw [if_pos h, if_pos h, ← h, hg]; simp
    · rw [if_neg h, if_neg h, Option.or_none]
  | some q =>
    simp only
    by_cases h1 : q < cur.2
    · rw [if_pos h1]
      simp only [SVec.get_set]
      by_cases h : cur.1 = p
      · rw [if_pos h.symm, if_pos h, ← h, hg]; simp; omega
      · rw [if_neg (fun x => h x.symm), if_neg h]
    · rw [if_neg h1]
      have : ∀ b : Bool, (if q > cur.2 then ((st.1, true) : SvsN × Bool) else st).1 = st.1 := by intro _; split <;> rfl
      rw [this true]
      by_cases h : cur.1 = p
      · rw [if_pos h, ← h, hg]; simp; omega
      · rw [if_neg h]

theorem entry_frame (st : SvsN × Bool) (cur : Bytes × Nat) :
    (SvsN.entry st cur).1.self = st.1.self ∧ (SvsN.entry st cur).1.selfSeq = st.1.selfSeq ∧ (SvsN.entry st cur).1.suppress = st.1.suppress ∧
      (SvsN.entry st cur).1.agg = st.1.agg ∧ (SvsN.entry st cur).1.sent = st.1.sent := by
  unfold SvsN.entry
  (repeat' split) <;> exact ⟨rfl, rfl, rfl, rfl, rfl⟩

/-- the greatest number for a producer in a vector -/
def bestOf (p : Bytes) (v : SVec) : Nat := v.foldr (fun e m => if e.1 = p then max e.2 m else m) 0

theorem fold_recorded (p : Bytes) : ∀ (v : SVec) (st : SvsN × Bool), (v.foldl SvsN.entry st).1.recorded p = max (st.1.recorded p) (bestOf p v) := by
  intro v
  induction v with
  | nil => intro st; simp [bestOf]
  | cons e v ih =>
    intro st
    rw [List.foldl_cons, ih, entry_recorded]
    have : bestOf p (e :: v) = if e.1 = p then max e.2 (bestOf p v) else bestOf p v := rfl
    rw [this]
    by_cases h : e.1 = p
    · rw [if_pos h, if_pos h]; omega
    · rw [if_neg h, if_neg h]

theorem fold_frame : ∀ (v : SVec) (st : SvsN × Bool),
    (v.foldl SvsN.entry st).1.self = st.1.self ∧ (v.foldl SvsN.entry st).1.selfSeq = st.1.selfSeq ∧ (v.foldl SvsN.entry st).1.suppress = st.1.suppress ∧
      (v.foldl SvsN.entry st).1.agg = st.1.agg ∧ (v.foldl SvsN.entry st).1.sent = st.1.sent := by
  intro v
  induction v with
  | nil => intro st; exact ⟨rfl, rfl, rfl, rfl, rfl⟩
  | cons e v ih =>
    intro st
    obtain ⟨a, b, c, d, f⟩ := ih (SvsN.entry st e)
    obtain ⟨a', b', c', d', f'⟩ := entry_frame st e
    exact ⟨a.trans a', b.trans b', c.trans c', d.trans d', f.trans f'⟩

/-- `onSyncInt` changes `sv` and `missing` as the loop does -/
theorem sync_ok {n n' : SvsN} {r : Option SVec} (h : n.onSyncInt r = .ok n') : ∃ v, r = some v ∧
    n'.sv = (v.foldl SvsN.entry (n, false)).1.sv ∧ n'.missing = (v.foldl SvsN.entry (n, false)).1.missing ∧
    n'.self = n.self ∧ n'.selfSeq = n.selfSeq ∧ n'.sent = n.sent := by
  cases r with
  | none => cases h
  | some v =>
    obtain ⟨a, b, _, _, f⟩ := fold_frame v (n, false)
    refine ⟨v, rfl, ?_⟩
    unfold SvsN.onSyncInt at h
    simp only at h
    generalize v.foldl SvsN.entry (n, false) = st at *
    (repeat' split at h) <;> (injection h with h; subst h; exact ⟨rfl, rfl, a, b, f⟩)

theorem timer_frame (n : SvsN) : n.onSyncTimer.sv = n.sv ∧ n.onSyncTimer.missing = n.missing ∧ n.onSyncTimer.self = n.self ∧ n.onSyncTimer.selfSeq = n.selfSeq := by
  obtain ⟨b, l, h⟩ : ∃ b l, n.onSyncTimer = { n with suppress := b, sent := l } := by
    unfold SvsN.onSyncTimer SvsN.express
    split
    · simp only
      split <;> exact ⟨_, _, rfl⟩
    · exact ⟨_, _, rfl⟩
  rw [h]
  exact ⟨rfl, rfl, rfl, rfl⟩

theorem newData_frame (n : SvsN) (b : Bool) : (n.newData b).missing = n.missing ∧ (n.newData b).self = n.self ∧
    (n.newData b).selfSeq = (if b then next64 n.selfSeq else n.selfSeq) ∧ (n.newData b).sv = if b then n.sv.set n.self (next64 n.selfSeq) else n.sv := by
  cases b <;> exact ⟨rfl, rfl, rfl, rfl⟩

theorem after_cons {self : Bytes} {e : SvsNEvent} {evs : List SvsNEvent} {n' : SvsN} (h : svsNAfter self (e :: evs) = .ok n') :
    ∃ n, svsNAfter self evs = .ok n ∧ n.step e = .ok n' := by
  rw [svsNAfter] at h
  cases hn : svsNAfter self evs with
  | ok n => rw [hn] at h; exact ⟨n, rfl, h⟩
  | err e => rw [hn] at h; cases h
  | panic => rw [hn] at h; cases h

theorem after_self {self : Bytes} : ∀ {evs : List SvsNEvent} {n : SvsN}, svsNAfter self evs = .ok n → n.self = self := by
  intro evs
  induction evs with
  | nil => intro n h; injection h with h; subst h; rfl
  | cons e evs ih =>
    intro n' h
    obtain ⟨n, h1, h2⟩ := after_cons h
    cases e with
    | sync r => obtain ⟨_, _, _, _, h3, _⟩ := sync_ok h2; exact h3.trans (ih h1)
    | timer => injection h2 with h2; subst h2; exact (timer_frame n).2.2.1.trans (ih h1)
    | newData b => injection h2 with h2; subst h2; exact (newData_frame n b).2.1.trans (ih h1)

/-! ## C56 -/

/-- all the entries of the vectors received in a history -/
def svTold : List SvsNEvent → SVec
  | [] => []
  | .sync (some v) :: evs => v ++ svTold evs
  | .sync none :: evs => svTold evs
  | .timer :: evs => svTold evs
  | .newData _ :: evs => svTold evs

theorem bestOf_append (p : Bytes) (v w : SVec) : bestOf p (v ++ w) = max (bestOf p v) (bestOf p w) := by
  induction v with
  | nil => simp [bestOf]
  | cons e v ih =>
    have h : ∀ u : SVec, bestOf p (e :: u) = if e.1 = p then max e.2 (bestOf p u) else bestOf p u := fun _ => rfl
    rw [List.cons_append, h, h, ih]
    by_cases he : e.1 = p
    · rw [if_pos he, if_pos he]; omega
    · rw [if_neg he, if_neg he]

/-- C56: the number recorded for another producer is the greatest one received for it, in any order of events. -/
theorem C56_recorded (self p : Bytes) (hp : p ≠ self) : ∀ (evs : List SvsNEvent) (n : SvsN), svsNAfter self evs = .ok n → n.recorded p = bestOf p (svTold evs) := by
  intro evs
  induction evs with
  | nil =>
    intro n h
    injection h with h
    subst h
    simp [SvsN.recorded, SvsN.attach, SVec.get, Ne.symm hp, svTold, bestOf]
  | cons e evs ih =>
    intro n' h
    obtain ⟨n, h1, h2⟩ := after_cons h
    have hi := ih n h1
    cases e with
    | sync r =>
      obtain ⟨v, rfl, h3, _⟩ := sync_ok h2
      have : n'.recorded p = (v.foldl SvsN.entry (n, false)).1.recorded p := by unfold SvsN.recorded; rw [h3]
      rw [this, fold_recorded, hi, svTold, bestOf_append, Nat.max_comm]
    | timer =>
      injection h2 with h2; subst h2
      unfold SvsN.recorded at hi ⊢
      rw [(timer_frame n).1]; exact hi
    | newData b =>
      injection h2 with h2; subst h2
      unfold SvsN.recorded at hi ⊢
      rw [(newData_frame n b).2.2.2, svTold]
      cases b with
      | false => exact hi
      | true =>
        rw [if_pos rfl, SVec.get_set, after_self h1, if_neg hp]; exact hi

/-- C56: the number recorded for another producer never decreases, in every execution.  Missing: the node's own number, see `C56_own_partial` and
`C56_own_violated`. -/
theorem C56_monotone_partial (self p : Bytes) (hp : p ≠ self) (later earlier : List SvsNEvent) (n n' : SvsN)
    (h : svsNAfter self earlier = .ok n) (h' : svsNAfter self (later ++ earlier) = .ok n') : n.recorded p ≤ n'.recorded p := by
  rw [C56_recorded self p hp _ n h, C56_recorded self p hp _ n' h']
  have : ∀ later, bestOf p (svTold earlier) ≤ bestOf p (svTold (later ++ earlier)) := by
    intro later
    induction later with
    | nil => exact Nat.le_refl _
    | cons e l ih =>
      cases e with
      | sync r =>
        cases r with
        | none => exact ih
        | some v => rw [List.cons_append, svTold, bestOf_append]; omega
      | timer => exact ih
      | newData b => exact ih
  exact this later

/-- the ranges reported for a producer, first first -/
def rangesOf (p : Bytes) (l : List Missing) : List (Nat × Nat) := (l.filter (fun m => m.id == p)).map (fun m => (m.start, m.stop))

/-- how many of the ranges contain `k` -/
def timesIn (k : Nat) (l : List (Nat × Nat)) : Nat := l.countP (fun r => decide (r.1 ≤ k) && decide (k < r.2))

/-- the ranges contain each of 1 to `m` once, and nothing else -/
def Exactly (l : List (Nat × Nat)) (m : Nat) : Prop := ∀ k, timesIn k l = if 1 ≤ k ∧ k ≤ m then 1 else 0

theorem Exactly.add {l : List (Nat × Nat)} {m m' : Nat} (h : Exactly l m) (hm : m ≤ m') : Exactly (l ++ [(m + 1, m' + 1)]) m' := by
  intro k
  unfold timesIn
  rw [List.countP_append]
  have := h k
  unfold timesIn at this
  rw [this]
  simp only [List.countP_cons, List.countP_nil, Bool.and_eq_true, decide_eq_true_eq]
  split <;> split <;> split <;> omega

theorem rangesOf_append (p : Bytes) (l : List Missing) (m : Missing) : rangesOf p (l ++ [m]) = rangesOf p l ++ if m.id = p then [(m.start, m.stop)] else [] := by
  unfold rangesOf
  rw [List.filter_append, List.map_append]
  by_cases h : m.id = p
  · rw [if_pos h, List.filter_cons_of_pos (by simpa using h)]; rfl
  · rw [if_neg h, List.filter_cons_of_neg (by simpa using h)]; rfl

theorem next64_of_lt {x : Nat} (h : x < 2 ^ 64 - 1) : next64 x = x + 1 := by
  unfold next64; omega

theorem entry_ranges {st : SvsN × Bool} {cur : Bytes × Nat} {p : Bytes} (hq : cur.2 < 2 ^ 64 - 1)
    (h : Exactly (rangesOf p st.1.missing) (st.1.recorded p)) :
    Exactly (rangesOf p (SvsN.entry st cur).1.missing) ((SvsN.entry st cur).1.recorded p) := by
  rw [entry_recorded]
  unfold SvsN.entry
  cases hg : st.1.sv.get cur.1 with
  | none =>
    simp only [rangesOf_append, next64_of_lt hq]
    by_cases hc : cur.1 = p
    · rw [if_pos hc, if_pos hc]
      have h0 : st.1.recorded p = 0 := by unfold SvsN.recorded; rw [← hc, hg]; rfl
      rw [h0] at h ⊢
      rw [Nat.zero_max]
      exact h.add (Nat.zero_le _)
    · rw [if_neg hc, if_neg hc, List.append_nil]; exact h
  | some q =>
    simp only
    by_cases h1 : q < cur.2
    · rw [if_pos h1]
      simp only [rangesOf_append, next64_of_lt hq, next64_of_lt (show q < 2 ^ 64 - 1 by omega)]
      by_cases hc : cur.1 = p
      · rw [if_pos hc, if_pos hc]
        have h0 : st.1.recorded p = q := by unfold SvsN.recorded; rw [← hc, hg]; rfl
        rw [h0] at h ⊢
        rw [Nat.max_eq_right (by omega)]
        exact h.add (by omega)
      · rw [if_neg hc, if_neg hc, List.append_nil]; exact h
    · rw [if_neg h1]
      have : (if q > cur.2 then ((st.1, true) : SvsN × Bool) else st).1 = st.1 := by split <;> rfl
      rw [this]
      by_cases hc : cur.1 = p
      · have h0 : st.1.recorded p = q := by unfold SvsN.recorded; rw [← hc, hg]; rfl
        rw [if_pos hc, Nat.max_eq_left (by omega)]; exact h
      · rw [if_neg hc]; exact h

theorem fold_ranges {p : Bytes} : ∀ (v : SVec) (st : SvsN × Bool), (∀ e ∈ v, e.2 < 2 ^ 64 - 1) → Exactly (rangesOf p st.1.missing) (st.1.recorded p) →
    Exactly (rangesOf p (v.foldl SvsN.entry st).1.missing) ((v.foldl SvsN.entry st).1.recorded p) := by
  intro v
  induction v with
  | nil => intro st _ h; exact h
  | cons e v ih =>
    intro st hv h
    exact ih _ (fun e he => hv e (List.mem_cons_of_mem _ he)) (entry_ranges (hv e List.mem_cons_self) h)

/-- C56: in every execution in which no number 2^64 - 1 is received, the ranges reported for another producer contain each number from 1 to the recorded
one exactly once, and nothing else.  Missing: `C56_wrap_violated`, and the ranges for the node itself. -/
theorem C56_ranges_partial (self p : Bytes) (hp : p ≠ self) : ∀ (evs : List SvsNEvent) (n : SvsN), (∀ e ∈ svTold evs, e.2 < 2 ^ 64 - 1) →
    svsNAfter self evs = .ok n → Exactly (rangesOf p n.missing) (n.recorded p) := by
  intro evs
  induction evs with
  | nil =>
    intro n _ h
    injection h with h
    subst h
    intro k
    simp [SvsN.recorded, SvsN.attach, SVec.get, Ne.symm hp, rangesOf, timesIn]
    omega
  | cons e evs ih =>
    intro n' hr h
    obtain ⟨n, h1, h2⟩ := after_cons h
    cases e with
    | sync r =>
      obtain ⟨v, rfl, h3, h4, _⟩ := sync_ok h2
      rw [svTold] at hr
      have hi := ih n (fun e he => hr e (List.mem_append_right _ he)) h1
      have := fold_ranges v (n, false) (fun e he => hr e (List.mem_append_left _ he)) hi
      unfold SvsN.recorded at this ⊢
      rw [h3, h4]; exact this
    | timer =>
      injection h2 with h2; subst h2
      have hi := ih n hr h1
      unfold SvsN.recorded at hi ⊢
      rw [(timer_frame n).1, (timer_frame n).2.1]; exact hi
    | newData b =>
      injection h2 with h2; subst h2
      have hi := ih n hr h1
      unfold SvsN.recorded at hi ⊢
      rw [(newData_frame n b).2.2.2, (newData_frame n b).1]
      cases b with
      | false => exact hi
      | true =>
        rw [if_pos rfl, SVec.get_set, after_self h1, if_neg hp]; exact hi

/-- a history with two producers, one of them twice in a vector -/
example : svsNAfter [1] [.newData true, .sync (some [([2], 4), ([3], 2), ([2], 7)]), .timer, .sync (some [([2], 3)])] =
      .ok ⟨[1], [([1], 1), ([2], 7), ([3], 2)], [([2], 4), ([3], 2), ([2], 7)], false, 1,
        [⟨[2], 1, 4⟩, ⟨[2], 4, 5⟩, ⟨[3], 1, 3⟩, ⟨[2], 5, 8⟩], [[([1], 0), ([2], 3)], [([1], 1), ([2], 7), ([3], 2)]]⟩ := by decide

/-- the number of packets published -/
def published : List SvsNEvent → Nat
  | [] => 0
  | .newData true :: evs => published evs + 1
  | .newData false :: evs => published evs
  | .timer :: evs => published evs
  | .sync _ :: evs => published evs

/-- no received vector has a greater number for the node than it has published -/
def Honest (self : Bytes) : List SvsNEvent → Prop
  | [] => True
  | .sync (some v) :: evs => (∀ e ∈ v, e.1 = self → e.2 ≤ published evs) ∧ Honest self evs
  | .sync none :: evs => Honest self evs
  | .timer :: evs => Honest self evs
  | .newData _ :: evs => Honest self evs

theorem entry_own {st : SvsN × Bool} {cur : Bytes × Nat} {p : Bytes} {q : Nat} (hg : st.1.sv.get p = some q) (hc : cur.1 = p → cur.2 ≤ q) :
    (SvsN.entry st cur).1.sv.get p = some q ∧ rangesOf p (SvsN.entry st cur).1.missing = rangesOf p st.1.missing := by
  unfold SvsN.entry
  cases hc1 : st.1.sv.get cur.1 with
  | none =>
    have hne : cur.1 ≠ p := by rintro h; rw [h, hg] at hc1; cases hc1
    simp only [rangesOf_append, SVec.get_append, hg, if_neg hne, List.append_nil, Option.or_none, and_self]
  | some q' =>
    simp only
    by_cases h1 : q' < cur.2
    · have hne : cur.1 ≠ p := by
        intro h
        have := hc h
        rw [h, hg] at hc1
        injection hc1 with hc1
        omega
      rw [if_pos h1]
      simp only [rangesOf_append, SVec.get_set, hg, if_neg hne, if_neg (Ne.symm hne), List.append_nil, and_self]
    · rw [if_neg h1]
      have : (if q' > cur.2 then ((st.1, true) : SvsN × Bool) else st).1 = st.1 := by split <;> rfl
      rw [this]
      exact ⟨hg, rfl⟩

theorem fold_own {p : Bytes} {q : Nat} : ∀ (v : SVec) (st : SvsN × Bool), st.1.sv.get p = some q → (∀ e ∈ v, e.1 = p → e.2 ≤ q) →
    (v.foldl SvsN.entry st).1.sv.get p = some q ∧ rangesOf p (v.foldl SvsN.entry st).1.missing = rangesOf p st.1.missing := by
  intro v
  induction v with
  | nil => intro st h _; exact ⟨h, rfl⟩
  | cons e v ih =>
    intro st h hv
    obtain ⟨h1, h2⟩ := entry_own h (hv e List.mem_cons_self)
    obtain ⟨h3, h4⟩ := ih _ h1 fun e he => hv e (List.mem_cons_of_mem _ he)
    exact ⟨h3, h4.trans h2⟩

/-- C56: if no received vector claims more for the node than it has published, the node's own number is the number of its publications (so it never
decreases and no number is used twice), and nothing is reported missing for it. -/
theorem C56_own_partial (self : Bytes) : ∀ (evs : List SvsNEvent) (n : SvsN), Honest self evs → published evs < 2 ^ 64 → svsNAfter self evs = .ok n →
    n.sv.get self = some (published evs) ∧ n.selfSeq = published evs ∧ rangesOf self n.missing = [] := by
  intro evs
  induction evs with
  | nil =>
    intro n _ _ h
    injection h with h
    subst h
    exact ⟨by simp [SvsN.attach, SVec.get, published], rfl, rfl⟩
  | cons e evs ih =>
    intro n' hh hb h
    obtain ⟨n, h1, h2⟩ := after_cons h
    cases e with
    | sync r =>
      obtain ⟨v, rfl, h3, h4, _, h6, _⟩ := sync_ok h2
      obtain ⟨i1, i2, i3⟩ := ih n hh.2 hb h1
      obtain ⟨f1, f2⟩ := fold_own v (n, false) i1 hh.1
      rw [h3, h4, h6, f2]
      exact ⟨f1, i2, i3⟩
    | timer =>
      injection h2 with h2; subst h2
      obtain ⟨t1, t2, _, t4⟩ := timer_frame n
      rw [t1, t2, t4]
      exact ih n hh hb h1
    | newData b =>
      injection h2 with h2; subst h2
      obtain ⟨t1, _, t3, t4⟩ := newData_frame n b
      rw [t1, t3, t4]
      cases b with
      | false => exact ih n hh hb h1
      | true =>
        rw [published] at hb
        obtain ⟨i1, i2, i3⟩ := ih n hh (by omega) h1
        rw [if_pos rfl, if_pos rfl, SVec.get_set, after_self h1, if_pos rfl, i1, i2, next64_of_lt (by omega)]
        exact ⟨rfl, rfl, i3⟩

/-- two publications, and a vector that knows the first one -/
example : Honest [1] [.newData true, .sync (some [([1], 1), ([2], 9)]), .newData true] ∧
    published [.newData true, .sync (some [([1], 1), ([2], 9)]), .newData true] = 2 := ⟨⟨by decide, trivial⟩, rfl⟩

/-- C56: a history without a malformed vector does not panic. -/
theorem C56_no_panic_partial (self : Bytes) : ∀ evs : List SvsNEvent, (∀ e ∈ evs, e ≠ .sync none) → ∃ n, svsNAfter self evs = .ok n := by
  intro evs
  induction evs with
  | nil => intro _; exact ⟨_, rfl⟩
  | cons e evs ih =>
    intro h
    obtain ⟨n, hn⟩ := ih fun e he => h e (List.mem_cons_of_mem _ he)
    rw [svsNAfter, hn]
    cases e with
    | timer => exact ⟨_, rfl⟩
    | newData b => exact ⟨_, rfl⟩
    | sync r =>
      cases r with
      | none => exact absurd rfl (h _ List.mem_cons_self)
      | some v =>
        simp only [SvsN.step, SvsN.onSyncInt]
        (repeat' split) <;> exact ⟨_, rfl⟩

/-- C56 fails: a vector can raise the node's own number, which then goes back at the next publication; the node reports its own data as missing. -/
theorem C56_own_violated (self : Bytes) : ∃ n n', svsNAfter self [.sync (some [(self, 5)])] = .ok n ∧
    svsNAfter self [.newData true, .sync (some [(self, 5)])] = .ok n' ∧
    n.recorded self = 5 ∧ n'.recorded self = 1 ∧ rangesOf self n'.missing = [(1, 6)] := by
  refine ⟨⟨self, [(self, 5)], [], false, 0, [⟨self, 1, 6⟩], []⟩, ⟨self, [(self, 1)], [], false, 1, [⟨self, 1, 6⟩], [[(self, 1)]]⟩, ?_, ?_, ?_, ?_, ?_⟩ <;>
    simp [svsNAfter, SvsN.step, SvsN.onSyncInt, SvsN.attach, SvsN.entry, SvsN.recorded, SVec.get, SVec.set, SvsN.newData, SvsN.express, next64, rangesOf]

/-- C56 fails: for the number 2^64 - 1 the end of the range overflows, and the range is empty. -/
theorem C56_wrap_violated (self p : Bytes) (hp : p ≠ self) : ∃ n, svsNAfter self [.sync (some [(p, 2 ^ 64 - 1)])] = .ok n ∧
    n.recorded p = 2 ^ 64 - 1 ∧ rangesOf p n.missing = [(1, 0)] := by
  obtain ⟨n, hn⟩ := C56_no_panic_partial self [.sync (some [(p, 2 ^ 64 - 1)])] (by simp)
  refine ⟨n, hn, ?_, ?_⟩
  · rw [C56_recorded self p hp _ n hn]; simp [svTold, bestOf]
  · obtain ⟨n0, h1, h2⟩ := after_cons hn
    injection h1 with h1
    subst h1
    obtain ⟨v, hv, _, h4, _⟩ := sync_ok (show SvsN.onSyncInt (SvsN.attach self) (some [(p, 2 ^ 64 - 1)]) = .ok n from h2)
    injection hv with hv
    subst hv
    rw [h4]
    simp [SvsN.attach, SvsN.entry, SVec.get, Ne.symm hp, rangesOf, next64]

/-- C56 fails: a content that does not parse makes the node panic, in every state. -/
theorem C56_parse_panics (n : SvsN) : n.onSyncInt none = .panic := rfl

/-! ## C62 -/

/-- the vectors received since the timer last expired or a packet was last published -/
def heard : List SvsNEvent → List SVec
  | [] => []
  | .sync (some v) :: evs => v :: heard evs
  | .sync none :: evs => heard evs
  | .timer :: _ => []
  | .newData true :: _ => []
  | .newData false :: evs => heard evs

theorem mem_aggEntry {agg : SVec} {cur e : Bytes × Nat} (h : e ∈ aggEntry agg cur) : e = cur ∨ e ∈ agg := by
  unfold aggEntry at h
  cases hg : agg.get cur.1 with
  | none =>
    rw [hg] at h
    rcases List.mem_append.mp h with h | h
    · exact .inr h
    · exact .inl (List.mem_singleton.mp h)
  | some q =>
    rw [hg] at h
    rcases SVec.mem_set h with h | h
    · by_cases hq : q ≤ cur.2
      · rw [Nat.max_eq_right hq] at h; exact .inl h
      · rw [Nat.max_eq_left (by omega)] at h
        rw [h]; exact .inr (SVec.mem_of_get hg)
    · exact .inr h

theorem mem_aggregate {e : Bytes × Nat} : ∀ (v agg : SVec), e ∈ v.foldl aggEntry agg → e ∈ v ∨ e ∈ agg := by
  intro v
  induction v with
  | nil => intro agg h; exact .inr h
  | cons a v ih =>
    intro agg h
    rcases ih _ h with h | h
    · exact .inl (List.mem_cons_of_mem _ h)
    · rcases mem_aggEntry h with h | h
      · exact .inl (h ▸ List.mem_cons_self)
      · exact .inr h

theorem agg_heard {self : Bytes} : ∀ {evs : List SvsNEvent} {n : SvsN}, svsNAfter self evs = .ok n → n.suppress = true →
    ∀ e ∈ n.agg, ∃ v ∈ heard evs, e ∈ v := by
  intro evs
  induction evs with
  | nil => intro n h hs; injection h with h; subst h; cases hs
  | cons ev evs ih =>
    intro n' h hs e he
    obtain ⟨n, h1, h2⟩ := after_cons h
    cases ev with
    | timer =>
      injection h2 with h2; subst h2
      unfold SvsN.onSyncTimer SvsN.express at hs
      cases hn : n.suppress with
      | true =>
        rw [hn] at hs
        simp only [if_true] at hs
        split at hs <;> cases hs
      | false =>
        rw [hn] at hs
        simp only [Bool.false_eq_true, if_false] at hs
    | newData b =>
      injection h2 with h2; subst h2
      cases b with
      | true => cases hs
      | false => exact ih h1 hs e he
    | sync r =>
      cases r with
      | none => cases h2
      | some v =>
        obtain ⟨_, _, c, d, _⟩ := fold_frame v (n, false)
        rw [heard]
        simp only [SvsN.step, SvsN.onSyncInt] at h2
        generalize v.foldl SvsN.entry (n, false) = st at *
        split at h2
        · split at h2
          · injection h2 with h2; subst h2
            exact ⟨v, List.mem_cons_self, he⟩
          · rename_i hst
            injection h2 with h2; subst h2
            rw [Bool.not_eq_false] at hst
            rcases mem_aggregate v st.1.agg he with he | he
            · exact ⟨v, List.mem_cons_self, he⟩
            · rw [d] at he
              rw [c] at hst
              obtain ⟨w, hw, hew⟩ := ih h1 hst e he
              exact ⟨w, List.mem_cons_of_mem _ hw, hew⟩
        · rename_i hst
          injection h2 with h2; subst h2
          rw [hs] at hst
          simp at hst

/-- C62: when the timer expires the node stays silent only if for each of its entries one of the vectors received since the timer last expired (or since
its last publication) has a number at least as great. -/
theorem C62_silent (self : Bytes) (evs : List SvsNEvent) (n n' : SvsN) (h : svsNAfter self evs = .ok n) (h' : svsNAfter self (.timer :: evs) = .ok n')
    (hs : n'.sent = n.sent) : ∀ e ∈ n.sv, ∃ v ∈ heard evs, ∃ q, (e.1, q) ∈ v ∧ e.2 ≤ q := by
  obtain ⟨n0, h1, h2⟩ := after_cons h'
  rw [h] at h1
  injection h1 with h1
  subst h1
  injection h2 with h2
  subst h2
  have hne : ¬ n.sent ++ [n.sv] = n.sent := by intro h; simpa using congrArg List.length h
  intro e he
  unfold SvsN.onSyncTimer SvsN.express at hs
  cases hn : n.suppress with
  | false => rw [hn] at hs; exact absurd hs hne
  | true =>
    rw [hn] at hs
    simp only [if_true] at hs
    split at hs
    · rename_i hall
      have := List.all_eq_true.mp hall e he
      cases hg : n.agg.get e.1 with
      | none => rw [hg] at this; cases this
      | some q =>
        rw [hg] at this
        obtain ⟨v, hv, hev⟩ := agg_heard h hn _ (SVec.mem_of_get hg)
        exact ⟨v, hv, q, hev, by simpa using this⟩
    · exact absurd hs hne

/-- C62: when it is not silent it sends what it has recorded. -/
theorem C62_sends (n : SvsN) : n.onSyncTimer.sent = n.sent ∨ n.onSyncTimer.sent = n.sent ++ [n.sv] := by
  unfold SvsN.onSyncTimer SvsN.express
  split
  · simp only
    split
    · exact .inl rfl
    · exact .inr rfl
  · exact .inr rfl

/-- an outdated vector, then one that covers everything: silent; without the second one: not -/
example : (match svsNAfter [1] [.timer, .sync (some [([1], 1), ([2], 2)]), .sync (some [([1], 0)]), .newData true] with
      | .ok n => n.sent
      | _ => []) = [[([1], 1)]] ∧
    (match svsNAfter [1] [.timer, .sync (some [([1], 0)]), .newData true] with
      | .ok n => n.sent
      | _ => []) = [[([1], 1)], [([1], 1)]] := by decide

end Ndn.Schema
