import Verif.Codec.RunOrdered

/-! # Lemmas on the parsers of models with `ordered` -/

namespace Ndn.Codec.Gen
open Ndn.Packet (knows ordInner ordLoop ordFinish ordParse)

variable {σ : Type}

/-- the slots of the hand-written model that belong to the fields -/
def slotsOf (rd : Field → Nat → Nat → σ → BR → PR σ) (sk : Field → Nat → σ → BR → Res σ) (fs : List Field) : List (Packet.Slot σ) :=
  fs.map fun f => ⟨f.num, rd f, sk f⟩

/-- the flags `handled_…` that are set belong to the indices `h` -/
def FlagsAre (fs : List Field) (flags : List Txt) (h : List Nat) : Prop := ∀ (i : Nat) (f : Field), fs[i]? = some f → flags.contains f.name = h.contains i

section
variable (ic : Bool) (new : σ → σ) (rd : Field → Nat → Nat → σ → BR → PR σ) (sk : Field → Nat → σ → BR → Res σ) (fuel : Nat)

/-- the body of a `case` -/
def readAct (f : Field) (e : QEnv σ) : QOut σ :=
  match rd f e.start e.l e.st e.r with
  | none => .spin
  | some (.ok st, r) => .next { e with handled := true, flags := f.name :: e.flags, st := st, r := r }
  | some (.err x, r) => .next { e with handled := true, flags := f.name :: e.flags, err := some x, r := r }
  | some (.panic, r) => .panic r

theorem ordered_default (l : List Field) : ∀ (i : Nat) (e : QEnv σ), (∀ f ∈ l, f.num ≠ 0 → f.num ≠ e.typ) →
    (orderedCases i l).run ic new rd sk fuel e = (Q.all [.ifCritical .retUnrecognized, .handled, .skipL]).run ic new rd sk fuel e := by
  induction l with
  | nil => intro i e _; rfl
  | cons f l ih =>
    intro i e h
    unfold orderedCases
    by_cases hf : f.num = 0
    · rw [if_neg (by simp [hf])]
      exact ih _ _ fun g hg => h g (List.mem_cons_of_mem _ hg)
    · rw [if_pos hf]
      have := h f List.mem_cons_self hf
      simp only [Q.run]
      rw [if_neg (fun hh => this hh.symm)]
      exact ih _ _ fun g hg => h g (List.mem_cons_of_mem _ hg)

theorem ordered_known (l : List Field) : ∀ (i j : Nat) (f : Field) (e : QEnv σ), ((l.map Field.num).filter (· ≠ 0)).Nodup → l[j]? = some f → f.num = e.typ →
    e.typ ≠ 0 → (orderedCases i l).run ic new rd sk fuel e = if e.progress + 1 = ((i + j : Nat) : Int) then readAct rd f e else .next e := by
  induction l with
  | nil => intro i j f e _ h; simp at h
  | cons g l ih =>
    intro i j f e hn hj ht h0
    unfold orderedCases
    cases j with
    | zero =>
      simp only [List.getElem?_cons_zero, Option.some.injEq] at hj
      subst hj
      rw [if_pos (by rw [ht]; exact h0)]
      simp only [Q.run]
      rw [if_pos ht.symm]
      simp only [Nat.add_zero]
      by_cases hp : e.progress + 1 = (i : Int)
      · rw [if_pos hp, if_pos hp]
        simp only [Q.all, Q.run, QOut.andThen, readAct]
        rcases rd g e.start e.l e.st e.r with _ | ⟨_ | _ | _, _⟩ <;> rfl
      · rw [if_neg hp, if_neg hp]
    | succ j =>
      simp only [List.getElem?_cons_succ] at hj
      have hij : i + (j + 1) = (i + 1) + j := by omega
      by_cases hg : g.num = 0
      · rw [if_neg (by simp [hg]), hij]
        refine ih _ _ _ _ ?_ hj ht h0
        simpa [hg] using hn
      · rw [if_pos hg, hij]
        have hn' : g.num ∉ (l.map Field.num).filter (· ≠ 0) ∧ ((l.map Field.num).filter (· ≠ 0)).Nodup := by
          rw [List.map_cons, List.filter_cons_of_pos (by simpa using hg), List.nodup_cons] at hn
          exact hn
        have hne : e.typ ≠ g.num := by
          intro hh
          apply hn'.1
          refine List.mem_filter.2 ⟨List.mem_map.2 ⟨f, List.mem_of_getElem? hj, by rw [ht, hh]⟩, by simpa using hg⟩
        simp only [Q.run]
        rw [if_neg hne]
        exact ih _ _ _ _ hn'.2 hj ht h0

/-- the body of a `case` of `switch progress` -/
def skipAct (f : Field) (e : QEnv σ) : QOut σ :=
  match sk f e.start e.st e.r with
  | .ok st => .next { e with flags := f.name :: e.flags, st := st }
  | .err x => .next { e with flags := f.name :: e.flags, err := some x }
  | .panic => .panic e.r

theorem progress_at (l : List Field) : ∀ (i j : Nat) (f : Field) (e : QEnv σ), l[j]? = some f → e.progress + 1 = ((i + j : Nat) : Int) →
    (progressCases i l).run ic new rd sk fuel e = skipAct sk f e := by
  induction l with
  | nil => intro i j f e h; simp at h
  | cons g l ih =>
    intro i j f e hj hp
    simp only [progressCases, Q.run]
    cases j with
    | zero =>
      simp only [List.getElem?_cons_zero, Option.some.injEq] at hj
      subst hj
      rw [if_pos (by omega)]
      simp only [Q.all, Q.run, QOut.andThen, skipAct]
      rcases sk g e.start e.st e.r with _ | _ | _ <;> rfl
    | succ j =>
      simp only [List.getElem?_cons_succ] at hj
      rw [if_neg (by omega)]
      exact ih _ _ _ _ hj (by omega)

theorem progress_past (l : List Field) : ∀ (i : Nat) (e : QEnv σ), ((i + l.length : Nat) : Int) ≤ e.progress + 1 →
    (progressCases i l).run ic new rd sk fuel e = .next e := by
  induction l with
  | nil => intro i e _; rfl
  | cons g l ih =>
    intro i e hp
    simp only [List.length_cons] at hp
    simp only [progressCases, Q.run]
    rw [if_neg (by omega)]
    exact ih _ _ (by omega)

theorem same_index {fs : List Field} (hn : ((fs.map Field.num).filter (· ≠ 0)).Nodup) {i j : Nat} {f g : Field} {t : Nat} (hi : fs[i]? = some f) (hj : fs[j]? = some g)
    (hf : f.num = t) (hg : g.num = t) (h0 : t ≠ 0) : i = j := by
  induction fs generalizing i j with
  | nil => simp at hi
  | cons a l ih =>
    have mem : ∀ {k : Nat} {b : Field}, l[k]? = some b → b.num = t → t ∈ (l.map Field.num).filter (· ≠ 0) := fun hk hb =>
      List.mem_filter.2 ⟨List.mem_map.2 ⟨_, List.mem_of_getElem? hk, hb⟩, by simpa using h0⟩
    have hl : ((l.map Field.num).filter (· ≠ 0)).Nodup ∧ (a.num = t → t ∉ (l.map Field.num).filter (· ≠ 0)) := by
      by_cases ha : a.num = 0
      · exact ⟨by simpa [ha] using hn, fun h => absurd (h.symm.trans ha) h0⟩
      · rw [List.map_cons, List.filter_cons_of_pos (by simpa using ha), List.nodup_cons] at hn
        exact ⟨hn.2, fun h => h ▸ hn.1⟩
    cases i with
    | zero =>
      cases j with
      | zero => rfl
      | succ j =>
        simp only [List.getElem?_cons_zero, List.getElem?_cons_succ, Option.some.injEq] at hi hj
        exact absurd (mem hj hg) (hl.2 (by rw [hi, hf]))
    | succ i =>
      cases j with
      | zero =>
        simp only [List.getElem?_cons_zero, List.getElem?_cons_succ, Option.some.injEq] at hi hj
        exact absurd (mem hi hf) (hl.2 (by rw [hj, hg]))
      | succ j =>
        simp only [List.getElem?_cons_succ] at hi hj
        rw [ih hl.1 hi hj]

/-- the hand-written model and the emitted loop over `progress` are at the same place -/
def Agree (fs : List Field) (x : PR (Packet.Ord σ)) (o : QOut σ) : Prop :=
  match x with
  | none => o = .spin
  | some (.err er, r) => o = .ret (.error er) r
  | some (.panic, r) => o = .panic r
  | some (.ok d, r) => ∃ e, o = .next e ∧ e.progress = (fs.length : Int) - d.left ∧ d.left ≤ fs.length + 1 ∧ e.err = none ∧ FlagsAre fs e.flags d.handled ∧ e.st = d.st ∧ e.r = r

theorem flags_cons {fs : List Field} (hn : (fs.map Field.name).Nodup) {flags : List Txt} {h : List Nat} (hf : FlagsAre fs flags h) {i : Nat} {f : Field}
    (hi : fs[i]? = some f) : FlagsAre fs (f.name :: flags) (i :: h) := by
  intro j g hj
  have hfg := hf j g hj
  rw [List.contains_cons, List.contains_cons, hfg]
  congr 1
  by_cases hij : j = i
  · subst hij
    rw [hi] at hj
    cases hj
    simp
  · have : g.name ≠ f.name := by
      intro hh
      apply hij
      have h1 : (fs.map Field.name)[j]? = some g.name := by rw [List.getElem?_map, hj]; rfl
      have h2 : (fs.map Field.name)[i]? = some g.name := by rw [List.getElem?_map, hi, hh]; rfl
      obtain ⟨l1, _⟩ := List.getElem?_eq_some_iff.1 h1
      exact (List.getElem?_inj l1 hn).1 (h1.trans h2.symm)
    rw [beq_eq_false_iff_ne.2 this, beq_eq_false_iff_ne.2 hij]

theorem ordered_step_run (fs : List Field) (e : QEnv σ) : (stepCode fs).run ic new rd sk fuel e = ((orderedCases 0 fs).run ic new rd sk fuel e).andThen fun e1 =>
    (if e1.err.isNone && !e1.handled then (progressCases 0 fs).run ic new rd sk fuel e1 else .next e1).andThen fun e2 =>
      if e2.err.isSome then qFail (.failToParse e2.typ) e2 else .next e2 := rfl

theorem inner_agrees (fs : List Field) (hn : (fs.map Field.name).Nodup) (hnum : ((fs.map Field.num).filter (· ≠ 0)).Nodup) :
    ∀ (k : Nat) (h : List Nat) (e : QEnv σ), k ≤ fs.length + 1 → e.progress = (fs.length : Int) - k → e.handled = false → e.err = none → FlagsAre fs e.flags h →
      Agree fs (ordInner ic (slotsOf rd sk fs) e.start e.typ e.l k h e.st e.r) (qFor ((stepCode fs).run ic new rd sk fuel) fs.length k e) := by
  intro k
  induction k with
  | zero =>
    intro h e _ hp hh he hf
    simp only [ordInner, qFor, Agree]
    rw [if_neg (by rw [hp]; simp)]
    exact ⟨e, rfl, hp, Nat.zero_le _, he, hf, rfl, rfl⟩
  | succ k ih =>
    intro h e hk hp hh he hf
    have hlen : (slotsOf rd sk fs).length = fs.length := by simp [slotsOf]
    have hslot : (slotsOf rd sk fs)[fs.length - k]? = (fs[fs.length - k]?).map fun f => ⟨f.num, rd f, sk f⟩ := by simp [slotsOf]
    have hknows : knows (slotsOf rd sk fs) e.typ = (e.typ != 0 && (fs.map Field.num).contains e.typ) := by
      simp only [knows, slotsOf, List.map_map]
      rfl
    have hnext : e.progress + 1 = ((fs.length - k : Nat) : Int) := by omega
    unfold ordInner qFor
    have hcond : (!e.handled && decide (e.progress < (fs.length : Int))) = true := by rw [hh, hp]; simp; omega
    rw [hlen, if_pos hcond]
    have hfin : ∀ e' : QEnv σ, e'.handled = true → e'.progress = e.progress → qFor ((stepCode fs).run ic new rd sk fuel) fs.length k { e' with progress := e'.progress + 1 } =
        .next { e' with progress := e'.progress + 1 } := by
      intro e' h1 h2
      cases k <;> simp [qFor, h1]
    have hstep := ordered_step_run ic new rd sk fuel fs e
    generalize (stepCode fs).run ic new rd sk fuel = body at *
    rw [hstep]
    by_cases hkn : knows (slotsOf rd sk fs) e.typ = true
    · rw [if_pos hkn, hslot]
      rw [hknows, Bool.and_eq_true] at hkn
      have h0 : e.typ ≠ 0 := by simpa using hkn.1
      obtain ⟨f, hfm, hft⟩ : ∃ f ∈ fs, f.num = e.typ := by simpa using hkn.2
      obtain ⟨j, hj⟩ := List.getElem?_of_mem hfm
      have hc := ordered_known ic new rd sk fuel fs 0 j f e hnum hj hft h0
      rw [hnext] at hc
      by_cases hjk : j = fs.length - k
      · -- the field is next
        subst hjk
        rw [if_pos (by omega)] at hc
        rw [hj]
        simp only [Option.map_some, if_pos hft, hc, readAct]
        rcases hr : rd f e.start e.l e.st e.r with _ | ⟨st' | x | _, r'⟩
        · simp only [QOut.andThen, Agree]
        · simp only [QOut.andThen, he, Option.isNone_none, Bool.not_true, Bool.and_false, Bool.false_eq_true, if_false, Option.isSome_none, Agree]
          have := hfin { e with handled := true, flags := f.name :: e.flags, st := st', r := r' } rfl rfl
          simp only [he] at this
          rw [this]
          exact ⟨_, rfl, by simp only []; omega, by omega, rfl, flags_cons hn hf hj, rfl, rfl⟩
        · simp only [QOut.andThen, Option.isNone_some, Bool.false_and, Bool.false_eq_true, if_false, Option.isSome_some, if_true, qFail, Agree]
        · simp only [QOut.andThen, Agree]
      · rw [if_neg (by omega)] at hc
        have hidx : ∀ g, fs[fs.length - k]? = some g → g.num ≠ e.typ := by
          intro g hg hh2
          exact hjk <| same_index hnum hj hg hft hh2 h0
        cases hg : fs[fs.length - k]? with
        | none =>
          have hk0 : fs.length ≤ fs.length - k := List.getElem?_eq_none_iff.1 hg
          simp only [Option.map_none, hc, QOut.andThen, he, hh, Option.isNone_none, Bool.not_false, Bool.and_self, if_true]
          rw [progress_past ic new rd sk fuel fs 0 e (by omega)]
          simp only [he, Option.isSome_none, Bool.false_eq_true, if_false]
          have := ih h { e with progress := e.progress + 1 } (by omega) (by simp only []; omega) hh he hf
          simpa only [he] using this
        | some g =>
          simp only [Option.map_some, if_neg (hidx g hg), hc, QOut.andThen, he, hh, Option.isNone_none, Bool.not_false, Bool.and_self, if_true]
          rw [progress_at ic new rd sk fuel fs 0 (fs.length - k) g e hg (by omega)]
          simp only [skipAct]
          rcases hs : sk g e.start e.st e.r with st' | x | _
          · simp only [he, Option.isSome_none, Bool.false_eq_true, if_false]
            have := ih ((fs.length - k) :: h) { e with progress := e.progress + 1, flags := g.name :: e.flags, st := st' } (by omega) (by simp only []; omega) hh he
              (flags_cons hn hf hg)
            simpa only [he] using this
          · simp only [Option.isSome_some, if_true, qFail, Agree]
          · simp only [Agree]
    · rw [if_neg hkn]
      have hd := ordered_default ic new rd sk fuel fs 0 e (by
        intro f hfm h0 hft
        apply hkn
        rw [hknows, Bool.and_eq_true]
        exact ⟨by simpa [← hft] using h0, by simpa using ⟨f, hfm, hft⟩⟩)
      simp only [Q.all, Q.run] at hd
      rw [hd]
      by_cases hcr : (!ic && isCritical e.typ) = true
      · rw [if_pos hcr, if_pos hcr]
        simp only [QOut.andThen, Agree]
      · rw [if_neg hcr, if_neg hcr]
        simp only [QOut.andThen]
        rcases hs : BR.skip (toInt e.l) e.r with ⟨_ | x | _, r'⟩
        · simp only [Option.isNone_none, Bool.not_true, Bool.and_false, Bool.false_eq_true, if_false, Option.isSome_none, Agree]
          have := hfin { e with handled := true, err := none, r := r' } rfl rfl
          rw [this]
          exact ⟨_, rfl, by simp only []; omega, by omega, rfl, hf, rfl, rfl⟩
        · simp only [Option.isNone_some, Bool.false_and, Bool.false_eq_true, if_false, Option.isSome_some, if_true, qFail, Agree]
        · simp only [Agree]

theorem ordered_round_run (fs : List Field) (e : QEnv σ) : (orderedRound fs).run ic new rd sk fuel e =
    if e.r.pos ≥ e.r.buf.length then .brk { e with start := e.r.pos }
    else (qReadNum (fun e v => { e with typ := v }) { e with start := e.r.pos, typ := 0, l := 0 }).andThen fun e1 =>
      (if e1.err.isSome then qFail (.failToParse 0) e1 else .next e1).andThen fun e1 =>
      (qReadNum (fun e v => { e with l := v }) e1).andThen fun e2 =>
      (if e2.err.isSome then qFail (.failToParse 0) e2 else .next e2).andThen fun e2 =>
      qFor ((stepCode fs).run ic new rd sk fuel) fs.length ((fs.length : Int) - e2.progress).toNat { e2 with err := none, handled := false } := by
  simp only [orderedRound, Q.all, Q.run, QOut.andThen]
  by_cases h : e.r.pos ≥ e.r.buf.length
  · rw [if_pos h, if_pos h]
  · rw [if_neg h, if_neg h]

/-- where the loop over the elements is -/
def LoopAt (fs : List Field) (d : Packet.Ord σ) (r : BR) (e : QEnv σ) : Prop :=
  e.progress = (fs.length : Int) - d.left ∧ d.left ≤ fs.length + 1 ∧ FlagsAre fs e.flags d.handled ∧ e.st = d.st ∧ e.r = r

theorem loop_agrees (fs : List Field) (hn : (fs.map Field.name).Nodup) (hnum : ((fs.map Field.num).filter (· ≠ 0)).Nodup) :
    ∀ (n : Nat) (d : Packet.Ord σ) (r : BR) (e : QEnv σ), LoopAt fs d r e →
      match ordLoop ic (slotsOf rd sk fs) n d r with
      | none => qForever ((orderedRound fs).run ic new rd sk fuel) n e = .spin
      | some (.err er, r') => qForever ((orderedRound fs).run ic new rd sk fuel) n e = .ret (.error er) r'
      | some (.panic, r') => qForever ((orderedRound fs).run ic new rd sk fuel) n e = .panic r'
      | some (.ok d', r') => ∃ e', qForever ((orderedRound fs).run ic new rd sk fuel) n e = .next e' ∧ LoopAt fs d' r' e' := by
  intro n
  induction n with
  | zero => intro d r e _; rfl
  | succ n ih =>
    intro d r e hat
    obtain ⟨hp, hl, hf, hst, rfl⟩ := hat
    have hround := ordered_round_run ic new rd sk fuel fs e
    unfold ordLoop qForever
    rw [hround]
    clear hround
    by_cases hend : e.r.pos ≥ e.r.buf.length
    · rw [if_pos hend, if_pos hend]
      exact ⟨_, rfl, hp, hl, hf, hst, rfl⟩
    · rw [if_neg hend, if_neg hend]
      simp only [qReadNum]
      rcases BR.readTL e.r with ⟨typ | x | _, r1⟩
      · simp only [QOut.andThen, Option.isSome_none, Bool.false_eq_true, if_false]
        rcases BR.readTL r1 with ⟨l | x | _, r2⟩
        · simp only [Option.isSome_none, Bool.false_eq_true, if_false]
          have hk : ((fs.length : Int) - e.progress).toNat = d.left := by omega
          rw [hk]
          have hi := inner_agrees ic new rd sk fuel fs hn hnum d.left d.handled
            { e with start := e.r.pos, typ := typ, l := l, err := none, handled := false, r := r2 } hl hp rfl rfl hf
          simp only [hst] at hi
          rw [hst]
          rcases hx : ordInner ic (slotsOf rd sk fs) e.r.pos typ l d.left d.handled d.st r2 with _ | ⟨d' | er | _, r3⟩
          · rw [hx] at hi
            simp only [Agree] at hi
            rw [hi]
          · rw [hx] at hi
            obtain ⟨e', he', h1, h2, _, h4, h5, h6⟩ := hi
            rw [he']
            exact ih d' r3 e' ⟨h1, h2, h4, h5, h6⟩
          · rw [hx] at hi
            simp only [Agree] at hi
            rw [hi]
          · rw [hx] at hi
            simp only [Agree] at hi
            rw [hi]
        · simp only [Option.isSome_some, if_true, qFail]
        · rfl
      · simp only [QOut.andThen, Option.isSome_some, if_true, qFail]
      · rfl

theorem finish_failed (l : List Field) : ∀ (e : QEnv σ) (x : Err), e.err = some x → (orderedFinish l).run ic new rd sk fuel e = .next e := by
  induction l with
  | nil => intro e x _; rfl
  | cons f l ih =>
    intro e x he
    simp only [orderedFinish, Q.run, he, Option.isNone_some, Bool.and_false, Bool.false_eq_true, if_false, QOut.andThen]
    exact ih e x he

theorem finish_agrees (l : List Field) : ∀ (i : Nat) (h : List Nat) (e : QEnv σ), (∀ (j : Nat) (f : Field), l[j]? = some f → e.flags.contains f.name = h.contains (i + j)) →
    e.err = none → e.start = e.r.pos →
    (orderedFinish l).run ic new rd sk fuel e =
      (match ordFinish h e.r i (slotsOf rd sk l) e.st with
        | .ok st => .next { e with st := st }
        | .err x => ((orderedFinish l).run ic new rd sk fuel e)
        | .panic => .panic e.r) ∧
    ∀ x, ordFinish h e.r i (slotsOf rd sk l) e.st = .err x → ∃ e', (orderedFinish l).run ic new rd sk fuel e = .next e' ∧ e'.err = some x ∧ e'.r = e.r := by
  induction l with
  | nil =>
    intro i h e _ _ _
    exact ⟨rfl, fun x hx => by cases hx⟩
  | cons f l ih =>
    rintro i h ⟨isNil, progress, handled, flags, err, start, typ, len, st, r⟩ hf he hs
    simp only [] at hf he hs
    subst he hs
    have hrest : ∀ (j : Nat) (g : Field), l[j]? = some g → flags.contains g.name = h.contains (i + 1 + j) := by
      intro j g hj
      have := hf (j + 1) g (by simpa using hj)
      rwa [show i + (j + 1) = i + 1 + j by omega] at this
    have h0 : flags.contains f.name = h.contains i := hf 0 f rfl
    have hsl : slotsOf rd sk (f :: l) = ⟨f.num, rd f, sk f⟩ :: slotsOf rd sk l := rfl
    rw [hsl]
    simp only [orderedFinish, Q.run, ordFinish, h0, Option.isNone_none, Bool.and_true]
    by_cases hc : h.contains i = true
    · simp only [hc, Bool.not_true, Bool.false_eq_true, if_false, if_true, QOut.andThen]
      exact ih (i + 1) h ⟨isNil, progress, handled, flags, none, _, typ, len, st, r⟩ hrest rfl rfl
    · have hc' : h.contains i = false := by simpa using hc
      simp only [hc', Bool.not_false, if_true, Bool.false_eq_true, if_false]
      rcases sk f r.pos st r with st' | x | _
      · simp only [QOut.andThen, Res.bind]
        exact ih (i + 1) h ⟨isNil, progress, handled, flags, none, _, typ, len, st', r⟩ hrest rfl rfl
      · simp only [QOut.andThen, Res.bind]
        refine ⟨trivial, fun y hy => ?_⟩
        cases hy
        exact ⟨_, finish_failed ic new rd sk fuel l _ x rfl, rfl, rfl⟩
      · simp only [QOut.andThen, Res.bind]
        exact ⟨trivial, fun y hy => by cases hy⟩

theorem decls_run (l : List Field) : ∀ e : QEnv σ, e.flags = [] → (orderedDecls l).run ic new rd sk fuel e = .next e := by
  induction l with
  | nil => intro e _; rfl
  | cons f l ih =>
    intro e he
    simp only [orderedDecls, Q.run, QOut.andThen, he, List.filter_nil]
    have := ih e he
    rw [← this]
    congr 1
    rw [← he]

/-- at the start -/
def qStart (st : σ) (r : BR) (isNil : Bool) : QEnv σ := ⟨isNil, 0, false, [], none, 0, 0, 0, st, r⟩

theorem body_agrees (name : Txt) (fs : List Field) (hn : (fs.map Field.name).Nodup) (hnum : ((fs.map Field.num).filter (· ≠ 0)).Nodup) (st : σ) (r : BR) :
    ((orderedBody name fs).run ic new rd sk fuel (qStart st r false)).result = some (ordParse ic fuel (slotsOf rd sk fs) (new st) r) := by
  have hd := decls_run ic new rd sk fuel fs (qStart st r false) rfl
  have hlen : (slotsOf rd sk fs).length = fs.length := by simp [slotsOf]
  have hl := loop_agrees ic new rd sk fuel fs hn hnum fuel ⟨fs.length + 1, [], new st⟩ r ⟨false, -1, false, [], none, 0, 0, 0, new st, r⟩
    ⟨by simp only []; omega, by simp only []; omega, fun _ _ _ => rfl, rfl, rfl⟩
  simp only [orderedBody, Q.all, Q.run]
  rw [if_neg (by simp [qStart])]
  simp only [QOut.andThen, hd]
  simp only [qStart, ordParse, hlen]
  rcases hx : ordLoop ic (slotsOf rd sk fs) fuel ⟨fs.length + 1, [], new st⟩ r with _ | ⟨d | er | _, r'⟩
  · rw [hx] at hl
    simp only [] at hl
    rw [hl]
    rfl
  · rw [hx] at hl
    obtain ⟨e, he, hp, hle, hf, hst, hr⟩ := hl
    rw [he]
    obtain ⟨h1, h2⟩ := finish_agrees ic new rd sk fuel fs 0 d.handled { e with start := e.r.pos, err := none }
      (fun j f hj => by rw [Nat.zero_add]; exact hf j f hj) rfl rfl
    simp only [hst, hr] at h1 h2 ⊢
    rcases hy : ordFinish d.handled r' 0 (slotsOf rd sk fs) d.st with st' | x | _
    · rw [hy] at h1
      rw [h1]
      rfl
    · obtain ⟨e', h3, h4, h5⟩ := h2 x hy
      rw [h3]
      simp only [h4, Option.isSome_some, if_true, qFail, h5, QOut.result, id]
    · rw [hy] at h1
      rw [h1]
      rfl
  · rw [hx] at hl
    simp only [] at hl
    rw [hl]
    rfl
  · rw [hx] at hl
    simp only [] at hl
    rw [hl]
    rfl

end

end Ndn.Codec.Gen
