import Verif.Schema.Express
import Verif.Schema.EventProps
import Verif.Engine.PitProps
import Verif.Engine.DispatchProps

/-! # Properties of the expressing point: C51, C52 -/

namespace Ndn.Schema
open Ndn.Packet Ndn.Codec Ndn.Codec.Schema Ndn.Engine

/-! ## C51 -/

/-- the specification: some listener answered Pass or better, and none of those asked before it failed -/
def Approved (calls : List (Cb × VAns)) : Prop :=
  ∃ pre c r post, calls = pre ++ (c, some r) :: post ∧ 1 ≤ r ∧ ∀ x ∈ pre, ∃ q, x.2 = some q ∧ 0 ≤ q

theorem validate_approved {S : Type} (v : Listeners S VAns) (s : S) (h : refused (validate v s).1 = false) :
    Approved (validate v s).2.2 ∧ (validate v s).2.2.map (·.1) <+: v.val := by
  obtain ⟨h1, h2, h3, _⟩ := until_spec v.beh stopValidation v.val none s
  rw [show dispatchLoop v.beh (some stopValidation) v.val none s = validate v s from rfl] at h1 h2 h3
  refine ⟨?_, h1⟩
  generalize validate v s = r at *
  obtain ⟨a, s', calls⟩ := r
  simp only at *
  rcases List.eq_nil_or_concat calls with rfl | ⟨pre, x, hx⟩
  · rw [h3] at h; cases h
  · rw [List.concat_eq_append] at hx
    subst hx
    rw [List.getLast?_append, List.getLast?_singleton] at h3
    rw [List.dropLast_concat] at h2
    have h3 : a = x.2 := h3
    subst h3
    obtain ⟨c, x2⟩ := x
    cases x2 with
    | none => cases h
    | some q =>
      simp only [refused, Bool.or_eq_false_iff, decide_eq_false_iff_not, beq_eq_false_iff_ne] at h
      refine ⟨pre, c, q, [], rfl, by omega, ?_⟩
      intro y hy
      have := h2 y hy
      cases hy2 : y.2 with
      | none => rw [hy2] at this; cases this
      | some z =>
        rw [hy2] at this
        simp only [stopValidation, Bool.or_eq_false_iff, decide_eq_false_iff_not] at this
        exact ⟨z, rfl, by omega⟩

/-- C51: a received Data is given to the callback with status Data only if a listener of `OnValidateData` answered Pass or better and none before
it failed; and it is given to the storage exactly if it is given to the callback with status Data. -/
theorem C51_data {S : Type} (v : Listeners S VAns) (s : S) :
    ((onDataResult v s).1 = .data → Approved (onDataResult v s).2.1 ∧ (onDataResult v s).2.1.map (·.1) <+: v.val) ∧
    ((onDataResult v s).2.2 = true ↔ (onDataResult v s).1 = .data) ∧
    ((onDataResult v s).1 = .data ∨ (onDataResult v s).1 = .unverified) := by
  have ha := validate_approved v s
  unfold onDataResult
  generalize validate v s = r at *
  obtain ⟨a, s', calls⟩ := r
  simp only at *
  by_cases h : refused a = true
  · rw [if_pos h]; simp
  · rw [if_neg h]; simp only [Bool.not_eq_true] at h; simpa using ha h

/-- listeners 1 and 2 pass, listener 3 bypasses: the Data is delivered, after the answers of all three, and listener 4 is not asked -/
example : onDataResult (S := Unit) ⟨[1, 2, 3, 4], fun c s => (if c = 3 then some 2 else some 1, s)⟩ () =
    (.data, [(1, some 1), (2, some 1), (3, some 2)], true) := by decide

/-- listener 2 fails: the Data is not delivered -/
example : onDataResult (S := Unit) ⟨[1, 2, 3], fun c s => (if c = 2 then some (-2) else some 1, s)⟩ () =
    (.unverified, [(1, some 1), (2, some (-2))], false) := by decide

/-- The other direction: if every listener passes, and there is one, the Data is delivered and saved. -/
theorem C51_data_pass {S : Type} (v : Listeners S VAns) (s : S) (hne : v.val ≠ []) (h : ∀ c s, (v.beh c s).1 = some 1) :
    (onDataResult v s).1 = .data ∧ (onDataResult v s).2.2 = true := by
  have key : ∀ (val : List Cb) (nil : VAns) (s : S), val ≠ [] → (dispatchLoop v.beh (some stopValidation) val nil s).1 = some 1 := by
    intro val
    induction val with
    | nil => intro _ _ h; exact absurd rfl h
    | cons c cs ih =>
      intro nil s _
      rw [dispatchLoop]
      simp only [h]
      rw [if_neg (by decide)]
      cases cs with
      | nil => rfl
      | cons d ds => exact ih _ _ (by simp)
  have h1 : (validate v s).1 = some 1 := key v.val none s hne
  unfold onDataResult
  generalize validate v s = r at *
  obtain ⟨a, s', calls⟩ := r
  simp only at h1
  subst h1
  exact ⟨rfl, rfl⟩

/-- C51: an Interest with parameters, or with a signature type other than 2^64 - 1, reaches the handlers only if a listener of `OnValidateInt`
answered Pass or better and none before it failed.  Missing: see `C51_sigtype_violated`. -/
theorem C51_interest_partial {S : Type} (i : InterestV) (hsig : i.appParam.isSome ∨ ∃ si, i.sigInfo = some si ∧ siType si < 2 ^ 64 - 1)
    (cached : Option Wire) (v : Listeners S VAns) (s : S) (calls : List (Cb × VAns)) (h : onInterest i cached v s = .handled calls) :
    Approved calls ∧ calls.map (·.1) <+: v.val := by
  have hs : sigTypeOf i ≠ -1 ∨ i.appParam.isSome := by
    rcases hsig with h | ⟨si, h, hlt⟩
    · exact .inr h
    · left
      unfold sigTypeOf
      rw [h]
      simp only
      by_cases hl : siType si < 2 ^ 63
      · rw [toInt_of_lt hl]; omega
      · rw [toInt_neg (by omega) (by omega)]; omega
  have hac : afterCache i v s = .handled calls := by
    unfold onInterest at h
    split at h
    · cases h
    · split at h
      · split at h
        · exact h
        · cases h
      · exact h
  have ha := validate_approved v s
  unfold afterCache at hac
  rw [if_pos hs] at hac
  generalize validate v s = r at *
  obtain ⟨a, s', c⟩ := r
  simp only at *
  by_cases hr : refused a = true
  · rw [if_pos hr] at hac; cases hac
  · rw [if_neg hr] at hac
    injection hac with hac
    subst hac
    exact ha (by simpa using hr)

/-- C51: for an Interest that passed `checkInterest`, a signature value is enough: there are parameters, then. -/
theorem C51_signed {S : Type} (sha : Bytes → Bytes) (i : InterestV) (ctx : InterestCtx) (hc : checkInterest sha i ctx = none)
    (hsig : i.sigValue.isSome ∨ i.appParam.isSome) (cached : Option Wire) (v : Listeners S VAns) (s : S) (calls : List (Cb × VAns))
    (h : onInterest i cached v s = .handled calls) : Approved calls ∧ calls.map (·.1) <+: v.val := by
  refine C51_interest_partial i (.inl ?_) cached v s calls h
  rcases hsig with hs | hs
  · unfold checkInterest at hc
    split at hc
    · cases hc
    · cases ha : i.appParam with
      | some w => rfl
      | none => rw [ha, hs] at hc; cases hc
  · exact hs

/-- C51, the other side: an Interest with neither parameters nor a signature goes to the handlers without asking anyone, if nothing is stored for it -/
theorem C51_plain {S : Type} (i : InterestV) (n : Name) (hn : i.name = some n) (hne : n ≠ []) (h1 : i.sigInfo = none) (h2 : i.appParam = none)
    (v : Listeners S VAns) (s : S) : onInterest i none v s = .handled [] := by
  have h : ∃ c, (i.name.getD []).getLast? = some c := by
    rw [hn]
    exact ⟨_, List.getLast?_eq_some_getLast hne⟩
  obtain ⟨c, h⟩ := h
  unfold onInterest
  rw [h]
  simp only
  unfold afterCache
  rw [if_neg]
  simp [sigTypeOf, h1, h2]

example : ({ name := some nmA } : InterestV).sigInfo = none ∧ nmA ≠ [] := ⟨rfl, by decide⟩

/-- an Interest with parameters and two listeners that pass -/
example : onInterest (S := Unit) { name := some nmA, appParam := some [[1]] } none ⟨[1, 2], fun _ s => (some 1, s)⟩ () =
    .handled [(1, some 1), (2, some 1)] := by
  rfl

/-- the Interest of `C51_sigtype_violated`: it has a SignatureInfo with the type 2^64 - 1 -/
def badSigInterest : InterestV := { name := some [⟨8, [65]⟩], sigInfo := some (2 ^ 64 - 1, none, none, none, none, none, none, ()) }

theorem badSigInterest_is (sha : Bytes → Bytes) : IsInterest sha badSigInterest
    [5, 17, 7, 3, 8, 1, 65, 44, 10, 27, 8, 255, 255, 255, 255, 255, 255, 255, 255] :=
  ⟨badSigInterest.bodies, [⟨some 2, 7, [8, 1, 65]⟩, ⟨some 12, 44, [27, 8, 255, 255, 255, 255, 255, 255, 255, 255]⟩], InterestV.bodies_bodies _, by
      constructor <;> simp [badSigInterest, OptIn, Elem.InRange, Component.Small]
      exact ⟨(by decide : 2 ^ 64 - 1 < 2 ^ 64), trivial, trivial, trivial, trivial, trivial, trivial, trivial⟩,
    ⟨by decide, rfl, by
      intro x hx hs
      simp only [List.mem_cons, List.not_mem_nil, or_false] at hx
      rcases hx with rfl | rfl
      · exact absurd hs (by decide)
      · exact absurd hs (by decide)⟩,
    by simp [badSigInterest], ⟨rfl, by simp [badSigInterest], by simp [badSigInterest]⟩, rfl, by decide⟩

/-- C51 fails: an Interest with a SignatureInfo whose type is 2^64 - 1, which the conversion to `int` turns into `SignatureNone`, reaches the
handlers and no listener is asked, whatever the listeners are. -/
theorem C51_sigtype_violated (sha : Bytes → Bytes) : ∃ f, IsInterest sha badSigInterest f ∧ badSigInterest.sigInfo.isSome ∧
    ∀ (S : Type) (v : Listeners S VAns) (s : S), onInterest badSigInterest none v s = .handled [] := by
  refine ⟨_, badSigInterest_is sha, rfl, fun S v s => ?_⟩
  unfold onInterest badSigInterest
  simp only
  unfold afterCache
  rw [if_neg]
  · rfl
  · simp only [sigTypeOf, not_or]
    refine ⟨?_, by simp⟩
    rw [toInt_neg (by decide) (by decide)]
    decide

/-! ## C52 -/

/-- the event of the engine that a call of `NeedCallback` leads to -/
def Need.asPit (e : Need) : Option PitEvent :=
  if !e.signer && !e.appParam && e.cached == some true then none
  else match e.made with
    | none => none
    | some name => if e.supress then none else some (.express name e.lifetime e.canBePrefix e.delay)

def NeedEvent.asPit : NeedEvent → Option PitEvent
  | .need e => e.asPit
  | .engine ev => some ev

theorem express_empty (s : Pit) (l : Nat) (c : Bool) (d : Nat) : s.express [] l c d = (false, s) := rfl

theorem express_flag (s : Pit) (n : Name) (l : Nat) (c : Bool) (d : Nat) : (s.express n l c d).1 = !n.isEmpty := by
  unfold Pit.express
  cases n <;> simp

/-- what `NeedCallback` does, by cases -/
theorem need_cases (s : NeedState) (e : Need) :
    (e.asPit = none ∧ ∃ st, s.need e = { s with next := s.next + 1, direct := (s.next, st) :: s.direct }) ∨
    (∃ n l c d, e.asPit = some (.express n l c d) ∧ n = [] ∧ s.need e = { s with next := s.next + 1, direct := (s.next, .none) :: s.direct }) ∨
    (∃ n l c d, e.asPit = some (.express n l c d) ∧ n ≠ [] ∧
      s.need e = ⟨(s.pit.express n l c d).2, s.next + 1, if e.sendOk then s.direct else (s.next, .none) :: s.direct, (s.next, s.pit.next) :: s.asked⟩) := by
  unfold Need.asPit NeedState.need
  simp only
  by_cases h1 : (!e.signer && !e.appParam && e.cached == some true) = true
  · rw [if_pos h1, if_pos h1]; exact .inl ⟨rfl, _, rfl⟩
  · rw [if_neg h1, if_neg h1]
    cases hm : e.made with
    | none => exact .inl ⟨rfl, _, rfl⟩
    | some n =>
      simp only
      by_cases h2 : e.supress = true
      · rw [if_pos h2, if_pos h2]; exact .inl ⟨rfl, _, rfl⟩
      · rw [if_neg h2, if_neg h2]
        right
        cases n with
        | nil => exact .inl ⟨[], _, _, _, rfl, rfl, rfl⟩
        | cons x xs =>
          right
          refine ⟨x :: xs, _, _, _, rfl, by simp, ?_⟩
          have hf := express_flag s.pit (x :: xs) e.lifetime e.canBePrefix e.delay
          cases hx : s.pit.express (x :: xs) e.lifetime e.canBePrefix e.delay with
          | mk b p =>
            rw [hx] at hf
            have hf : b = true := hf
            subst hf
            simp only
            cases e.sendOk <;> rfl

/-- the engine goes through the corresponding schedule -/
theorem needAfter_pit (sha : Bytes → Bytes) (evs : List NeedEvent) : (needAfter sha evs).pit = pitAfter sha (evs.filterMap NeedEvent.asPit) := by
  induction evs with
  | nil => rfl
  | cons ev evs ih =>
    rw [show needAfter sha (ev :: evs) = (needAfter sha evs).step sha ev from rfl]
    cases ev with
    | engine ev =>
      rw [List.filterMap_cons_some (show NeedEvent.asPit (.engine ev) = some ev from rfl)]
      show (needAfter sha evs).pit.step sha ev = _
      rw [ih]; rfl
    | need e =>
      show ((needAfter sha evs).need e).pit = _
      rcases need_cases (needAfter sha evs) e with ⟨h1, st, h2⟩ | ⟨n, l, c, d, h1, h3, h2⟩ | ⟨n, l, c, d, h1, h3, h2⟩
      · rw [h2, List.filterMap_cons_none (show NeedEvent.asPit (.need e) = none from h1)]; exact ih
      · rw [h2, List.filterMap_cons_some (show NeedEvent.asPit (.need e) = _ from h1)]
        subst h3
        show (needAfter sha evs).pit = (pitAfter sha _).step sha (.express [] l c d)
        rw [ih]; rfl
      · rw [h2, List.filterMap_cons_some (show NeedEvent.asPit (.need e) = _ from h1)]
        show ((needAfter sha evs).pit.express n l c d).2 = (pitAfter sha _).step sha (.express n l c d)
        rw [ih]; rfl

/-- the calls of `NeedCallback` are numbered -/
theorem need_bound (sha : Bytes → Bytes) (evs : List NeedEvent) :
    (∀ x ∈ (needAfter sha evs).asked, x.1 < (needAfter sha evs).next) ∧ (∀ x ∈ (needAfter sha evs).direct, x.1 < (needAfter sha evs).next) := by
  induction evs with
  | nil => exact ⟨by simp [needAfter], by simp [needAfter]⟩
  | cons ev evs ih =>
    rw [show needAfter sha (ev :: evs) = (needAfter sha evs).step sha ev from rfl]
    generalize needAfter sha evs = s at *
    cases ev with
    | engine ev => exact ih
    | need e =>
      show (∀ x ∈ (s.need e).asked, _ < (s.need e).next) ∧ ∀ x ∈ (s.need e).direct, _ < (s.need e).next
      have ha : ∀ x ∈ s.asked, x.1 < s.next + 1 := fun x hx => by have := ih.1 x hx; omega
      have hd : ∀ x ∈ s.direct, x.1 < s.next + 1 := fun x hx => by have := ih.2 x hx; omega
      have hc : ∀ {st : Status}, ∀ x ∈ (s.next, st) :: s.direct, x.1 < s.next + 1 := by
        intro st x hx
        rcases List.mem_cons.mp hx with rfl | hx
        · simp
        · exact hd x hx
      rcases need_cases s e with ⟨h1, st, h2⟩ | ⟨n, l, c, d, h1, h3, h2⟩ | ⟨n, l, c, d, h1, h3, h2⟩ <;> rw [h2]
      · exact ⟨ha, hc⟩
      · exact ⟨ha, hc⟩
      · refine ⟨?_, ?_⟩
        · intro x hx
          rcases List.mem_cons.mp hx with rfl | hx
          · simp
          · exact ha x hx
        · simp only
          split
          · exact hd
          · exact hc

/-- what concerns the `k`-th call -/
def NeedState.own (s : NeedState) (k : Nat) : List (Nat × Nat) × List (Nat × Status) := (s.asked.filter (·.1 == k), s.direct.filter (·.1 == k))

theorem own_step (sha : Bytes → Bytes) (s : NeedState) (ev : NeedEvent) (k : Nat) (hk : k < s.next) :
    (s.step sha ev).own k = s.own k ∧ k < (s.step sha ev).next := by
  cases ev with
  | engine ev => exact ⟨rfl, hk⟩
  | need e =>
    show (s.need e).own k = s.own k ∧ k < (s.need e).next
    have hf : ∀ {α : Type} (a : α) (l : List (Nat × α)), ((s.next, a) :: l).filter (·.1 == k) = l.filter (·.1 == k) :=
      fun a l => List.filter_cons_of_neg (by simp; omega)
    rcases need_cases s e with ⟨h1, st, h2⟩ | ⟨n, l, c, d, h1, h3, h2⟩ | ⟨n, l, c, d, h1, h3, h2⟩ <;> rw [h2] <;>
      refine ⟨?_, Nat.lt_succ_of_lt hk⟩ <;> unfold NeedState.own <;> simp only
    · rw [hf]
    · rw [hf]
    · rw [hf]
      split
      · rfl
      · rw [hf]

theorem own_later (sha : Bytes → Bytes) (evs later : List NeedEvent) (k : Nat) (hk : k < (needAfter sha evs).next) :
    (needAfter sha (later ++ evs)).own k = (needAfter sha evs).own k ∧ k < (needAfter sha (later ++ evs)).next := by
  induction later with
  | nil => exact ⟨rfl, hk⟩
  | cons ev later ih =>
    have := own_step sha (needAfter sha (later ++ evs)) ev k ih.2
    exact ⟨this.1.trans ih.1, this.2⟩

theorem filter_fresh {α : Type} (l : List (Nat × α)) (k : Nat) (h : ∀ x ∈ l, x.1 < k) : l.filter (·.1 == k) = [] := by
  rw [List.filter_eq_nil_iff]
  intro x hx
  have := h x hx
  simp; omega

theorem invocations_length (verdict : Name → Bytes → Status) (s : NeedState) (k : Nat) (hA : (s.own k).1 = []) :
    (s.invocations verdict k).length = (s.own k).2.length := by
  unfold NeedState.invocations NeedState.own at *
  have : (s.pit.calls.filter fun c => s.asked.contains (k, c.1)) = [] := by
    rw [List.filter_eq_nil_iff]
    intro c _ hc
    rw [List.contains_iff_mem] at hc
    simp only [List.filter_eq_nil_iff] at hA
    exact hA _ hc (by simp)
  rw [this]
  simp

theorem invocations_asked (verdict : Name → Bytes → Status) (s : NeedState) (k i : Nat) (hA : s.own k = ([(k, i)], [])) :
    (s.invocations verdict k).length = (s.pit.calls.filter fun c => c.1 == i).length := by
  unfold NeedState.invocations NeedState.own at *
  injection hA with h1 h2
  rw [h2]
  have : (fun c : Nat × Outcome => s.asked.contains (k, c.1)) = fun c => c.1 == i := by
    funext c
    rw [Bool.eq_iff_iff, List.contains_iff_mem, beq_iff_eq]
    have hm : (k, c.1) ∈ s.asked ↔ (k, c.1) ∈ s.asked.filter (·.1 == k) := by simp
    rw [hm, h1]
    simp
  rw [this]
  simp

theorem sent_step (sha : Bytes → Bytes) {s : Pit} (hi : s.Inv) (ev : PitEvent) (x : Sent) (hx : x ∈ s.sent) : x ∈ (s.step sha ev).sent := by
  cases ev with
  | express n l c d =>
    by_cases h : n = []
    · subst h; exact hx
    · obtain ⟨_, _, _, _, _, _, _, _, _, _, _, _, _, _, hs⟩ := express_spec hi n l c d h
      show x ∈ (s.express n l c d).2.sent
      rw [hs]; exact List.mem_cons_of_mem _ hx
  | data n raw => show x ∈ (s.onData sha n raw).sent; rw [(onData_frame sha s n raw).1]; exact hx
  | nack n r =>
    show x ∈ (s.onNack n r).sent
    unfold Pit.onNack
    split <;> exact hx
  | fire t =>
    show x ∈ (if _ then _ else s : Pit).sent
    split <;> exact hx
  | run id n =>
    show x ∈ (if _ then _ else s : Pit).sent
    split <;> exact hx
  | tick d => exact hx

theorem sent_later (sha : Bytes → Bytes) (evs later : List PitEvent) (x : Sent) (hx : x ∈ (pitAfter sha evs).sent) :
    x ∈ (pitAfter sha (later ++ evs)).sent := by
  induction later with
  | nil => exact hx
  | cons ev later ih => exact sent_step sha (pitAfter_inv sha _) ev x ih

/-- has every timer that was due run? -/
def Settled (p : Pit) : Prop := (∀ t ∈ p.timers, p.now < t.due) ∧ p.started = []

/-- C52: a call of `NeedCallback` that is answered from the storage, cannot make the Interest, is suppressed, or has an empty name leads to exactly
one invocation of the callback, in every schedule, whatever happens later.  A call that sends the Interest leads to at most one, and to
exactly one when the lifetime (and the margin of 10 ms) is over and the timers that were due have run, provided that no Nack for this name
comes and that `face.Send` does not fail.  Missing: see `C52_send_violated` and `C52_nack_violated`. -/
theorem C52_once_partial (sha : Bytes → Bytes) (verdict : Name → Bytes → Status) (evs later : List NeedEvent) (e : Need) :
    let k := (needAfter sha evs).next
    let s := needAfter sha (later ++ .need e :: evs)
    (e.asPit = none → (s.invocations verdict k).length = 1) ∧
    (∀ n l c d, e.asPit = some (.express n l c d) →
      (n = [] → (s.invocations verdict k).length = 1) ∧
      (n ≠ [] → e.sendOk = true →
        (∀ m r, NeedEvent.engine (.nack m r) ∈ later ++ .need e :: evs → keys m ≠ keys (splitDigest n).1) →
        (s.invocations verdict k).length ≤ 1 ∧
        (Settled s.pit → (needAfter sha evs).pit.now + l + timeoutMargin ≤ s.pit.now → (s.invocations verdict k).length = 1))) := by
  intro k s
  have hb := need_bound sha evs
  have hA : (needAfter sha evs).own k = ([], []) := by
    unfold NeedState.own
    rw [filter_fresh _ _ hb.1, filter_fresh _ _ hb.2]
  have hst : needAfter sha (.need e :: evs) = (needAfter sha evs).need e := rfl
  have hnext : k < (needAfter sha (.need e :: evs)).next := by
    rw [hst]
    rcases need_cases (needAfter sha evs) e with ⟨h1, st, h2⟩ | ⟨n, l, c, d, h1, h3, h2⟩ | ⟨n, l, c, d, h1, h3, h2⟩ <;> rw [h2] <;>
      exact Nat.lt_succ_self _
  have hl := (own_later sha (.need e :: evs) later k hnext).1
  have hs : s.own k = (needAfter sha (.need e :: evs)).own k := hl
  have hA' : (needAfter sha evs).asked.filter (·.1 == k) = [] ∧ (needAfter sha evs).direct.filter (·.1 == k) = [] := by
    injection hA with h1 h2; exact ⟨h1, h2⟩
  have hdirect : ∀ st, (needAfter sha evs).need e =
      { needAfter sha evs with next := (needAfter sha evs).next + 1, direct := ((needAfter sha evs).next, st) :: (needAfter sha evs).direct } → (s.invocations verdict k).length = 1 := by
    intro st h2
    have ho : s.own k = ([], [(k, st)]) := by
      rw [hs, hst, h2]
      unfold NeedState.own
      simp only
      rw [List.filter_cons_of_pos (by simp [k]), hA'.1, hA'.2]
    rw [invocations_length verdict s k (by rw [ho]), ho]
    rfl
  rcases need_cases (needAfter sha evs) e with ⟨h1, st, h2⟩ | ⟨n, l, c, d, h1, h3, h2⟩ | ⟨n, l, c, d, h1, h3, h2⟩
  · exact ⟨fun _ => hdirect st h2, fun n l c d h => by rw [h1] at h; cases h⟩
  · refine ⟨fun h => (by rw [h1] at h; cases h), fun n' l' c' d' h => ⟨fun _ => hdirect _ h2, fun hn => ?_⟩⟩
    rw [h1] at h
    injection h with h; injection h with h _ _ _
    exact absurd (h.symm.trans h3) hn
  · refine ⟨fun h => (by rw [h1] at h; cases h), fun n' l' c' d' h => ⟨fun hn => ?_, fun _ hsend hnack => ?_⟩⟩
    · rw [h1] at h
      injection h with h; injection h with h _ _ _
      exact absurd (h.trans hn) h3
    · rw [h1] at h
      injection h with h; injection h with e1 e2 e3 e4
      subst e1 e2 e3 e4
      have ho : s.own k = ([(k, (needAfter sha evs).pit.next)], []) := by
        rw [hs, hst, h2]
        unfold NeedState.own
        simp only
        rw [if_pos hsend, List.filter_cons_of_pos (by simp [k]), hA'.1, hA'.2]
      rw [invocations_asked verdict s k _ ho]
      have hpit : s.pit = pitAfter sha ((later ++ .need e :: evs).filterMap NeedEvent.asPit) := needAfter_pit sha _
      have hsplit : (later ++ .need e :: evs).filterMap NeedEvent.asPit =
          later.filterMap NeedEvent.asPit ++ .express n l c d :: evs.filterMap NeedEvent.asPit := by
        rw [List.filterMap_append, List.filterMap_cons_some (show NeedEvent.asPit (.need e) = _ from h1)]
      have hsent : ⟨(needAfter sha evs).pit.next, n, c, l, (needAfter sha evs).pit.now⟩ ∈ s.pit.sent := by
        rw [hpit, hsplit]
        apply sent_later
        rw [needAfter_pit]
        exact (C34_recorded sha _ n l c d).2 h3
      have hle : (s.pit.calls.filter fun c => c.1 == (needAfter sha evs).pit.next).length ≤ 1 := by
        rw [hpit] at hsent ⊢
        refine C33_at_most_once_partial sha _ _ hsent ?_
        intro m r hm
        rw [List.mem_filterMap] at hm
        obtain ⟨x, hx, hxe⟩ := hm
        cases x with
        | engine ev =>
          injection hxe with hxe
          subst hxe
          exact hnack m r hx
        | need e' =>
          rcases need_cases (needAfter sha evs) e' with ⟨g1, _⟩ | ⟨_, _, _, _, g1, _⟩ | ⟨_, _, _, _, g1, _⟩ <;>
            rw [show NeedEvent.asPit (.need e') = e'.asPit from rfl, g1] at hxe <;> cases hxe
      refine ⟨hle, fun hset htime => ?_⟩
      have : ∃ c ∈ s.pit.calls, c.1 = (needAfter sha evs).pit.next := by
        rw [hpit] at hsent hset htime ⊢
        exact C34_result sha _ _ hsent hset.1 hset.2 htime
      obtain ⟨c, hc, hid⟩ := this
      have hpos : 0 < (s.pit.calls.filter fun c => c.1 == (needAfter sha evs).pit.next).length :=
        List.length_pos_of_mem (List.mem_filter.mpr ⟨hc, by simp [hid]⟩)
      omega

/-- C52 for `NeedChan`: under the conditions of `C52_once_partial` nothing is sent twice, so there is no panic, the reader gets the result of the one invocation of
the callback, and before it nothing. -/
theorem C52_chan_partial (sha : Bytes → Bytes) (verdict : Name → Bytes → Status) (evs later : List NeedEvent) (e : Need)
    (hok : ∀ n l c d, e.asPit = some (.express n l c d) → n ≠ [] → e.sendOk = true ∧
      ∀ m r, NeedEvent.engine (.nack m r) ∈ later ++ .need e :: evs → keys m ≠ keys (splitDigest n).1) :
    let s := needAfter sha (later ++ .need e :: evs)
    let k := (needAfter sha evs).next
    (∃ r, chanAfter (s.invocations verdict k) = .ok r ∧ ∀ x, r = some x ↔ x ∈ s.invocations verdict k) ∧
    (e.asPit = none → ∃ x, chanAfter (s.invocations verdict k) = .ok (some x)) := by
  intro s k
  have h := C52_once_partial sha verdict evs later e
  have hle : (s.invocations verdict k).length ≤ 1 := by
    rcases need_cases (needAfter sha evs) e with ⟨g1, _⟩ | ⟨n, l, c, d, g1, g3, _⟩ | ⟨n, l, c, d, g1, g3, _⟩
    · exact Nat.le_of_eq (h.1 g1)
    · exact Nat.le_of_eq ((h.2 n l c d g1).1 g3)
    · exact ((h.2 n l c d g1).2 g3 (hok n l c d g1 g3).1 (hok n l c d g1 g3).2).1
  have h1 := h.1
  change e.asPit = none → (s.invocations verdict k).length = 1 at h1
  generalize s.invocations verdict k = l at *
  match l, hle with
  | [], _ => exact ⟨⟨none, rfl, by simp⟩, fun h => absurd (h1 h) (by simp)⟩
  | [x], _ => exact ⟨⟨some x, rfl, by simp [eq_comm]⟩, fun _ => ⟨x, rfl⟩⟩

/-- a call that sends its Interest, and one for the same name that is answered with a Data; then the first one times out -/
example :
    let evs : List NeedEvent := [.engine (.run 0 1), .engine (.fire ⟨0, 1, 10000100⟩), .engine (.tick 10000100), .need { made := some nmA, supress := true },
      .need { made := some nmA, lifetime := 100 }]
    (needAfter sha0 evs).invocations (fun _ _ => .data) 0 = [.timeout] ∧ (needAfter sha0 evs).invocations (fun _ _ => .data) 1 = [.nack] := by
  decide

/-- C52 fails: if `face.Send` fails, the callback is called at once, and again when the Interest, which stays in the table, times out.  With `NeedChan`
the second call is a send on a closed channel, which panics. -/
theorem C52_send_violated (verdict : Name → Bytes → Status) :
    let evs : List NeedEvent := [.engine (.run 0 1), .engine (.fire ⟨0, 1, 10000100⟩), .engine (.tick 10000100),
      .need { made := some nmA, lifetime := 100, sendOk := false }]
    (needAfter sha0 evs).invocations verdict 0 = [.timeout, .none] ∧ chanAfter ((needAfter sha0 evs).invocations verdict 0) = .panic := by
  have h : (needAfter sha0 [.engine (.run 0 1), .engine (.fire ⟨0, 1, 10000100⟩), .engine (.tick 10000100),
      .need { made := some nmA, lifetime := 100, sendOk := false }]).pit.calls = [(0, .timeout)] := by decide
  intro evs
  have hi : (needAfter sha0 evs).invocations verdict 0 = [.timeout, .none] := by
    unfold NeedState.invocations
    rw [h]
    rfl
  exact ⟨hi, by rw [hi]; rfl⟩

/-- C52 fails: a timeout function that has started when a Nack arrives calls the callback again (as in `C33_race_violated`; `C33_nack_violated` is a case
without a race). -/
theorem C52_nack_violated (verdict : Name → Bytes → Status) :
    let evs : List NeedEvent := [.engine (.run 0 1), .engine (.nack nmA 50), .engine (.fire ⟨0, 1, 10000100⟩), .engine (.tick 10000100),
      .need { made := some nmA, lifetime := 100 }]
    (needAfter sha0 evs).invocations verdict 0 = [.timeout, .nack] := by
  have h : (needAfter sha0 [.engine (.run 0 1), .engine (.nack nmA 50), .engine (.fire ⟨0, 1, 10000100⟩), .engine (.tick 10000100),
      .need { made := some nmA, lifetime := 100 }]).pit.calls = [(0, .timeout), (0, .nack 50)] := by decide
  intro evs
  unfold NeedState.invocations
  rw [h]
  rfl

end Ndn.Schema
