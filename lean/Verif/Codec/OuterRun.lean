import Verif.Codec.OuterLemmas
import Verif.Codec.SignedRunProps

/-! # Lemmas for C97: `Init` leaves the pointer to the value, and what the inner encoder sees -/

namespace Ndn.Codec.Gen

/-! ## The pointer to the value -/

/-- `value` is a pointer to a struct -/
def Points (s : S) : Prop := ∃ kvs, s.vars .value = .ptr (.struct kvs)

theorem atom_value {call : Call} {a : Atom} {k : Code} {s s' : S} (hd : .value ∉ (Code.atom a k).decls) (hp : Points s) (h : a.exec call s = .ok s') :
    s'.vars .value = s.vars .value := by
  obtain ⟨kvs, hp⟩ := hp
  cases a <;> simp only [Atom.exec, Code.decls, List.mem_cons, not_or] at h hd
  case decl => obtain ⟨_, _, rfl⟩ := map_inv h; exact upd_other _ _ hd.1
  case refSub f v =>
    split at h
    · split at h
      · rename_i p n _ _ _; cases h; exact upd_other s.vars (.ref (.idx n :: .key (.sub f) :: p)) hd.1
      · cases h
    · cases h
  case pseudo f _ e => obtain ⟨g, _, rfl⟩ := map_inv h; exact upd_other s.vars (.struct [(f, g)]) hd.1
  case addr => exact absurd trivial hd.1
  case inc v e =>
    obtain ⟨_, _, h⟩ := bind_inv h
    split at h
    · rename_i hv
      cases h
      refine upd_other _ _ ?_
      rintro rfl
      rw [hp] at hv
      cases hv
    · cases h
  case setKey => obtain ⟨_, _, h⟩ := bind_inv h; split at h <;> cases h; rfl
  case incKey => obtain ⟨_, _, h⟩ := bind_inv h; split at h <;> cases h; rfl
  case makeSub => split at h <;> cases h; rfl
  case poke =>
    obtain ⟨_, _, h⟩ := bind_inv h
    obtain ⟨⟨_, _⟩, _, h⟩ := bind_inv h
    obtain ⟨_, _, rfl⟩ := map_inv h
    rfl
  case putBE =>
    obtain ⟨_, _, h⟩ := bind_inv h
    obtain ⟨⟨_, _⟩, _, h⟩ := bind_inv h
    obtain ⟨_, _, rfl⟩ := map_inv h
    rfl
  case copy =>
    obtain ⟨g, _, h⟩ := bind_inv h
    obtain ⟨⟨_, _⟩, _, h⟩ := bind_inv h
    cases g <;> simp only [reduceCtorEq] at h
    obtain ⟨_, _, rfl⟩ := map_inv h
    rfl
  case component v =>
    obtain ⟨⟨off, n⟩, _, h⟩ := bind_inv h
    cases hv : s.vars v <;> simp only [hv, reduceCtorEq] at h
    obtain ⟨w, _, rfl⟩ := map_inv h
    exact upd_other (u := .value) (v := .pos) _ (.num ((n + (w.2 - (off + n))) % 2 ^ 64)) (by decide)
  case init =>
    obtain ⟨g, _, h⟩ := bind_inv h
    split at h
    · obtain ⟨_, _, rfl⟩ := map_inv h
      rfl
    · cases h
  case into =>
    obtain ⟨g, _, h⟩ := bind_inv h
    obtain ⟨⟨_, _⟩, _, h⟩ := bind_inv h
    split at h
    · split at h
      · obtain ⟨_, _, rfl⟩ := map_inv h
        rfl
      · cases h
    · cases h
  case use => cases h; rfl

/-- at the end of a block -/
theorem leave_value {ds : List Var} {s s' : S} (h : .value ∉ ds → s'.vars .value = s.vars .value) : (leave ds s s').vars .value = s.vars .value := by
  by_cases hm : Var.value ∈ ds
  · simp [leave, hm]
  · simp [leave, hm, h hm]

theorem loop_value {body : Nat → GV → S → Res S} (hb : ∀ n g s s', Points s → body n g s = .ok s' → s'.vars .value = s.vars .value) :
    ∀ (l : List GV) (n : Nat) {s s' : S}, Points s → loop body n l s = .ok s' → s'.vars .value = s.vars .value
  | [], _, _, _, _, h => by cases h; rfl
  | g :: l, n, s, s', hp, h => by
    obtain ⟨a, h1, h2⟩ := bind_inv h
    have e := hb _ _ _ _ hp h1
    rw [loop_value hb l (n + 1) (by obtain ⟨kvs, hp⟩ := hp; exact ⟨kvs, e.trans hp⟩) h2, e]

theorem code_value {call : Call} : ∀ (c : Code) {s s' : S}, .value ∉ c.decls → Points s → c.exec call s = .ok s' → s'.vars .value = s.vars .value := by
  intro c
  have tr : ∀ {s s1 : S}, Points s → s1.vars .value = s.vars .value → Points s1 := fun ⟨kvs, hp⟩ e => ⟨kvs, e.trans hp⟩
  induction c with
  | done => intro s s' _ _ h; cases h; rfl
  | atom a k ih =>
    intro s s' hd hp h
    obtain ⟨s1, h1, h2⟩ := bind_inv h
    have e := atom_value hd hp h1
    rw [ih (fun hm => hd (by cases a <;> simp [Code.decls, hm])) (tr hp e) h2, e]
  | cond c b k ihb ihk =>
    intro s s' hd hp h
    obtain ⟨t, _, h⟩ := bind_inv h
    obtain ⟨s1, h1, h2⟩ := bind_inv h
    have e : s1.vars .value = s.vars .value := by
      split at h1
      · obtain ⟨s2, h1', rfl⟩ := map_inv h1
        exact leave_value fun hm => ihb hm hp h1'
      · cases h1; rfl
    rw [ihk hd (tr hp e) h2, e]
  | switch ex b1 b2 b3 c1 c2 c3 c4 k i1 i2 i3 i4 ik =>
    intro s s' hd hp h
    obtain ⟨n, _, h⟩ := bind_inv h
    obtain ⟨s1, h1, h2⟩ := bind_inv h
    have hp' : Points { s with vars := upd s.vars .x (.num n) } := tr hp (upd_other (u := .value) (v := .x) _ (.num n) (by decide))
    have key : ∀ {c : Code} {s2 : S}, (∀ {s s' : S}, .value ∉ c.decls → Points s → c.exec call s = .ok s' → s'.vars .value = s.vars .value) →
        c.exec call { s with vars := upd s.vars .x (.num n) } = .ok s2 → (leave (.x :: c.decls) s s2).vars .value = s.vars .value :=
      fun ic h => leave_value fun hm => (ic (fun h' => hm (by simp [h'])) hp' h).trans (upd_other (u := .value) (v := .x) _ (.num n) (by decide))
    have e : s1.vars .value = s.vars .value := by
      split at h1
      · obtain ⟨_, h1', rfl⟩ := map_inv h1; exact key i1 h1'
      · split at h1
        · obtain ⟨_, h1', rfl⟩ := map_inv h1; exact key i2 h1'
        · split at h1
          · obtain ⟨_, h1', rfl⟩ := map_inv h1; exact key i3 h1'
          · obtain ⟨_, h1', rfl⟩ := map_inv h1; exact key i4 h1'
    rw [ik hd (tr hp e) h2, e]
  | each v ex b k ihb ihk =>
    intro s s' hd hp h
    obtain ⟨g, _, h⟩ := bind_inv h
    obtain ⟨l, _, h⟩ := bind_inv h
    obtain ⟨s1, h1, h2⟩ := bind_inv h
    have e : s1.vars .value = s.vars .value := loop_value (fun n g s s' hp h => by
      obtain ⟨s2, h', rfl⟩ := map_inv h
      refine leave_value fun hm => ?_
      simp only [List.mem_cons, not_or] at hm
      have ev : (upd s.vars v g) .value = s.vars .value := upd_other _ _ hm.1
      exact (ihb hm.2 (tr hp ev) h').trans ev) _ _ hp h1
    rw [ihk hd (tr hp e) h2, e]
  | items ex b k ihb ihk =>
    intro s s' hd hp h
    obtain ⟨g, _, h⟩ := bind_inv h
    obtain ⟨l, _, h⟩ := bind_inv h
    obtain ⟨s1, h1, h2⟩ := bind_inv h
    have e : s1.vars .value = s.vars .value := loop_value (fun n g s s' hp h => by
      obtain ⟨s2, h', rfl⟩ := map_inv h
      refine leave_value fun hm => ?_
      simp only [List.mem_cons, not_or] at hm
      have ev : (upd (upd s.vars .seqI (.num n)) .seqV g) .value = s.vars .value := by rw [upd_other _ _ hm.2.1, upd_other _ _ hm.1]
      exact (ihb hm.2.2 (tr (s1 := { s with vars := upd (upd s.vars .seqI (.num n)) .seqV g }) hp ev) h').trans ev) _ _ hp h1
    rw [ihk hd (tr hp e) h2, e]
  | times v b k ihb ihk =>
    intro s s' hd hp h
    simp only [Code.exec] at h
    split at h
    · obtain ⟨s1, h1, h2⟩ := bind_inv h
      have e : s1.vars .value = s.vars .value := loop_value (fun n g s s' hp h => by
        obtain ⟨s2, h', rfl⟩ := map_inv h
        refine leave_value fun hm => ?_
        simp only [List.mem_cons, not_or] at hm
        have ev : (upd s.vars .i (.num n)) .value = s.vars .value := upd_other _ _ hm.1
        exact (ihb hm.2 (tr (s1 := { s with vars := upd s.vars .i (.num n) }) hp ev) h').trans ev) _ _ hp h1
      rw [ihk hd (tr hp e) h2, e]
    · cases h
  | block b k ihb ihk =>
    intro s s' hd hp h
    obtain ⟨s1, h1, h2⟩ := bind_inv h
    have e : s1.vars .value = s.vars .value := by
      obtain ⟨s2, h1', rfl⟩ := map_inv h1
      exact leave_value fun hm => ihb hm hp h1'
    rw [ihk hd (tr hp e) h2, e]

/-- the statements declare no `value` but in blocks -/
def NCode.mild : NCode → Bool
  | .done => true
  | .plain c k => decide (Var.value ∉ c.decls) && k.mild
  | .atom _ k => k.mild
  | .cond _ b k => b.mild && k.mild
  | .range _ _ b k => b.mild && k.mild

theorem through_s {ns ns' : NS} {s : S} (h : ns.through s = .ok ns') : ns'.s = s := by
  unfold NS.through at h
  split at h
  · cases h; rfl
  · split at h <;> cases h; rfl

theorem natom_value {a : NAtom} {ns ns' : NS} (h : a.exec ns = .ok ns') : ns'.s.vars .value = ns.s.vars .value := by
  cases a <;> simp only [NAtom.exec] at h
  case pushPlan => split at h <;> cases h; rfl
  case startBuf => split at h <;> cases h; rfl
  case nextBuf => split at h <;> cases h <;> rfl
  case putW => split at h <;> [(split at h <;> cases h; rfl); cases h]
  case zeroL => cases h; exact upd_other (u := .value) (v := .l) _ (.num 0) (by decide)
  case zeroPos => cases h; exact upd_other (u := .value) (v := .pos) _ (.num 0) (by decide)
  all_goals cases h; rfl

theorem nloop_value {body : GV → NS → Res NS} (hb : ∀ g ns ns', Points ns.s → body g ns = .ok ns' → ns'.s.vars .value = ns.s.vars .value) :
    ∀ (l : List GV) {ns ns' : NS}, Points ns.s → nloop body l ns = .ok ns' → ns'.s.vars .value = ns.s.vars .value
  | [], _, _, _, h => by cases h; rfl
  | g :: l, ns, ns', hp, h => by
    obtain ⟨a, h1, h2⟩ := bind_inv h
    have e := hb _ _ _ hp h1
    rw [nloop_value hb l (by obtain ⟨kvs, hp⟩ := hp; exact ⟨kvs, e.trans hp⟩) h2, e]

theorem ncode_value {call : Call} : ∀ (c : NCode) {ns ns' : NS}, c.mild = true → Points ns.s → c.exec call ns = .ok ns' →
    ns'.s.vars .value = ns.s.vars .value := by
  intro c
  have tr : ∀ {s s1 : S}, Points s → s1.vars .value = s.vars .value → Points s1 := fun ⟨kvs, hp⟩ e => ⟨kvs, e.trans hp⟩
  induction c with
  | done => intro ns ns' _ _ h; cases h; rfl
  | plain c k ih =>
    intro ns ns' hm hp h
    simp only [NCode.mild, Bool.and_eq_true, decide_eq_true_eq] at hm
    obtain ⟨n1, h1, h2⟩ := bind_inv h
    obtain ⟨s, h3, h4⟩ := bind_inv h1
    have e : n1.s.vars .value = ns.s.vars .value := by rw [through_s h4]; exact code_value c hm.1 hp h3
    rw [ih hm.2 (tr hp e) h2, e]
  | atom a k ih =>
    intro ns ns' hm hp h
    obtain ⟨n1, h1, h2⟩ := bind_inv h
    have e := natom_value h1
    rw [ih hm (tr hp e) h2, e]
  | cond c b k ihb ihk =>
    intro ns ns' hm hp h
    simp only [NCode.mild, Bool.and_eq_true] at hm
    obtain ⟨t, _, h⟩ := bind_inv h
    obtain ⟨n1, h1, h2⟩ := bind_inv h
    have e : n1.s.vars .value = ns.s.vars .value := by
      split at h1
      · obtain ⟨n2, h1', rfl⟩ := map_inv h1
        exact leave_value fun _ => ihb hm.1 hp h1'
      · cases h1; rfl
    rw [ihk hm.2 (tr hp e) h2, e]
  | range named f b k ihb ihk =>
    intro ns ns' hm hp h
    simp only [NCode.mild, Bool.and_eq_true] at hm
    obtain ⟨g, _, h⟩ := bind_inv h
    obtain ⟨l, _, h⟩ := bind_inv h
    obtain ⟨n1, h1, h2⟩ := bind_inv h
    have e : n1.s.vars .value = ns.s.vars .value := nloop_value (fun g n n' hp h => by
      split at h
      · obtain ⟨n2, h', rfl⟩ := map_inv h
        have ev : (upd n.s.vars .w g) .value = n.s.vars .value := upd_other _ _ (by decide)
        exact leave_value fun _ => (ihb (ns := { n with s := { n.s with vars := upd n.s.vars .w g } }) hm.1 (tr (s1 := { n.s with vars := upd n.s.vars .w g }) hp ev) h').trans ev
      · obtain ⟨n2, h', rfl⟩ := map_inv h
        exact leave_value fun _ => ihb hm.1 hp h') l hp h1
    rw [ihk hm.2 (tr hp e) h2, e]

/-- the same for the statements of `Verif/Codec/EmitSigned.lean` -/
def SCode.mild : SCode → Bool
  | .done => true
  | .plain c k => c.mild && k.mild
  | .atom _ k => k.mild
  | .cond _ b k => b.mild && k.mild
  | .heads _ _ _ => false
  | .last _ _ _ _ _ => false

theorem satom_points {a : SAtom} {ss ss' : SS} (hp : Points ss.ns.s) (h : a.exec ss = .ok ss') : Points ss'.ns.s := by
  have hch : ∀ {f φ}, ss.changeName f φ = .ok ss' → Points ss'.ns.s := by
    intro f φ he
    unfold SS.changeName at he
    split at he
    · split at he
      · rename_i kvs _ _ n _; cases he; exact ⟨setField f (.name (φ n)) kvs, upd_same ss.ns.s.vars .value _⟩
      · cases he
    · cases he
  cases a <;> simp only [SAtom.exec] at h
  case cover => obtain ⟨_, _, rfl⟩ := map_inv h; exact hp
  case nameCover => obtain ⟨_, _, rfl⟩ := map_inv h; exact hp
  case trim => exact hch h
  case addDigest => split at h <;> [exact hch h; (cases h; exact hp)]
  case nameWhole => cases h; split <;> exact hp
  all_goals cases h; exact hp

theorem scode_points {call : Call} : ∀ (c : SCode) {ss ss' : SS}, c.mild = true → Points ss.ns.s → c.exec call ss = .ok ss' → Points ss'.ns.s := by
  intro c
  induction c with
  | done => intro ss ss' _ hp h; cases h; exact hp
  | plain c k ih =>
    intro ss ss' hm hp h
    simp only [SCode.mild, Bool.and_eq_true] at hm
    obtain ⟨s1, h1, h2⟩ := bind_inv h
    obtain ⟨n1, h1', rfl⟩ := map_inv h1
    refine ih hm.2 ?_ h2
    obtain ⟨kvs, hp'⟩ := hp
    exact ⟨kvs, (ncode_value c hm.1 ⟨kvs, hp'⟩ h1').trans hp'⟩
  | atom a k ih =>
    intro ss ss' hm hp h
    obtain ⟨s1, h1, h2⟩ := bind_inv h
    exact ih hm (satom_points hp h1) h2
  | cond c b k ihb ihk =>
    intro ss ss' hm hp h
    simp only [SCode.mild, Bool.and_eq_true] at hm
    obtain ⟨t, _, h⟩ := bind_inv h
    obtain ⟨s1, h1, h2⟩ := bind_inv h
    refine ihk hm.2 ?_ h2
    split at h1
    · exact ihb hm.1 hp h1
    · cases h1; exact hp
  | heads f b k ih => intro ss ss' hm; cases hm
  | last f a b c k ih => intro ss ss' hm; cases hm

theorem mild_append {c d : SCode} (hc : c.mild = true) (hd : d.mild = true) : (c ++ d).mild = true := by
  induction c with
  | done => exact hd
  | plain c k ih => simp only [SCode.mild, Bool.and_eq_true] at hc; show (_ && (k ++ d).mild) = true; rw [hc.1, ih hc.2]; rfl
  | atom a k ih => exact ih hc
  | cond c b k _ ih => simp only [SCode.mild, Bool.and_eq_true] at hc; show (_ && (k ++ d).mild) = true; rw [hc.1, ih hc.2]; rfl
  | heads f b k ih => cases hc
  | last f a b c k ih => cases hc

theorem mild_all {g : Field → SCode} (hg : ∀ f, (g f).mild = true) : ∀ l, (allSigned g l).mild = true
  | [] => rfl
  | f :: l => mild_append (hg f) (mild_all hg l)

theorem mild_plain {c : Code} (h : c.decls = []) : (SCode.ofPlain (.ofPlain c)).mild = true := by
  simp [SCode.ofPlain, NCode.ofPlain, SCode.mild, NCode.mild, h]

theorem init_mild (f : Txt) (c : Cls) : (initSigned f c).mild = true := by
  cases c <;> rfl

theorem length_mild (f : Txt) (n : Nat) (c : Cls) : (lengthSigned f n c).mild = true := by
  cases c
  case natural => exact mild_plain (lengthCode_decls _ _ _)
  case fixedUint => exact mild_plain (lengthCode_decls _ _ _)
  case time => exact mild_plain (lengthCode_decls _ _ _)
  case string => exact mild_plain (lengthCode_decls _ _ _)
  all_goals rfl

theorem plan_mild (f : Txt) (n : Nat) (c : Cls) : (planSigned f n c).mild = true := by
  cases c
  case wire nc => cases nc <;> rfl
  case natural => exact mild_plain (lengthCode_decls _ _ _)
  case fixedUint => exact mild_plain (lengthCode_decls _ _ _)
  case time => exact mild_plain (lengthCode_decls _ _ _)
  case string => exact mild_plain (lengthCode_decls _ _ _)
  all_goals rfl

/-- `Init` of the encoder of any model leaves `value` a pointer to a struct -/
theorem init_points {call : Call} {fs : List Field} {ss ss' : SS} (hp : Points ss.ns.s) (h : (initSignedBody fs).exec call ss = .ok ss') : Points ss'.ns.s :=
  scode_points _ (mild_append (mild_append (mild_append (mild_append (mild_append (mild_all (fun _ => init_mild _ _) _) rfl)
    (mild_all (fun _ => length_mild _ _ _) _)) rfl) (mild_all (fun _ => plan_mild _ _ _) _)) rfl) hp h

end Ndn.Codec.Gen
