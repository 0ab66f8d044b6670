import Verif.Codec.RunOuter
import Verif.Codec.InterestRun

/-! # Lemmas for C97: what every emitted `EncodeInto` leaves as it is -/

namespace Ndn.Codec.Gen

theorem bind_inv {α β : Type} {x : Res α} {f : α → Res β} {b : β} (h : x.bind f = .ok b) : ∃ a, x = .ok a ∧ f a = .ok b := by
  cases x with
  | ok a => exact ⟨a, rfl, h⟩
  | err e => cases h
  | panic => cases h

theorem map_inv {α β : Type} {x : Res α} {f : α → β} {b : β} (h : x.map f = .ok b) : ∃ a, x = .ok a ∧ f a = b := by
  cases x with
  | ok a => exact ⟨a, rfl, Res.ok.inj h⟩
  | err e => cases h
  | panic => cases h

/-! ## Lengths -/

theorem store_length {mem : Bytes} {a : Nat} {bs r : Bytes} (h : store mem a bs = .ok r) : r.length = mem.length := by
  unfold store at h
  split at h
  · rename_i hl
    cases h
    exact splice_length hl
  · cases h

theorem put_length {bs : Bytes} {s r : WS} (h : put bs s = .ok r) : r.1.length = s.1.length := by
  unfold put at h
  split at h
  · rename_i hl
    cases h
    exact splice_length hl
  · cases h

theorem putCopy_length {bs : Bytes} {s r : WS} (h : putCopy bs s = .ok r) : r.1.length = s.1.length := by
  unfold putCopy at h
  split at h
  · rename_i hl
    cases h
    exact splice_length (by rw [List.length_take]; omega)
  · cases h

theorem putComponent_length {c : Component} {s r : WS} (h : putComponent c s = .ok r) : r.1.length = s.1.length := by
  unfold putComponent at h
  obtain ⟨a, h1, h2⟩ := bind_inv h
  obtain ⟨b, h3, h4⟩ := bind_inv h1
  rw [putCopy_length h2, put_length h4, put_length h3]

/-- the called methods leave the length of the buffer -/
def KeepsLength (call : Call) : Prop := ∀ t i g p off cells mem r, call t i g p off cells mem = .ok r → r.2.length = mem.length

theorem atom_mem {call : Call} (hc : KeepsLength call) {a : Atom} {s s' : S} (h : a.exec call s = .ok s') : s'.mem.length = s.mem.length := by
  cases a <;> simp only [Atom.exec] at h
  case decl => obtain ⟨_, _, rfl⟩ := map_inv h; rfl
  case refSub => split at h <;> [(split at h <;> cases h; rfl); cases h]
  case pseudo => obtain ⟨_, _, rfl⟩ := map_inv h; rfl
  case addr => cases h; rfl
  case inc => obtain ⟨_, _, h⟩ := bind_inv h; split at h <;> cases h; rfl
  case setKey => obtain ⟨_, _, h⟩ := bind_inv h; split at h <;> cases h; rfl
  case incKey => obtain ⟨_, _, h⟩ := bind_inv h; split at h <;> cases h; rfl
  case makeSub => split at h <;> cases h; rfl
  case poke =>
    obtain ⟨_, _, h⟩ := bind_inv h
    obtain ⟨⟨_, _⟩, _, h⟩ := bind_inv h
    obtain ⟨_, h', rfl⟩ := map_inv h
    exact store_length h'
  case putBE =>
    obtain ⟨_, _, h⟩ := bind_inv h
    obtain ⟨⟨_, _⟩, _, h⟩ := bind_inv h
    obtain ⟨_, h', rfl⟩ := map_inv h
    exact store_length h'
  case copy =>
    obtain ⟨g, _, h⟩ := bind_inv h
    obtain ⟨⟨_, _⟩, _, h⟩ := bind_inv h
    cases g <;> simp only [reduceCtorEq] at h
    obtain ⟨_, h', rfl⟩ := map_inv h
    exact putCopy_length h'
  case component v =>
    obtain ⟨⟨_, _⟩, _, h⟩ := bind_inv h
    cases hv : s.vars v <;> simp only [hv, reduceCtorEq] at h
    obtain ⟨_, h', rfl⟩ := map_inv h
    exact putComponent_length h'
  case init =>
    obtain ⟨g, _, h⟩ := bind_inv h
    split at h
    · obtain ⟨_, h', rfl⟩ := map_inv h
      exact hc _ _ _ _ _ _ _ _ h'
    · cases h
  case into =>
    obtain ⟨g, _, h⟩ := bind_inv h
    obtain ⟨⟨_, _⟩, _, h⟩ := bind_inv h
    split at h
    · split at h
      · obtain ⟨_, h', rfl⟩ := map_inv h
        exact hc _ _ _ _ _ _ _ _ h'
      · cases h
    · cases h
  case use => cases h; rfl

theorem loop_mem {body : Nat → GV → S → Res S} (hb : ∀ n g s s', body n g s = .ok s' → s'.mem.length = s.mem.length) :
    ∀ (l : List GV) (n : Nat) {s s' : S}, loop body n l s = .ok s' → s'.mem.length = s.mem.length
  | [], _, _, _, h => by cases h; rfl
  | g :: l, n, s, s', h => by
    obtain ⟨a, h1, h2⟩ := bind_inv h
    rw [loop_mem hb l (n + 1) h2, hb _ _ _ _ h1]

theorem code_mem {call : Call} (hc : KeepsLength call) : ∀ (c : Code) {s s' : S}, c.exec call s = .ok s' → s'.mem.length = s.mem.length := by
  intro c
  induction c with
  | done => intro s s' h; cases h; rfl
  | atom a k ih =>
    intro s s' h
    obtain ⟨_, h1, h2⟩ := bind_inv h
    rw [ih h2, atom_mem hc h1]
  | cond c b k ihb ihk =>
    intro s s' h
    obtain ⟨t, _, h⟩ := bind_inv h
    obtain ⟨s1, h1, h2⟩ := bind_inv h
    rw [ihk h2]
    split at h1
    · obtain ⟨_, h1', rfl⟩ := map_inv h1
      exact (ihb h1' :)
    · cases h1; rfl
  | switch e b1 b2 b3 c1 c2 c3 c4 k i1 i2 i3 i4 ik =>
    intro s s' h
    obtain ⟨n, _, h⟩ := bind_inv h
    obtain ⟨s1, h1, h2⟩ := bind_inv h
    rw [ik h2]
    split at h1
    · obtain ⟨_, h1', rfl⟩ := map_inv h1; exact (i1 h1' :)
    · split at h1
      · obtain ⟨_, h1', rfl⟩ := map_inv h1; exact (i2 h1' :)
      · split at h1
        · obtain ⟨_, h1', rfl⟩ := map_inv h1; exact (i3 h1' :)
        · obtain ⟨_, h1', rfl⟩ := map_inv h1; exact (i4 h1' :)
  | each v e b k ihb ihk =>
    intro s s' h
    obtain ⟨g, _, h⟩ := bind_inv h
    obtain ⟨l, _, h⟩ := bind_inv h
    obtain ⟨s1, h1, h2⟩ := bind_inv h
    rw [ihk h2]
    exact loop_mem (fun n g s s' h => by obtain ⟨_, h', rfl⟩ := map_inv h; exact (ihb h' :)) _ _ h1
  | items e b k ihb ihk =>
    intro s s' h
    obtain ⟨g, _, h⟩ := bind_inv h
    obtain ⟨l, _, h⟩ := bind_inv h
    obtain ⟨s1, h1, h2⟩ := bind_inv h
    rw [ihk h2]
    exact loop_mem (fun n g s s' h => by obtain ⟨_, h', rfl⟩ := map_inv h; exact (ihb h' :)) _ _ h1
  | times v b k ihb ihk =>
    intro s s' h
    simp only [Code.exec] at h
    split at h
    · obtain ⟨s1, h1, h2⟩ := bind_inv h
      rw [ihk h2]
      exact loop_mem (fun n g s s' h => by obtain ⟨_, h', rfl⟩ := map_inv h; exact (ihb h' :)) _ _ h1
    · cases h
  | block b k ihb ihk =>
    intro s s' h
    obtain ⟨s1, h1, h2⟩ := bind_inv h
    rw [ihk h2]
    obtain ⟨_, h1', rfl⟩ := map_inv h1
    exact (ihb h1' :)

theorem callOf_keepsLength (ms : List TModel) : ∀ fuel, KeepsLength (callOf ms fuel)
  | 0 => fun _ _ _ _ _ _ _ _ h => by cases h
  | fuel + 1 => fun t i g p off cells mem r h => by
    simp only [callOf] at h
    split at h
    · cases h
    · obtain ⟨s, h', rfl⟩ := map_inv h
      exact code_mem (callOf_keepsLength ms fuel) _ h'

/-! ## The wire -/

/-- an entry of the wire is as it was, or a buffer of the caller -/
def KeptRef (r r0 : Ref) : Prop := r = r0 ∨ ∃ b, r = .given b

/-- the wire has the entries `w0`, but for buffers of the caller, the first one as it was, and the blocks have the lengths `L` -/
structure Inv (w0 : List Ref) (L : List Nat) (ns : NS) : Prop where
  wire : List.Forall₂ KeptRef ns.wire w0
  head : ns.wire.head? = w0.head?
  lens : ns.blocks.map List.length = L
  mem : ns.s.mem = ns.buf.mem ns.blocks

/-- no buffer is put into the first entry; `b` tells whether `wireIdx` is known not to be 0 -/
def NCode.tame : Bool → NCode → Bool
  | _, .done => true
  | b, .plain _ k => k.tame b
  | b, .atom a k =>
    match a with
    | .nextIdx => k.tame true
    | .startIdx => false
    | .putW => b && k.tame b
    | _ => k.tame b
  | b, .cond _ c k => c.tame b && k.tame b
  | b, .range _ _ c k => c.tame b && k.tame b

theorem set_lens (blocks : List Bytes) (k : Nat) (b : Bytes) (h : b.length = ((blocks[k]?).getD []).length) :
    (blocks.set k b).map List.length = blocks.map List.length := by
  rw [List.map_set]
  by_cases hk : k < blocks.length
  · simp only [List.getElem?_eq_getElem hk, Option.getD_some] at h
    rw [h]
    apply List.ext_getElem?
    intro i
    by_cases hi : i = k
    · subst hi
      simp [hk]
    · rw [List.getElem?_set_ne (Ne.symm hi)]
  · rw [List.set_eq_of_length_le (by simpa using hk)]

theorem Inv.through {w0 : List Ref} {L : List Nat} {ns ns' : NS} (h : Inv w0 L ns) {s : S} (hl : s.mem.length = ns.s.mem.length) (he : ns.through s = .ok ns') :
    Inv w0 L ns' ∧ ns'.idx = ns.idx := by
  unfold NS.through at he
  split at he
  · rename_i k hk
    cases he
    have hm := h.mem
    rw [hk] at hm
    simp only [Ref.mem] at hm
    refine ⟨⟨h.wire, h.head, ?_, ?_⟩, rfl⟩
    · show (ns.blocks.set k s.mem).map List.length = L
      rw [set_lens _ _ _ (by rw [hl, hm])]
      exact h.lens
    · show s.mem = ns.buf.mem (ns.blocks.set k s.mem)
      rw [hk]
      simp only [Ref.mem]
      by_cases hk' : k < ns.blocks.length
      · simp [hk']
      · rw [List.set_eq_of_length_le (by omega)]
        rw [List.getElem?_eq_none (by omega)] at hm ⊢
        rw [hm] at hl
        exact List.length_eq_zero_iff.1 hl
  · split at he
    · rename_i hm
      cases he
      exact ⟨⟨h.wire, h.head, h.lens, hm.trans h.mem⟩, rfl⟩
    · cases he

theorem Inv.setBuf {w0 : List Ref} {L : List Nat} {ns : NS} (h : Inv w0 L ns) (r : Ref) : Inv w0 L (ns.setBuf r) := ⟨h.wire, h.head, h.lens, rfl⟩

theorem forall₂_set {w w0 : List Ref} (h : List.Forall₂ KeptRef w w0) (i : Nat) (b : Bytes) : List.Forall₂ KeptRef (w.set i (.given b)) w0 := by
  induction h generalizing i with
  | nil => exact .nil
  | cons hr _ ih =>
    cases i with
    | zero => exact .cons (.inr ⟨b, rfl⟩) ‹_›
    | succ i => exact .cons hr (ih i)

theorem natom_inv {w0 : List Ref} {L : List Nat} {a : NAtom} {ns ns' : NS} (h : Inv w0 L ns) (hs : a ≠ .startIdx) (hp : a = .putW → 0 < ns.idx)
    (he : a.exec ns = .ok ns') : Inv w0 L ns' ∧ ns.idx ≤ ns'.idx ∧ (a = .nextIdx → 0 < ns'.idx) := by
  cases a <;> simp only [NAtom.exec] at he
  case makePlan => cases he; exact ⟨⟨h.wire, h.head, h.lens, h.mem⟩, Nat.le_refl _, by simp⟩
  case pushPlan => split at he <;> cases he; exact ⟨⟨h.wire, h.head, h.lens, h.mem⟩, Nat.le_refl _, by simp⟩
  case zeroL => cases he; exact ⟨⟨h.wire, h.head, h.lens, h.mem⟩, Nat.le_refl _, by simp⟩
  case setPlan => cases he; exact ⟨⟨h.wire, h.head, h.lens, h.mem⟩, Nat.le_refl _, by simp⟩
  case startIdx => exact absurd rfl hs
  case startBuf => split at he <;> cases he; exact ⟨h.setBuf _, Nat.le_refl _, by simp⟩
  case nextIdx => cases he; exact ⟨⟨h.wire, h.head, h.lens, h.mem⟩, Nat.le_succ _, fun _ => Nat.succ_pos _⟩
  case zeroPos => cases he; exact ⟨⟨h.wire, h.head, h.lens, h.mem⟩, Nat.le_refl _, by simp⟩
  case nextBuf => split at he <;> cases he <;> exact ⟨h.setBuf _, Nat.le_refl _, by simp⟩
  case putW =>
    split at he
    · split at he
      · cases he
        refine ⟨⟨forall₂_set h.wire _ _, ?_, h.lens, h.mem⟩, Nat.le_refl _, by simp⟩
        obtain ⟨i, hi⟩ : ∃ i, ns.idx = i + 1 := ⟨ns.idx - 1, by have := hp rfl; omega⟩
        rw [← h.head, hi]
        cases ns.wire <;> rfl
      · cases he
    · cases he

theorem nloop_inv {w0 : List Ref} {L : List Nat} {m : Nat} {body : GV → NS → Res NS}
    (hb : ∀ g ns ns', Inv w0 L ns → m ≤ ns.idx → body g ns = .ok ns' → Inv w0 L ns' ∧ ns.idx ≤ ns'.idx) :
    ∀ (l : List GV) {ns ns' : NS}, Inv w0 L ns → m ≤ ns.idx → nloop body l ns = .ok ns' → Inv w0 L ns' ∧ ns.idx ≤ ns'.idx
  | [], _, _, h, _, he => by cases he; exact ⟨h, Nat.le_refl _⟩
  | g :: l, ns, ns', h, hm, he => by
    obtain ⟨n1, h1, h2⟩ := bind_inv he
    obtain ⟨a, b⟩ := hb _ _ _ h hm h1
    obtain ⟨c, d⟩ := nloop_inv hb l a (Nat.le_trans hm b) h2
    exact ⟨c, Nat.le_trans b d⟩

theorem ncode_inv {call : Call} (hc : KeepsLength call) {w0 : List Ref} {L : List Nat} : ∀ (c : NCode) (b : Bool) {ns ns' : NS}, c.tame b = true →
    (b = true → 0 < ns.idx) → Inv w0 L ns → c.exec call ns = .ok ns' → Inv w0 L ns' ∧ ns.idx ≤ ns'.idx := by
  intro c
  induction c with
  | done => intro b ns ns' _ _ h he; cases he; exact ⟨h, Nat.le_refl _⟩
  | plain c k ih =>
    intro b ns ns' ht hb h he
    obtain ⟨n1, h1, h2⟩ := bind_inv he
    obtain ⟨s, h3, h4⟩ := bind_inv h1
    obtain ⟨i1, i2⟩ := h.through (code_mem hc c h3) h4
    obtain ⟨i3, i4⟩ := ih b ht (by rw [i2]; exact hb) i1 h2
    exact ⟨i3, by omega⟩
  | atom a k ih =>
    intro b ns ns' ht hb h he
    obtain ⟨n1, h1, h2⟩ := bind_inv he
    have hs : a ≠ .startIdx := by rintro rfl; simp [NCode.tame] at ht
    have hp : a = .putW → 0 < ns.idx := by rintro rfl; simp only [NCode.tame, Bool.and_eq_true] at ht; exact hb ht.1
    obtain ⟨i1, i2, i3⟩ := natom_inv h hs hp h1
    by_cases hn : a = .nextIdx
    · subst hn
      obtain ⟨i4, i5⟩ := ih true ht (fun _ => i3 rfl) i1 h2
      exact ⟨i4, by omega⟩
    · have ht' : k.tame b = true := by
        clear ih he h1 h2
        cases a <;> first | exact ht | exact absurd rfl hn | exact absurd rfl hs | exact (Bool.and_eq_true _ _ ▸ ht).2
      obtain ⟨i4, i5⟩ := ih b ht' (fun e => by have := hb e; omega) i1 h2
      exact ⟨i4, by omega⟩
  | cond c d k ihd ihk =>
    intro b ns ns' ht hb h he
    simp only [NCode.tame, Bool.and_eq_true] at ht
    obtain ⟨t, _, he⟩ := bind_inv he
    obtain ⟨n1, h1, h2⟩ := bind_inv he
    have : Inv w0 L n1 ∧ ns.idx ≤ n1.idx := by
      split at h1
      · obtain ⟨n2, h1', rfl⟩ := map_inv h1
        obtain ⟨i1, i2⟩ := ihd b ht.1 hb h h1'
        exact ⟨⟨i1.wire, i1.head, i1.lens, i1.mem⟩, i2⟩
      · cases h1; exact ⟨h, Nat.le_refl _⟩
    obtain ⟨i3, i4⟩ := ihk b ht.2 (fun e => by have := hb e; omega) this.1 h2
    exact ⟨i3, by omega⟩
  | range named f d k ihd ihk =>
    intro b ns ns' ht hb h he
    simp only [NCode.tame, Bool.and_eq_true] at ht
    obtain ⟨g, _, he⟩ := bind_inv he
    obtain ⟨l, _, he⟩ := bind_inv he
    obtain ⟨n1, h1, h2⟩ := bind_inv he
    obtain ⟨i1, i2⟩ := nloop_inv (m := ns.idx) (fun g n n' hi hm he => by
      split at he
      · obtain ⟨n2, he', rfl⟩ := map_inv he
        have hi' : Inv w0 L { n with s := { n.s with vars := upd n.s.vars .w g } } := ⟨hi.wire, hi.head, hi.lens, hi.mem⟩
        obtain ⟨j1, j2⟩ := ihd b ht.1 (fun e => by have := hb e; show 0 < n.idx; omega) hi' he'
        exact ⟨⟨j1.wire, j1.head, j1.lens, j1.mem⟩, j2⟩
      · obtain ⟨n2, he', rfl⟩ := map_inv he
        obtain ⟨j1, j2⟩ := ihd b ht.1 (fun e => by have := hb e; omega) hi he'
        exact ⟨⟨j1.wire, j1.head, j1.lens, j1.mem⟩, j2⟩) l h (Nat.le_refl _) h1
    obtain ⟨i3, i4⟩ := ihk b ht.2 (fun e => by have := hb e; omega) i1 h2
    exact ⟨i3, by omega⟩

/-- the same for the statements of `Verif/Codec/EmitSigned.lean` -/
def SCode.tame : SCode → Bool
  | .done => true
  | .plain c k => c.tame false && k.tame
  | .atom _ k => k.tame
  | .cond _ b k => b.tame && k.tame
  | .heads _ _ k => k.tame
  | .last _ _ _ _ k => k.tame

theorem satom_ns {w0 : List Ref} {L : List Nat} {a : SAtom} {ss ss' : SS} (h : Inv w0 L ss.ns) (he : a.exec ss = .ok ss') : Inv w0 L ss'.ns := by
  have hch : ∀ {f φ}, ss.changeName f φ = .ok ss' → Inv w0 L ss'.ns := by
    intro f φ he
    unfold SS.changeName at he
    split at he
    · split at he
      · cases he; exact ⟨h.wire, h.head, h.lens, h.mem⟩
      · cases he
    · cases he
  cases a <;> simp only [SAtom.exec] at he
  case cover => obtain ⟨_, _, rfl⟩ := map_inv he; exact h
  case nameCover => obtain ⟨_, _, rfl⟩ := map_inv he; exact h
  case trim => exact hch he
  case addDigest => split at he <;> [exact hch he; (cases he; exact h)]
  case nameWhole => cases he; split <;> exact h
  all_goals cases he; exact h

theorem scode_inv {call : Call} (hc : KeepsLength call) {w0 : List Ref} {L : List Nat} : ∀ (c : SCode) {ss ss' : SS}, c.tame = true → Inv w0 L ss.ns →
    c.exec call ss = .ok ss' → Inv w0 L ss'.ns := by
  have hcomp : ∀ (b : Code) (g : GV) (s s' : S), withComp call b g s = .ok s' → s'.mem.length = s.mem.length := by
    intro b g s s' h
    obtain ⟨_, h', rfl⟩ := map_inv h
    exact (code_mem hc b h' :)
  intro c
  induction c with
  | done => intro ss ss' _ h he; cases he; exact h
  | plain c k ih =>
    intro ss ss' ht h he
    simp only [SCode.tame, Bool.and_eq_true] at ht
    obtain ⟨s1, h1, h2⟩ := bind_inv he
    obtain ⟨n1, h1', rfl⟩ := map_inv h1
    exact ih ht.2 (ncode_inv hc c false ht.1 (by simp) h h1').1 h2
  | atom a k ih =>
    intro ss ss' ht h he
    obtain ⟨s1, h1, h2⟩ := bind_inv he
    exact ih ht (satom_ns h h1) h2
  | cond c b k ihb ihk =>
    intro ss ss' ht h he
    simp only [SCode.tame, Bool.and_eq_true] at ht
    obtain ⟨t, _, he⟩ := bind_inv he
    obtain ⟨s1, h1, h2⟩ := bind_inv he
    refine ihk ht.2 ?_ h2
    split at h1
    · exact ihb ht.1 h h1
    · cases h1; exact h
  | heads f b k ih =>
    intro ss ss' ht h he
    obtain ⟨g, _, he⟩ := bind_inv he
    obtain ⟨l, _, he⟩ := bind_inv he
    obtain ⟨s1, h1, h2⟩ := bind_inv he
    refine ih ht ?_ h2
    obtain ⟨n1, h1', rfl⟩ := map_inv h1
    obtain ⟨s, h4, h3⟩ := bind_inv h1'
    exact (h.through (loop_mem (fun n g s s' => hcomp b g s s') _ _ h4) h3).1
  | last f a b c k ih =>
    intro ss ss' ht h he
    obtain ⟨g, _, he⟩ := bind_inv he
    obtain ⟨l, _, he⟩ := bind_inv he
    obtain ⟨s1, h1, h2⟩ := bind_inv he
    refine ih ht ?_ h2
    split at h1
    · cases h1; exact h
    · obtain ⟨s2, h3, h1⟩ := bind_inv h1
      obtain ⟨s3, h4, h1⟩ := bind_inv h1
      obtain ⟨n1, h4', rfl⟩ := map_inv h4
      obtain ⟨s, h6, h5⟩ := bind_inv h4'
      exact satom_ns ((satom_ns h h3).through (hcomp _ _ _ _ h6) h5).1 h1

theorem tame_append {c d : SCode} (hc : c.tame = true) (hd : d.tame = true) : (c ++ d).tame = true := by
  induction c with
  | done => exact hd
  | plain c k ih => simp only [SCode.tame, Bool.and_eq_true] at hc; show (_ && (k ++ d).tame) = true; rw [hc.1, ih hc.2]; rfl
  | atom a k ih => exact ih hc
  | cond c b k _ ih => simp only [SCode.tame, Bool.and_eq_true] at hc; show (_ && (k ++ d).tame) = true; rw [hc.1, ih hc.2]; rfl
  | heads f b k ih => exact ih hc
  | last f a b c k ih => exact ih hc

theorem tame_all {g : Field → SCode} (hg : ∀ f, (g f).tame = true) : ∀ l, (allSigned g l).tame = true
  | [] => rfl
  | f :: l => tame_append (hg f) (tame_all hg l)

theorem into_tame (f : Txt) (n : Nat) (c : Cls) : (intoSigned f n c).tame = true := by
  cases c
  case wire nc => cases nc <;> rfl
  all_goals rfl

/-- what `EncodeInto` of the encoder of any model leaves as it is -/
theorem into_inv {call : Call} (hc : KeepsLength call) {fs : List Field} {ss ss' : SS} (hb : ss.ns.buf = .nil) (hm : ss.ns.s.mem = [])
    (he : (intoSignedBody fs).exec call ss = .ok ss') : Inv ss.ns.wire (ss.ns.blocks.map List.length) ss'.ns ∧ ss.ns.wire ≠ [] := by
  unfold intoSignedBody at he
  rw [sexec_append] at he
  obtain ⟨s1, h1, h2⟩ := bind_inv he
  rw [sexec_plain] at h1
  obtain ⟨n1, h1', rfl⟩ := map_inv h1
  rw [nexec_append, nexec_append] at h1'
  obtain ⟨n2, h5, h3⟩ := bind_inv h1'
  obtain ⟨n3, h6, h4⟩ := bind_inv h5
  rw [nexec_of] at h6 h4
  cases h6
  simp only [NAtom.exec] at h4
  have hi : Inv ss.ns.wire (ss.ns.blocks.map List.length) { ss.ns with idx := 0 } :=
    ⟨List.forall₂_same.2 fun r _ => .inl rfl, rfl, rfl, by show ss.ns.s.mem = _; rw [hm]; show [] = ss.ns.buf.mem _; rw [hb]; rfl⟩
  split at h4
  · rename_i r hr
    cases h4
    rw [nexec_plain] at h3
    obtain ⟨s, h7, h8⟩ := bind_inv h3
    have := ((hi.setBuf r).through (code_mem hc _ h7) h8).1
    refine ⟨scode_inv hc _ (tame_all (fun f => into_tame _ _ _) _) this h2, ?_⟩
    intro e
    rw [e] at hr
    cases hr
  · cases h4

end Ndn.Codec.Gen
