import Verif.Codec.RunPacket

/-! # Lemmas: the loop of the parser of `Packet` -/

namespace Ndn.Codec.Gen

/-- the fields of Packet -/
abbrev packetParts : List Field :=
  [⟨t!"Interest", 0x05, .struct t!"Interest" true⟩, ⟨t!"Data", 0x06, .struct t!"Data" true⟩, ⟨t!"LpPacket", 0x64, .struct t!"LpPacket" true⟩]

section
variable {σ : Type} (ic : Bool) (fuel : Nat) (zero : List (Txt × GV)) (call : Txt → Txt → σ → BR → Called × σ)

theorem xround_end (fs : List Field) (s : PS) (c : σ) (h : s.rd.pos ≥ s.rd.buf.length) :
    (roundCode fs).runX ic fuel zero call s c = .brk { s with startPos := s.rd.pos } c := by
  simp only [roundCode, P.all, P.runX, XOut.bind, XOut.lift, P.exec, if_pos h]

theorem xround_err1 (fs : List Field) (s : PS) (c : σ) (h : ¬ s.rd.pos ≥ s.rd.buf.length) {k : Nat} {e : Err} {r1 : BR} (h1 : tlBoth s.rd = (k, some e, r1)) :
    (roundCode fs).runX ic fuel zero call s c = .ret .nil (some (.failToParse 0 e)) c := by
  simp only [roundCode, P.all, tlvNumberDecode, P.runX, XOut.bind, XOut.lift, P.exec, if_neg h, h1, Option.isSome_some, if_true, Option.map_some]

theorem xround_err2 (fs : List Field) (s : PS) (c : σ) (h : ¬ s.rd.pos ≥ s.rd.buf.length) {typ k : Nat} {e : Err} {r1 r2 : BR} (h1 : tlBoth s.rd = (typ, none, r1))
    (h2 : tlBoth r1 = (k, some e, r2)) : (roundCode fs).runX ic fuel zero call s c = .ret .nil (some (.failToParse 0 e)) c := by
  simp only [roundCode, P.all, tlvNumberDecode, P.runX, XOut.bind, XOut.lift, P.exec, if_neg h, h1, h2, Option.isSome_some, Option.isSome_none, Bool.false_eq_true, if_false, if_true,
    Option.map_some]

/-- the variables after type and length are read -/
abbrev afterTL (s : PS) (typ l : Nat) (r2 : BR) : PS := { s with startPos := s.rd.pos, typ := typ, l := l, err := none, rd := r2, handled := false }

theorem xround_scope (fs : List Field) (s : PS) (c : σ) (h : ¬ s.rd.pos ≥ s.rd.buf.length) {typ l : Nat} {r1 r2 : BR} (h1 : tlBoth s.rd = (typ, none, r1))
    (h2 : tlBoth r1 = (l, none, r2)) : (roundCode fs).runX ic fuel zero call s c =
      ((P.switch (casesCode fs)).runX ic fuel zero call (afterTL s typ l r2) c).bind
        ((P.seq (.ifUnhandled .skip) (.ifErr .retFail)).runX ic fuel zero call) := by
  simp only [roundCode, P.all, tlvNumberDecode]
  generalize P.switch (casesCode fs) = sw
  generalize hb : P.seq (.ifUnhandled .skip) (.ifErr .retFail) = tl
  simp only [P.runX, XOut.bind, XOut.lift, P.exec, if_neg h, h1, h2, Option.isSome_none, Bool.false_eq_true, if_false]

theorem tail_run (s : PS) (c : σ) (hh : s.handled = true) : (P.seq (.ifUnhandled .skip) (.ifErr .retFail)).runX ic fuel zero call s c =
    if s.err.isSome then .ret .nil (s.err.map (.failToParse s.typ)) c else .next s c := by
  simp only [P.runX, XOut.bind, XOut.lift, P.exec, hh, Bool.not_true, Bool.and_false, Bool.false_eq_true, if_false]
  by_cases h : s.err.isSome = true
  · simp only [if_pos h]
  · simp only [if_neg h]

theorem case_run (n : Nat) (b rest : P) (s : PS) (c : σ) :
    (P.case n b rest).runX ic fuel zero call s c = if s.typ = n then b.runX ic fuel zero call s c else rest.runX ic fuel zero call s c := by rw [P.runX]

/-- the code for an element of a struct field -/
abbrev onStruct (f : Txt) : P := .always (P.all [.handled, .handledF f, .parse f f])

theorem packet_cases : casesCode packetParts = .case 5 (onStruct t!"Interest") (.case 6 (onStruct t!"Data") (.case 100 (onStruct t!"LpPacket") (casesCode []))) := by
  simp [casesCode, readCode]

/-- a field of a struct -/
theorem struct_step (s : PS) (c : σ) (f t : Txt) {sub rd : BR} (hd : BR.delegate (toInt s.l) s.rd = (.ok sub, rd)) :
    ((P.always (P.all [.handled, .handledF f, .parse f t])).runX ic fuel zero call s c) =
      match call f t c sub with
      | (.ret g e, c') => .next (({ s with handled := true, handledF := fun g => if g = f then true else s.handledF g, err := e, rd := rd } : PS).put f g) c'
      | (.panic, _) => .panic
      | (.stuck, _) => .stuck := by
  simp only [P.all, P.runX, XOut.bind, XOut.lift, P.exec, hd]
  rcases call f t c sub with ⟨_ | _ | _, c'⟩ <;> rfl

theorem struct_panic (s : PS) (c : σ) (f t : Txt) {rd : BR} (hd : BR.delegate (toInt s.l) s.rd = (.panic, rd)) :
    ((P.always (P.all [.handled, .handledF f, .parse f t])).runX ic fuel zero call s c) = .panic := by
  simp only [P.all, P.runX, XOut.bind, XOut.lift, P.exec, hd]

theorem default_run (s : PS) (c : σ) : (casesCode []).runX ic fuel zero call s c =
    if (!ic && isCritical s.typ) = true then .ret .nil (some (.unrecognized s.typ)) c else
      match BR.skip (toInt s.l) s.rd with
      | (.panic, _) => .panic
      | (r, rd) => .next { s with handled := true, err := Res.asErr r, rd := rd } c := by
  have hc : (!ic && (decide (s.typ ≤ 31) || s.typ % 2 == 1)) = (!ic && isCritical s.typ) := rfl
  simp only [casesCode, P.all, P.runX, P.exec, hc]
  by_cases h : (!ic && isCritical s.typ) = true
  · rw [if_pos h, if_pos h]; rfl
  · rw [if_neg h, if_neg h]
    simp only [Out.bind]
    rcases BR.skip (toInt s.l) s.rd with ⟨_ | _ | _, _⟩ <;> rfl

end

/-- what the loop keeps: the reader is in its buffer, the members stand for the state, and members that are not handled are nil -/
def PacketInv (ms : List TModel) (s : PS) (c : PacketCtx) (st : Packet.PacketSt) : Prop :=
  s.rd.Good ∧ PacketStands ms st s.kvs c ∧ (s.handledF t!"Interest" = false → st.interest = none) ∧ (s.handledF t!"Data" = false → st.data = none) ∧
    (s.handledF t!"LpPacket" = false → st.lp = none)

/-- the outcome of a round after type and length -/
def StepEnd (ms : List TModel) (typ : Nat) (o : XOut PacketCtx) : PR Packet.PacketSt → Prop
  | none => o = .stuck
  | some (.panic, _) => o = .panic
  | some (.err e, _) => ∃ c, o = .ret .nil (some (.failToParse typ e)) c
  | some (.ok st, r) => ∃ s c, o = .next s c ∧ s.rd = r ∧ PacketInv ms s c st

/-- the parsers of the models inside do as the hand-written ones -/
structure PacketInner (ms : List TModel) (ic : Bool) (fuel depth : Nat) (int data : TModel) : Prop where
  int_find : (ms.find? fun m => m.name == t!"Interest") = some int
  data_find : (ms.find? fun m => m.name == t!"Data") = some data
  lp_find : ∃ m, (ms.find? fun m => m.name == t!"LpPacket") = some m
  int_run : ∀ (ctx : Packet.InterestCtx) (c : CState) (r : BR), r.Good →
      c.wires t!"sigCovered" = ctx.sigCovered → c.wires t!"digestCovered" = ctx.digestCovered → c.ints t!"sigCoverStart" = ctx.sigCoverStart →
      c.ints t!"digestCoverStart" = ctx.digestCoverStart →
      ∃ x, runOrdered ms ic fuel depth int c r = some x ∧ RelPR (InterestStands ms) (Packet.parseInterest ic fuel ctx r) x
  data_run : ∀ (ctx : Packet.DataCtx) (c : CState) (r : BR), r.Good →
      c.wires t!"sigCovered" = ctx.sigCovered → c.ints t!"sigCoverStart" = ctx.sigCoverStart →
      ∃ x, runOrdered ms ic fuel depth data c r = some x ∧ RelPR (DataStands ms) (Packet.parseData ic fuel ctx r) x
  lp_run : ∀ r : BR, r.Good → Answers ms t!"LpPacket" Schema.lpPacket (parseOf ms ic fuel depth t!"LpPacket" (some r)) (Schema.lpPacket.parse ic fuel r)
  lp_named : ∀ m, (ms.find? fun m => m.name == t!"LpPacket") = some m → Named m.fields

section
variable {ms : List TModel} {ic : Bool} {fuel depth : Nat} {int data : TModel} (zero : List (Txt × GV))

/-- the rest of a round after the element -/
abbrev roundRest (zero : List (Txt × GV)) (ms : List TModel) (ic : Bool) (fuel depth : Nat) (s : PS) (c : PacketCtx) : XOut PacketCtx :=
  ((P.switch (casesCode packetParts)).runX ic fuel zero (packetCall ms ic fuel depth) s c).bind
    ((P.seq (.ifUnhandled .skip) (.ifErr .retFail)).runX ic fuel zero (packetCall ms ic fuel depth))

theorem roundRest_field {s : PS} {c : PacketCtx} {f : Txt} (hsel : (casesCode packetParts).runX ic fuel zero (packetCall ms ic fuel depth) s c =
      (P.always (P.all [.handled, .handledF f, .parse f f])).runX ic fuel zero (packetCall ms ic fuel depth) s c) :
    (∀ rd, BR.delegate (toInt s.l) s.rd = (.panic, rd) → roundRest zero ms ic fuel depth s c = .panic) ∧
    (∀ sub rd, BR.delegate (toInt s.l) s.rd = (.ok sub, rd) →
      (∀ c', packetCall ms ic fuel depth f f c sub = (.panic, c') → roundRest zero ms ic fuel depth s c = .panic) ∧
      (∀ c', packetCall ms ic fuel depth f f c sub = (.stuck, c') → roundRest zero ms ic fuel depth s c = .stuck) ∧
      (∀ c' g e, packetCall ms ic fuel depth f f c sub = (.ret g (some e), c') → roundRest zero ms ic fuel depth s c = .ret .nil (some (.failToParse s.typ e)) c') ∧
      (∀ c' g, packetCall ms ic fuel depth f f c sub = (.ret g none, c') → roundRest zero ms ic fuel depth s c =
        .next (({ s with handled := true, handledF := fun g => if g = f then true else s.handledF g, err := none, rd := rd } : PS).put f g) c')) := by
  have e1 : roundRest zero ms ic fuel depth s c = ((P.always (P.all [.handled, .handledF f, .parse f f])).runX ic fuel zero (packetCall ms ic fuel depth) s c).unbrk.bind
      ((P.seq (.ifUnhandled .skip) (.ifErr .retFail)).runX ic fuel zero (packetCall ms ic fuel depth)) := by
    rw [← hsel, roundRest, P.runX]
  refine ⟨fun rd hd => ?_, fun sub rd hd => ⟨fun c' h => ?_, fun c' h => ?_, fun c' g e h => ?_, fun c' g h => ?_⟩⟩
  · rw [e1, struct_panic _ _ _ _ _ _ _ _ hd]; rfl
  · rw [e1, struct_step _ _ _ _ _ _ _ _ hd, h]; rfl
  · rw [e1, struct_step _ _ _ _ _ _ _ _ hd, h]; rfl
  · rw [e1, struct_step _ _ _ _ _ _ _ _ hd, h]
    simp only [XOut.unbrk, XOut.bind]
    rw [tail_run _ _ _ _ _ _ rfl]
    simp only [PS.put, Option.isSome_some, if_true, Option.map_some]
  · rw [e1, struct_step _ _ _ _ _ _ _ _ hd, h]
    simp only [XOut.unbrk, XOut.bind]
    rw [tail_run _ _ _ _ _ _ rfl]
    simp only [PS.put, Option.isSome_none, Bool.false_eq_true, if_false]

/-- an Interest -/
theorem step_interest (H : PacketInner ms ic fuel depth int data) {s : PS} {c : PacketCtx} {st : Packet.PacketSt} (ht : s.typ = 5) (hi : PacketInv ms s c st) :
    StepEnd ms 5 (roundRest zero ms ic fuel depth s c) (Packet.packetRead ic fuel 5 s.l st s.rd) := by
  obtain ⟨hg, ⟨m1, m2, m3, w1, w2, w3, w4, w5, w6⟩, n1, n2, n3⟩ := hi
  have hsel : (casesCode packetParts).runX ic fuel zero (packetCall ms ic fuel depth) s c =
      (P.always (P.all [.handled, .handledF t!"Interest", .parse t!"Interest" t!"Interest"])).runX ic fuel zero (packetCall ms ic fuel depth) s c := by
    rw [packet_cases, case_run, if_pos ht]
  obtain ⟨q1, q2⟩ := roundRest_field zero hsel
  rcases delegate_cases (l := toInt s.l) hg with ⟨sub, r', hd, hs, hg'⟩ | ⟨r', hd⟩
  · obtain ⟨a1, a2, a3, a4⟩ := q2 _ _ hd
    obtain ⟨x, hx, hrel⟩ := H.int_run st.ictx ⟨[], c.iints, c.iwires⟩ sub hs w1 w2 w3 w4
    have hcall : packetCall ms ic fuel depth t!"Interest" t!"Interest" c sub =
        orderedCall (some x) c fun v => { c with iints := v.ints, iwires := v.wires } := by
      simp only [packetCall, H.int_find, hx]; rfl
    simp only [Packet.packetRead, hd, if_true]
    revert hrel
    rcases Packet.parseInterest ic fuel st.ictx sub with _ | ⟨⟨v, ctx⟩ | e | _, r1⟩ <;> rcases x with _ | ⟨c1 | e' | _, r2⟩ <;> simp only [RelPR, false_implies] <;> intro hrel
    · exact a2 _ hcall
    · obtain ⟨-, -, hR⟩ := hrel
      have hR' := hR
      obtain ⟨-, -, -, -, -, -, -, -, -, -, u1, u2, u3, u4⟩ := hR'
      refine ⟨_, _, a4 _ _ hcall, rfl, hg', ⟨.same ⟨c1.kvs, c1.ints, c1.wires, ctx, rfl, hR⟩, .other (by decide) m2, .other (by decide) m3, u1, u2, u3, u4, w5, w6⟩, ?_, ?_, ?_⟩
      · intro hh; simp [PS.put] at hh
      · intro hh; exact n2 (by simpa [PS.put] using hh)
      · intro hh; exact n3 (by simpa [PS.put] using hh)
    · subst hrel
      have := a3 _ _ _ hcall
      rw [ht] at this
      exact ⟨_, this⟩
    · exact a1 _ hcall
  · simp only [Packet.packetRead, hd]
    exact q1 _ hd

/-- a Data -/
theorem step_data (H : PacketInner ms ic fuel depth int data) {s : PS} {c : PacketCtx} {st : Packet.PacketSt} (ht : s.typ = 6) (hi : PacketInv ms s c st) :
    StepEnd ms 6 (roundRest zero ms ic fuel depth s c) (Packet.packetRead ic fuel 6 s.l st s.rd) := by
  obtain ⟨hg, ⟨m1, m2, m3, w1, w2, w3, w4, w5, w6⟩, n1, n2, n3⟩ := hi
  have hsel : (casesCode packetParts).runX ic fuel zero (packetCall ms ic fuel depth) s c =
      (P.always (P.all [.handled, .handledF t!"Data", .parse t!"Data" t!"Data"])).runX ic fuel zero (packetCall ms ic fuel depth) s c := by
    rw [packet_cases, case_run, if_neg (by omega), case_run, if_pos ht]
  obtain ⟨q1, q2⟩ := roundRest_field zero hsel
  rcases delegate_cases (l := toInt s.l) hg with ⟨sub, r', hd, hs, hg'⟩ | ⟨r', hd⟩
  · obtain ⟨a1, a2, a3, a4⟩ := q2 _ _ hd
    obtain ⟨x, hx, hrel⟩ := H.data_run st.dctx ⟨[], c.dints, c.dwires⟩ sub hs w5 w6
    have hcall : packetCall ms ic fuel depth t!"Data" t!"Data" c sub =
        orderedCall (some x) c fun v => { c with dints := v.ints, dwires := v.wires } := by
      simp only [packetCall, H.data_find, hx]; rfl
    simp only [Packet.packetRead, hd, if_true, show ¬ (6 = 5) by decide, if_false]
    revert hrel
    rcases Packet.parseData ic fuel st.dctx sub with _ | ⟨⟨v, ctx⟩ | e | _, r1⟩ <;> rcases x with _ | ⟨c1 | e' | _, r2⟩ <;> simp only [RelPR, false_implies] <;> intro hrel
    · exact a2 _ hcall
    · obtain ⟨-, -, hR⟩ := hrel
      have hR' := hR
      obtain ⟨-, -, -, -, -, u1, u2⟩ := hR'
      refine ⟨_, _, a4 _ _ hcall, rfl, hg', ⟨.other (by decide) m1, .same ⟨c1.kvs, c1.ints, c1.wires, ctx, rfl, hR⟩, .other (by decide) m3, w1, w2, w3, w4, u1, u2⟩, ?_, ?_, ?_⟩
      · intro hh; exact n1 (by simpa [PS.put] using hh)
      · intro hh; simp [PS.put] at hh
      · intro hh; exact n3 (by simpa [PS.put] using hh)
    · subst hrel
      have := a3 _ _ _ hcall
      rw [ht] at this
      exact ⟨_, this⟩
    · exact a1 _ hcall
  · simp only [Packet.packetRead, hd]
    exact q1 _ hd

/-- an LpPacket -/
theorem step_lp (H : PacketInner ms ic fuel depth int data) {s : PS} {c : PacketCtx} {st : Packet.PacketSt} (ht : s.typ = 100) (hi : PacketInv ms s c st) :
    StepEnd ms 100 (roundRest zero ms ic fuel depth s c) (Packet.packetRead ic fuel 100 s.l st s.rd) := by
  obtain ⟨hg, ⟨m1, m2, m3, w⟩, n1, n2, n3⟩ := hi
  have hsel : (casesCode packetParts).runX ic fuel zero (packetCall ms ic fuel depth) s c =
      (P.always (P.all [.handled, .handledF t!"LpPacket", .parse t!"LpPacket" t!"LpPacket"])).runX ic fuel zero (packetCall ms ic fuel depth) s c := by
    rw [packet_cases, case_run, if_neg (by omega), case_run, if_neg (by omega), case_run, if_pos ht]
  obtain ⟨q1, q2⟩ := roundRest_field zero hsel
  rcases delegate_cases (l := toInt s.l) hg with ⟨sub, r', hd, hs, hg'⟩ | ⟨r', hd⟩
  · obtain ⟨a1, a2, a3, a4⟩ := q2 _ _ hd
    have hans := H.lp_run sub hs
    obtain ⟨m, hm⟩ := H.lp_find
    have hcall : packetCall ms ic fuel depth t!"LpPacket" t!"LpPacket" c sub = (parseOf ms ic fuel depth t!"LpPacket" (some sub), c) := by
      simp only [packetCall, hm]; rfl
    simp only [Packet.packetRead, hd, show ¬ (100 = 5) by decide, show ¬ (100 = 6) by decide, if_false]
    revert hans
    rcases Schema.lpPacket.parse ic fuel sub with _ | ⟨v | e | _, r1⟩ <;> intro hans
    · have hans' : parseOf ms ic fuel depth t!"LpPacket" (some sub) = .stuck := hans
      rw [hans'] at hcall
      exact a2 _ hcall
    · obtain ⟨g, hans', hst⟩ := hans
      rw [hans'] at hcall
      obtain ⟨m', kvs, hm', rfl, hall⟩ := hst
      refine ⟨_, _, a4 _ _ hcall, rfl, hg', ⟨.other (by decide) m1, .other (by decide) m2,
        .same ⟨t!"LpPacket", true, m', kvs, rfl, hm', H.lp_named m' hm', rfl, hall⟩, w⟩, ?_, ?_, ?_⟩
      · intro hh; exact n1 (by simpa [PS.put] using hh)
      · intro hh; exact n2 (by simpa [PS.put] using hh)
      · intro hh; simp [PS.put] at hh
    · have hans' : parseOf ms ic fuel depth t!"LpPacket" (some sub) = .ret .nil (some e) := hans
      rw [hans'] at hcall
      have := a3 _ _ _ hcall
      rw [ht] at this
      exact ⟨_, this⟩
    · have hans' : parseOf ms ic fuel depth t!"LpPacket" (some sub) = .panic := hans
      rw [hans'] at hcall
      exact a1 _ hcall
  · simp only [Packet.packetRead, hd]
    exact q1 _ hd

/-- an element of another type -/
theorem step_other {s : PS} {c : PacketCtx} {st : Packet.PacketSt} (ht : Packet.packetTypes.contains s.typ = false) (hi : PacketInv ms s c st) :
    if (!ic && isCritical s.typ) = true then roundRest zero ms ic fuel depth s c = .ret .nil (some (.unrecognized s.typ)) c else
      StepEnd ms s.typ (roundRest zero ms ic fuel depth s c) (some ((BR.skip (toInt s.l) s.rd).1.map fun _ => st, (BR.skip (toInt s.l) s.rd).2)) := by
  have h5 : s.typ ≠ 5 ∧ s.typ ≠ 6 ∧ s.typ ≠ 100 := by
    simp only [Packet.packetTypes] at ht
    refine ⟨?_, ?_, ?_⟩ <;> intro h <;> rw [h] at ht <;> simp at ht
  have hsel : roundRest zero ms ic fuel depth s c = ((casesCode []).runX ic fuel zero (packetCall ms ic fuel depth) s c).unbrk.bind
      ((P.seq (.ifUnhandled .skip) (.ifErr .retFail)).runX ic fuel zero (packetCall ms ic fuel depth)) := by
    rw [roundRest, P.runX, packet_cases, case_run, if_neg h5.1, case_run, if_neg h5.2.1, case_run, if_neg h5.2.2]
  rw [hsel, default_run]
  by_cases h : (!ic && isCritical s.typ) = true
  · rw [if_pos h, if_pos h]; rfl
  · rw [if_neg h, if_neg h]
    obtain ⟨hg, hrest⟩ := hi
    rcases skip_cases (l := toInt s.l) hg with ⟨r', h1, hg'⟩ | ⟨e, r', h1⟩
    · rw [h1]
      simp only [XOut.unbrk, XOut.bind]
      rw [tail_run _ _ _ _ _ _ rfl]
      exact ⟨_, _, rfl, rfl, hg', hrest⟩
    · rw [h1]
      simp only [XOut.unbrk, XOut.bind]
      rw [tail_run _ _ _ _ _ _ rfl]
      exact ⟨_, rfl⟩

/-- the outcome of the loop -/
def LoopEnd (ms : List TModel) (o : XOut PacketCtx) : PR Packet.PacketSt → Prop
  | none => o = .stuck
  | some (.panic, _) => o = .panic
  | some (.err e, _) => ∃ c, o = .ret .nil (some e) c
  | some (.ok st, _) => ∃ s c, o = .next s c ∧ PacketInv ms s c st

theorem packet_loop (H : PacketInner ms ic fuel depth int data) : ∀ (n : Nat) (s : PS) (c : PacketCtx) (st : Packet.PacketSt), PacketInv ms s c st →
    LoopEnd ms (xRounds ((roundCode packetParts).runX ic fuel zero (packetCall ms ic fuel depth)) n s c)
      (parseLoop ic (fun t => Packet.packetTypes.contains t) (Packet.packetRead ic fuel) n st s.rd)
  | 0, _, _, _, _ => rfl
  | n + 1, s, c, st, hi => by
    unfold parseLoop xRounds
    by_cases hp : s.rd.pos ≥ s.rd.buf.length
    · rw [if_pos hp, xround_end _ _ _ _ _ _ _ hp]
      exact ⟨_, _, rfl, hi⟩
    · rw [if_neg hp]
      rcases tlBoth_cases s.rd hi.1 with ⟨typ, r1, h1, h1', _, hg1⟩ | ⟨k, e, r1, h1, h1', _⟩
      · rw [h1]
        rcases tlBoth_cases r1 hg1 with ⟨l, r2, h2, h2', _, hg2⟩ | ⟨k, e, r2, h2, h2', _⟩
        · simp only [h2]
          rw [xround_scope _ _ _ _ _ _ _ hp h1' h2', ← roundRest]
          have hi' : PacketInv ms (afterTL s typ l r2) c st := ⟨hg2, hi.2⟩
          by_cases hk : Packet.packetTypes.contains typ = true
          · rw [if_pos hk]
            have hstep : StepEnd ms typ (roundRest zero ms ic fuel depth (afterTL s typ l r2) c) (Packet.packetRead ic fuel typ l st r2) := by
              simp only [Packet.packetTypes, List.contains_iff_mem, List.mem_cons, List.not_mem_nil, or_false] at hk
              rcases hk with rfl | rfl | rfl
              · exact step_interest zero H rfl hi'
              · exact step_data zero H rfl hi'
              · exact step_lp zero H rfl hi'
            revert hstep
            rcases Packet.packetRead ic fuel typ l st r2 with _ | ⟨st' | e | _, r3⟩ <;> intro hstep
            · have h : roundRest zero ms ic fuel depth (afterTL s typ l r2) c = .stuck := hstep
              rw [h]; rfl
            · obtain ⟨s', c', h, rfl, hinv⟩ := hstep
              rw [h]
              exact packet_loop H n s' c' st' hinv
            · obtain ⟨c', h⟩ := hstep
              rw [h]
              exact ⟨c', rfl⟩
            · have h : roundRest zero ms ic fuel depth (afterTL s typ l r2) c = .panic := hstep
              rw [h]; rfl
          · rw [if_neg hk]
            have hstep := step_other zero (depth := depth) (fuel := fuel) (ic := ic) (Bool.eq_false_iff.2 hk) hi'
            by_cases hc : (!ic && isCritical typ) = true
            · rw [if_pos hc] at hstep ⊢
              rw [hstep]
              exact ⟨_, rfl⟩
            · rw [if_neg hc] at hstep ⊢
              have e1 : (afterTL s typ l r2).l = l := rfl
              have e2 : (afterTL s typ l r2).rd = r2 := rfl
              rw [e1, e2] at hstep
              revert hstep
              rcases BR.skip (toInt l) r2 with ⟨u | e | _, r3⟩ <;> intro hstep
              · obtain ⟨s', c', h, rfl, hinv⟩ := hstep
                rw [h]
                exact packet_loop H n s' c' st hinv
              · obtain ⟨c', h⟩ := hstep
                rw [h]
                exact ⟨c', rfl⟩
              · have h : roundRest zero ms ic fuel depth (afterTL s typ l r2) c = .panic := hstep
                rw [h]; rfl
        · simp only [h2]
          rw [xround_err2 _ _ _ _ _ _ _ hp h1' h2']
          exact ⟨_, rfl⟩
      · rw [h1, xround_err1 _ _ _ _ _ _ _ hp h1']
        exact ⟨_, rfl⟩

/-- `if !handled_f && err == nil { value.f = nil }` -/
theorem finish_one {σ : Type} (call : Txt → Txt → σ → BR → Called × σ) (s : PS) (c : σ) (f : Txt) (he : s.err = none) :
    (P.ifUnhandledF f (.setNil f)).runX ic fuel zero call s c = .next (if s.handledF f then s else s.put f .nil) c := by
  simp only [P.runX, P.exec, he, Option.isNone_none, Bool.and_true]
  cases s.handledF f <;> rfl

theorem packet_finish {s : PS} {c : PacketCtx} {st : Packet.PacketSt} (he : s.err = none) (hi : PacketInv ms s c st) :
    ∃ s', (finishCode packetParts).runX ic fuel zero (packetCall ms ic fuel depth) s c = .next s' c ∧ s'.err = none ∧ PacketStands ms st s'.kvs c := by
  obtain ⟨hg, ⟨m1, m2, m3, w⟩, n1, n2, n3⟩ := hi
  have e1 : finishCode packetParts = .seq (.ifUnhandledF t!"Interest" (.setNil t!"Interest")) (.seq (.ifUnhandledF t!"Data" (.setNil t!"Data"))
      (.seq (.ifUnhandledF t!"LpPacket" (.setNil t!"LpPacket")) .skip)) := rfl
  have hseq : ∀ (a b : P) (s : PS), (P.seq a b).runX ic fuel zero (packetCall ms ic fuel depth) s c =
      (a.runX ic fuel zero (packetCall ms ic fuel depth) s c).bind (b.runX ic fuel zero (packetCall ms ic fuel depth)) := fun a b s => by rw [P.runX]
  have hone : ∀ (s : PS) (f : Txt), s.err = none → (if s.handledF f then s else s.put f .nil).err = none ∧ (if s.handledF f then s else s.put f .nil).handledF = s.handledF := by
    intro s f h; cases s.handledF f <;> exact ⟨h, rfl⟩
  have hmem : ∀ (s : PS) (f k : Txt) (Q : GV → Prop), k ≠ f → Member s.kvs k Q → Member (if s.handledF f then s else s.put f .nil).kvs k Q := by
    intro s f k Q hn h; cases s.handledF f
    · exact .other hn h
    · exact h
  have hself : ∀ (s : PS) (f : Txt) (Q : GV → Prop), (s.handledF f = false → Q .nil) → Member s.kvs f Q → Member (if s.handledF f then s else s.put f .nil).kvs f Q := by
    intro s f Q hn h
    cases hh : s.handledF f
    · exact .same (hn hh)
    · exact h
  let s1 := if s.handledF t!"Interest" then s else s.put t!"Interest" .nil
  let s2 := if s1.handledF t!"Data" then s1 else s1.put t!"Data" .nil
  let s3 := if s2.handledF t!"LpPacket" then s2 else s2.put t!"LpPacket" .nil
  have he1 : s1.err = none := (hone s _ he).1
  have he2 : s2.err = none := (hone s1 _ he1).1
  have h1 : s1.handledF = s.handledF := (hone s _ he).2
  have h2 : s2.handledF = s.handledF := (hone s1 _ he1).2.trans h1
  refine ⟨s3, ?_, (hone s2 _ he2).1, ?_, ?_, ?_, w⟩
  · rw [e1, hseq, finish_one zero _ _ _ _ he]
    show ((P.seq _ _).runX ic fuel zero (packetCall ms ic fuel depth) s1 c) = _
    rw [hseq, finish_one zero _ _ _ _ he1]
    show ((P.seq _ _).runX ic fuel zero (packetCall ms ic fuel depth) s2 c) = _
    rw [hseq, finish_one zero _ _ _ _ he2]
    rfl
  · exact hmem _ _ _ _ (by decide) (hmem _ _ _ _ (by decide) (hself _ _ _ (fun hh => by rw [n1 hh]; rfl) m1))
  · exact hmem _ _ _ _ (by decide) (hself _ _ _ (fun hh => by rw [n2 (by rw [← h1]; exact hh)]; rfl) (hmem _ _ _ _ (by decide) m2))
  · exact hself _ _ _ (fun hh => by rw [n3 (by rw [← h2]; exact hh)]; rfl) (hmem _ _ _ _ (by decide) (hmem _ _ _ _ (by decide) m3))

theorem packet_body (H : PacketInner ms ic fuel depth int data) {m : TModel} (hm : m.fields = packetParts) (r : BR) (hr : r.Good) :
    SameEnd ms (runPacket ms ic fuel depth m r) (Packet.parsePacket ic fuel r) := by
  have hseq : ∀ (zero : List (Txt × GV)) (a b : P) (s : PS) (c : PacketCtx), (P.seq a b).runX ic fuel zero (packetCall ms ic fuel depth) s c =
      (a.runX ic fuel zero (packetCall ms ic fuel depth) s c).bind (b.runX ic fuel zero (packetCall ms ic fuel depth)) := fun zero a b s c => by rw [P.runX]
  have hz : (packetParts.map fun f => (f.name, zeroCls f.cls)) = [(t!"Interest", GV.nil), (t!"Data", GV.nil), (t!"LpPacket", GV.nil)] := rfl
  rw [runPacket, hm, hz]
  generalize hzero : [(t!"Interest", GV.nil), (t!"Data", GV.nil), (t!"LpPacket", GV.nil)] = zero
  let s0 : PS := { start (some r) with
    kvs := zero, progress := -1
    handledF := fun g => if g = t!"LpPacket" then false else if g = t!"Data" then false else if g = t!"Interest" then false else true }
  let rest : P := P.all [.setStart, .noErr, finishCode packetParts, .ifErr .retErr, .retValue]
  have e1 : (parseBody m).runX ic fuel zero (packetCall ms ic fuel depth) (start (some r)) {} =
      (xRounds ((roundCode packetParts).runX ic fuel zero (packetCall ms ic fuel depth)) fuel s0 {}).bind (rest.runX ic fuel zero (packetCall ms ic fuel depth)) := by
    simp only [parseBody, hm, P.all, rest]
    generalize roundCode packetParts = body
    generalize finishCode packetParts = fin
    simp only [declsCode]
    rfl
  have hinv : PacketInv ms s0 {} {} := by
    refine ⟨hr, ⟨⟨.nil, ?_, rfl⟩, ⟨.nil, ?_, rfl⟩, ⟨.nil, ?_, rfl⟩, rfl, rfl, rfl, rfl, rfl, rfl⟩, fun _ => rfl, fun _ => rfl, fun _ => rfl⟩ <;> subst hzero <;> rfl
  have hloop := packet_loop zero H fuel s0 {} {} hinv
  rw [e1]
  show SameEnd ms _ (parseLoop ic (fun t => Packet.packetTypes.contains t) (Packet.packetRead ic fuel) fuel {} r)
  have hrd : s0.rd = r := rfl
  rw [hrd] at hloop
  revert hloop
  rcases parseLoop ic (fun t => Packet.packetTypes.contains t) (Packet.packetRead ic fuel) fuel {} r with _ | ⟨st | e | _, r'⟩ <;> intro hloop
  · have h : _ = XOut.stuck := hloop
    rw [h]; rfl
  · obtain ⟨s, c, h, hi⟩ := hloop
    rw [h]
    have hi' : PacketInv ms { s with startPos := s.rd.pos, err := none } c st := hi
    obtain ⟨s', f1, f2, f3⟩ := packet_finish (depth := depth) (fuel := fuel) (ic := ic) zero rfl hi'
    refine ⟨s'.kvs, c, ?_, f3⟩
    have g1 : P.setStart.runX ic fuel zero (packetCall ms ic fuel depth) s c = .next { s with startPos := s.rd.pos } c := by simp only [P.runX, P.exec, XOut.lift]
    have g2 : P.noErr.runX ic fuel zero (packetCall ms ic fuel depth) { s with startPos := s.rd.pos } c = .next { s with startPos := s.rd.pos, err := none } c := by
      simp only [P.runX, P.exec, XOut.lift]
    simp only [rest, P.all, XOut.bind]
    rw [hseq, g1]
    simp only [XOut.bind]
    rw [hseq, g2]
    simp only [XOut.bind]
    rw [hseq, f1]
    simp only [XOut.bind, P.runX, P.exec, f2, Option.isSome_none, Bool.false_eq_true, if_false, XOut.lift]
  · obtain ⟨c, h⟩ := hloop
    rw [h]
    exact ⟨c, rfl⟩
  · have h : _ = XOut.panic := hloop
    rw [h]; rfl

end

end Ndn.Codec.Gen
