import Verif.Codec.RunSpecial

/-! # What the code of arguments, markers, signatures and Interest names does: lemmas -/

namespace Ndn.Codec.Gen

/-- a round of the loop over the components -/
theorem compRest_read (E : Env) {f : Txt} {s : PS} {L : Name} (hj : s.j < List.length L) (hg : s.rd.Good) :
    (∃ c r' s', readComponent s.rd = (.ok c, r') ∧ r'.buf = s.rd.buf ∧ r'.Good ∧ s'.err = s.err ∧ s'.rd = r' ∧ s'.kvs = s.kvs ∧ Keep s s' ∧ s'.j = s.j ∧ s'.startName = s.startName ∧
      (compRest f).exec E (s.put f (.name L)) = .next (s'.put f (.name (List.set L s.j c)))) ∨
    (∃ e r' s' g, readComponent s.rd = (.err e, r') ∧ s'.err = some .unexpectedEof ∧ s'.kvs = s.kvs ∧ Keep s s' ∧ s'.j = s.j ∧ s'.startName = s.startName ∧
      (compRest f).exec E (s.put f (.name L)) = .brk (s'.put f g)) ∨
    (∃ r', readComponent s.rd = (.panic, r') ∧ (compRest f).exec E (s.put f (.name L)) = .panic) := by
  have hL : (L : List Component)[s.j]? = some ((L : List Component)[s.j]) := List.getElem?_eq_getElem hj
  have hset : ∀ x : Component, (List.set L s.j x : List Component)[s.j]? = some x := fun x => by
    rw [List.getElem?_set_self hj]
  rcases tlBoth_cases s.rd hg with ⟨typ, r1, a1, a2, a3, a4⟩ | ⟨k1, e1, r1, a1, a2, a3, a4, a5⟩
  · rcases tlBoth_cases r1 a4 with ⟨l, r2, b1, b2, b3, b4⟩ | ⟨k2, e2, r2, b1, b2, b3, b4, b5⟩
    · have hc : readComponent s.rd = (match BR.readBuf (toInt l) r2 with
          | (.ok v, r') => (.ok ⟨typ, v⟩, r')
          | (.err e, r') => (.err e, r')
          | (.panic, r') => (.panic, r')) := by
        unfold readComponent
        rw [RM.bind_ok a1, RM.bind_ok (a := l) (s' := r2) (by simp [RM.onErr, b1]), RM.bind_apply]
        rcases BR.readBuf (toInt l) r2 with ⟨_ | _ | _, _⟩ <;> rfl
      have hexec : (compRest f).exec E (s.put f (.name L)) = (match BR.readBuf (toInt l) r2 with
          | (.ok v, r') => .next (({ s with err1 := none, l2 := l, err2 := none, err3 := none, rd := r' } : PS).put f (.name (List.set L s.j ⟨typ, v⟩)))
          | (.err e, r') => .brk (({ s with err1 := none, l2 := l, err2 := none, err3 := some e, err := some .unexpectedEof, rd := r' } : PS).put f
              (.name (List.set L s.j ⟨typ, []⟩)))
          | (.panic, _) => .panic) := by
        simp only [compRest, P.all, P.exec, Out.bind, PS.put, lookup_setKv, setKv_setKv, hL, a2, b2, hset]
        rcases BR.readBuf (toInt l) r2 with ⟨_ | _ | _, _⟩ <;> simp [List.set_set]
      rcases hb : BR.readBuf (toInt l) r2 with ⟨v | e | _, r'⟩
      · rw [hb] at hc hexec
        obtain ⟨c1, c2⟩ := readBuf_ok_good b4 hb
        exact .inl ⟨_, _, { s with err1 := none, l2 := l, err2 := none, err3 := none, rd := r' }, hc, by rw [c1, b3, a3], c2, rfl, rfl, rfl, ⟨rfl, rfl, rfl⟩, rfl, rfl, hexec⟩
      · rw [hb] at hc hexec
        exact .inr (.inl ⟨_, _, { s with err1 := none, l2 := l, err2 := none, err3 := some e, err := some .unexpectedEof, rd := r' }, _, hc, rfl, rfl, ⟨rfl, rfl, rfl⟩, rfl, rfl, hexec⟩)
      · rw [hb] at hc hexec
        exact .inr (.inr ⟨_, hc, hexec⟩)
    · right; left
      have hc : readComponent s.rd = (.err (if e2 = .eof then .unexpectedEof else e2), r2) := by
        unfold readComponent
        rw [RM.bind_ok a1, RM.bind_err (e := if e2 = .eof then .unexpectedEof else e2) (s' := r2) (by simp [RM.onErr, b1])]
      have hp := readBuf_small (k := k2) (r := r2) ⟨by rw [b4, b3]; exact Nat.le_refl _, by rw [b3, a3]; exact hg.2⟩
        (Nat.lt_of_lt_of_le b5 (by decide))
      rcases hb : BR.readBuf (toInt k2) r2 with ⟨v | e | _, r'⟩
      · refine ⟨_, _, { s with err1 := none, l2 := k2, err2 := some e2, err3 := none, err := some .unexpectedEof, rd := r' },
          .name (List.set L s.j ⟨typ, v⟩), hc, rfl, rfl, ⟨rfl, rfl, rfl⟩, rfl, rfl, ?_⟩
        simp only [compRest, P.all, P.exec, Out.bind, PS.put, lookup_setKv, setKv_setKv, hL, a2, b2, hset, hb]
        simp [List.set_set]
      · refine ⟨_, _, { s with err1 := none, l2 := k2, err2 := some e2, err3 := some e, err := some .unexpectedEof, rd := r' },
          .name (List.set L s.j ⟨typ, []⟩), hc, rfl, rfl, ⟨rfl, rfl, rfl⟩, rfl, rfl, ?_⟩
        simp only [compRest, P.all, P.exec, Out.bind, PS.put, lookup_setKv, setKv_setKv, hL, a2, b2, hset, hb]
        simp [List.set_set]
      · rw [hb] at hp; exact absurd rfl hp
  · right; left
    have hc : readComponent s.rd = (.err e1, r1) := by
      unfold readComponent
      rw [RM.bind_err a1]
    have h1 : r1.Good := ⟨by rw [a4, a3]; exact Nat.le_refl _, by rw [a3]; exact hg.2⟩
    have b2 := tlBoth_end (r := r1) (by rw [a4, a3])
    have hp := readBuf_small (k := 0) (r := r1) h1 (by decide)
    rcases hb : BR.readBuf (toInt 0) r1 with ⟨v | e | _, r'⟩
    · refine ⟨_, _, { s with err1 := some e1, l2 := 0, err2 := some .eof, err3 := none, err := some .unexpectedEof, rd := r' },
        .name (List.set L s.j ⟨k1, v⟩), hc, rfl, rfl, ⟨rfl, rfl, rfl⟩, rfl, rfl, ?_⟩
      simp only [compRest, P.all, P.exec, Out.bind, PS.put, lookup_setKv, setKv_setKv, hL, a2, b2, hset, hb]
      simp [List.set_set]
    · refine ⟨_, _, { s with err1 := some e1, l2 := 0, err2 := some .eof, err3 := some e, err := some .unexpectedEof, rd := r' },
        .name (List.set L s.j ⟨k1, []⟩), hc, rfl, rfl, ⟨rfl, rfl, rfl⟩, rfl, rfl, ?_⟩
      simp only [compRest, P.all, P.exec, Out.bind, PS.put, lookup_setKv, setKv_setKv, hL, a2, b2, hset, hb]
      simp [List.set_set]
    · rw [hb] at hp; exact absurd rfl hp


theorem intRound_past (E : Env) {f : Txt} {s : SpState} {L : Name} (h : (s.ps.rd.pos : Int) ≥ s.ps.endName) (hj : s.ps.j ≤ List.length L) :
    (intRound f).exec E { s with ps := s.ps.put f (.name L) } =
      .brk { s with startComp := s.ps.rd.pos, ps := ({ s.ps with err1 := none, err3 := none } : PS).put f (.name (List.take s.ps.j L)) } := by
  simp only [intRound, Sp.all, Sp.exec, SpOut.bind, P.all, P.exec, Out.bind, PS.put, lookup_setKv, if_pos h, if_pos hj, setKv_setKv]

theorem intRound_read (E : Env) {f : Txt} {s : SpState} {L : Name} (h : ¬ (s.ps.rd.pos : Int) ≥ s.ps.endName) (hj : s.ps.j < List.length L) (hg : s.ps.rd.Good) :
    (∃ (c : Component) (r' : BR) (s' : SpState), readComponent s.ps.rd = (.ok c, r') ∧ r'.Good ∧ s'.ps.err = s.ps.err ∧ s'.ps.rd = r' ∧ s'.ps.kvs = s.ps.kvs ∧ s'.ps.endName = s.ps.endName ∧
      s'.ps.startName = s.ps.startName ∧ s'.ints = s.ints ∧ s'.wires = s.wires ∧ s'.coverEnd = (if c.typ = 2 then (s.ps.rd.pos : Int) else s.coverEnd) ∧
      (intRound f).exec E { s with ps := s.ps.put f (.name L) } = .next { s' with ps := s'.ps.put f (.name (List.set L s.ps.j c)) }) ∨
    (∃ (e : Err) (r' : BR) (s' : SpState), readComponent s.ps.rd = (.err e, r') ∧ s'.ps.err = some .unexpectedEof ∧ s'.ints = s.ints ∧ s'.wires = s.wires ∧
      (intRound f).exec E { s with ps := s.ps.put f (.name L) } = .brk s') ∨
    (∃ r', readComponent s.ps.rd = (.panic, r') ∧ (intRound f).exec E { s with ps := s.ps.put f (.name L) } = .panic) := by
  have hx : (intRound f).exec E { s with ps := s.ps.put f (.name L) } =
      ((Sp.p (compRest f)).exec E { s with startComp := s.ps.rd.pos, ps := ({ s.ps with err1 := none, err3 := none } : PS).put f (.name L) }).bind
        ((Sp.ifDigest f .coverHere).exec E) := by
    simp only [intRound, Sp.all, Sp.exec, SpOut.bind, P.exec, PS.put, if_neg h]
  rw [hx]
  have hset : ∀ x : Component, (List.set L s.ps.j x : List Component)[s.ps.j]? = some x := fun x => by
    rw [List.getElem?_set_self hj]
  rcases compRest_read E (f := f) (s := { s.ps with err1 := none, err3 := none }) hj hg with ⟨c, r', q, a1, a2, a3, a4, a5, a6, a7, a8, a9, a10⟩ |
      ⟨e, r', q, g, a1, a2, a3, a4, a5, a6, a7⟩ | ⟨r', a1, a2⟩
  · left
    refine ⟨c, r', ⟨q, s.ints, s.wires, s.ps.rd.pos, if c.typ = 2 then (s.ps.rd.pos : Int) else s.coverEnd, s.part⟩, a1, a3, a4, a5, a6, a7.endName, a9, rfl, rfl, rfl, ?_⟩
    have a8' : q.j = s.ps.j := a8
    have hj2 : (q.put f (.name (List.set L s.ps.j c))).j = s.ps.j := a8
    simp only [Sp.exec, a10, SpOut.bind]
    simp only [PS.put, lookup_setKv, a8', hset]
    by_cases hc : c.typ = 2
    · simp only [hc, if_true]
    · simp only [hc, if_false]
  · right; left
    refine ⟨e, r', ⟨q.put f g, s.ints, s.wires, s.ps.rd.pos, s.coverEnd, s.part⟩, a1, a2, rfl, rfl, ?_⟩
    simp only [Sp.exec, a7, SpOut.bind]
  · right; right
    refine ⟨r', a1, ?_⟩
    simp only [Sp.exec, a2, SpOut.bind]

/-- the loop over the components and the check behind it -/
theorem intLoop (E : Env) (f : Txt) (en : Nat) : ∀ (n : Nat) (done : List Component) (cov : Nat) (s : SpState), s.ps.err = none → s.ps.rd.Good → s.ps.endName = en →
    s.coverEnd = cov →
    (∃ (nm : Name) (cov' : Nat) (r' : BR) (s' : SpState), Packet.readIntNameSlots n en cov s.ps.rd = (.ok (nm, cov'), r') ∧ r'.Good ∧ s'.ps.err = none ∧ s'.ps.rd = r' ∧ s'.ps.kvs = s.ps.kvs ∧
      s'.ps.startName = s.ps.startName ∧ s'.ints = s.ints ∧ s'.wires = s.wires ∧ s'.coverEnd = (cov' : Int) ∧
      (spUpTo (fun j s => (intRound f).exec E { s with ps := { s.ps with j := j } }) n done.length
        { s with ps := s.ps.put f (.name (done ++ List.replicate n ⟨0, []⟩)) }).bind ((Sp.p (.ifNotAt .errOverflow)).exec E) =
          .next { s' with ps := s'.ps.put f (.name (done ++ nm)) }) ∨
    (∃ (e : Err) (r' : BR) (s' : SpState), Packet.readIntNameSlots n en cov s.ps.rd = (.err e, r') ∧ s'.ps.err = some e ∧ s'.ints = s.ints ∧ s'.wires = s.wires ∧
      (spUpTo (fun j s => (intRound f).exec E { s with ps := { s.ps with j := j } }) n done.length
        { s with ps := s.ps.put f (.name (done ++ List.replicate n ⟨0, []⟩)) }).bind ((Sp.p (.ifNotAt .errOverflow)).exec E) = .next s') ∨
    (∃ r', Packet.readIntNameSlots n en cov s.ps.rd = (.panic, r') ∧
      (spUpTo (fun j s => (intRound f).exec E { s with ps := { s.ps with j := j } }) n done.length
        { s with ps := s.ps.put f (.name (done ++ List.replicate n ⟨0, []⟩)) }).bind ((Sp.p (.ifNotAt .errOverflow)).exec E) = .panic)
  | 0, done, cov, s, he, hg, hen, hcov => by
    by_cases h : s.ps.rd.pos = en
    · left
      refine ⟨[], cov, s.ps.rd, s, by simp [Packet.readIntNameSlots, h], hg, he, rfl, rfl, rfl, rfl, rfl, hcov, ?_⟩
      simp [spUpTo, SpOut.bind, Sp.exec, P.exec, PS.put, he, hen, h]
    · right; left
      refine ⟨.overflow, s.ps.rd, { s with ps := ({ s.ps with err := some .overflow } : PS).put f (.name done) }, by simp [Packet.readIntNameSlots, h], rfl, rfl, rfl, ?_⟩
      have h' : ¬ ((s.ps.rd.pos : Int) = en) := by omega
      simp [spUpTo, SpOut.bind, Sp.exec, P.exec, PS.put, he, hen, h']
  | n + 1, done, cov, s, he, hg, hen, hcov => by
    have hlen : List.length (done ++ List.replicate (n + 1) (⟨0, []⟩ : Component)) = done.length + (n + 1) := by simp
    have hj : ∀ g, ({ s with ps := { s.ps.put f g with j := done.length } } : SpState) =
        { ({ s with ps := { s.ps with j := done.length } } : SpState) with ps := ({ s.ps with j := done.length } : PS).put f g } := fun _ => rfl
    by_cases hp : s.ps.rd.pos ≥ en
    · have hr := intRound_past E (f := f) (s := { s with ps := { s.ps with j := done.length } }) (L := done ++ List.replicate (n + 1) (⟨0, []⟩ : Component))
        (by show (s.ps.rd.pos : Int) ≥ s.ps.endName; omega) (by show done.length ≤ _; rw [hlen]; omega)
      have ht : List.take done.length (done ++ List.replicate (n + 1) (⟨0, []⟩ : Component)) = done := by simp
      simp only [ht] at hr
      by_cases h : s.ps.rd.pos = en
      · left
        refine ⟨[], cov, s.ps.rd, { s with startComp := s.ps.rd.pos, ps := { s.ps with j := done.length, err1 := none, err3 := none } },
          by simp [Packet.readIntNameSlots, h], hg, he, rfl, rfl, rfl, rfl, rfl, hcov, ?_⟩
        simp only [spUpTo, hj, hr]
        simp [SpOut.bind, Sp.exec, P.exec, PS.put, he, hen, h]
      · right; left
        refine ⟨.overflow, s.ps.rd, { s with startComp := s.ps.rd.pos, ps := ({ s.ps with j := done.length, err1 := none, err3 := none, err := some .overflow } : PS).put f (.name done) },
          by simp [Packet.readIntNameSlots, h, hp], rfl, rfl, rfl, ?_⟩
        have h' : ¬ ((s.ps.rd.pos : Int) = en) := by omega
        simp only [spUpTo, hj, hr]
        simp [SpOut.bind, Sp.exec, P.exec, PS.put, he, hen, h']
    · have hround := intRound_read E (f := f) (s := { s with ps := { s.ps with j := done.length } }) (L := done ++ List.replicate (n + 1) (⟨0, []⟩ : Component))
        (by show ¬ (s.ps.rd.pos : Int) ≥ s.ps.endName; omega) (by show done.length < _; rw [hlen]; omega) hg
      rcases hround with ⟨c, r', s', a1, a2, a3, a4, a5, a6, a7, a8, a9, a10, a11⟩ | ⟨e, r', s', a1, a2, a3, a4, a5⟩ | ⟨r', a1, a2⟩
      · have hset : List.set (done ++ List.replicate (n + 1) (⟨0, []⟩ : Component)) done.length c = (done ++ [c]) ++ List.replicate n ⟨0, []⟩ := by
          simp [List.replicate_succ]
        have hcov' : s'.coverEnd = ((if c.typ = 2 then s.ps.rd.pos else cov : Nat) : Int) := by
          rw [a10]
          by_cases hc : c.typ = 2
          · simp only [hc, if_true]
          · simp only [hc, if_false]; exact hcov
        have hr := intLoop E f en n (done ++ [c]) _ s' (a3.trans he) (a4 ▸ a2) (a6.trans hen) hcov'
        simp only [hset] at a11
        simp only [spUpTo, hj, a11]
        rw [List.length_append, List.length_singleton] at hr
        have hrd : Packet.readIntNameSlots (n + 1) en cov s.ps.rd = (match Packet.readIntNameSlots n en (if c.typ = 2 then s.ps.rd.pos else cov) r' with
            | (.ok (n, q), r'') => (.ok (c :: n, q), r'')
            | (.err e, r'') => (.err e, r'')
            | (.panic, r'') => (.panic, r'')) := by
          have a1' : readComponent s.ps.rd = (.ok c, r') := a1
          rw [Packet.readIntNameSlots, if_neg hp, a1']
          have hd : (if c.typ = Packet.typParamsDigest then s.ps.rd.pos else cov) = if c.typ = 2 then s.ps.rd.pos else cov := rfl
          simp only [hd]
          generalize Packet.readIntNameSlots n en (if c.typ = 2 then s.ps.rd.pos else cov) r' = x
          rcases x with ⟨_ | _ | _, _⟩ <;> rfl
        rw [hrd, ← a4]
        rcases hr with ⟨nm, cov', r'', s'', b1, b2, b3, b4, b5, b6, b7, b8, b9, b10⟩ | ⟨e, r'', s'', b1, b2, b3, b4, b5⟩ | ⟨r'', b1, b2⟩
        · left
          refine ⟨c :: nm, cov', r'', s'', by rw [b1], b2, b3, b4, b5.trans a5, b6.trans a7, b7.trans a8, b8.trans a9, b9, ?_⟩
          rw [b10, List.append_assoc]; rfl
        · right; left
          exact ⟨e, r'', s'', by rw [b1], b2, b3.trans a8, b4.trans a9, b5⟩
        · right; right
          exact ⟨r'', by rw [b1], b2⟩
      · right; left
        have a1' : readComponent s.ps.rd = (.err e, r') := a1
        refine ⟨.unexpectedEof, r', s', ?_, a2, a3, a4, ?_⟩
        · rw [Packet.readIntNameSlots, if_neg hp, a1']
        · simp only [spUpTo, hj, a5]
          simp [SpOut.bind, Sp.exec, P.exec, a2]
      · right; right
        have a1' : readComponent s.ps.rd = (.panic, r') := a1
        refine ⟨r', ?_, ?_⟩
        · rw [Packet.readIntNameSlots, if_neg hp, a1']
        · simp only [spUpTo, hj, a2, SpOut.bind]

end Ndn.Codec.Gen
