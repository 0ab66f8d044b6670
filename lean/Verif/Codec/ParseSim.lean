import Verif.Codec.RunParse
import Verif.Codec.Stands
import Verif.Codec.TotalLemmas

/-!
# The statements of the emitted parser and the model of the parser: lemmas about the templates of single fields
-/

namespace Ndn.Codec.Gen

/-! ## Readers -/

theorem readByte_cases (r : BR) : (∃ b, BR.readByte r = (.ok b, ⟨r.buf, r.pos + 1⟩) ∧ r.pos < r.buf.length) ∨
    (BR.readByte r = (.err .eof, r) ∧ r.buf.length ≤ r.pos) := by
  unfold BR.readByte
  cases h : r.buf[r.pos]? with
  | none => right; exact ⟨rfl, by simpa using h⟩
  | some b => left; exact ⟨b, rfl, (List.getElem?_eq_some_iff.1 h).1⟩

/-- both results of the loop of `ReadTLNum` -/
theorem beBoth_cases (n : Nat) : ∀ (val : Nat) (r : BR) (_ : r.Good),
    (∃ v r', readBeLoop BR.readByte n val r = (.ok v, r') ∧ beBoth n val r = (v, none, r') ∧ r'.buf = r.buf ∧ r'.Good) ∨
    (∃ k e r', readBeLoop BR.readByte n val r = (.err e, r') ∧ beBoth n val r = (k, some e, r') ∧ r'.buf = r.buf ∧ r'.pos = r.buf.length ∧
      ∀ m, val < 256 ^ m → n + m ≤ 8 → k < 256 ^ 7) := by
  induction n with
  | zero => intro val r hg; left; exact ⟨val, r, rfl, rfl, rfl, hg⟩
  | succ n ih =>
    intro val r hg
    rcases readByte_cases r with ⟨b, h1, h2⟩ | ⟨h1, h2⟩
    · have e1 : readBeLoop BR.readByte (n + 1) val r = readBeLoop BR.readByte n ((val * 256) % 2 ^ 64 + b.toNat) ⟨r.buf, r.pos + 1⟩ := by
        rw [readBeLoop, RM.bind_ok (a := b) (s' := ⟨r.buf, r.pos + 1⟩) (by simp [RM.onErr, h1])]
      have e2 : beBoth (n + 1) val r = beBoth n ((val * 256) % 2 ^ 64 + b.toNat) ⟨r.buf, r.pos + 1⟩ := by
        simp only [beBoth, h1]
      rw [e1, e2]
      rcases ih ((val * 256) % 2 ^ 64 + b.toNat) ⟨r.buf, r.pos + 1⟩ ⟨by simp; omega, hg.2⟩ with h | ⟨k, e, r', a1, a2, a3, a4, a5⟩
      · exact .inl h
      · right
        refine ⟨k, e, r', a1, a2, a3, a4, fun m hm hn => a5 (m + 1) ?_ (by omega)⟩
        have hb := b.toNat_lt
        have := Nat.mod_le (val * 256) (2 ^ 64)
        rw [Nat.pow_succ]; omega
    · right
      refine ⟨val, .unexpectedEof, r, ?_, ?_, rfl, ?_, ?_⟩
      · rw [readBeLoop, RM.bind_err (e := .unexpectedEof) (s' := r) (by simp [RM.onErr, h1])]
      · simp only [beBoth, h1, if_true]
      · have := hg.1; omega
      · intro m hm hn
        exact Nat.lt_of_lt_of_le hm (Nat.pow_le_pow_right (by decide) (by omega))

/-- both results of `ReadTLNum`: when it fails, the reader is at the end, and the number has at most seven bytes -/
theorem tlBoth_cases (r : BR) (hg : r.Good) :
    (∃ v r', BR.readTL r = (.ok v, r') ∧ tlBoth r = (v, none, r') ∧ r'.buf = r.buf ∧ r'.Good) ∨
    (∃ k e r', BR.readTL r = (.err e, r') ∧ tlBoth r = (k, some e, r') ∧ r'.buf = r.buf ∧ r'.pos = r.buf.length ∧ k < 256 ^ 7) := by
  rcases readByte_cases r with ⟨b, h1, h2⟩ | ⟨h1, h2⟩
  · have hg' : BR.Good ⟨r.buf, r.pos + 1⟩ := ⟨by simp; omega, hg.2⟩
    have e1 : BR.readTL r = (if b.toNat ≤ 0xfc then pure b.toNat else if b.toNat = 0xfd then readBeLoop BR.readByte 2 0
        else if b.toNat = 0xfe then readBeLoop BR.readByte 4 0 else readBeLoop BR.readByte 8 0 : RM BR Nat) ⟨r.buf, r.pos + 1⟩ := by
      unfold BR.readTL readTL
      rw [RM.bind_ok h1]
    have e2 : tlBoth r = if b.toNat ≤ 0xfc then (b.toNat, none, ⟨r.buf, r.pos + 1⟩) else if b.toNat = 0xfd then beBoth 2 0 ⟨r.buf, r.pos + 1⟩
        else if b.toNat = 0xfe then beBoth 4 0 ⟨r.buf, r.pos + 1⟩ else beBoth 8 0 ⟨r.buf, r.pos + 1⟩ := by
      simp only [tlBoth, h1]
    have key : ∀ n, n ≤ 8 → (∃ v r', readBeLoop BR.readByte n 0 ⟨r.buf, r.pos + 1⟩ = (.ok v, r') ∧ beBoth n 0 ⟨r.buf, r.pos + 1⟩ = (v, none, r') ∧
        r'.buf = r.buf ∧ r'.Good) ∨ (∃ k e r', readBeLoop BR.readByte n 0 ⟨r.buf, r.pos + 1⟩ = (.err e, r') ∧
        beBoth n 0 ⟨r.buf, r.pos + 1⟩ = (k, some e, r') ∧ r'.buf = r.buf ∧ r'.pos = r.buf.length ∧ k < 256 ^ 7) := by
      intro n hn
      rcases beBoth_cases n 0 ⟨r.buf, r.pos + 1⟩ hg' with h | ⟨k, e, r', a1, a2, a3, a4, a5⟩
      · exact .inl h
      · exact .inr ⟨k, e, r', a1, a2, a3, a4, a5 0 (by decide) (by omega)⟩
    rw [e1, e2]
    by_cases c1 : b.toNat ≤ 0xfc
    · rw [if_pos c1, if_pos c1]; left; exact ⟨_, _, rfl, rfl, rfl, hg'⟩
    rw [if_neg c1, if_neg c1]
    by_cases c2 : b.toNat = 0xfd
    · rw [if_pos c2, if_pos c2]; exact key 2 (by decide)
    rw [if_neg c2, if_neg c2]
    by_cases c3 : b.toNat = 0xfe
    · rw [if_pos c3, if_pos c3]; exact key 4 (by decide)
    rw [if_neg c3, if_neg c3]
    exact key 8 (by decide)
  · right
    refine ⟨0, .eof, r, ?_, ?_, rfl, ?_, by decide⟩
    · unfold BR.readTL readTL; rw [RM.bind_err h1]
    · simp only [tlBoth, h1]
    · have := hg.1; omega

/-! ## Members of structs -/

theorem lookup_setKv (f : Txt) (g : GV) : ∀ kvs : List (Txt × GV), lookup f (setKv f g kvs) = some g
  | [] => by simp [setKv, lookup]
  | (k, x) :: l => by
    by_cases h : k = f
    · simp [setKv, lookup, h]
    · simp [setKv, lookup, h, lookup_setKv f g l]

theorem lookup_setKv_ne {f k : Txt} (h : k ≠ f) (g : GV) : ∀ kvs : List (Txt × GV), lookup k (setKv f g kvs) = lookup k kvs
  | [] => by simp [setKv, lookup, Ne.symm h]
  | (k', x) :: l => by
    by_cases h' : k' = f
    · subst h'; simp [setKv, lookup, Ne.symm h]
    · by_cases h'' : k' = k
      · subst h''; simp [setKv, lookup, h]
      · simp [setKv, lookup, h', h'', lookup_setKv_ne h g l]

theorem setKv_setKv (f : Txt) (g g' : GV) : ∀ kvs : List (Txt × GV), setKv f g' (setKv f g kvs) = setKv f g' kvs
  | [] => by simp [setKv]
  | (k, x) :: l => by
    by_cases h : k = f
    · simp [setKv, h]
    · simp [setKv, h, setKv_setKv f g g' l]

theorem Slot.get_set (v : Slot) (s : PS) (n : Nat) : v.get (v.set s n) = some n := by
  cases v <;> simp [Slot.get, Slot.set, PS.put, lookup_setKv]

theorem Slot.set_set (v : Slot) (s : PS) (n m : Nat) : v.set (v.set s n) m = v.set s m := by
  cases v <;> simp [Slot.set, PS.put, setKv_setKv]

theorem Slot.set_rd (v : Slot) (s : PS) (n : Nat) : (v.set s n).rd = s.rd := by cases v <;> rfl
theorem Slot.set_x (v : Slot) (s : PS) (n : Nat) : (v.set s n).x = s.x := by cases v <;> rfl
theorem Slot.set_err (v : Slot) (s : PS) (n : Nat) : (v.set s n).err = s.err := by cases v <;> rfl
theorem Slot.set_l (v : Slot) (s : PS) (n : Nat) : (v.set s n).l = s.l := by cases v <;> rfl
theorem Slot.set_upd (v : Slot) (s : PS) (n x : Nat) (e : Option Err) (r : BR) :
    { v.set s n with x := x, err := e, rd := r } = v.set { s with x := x, err := e, rd := r } n := by cases v <;> rfl

/-! ## Numbers -/

theorem shift_or {n x bits : Nat} (hb : 8 ≤ bits) (hx : x < 256) : (n <<< 8) % 2 ^ bits ||| x % 2 ^ bits = (n * 256) % 2 ^ bits + x := by
  have h1 : x < 2 ^ bits := Nat.lt_of_lt_of_le hx (Nat.pow_le_pow_right (by decide) hb : 2 ^ 8 ≤ 2 ^ bits)
  have h2 : (n <<< 8) % 2 ^ bits = (n % 2 ^ (bits - 8)) <<< 8 := by
    rw [Nat.shiftLeft_eq, Nat.shiftLeft_eq]
    conv => lhs; rw [show bits = (bits - 8) + 8 by omega, Nat.pow_add]
    rw [Nat.mul_mod_mul_right]
  rw [Nat.mod_eq_of_lt h1, h2, ← Nat.shiftLeft_add_eq_or_of_lt (by omega), ← h2, Nat.shiftLeft_eq]

/-- the body of the loop that reads a number -/
abbrev numRound (v : Slot) (t : Ty) : P := P.all [.declX, .readX, .ifErr (P.all [.ifEof .errEof, .brk]), .shiftIn v t]

theorem numRound_ok (E : Env) (v : Slot) (t : Ty) (ht : 8 ≤ t.bits) (s : PS) (a : Nat) {b : UInt8} (h : BR.readByte s.rd = (.ok b, ⟨s.rd.buf, s.rd.pos + 1⟩)) :
    (numRound v t).exec E (v.set s a) =
      .next (v.set { s with x := b.toNat, err := none, rd := ⟨s.rd.buf, s.rd.pos + 1⟩ } ((a * 256) % 2 ^ t.bits + b.toNat)) := by
  simp only [numRound, P.all, P.exec, Out.bind, Slot.set_rd, h, Slot.set_upd, Slot.set_err, Option.isSome_none, Bool.false_eq_true, if_false,
    Slot.get_set, Slot.set_set, Slot.set_x]
  rw [shift_or ht b.toNat_lt]

theorem numRound_err (E : Env) (v : Slot) (t : Ty) (s : PS) (a : Nat) (h : BR.readByte s.rd = (.err .eof, s.rd)) :
    (numRound v t).exec E (v.set s a) = .brk (v.set { s with x := 0, err := some .unexpectedEof } a) := by
  simp only [numRound, P.all, P.exec, Out.bind, Slot.set_rd, h, Slot.set_upd, Slot.set_err, Option.isSome_some, if_true, Slot.set_x]

theorem numLoop (E : Env) (v : Slot) (t : Ty) (ht : 8 ≤ t.bits) (ht' : t.bits ≤ 64) : ∀ (n i : Nat) (s : PS) (A : Nat), s.err = none → s.rd.Good →
    (∃ y r' x, readBeLoop BR.readByte n A s.rd = (.ok y, r') ∧ r'.buf = s.rd.buf ∧ r'.Good ∧
      upTo (fun _ => (numRound v t).exec E) n i (v.set s (A % 2 ^ t.bits)) = .next (v.set { s with x := x, rd := r' } (y % 2 ^ t.bits))) ∨
    (∃ e r' a, readBeLoop BR.readByte n A s.rd = (.err e, r') ∧
      upTo (fun _ => (numRound v t).exec E) n i (v.set s (A % 2 ^ t.bits)) = .next (v.set { s with x := 0, err := some e, rd := r' } a))
  | 0, i, s, A, he, hg => by
    left
    exact ⟨A, s.rd, s.x, rfl, rfl, hg, rfl⟩
  | n + 1, i, s, A, he, hg => by
    rcases readByte_cases s.rd with ⟨b, h1, h2⟩ | ⟨h1, h2⟩
    · have e1 : readBeLoop BR.readByte (n + 1) A s.rd = readBeLoop BR.readByte n ((A * 256) % 2 ^ 64 + b.toNat) ⟨s.rd.buf, s.rd.pos + 1⟩ := by
        rw [readBeLoop, RM.bind_ok (a := b) (s' := ⟨s.rd.buf, s.rd.pos + 1⟩) (by simp [RM.onErr, h1])]
      have e2 : ((A % 2 ^ t.bits) * 256) % 2 ^ t.bits + b.toNat = ((A * 256) % 2 ^ 64 + b.toNat) % 2 ^ t.bits := by
        have hb := b.toNat_lt
        cases t <;> simp only [Ty.bits] <;> omega
      have := numLoop E v t ht ht' n (i + 1) { s with x := b.toNat, err := none, rd := ⟨s.rd.buf, s.rd.pos + 1⟩ } ((A * 256) % 2 ^ 64 + b.toNat) rfl
        ⟨by simp; omega, hg.2⟩
      simp only [upTo]
      rw [numRound_ok E v t ht s _ h1, e1, e2]
      rcases this with ⟨y, r', x, a1, a2, a3, a4⟩ | ⟨e, r', a, a1, a2⟩
      · left; exact ⟨y, r', x, a1, a2, a3, by rw [he]; exact a4⟩
      · right; exact ⟨e, r', a, a1, a2⟩
    · right
      refine ⟨.unexpectedEof, s.rd, A % 2 ^ t.bits, ?_, ?_⟩
      · rw [readBeLoop, RM.bind_err (e := .unexpectedEof) (s' := s.rd) (by simp [RM.onErr, h1])]
      · simp only [upTo]
        rw [numRound_err E v t s _ h1]

/-- reading a number -/
theorem decodeNum_exec (E : Env) (v : Slot) (t : Ty) (ht : 8 ≤ t.bits) (ht' : t.bits ≤ 64) (s : PS) (he : s.err = none) (hg : s.rd.Good) :
    (∃ y r' x, readNatural s.l s.rd = (.ok y, r') ∧ r'.buf = s.rd.buf ∧ r'.Good ∧
      (decodeNum v t).exec E s = .next (v.set { s with x := x, rd := r' } (y % 2 ^ t.bits))) ∨
    (∃ e r' a, readNatural s.l s.rd = (.err e, r') ∧ (decodeNum v t).exec E s = .next (v.set { s with x := 0, err := some e, rd := r' } a)) := by
  have := numLoop E v t ht ht' (toInt s.l).toNat 0 s 0 he hg
  rw [Nat.zero_mod] at this
  unfold readNatural
  simpa only [decodeNum, P.all, P.exec, Out.bind, Slot.set_l] using this

/-! ## Names -/

/-- what the statements of a field leave alone -/
structure Keep (s s' : PS) : Prop where
  typ : s'.typ = s.typ
  handledF : s'.handledF = s.handledF
  endName : s'.endName = s.endName

theorem Keep.refl (s : PS) : Keep s s := ⟨rfl, rfl, rfl⟩

theorem Keep.trans {s s1 s2 : PS} (h : Keep s s1) (h' : Keep s1 s2) : Keep s s2 :=
  ⟨h'.1.trans h.1, h'.2.trans h.2, h'.3.trans h.3⟩

theorem readBuf_ok_good {l : Int} {r r' : BR} {b : Bytes} (hg : r.Good) (h : BR.readBuf l r = (.ok b, r')) : r'.buf = r.buf ∧ r'.Good := by
  simp only [BR.readBuf] at h
  split at h
  · cases h
  · unfold BR.slice at h
    rename_i h1
    split at h
    · rename_i bs h2
      cases h
      split at h2
      · rename_i h3
        refine ⟨rfl, ?_, hg.2⟩
        simp only
        omega
      · cases h2
    · cases h

theorem readBuf_small {k : Nat} {r : BR} (hg : r.Good) (hk : k < 2 ^ 62) : (BR.readBuf (toInt k) r).1 ≠ .panic := by
  have h1 := hg.1
  have h2 := hg.2
  simp only [BR.readBuf, toInt_small hk]
  rw [BR.wrap_add (by omega) (by omega)]
  split
  · simp
  · rename_i h
    unfold BR.slice
    rw [if_pos (by omega)]
    simp

theorem tlBoth_end {r : BR} (h : r.pos = r.buf.length) : tlBoth r = (0, some .eof, r) := by
  rcases readByte_cases r with ⟨b, _, h2⟩ | ⟨h1, _⟩
  · omega
  · simp only [tlBoth, h1]

/-- the body of the loop that reads a name -/
abbrev nameRound (f : Txt) : P :=
  P.all [.ifPast (P.all [.cut f, .brk]), .declErrs, .compTyp f, .compLen, .compVal f, .ifErrs (P.all [.errEof, .brk])]

theorem nameRound_past (E : Env) {f : Txt} {s : PS} {L : Name} (h : (s.rd.pos : Int) ≥ s.endName) (hj : s.j ≤ List.length L) :
    (nameRound f).exec E (s.put f (.name L)) = .brk (s.put f (.name (List.take s.j L))) := by
  simp only [nameRound, P.all, P.exec, Out.bind, PS.put, lookup_setKv, if_pos h, if_pos hj, setKv_setKv]

/-- a round of the loop over the components -/
theorem nameRound_read (E : Env) {f : Txt} {s : PS} {L : Name} (h : ¬ (s.rd.pos : Int) ≥ s.endName) (hj : s.j < List.length L) (hg : s.rd.Good) :
    (∃ c r' s', readComponent s.rd = (.ok c, r') ∧ r'.buf = s.rd.buf ∧ r'.Good ∧ s'.err = s.err ∧ s'.rd = r' ∧ s'.kvs = s.kvs ∧ Keep s s' ∧
      (nameRound f).exec E (s.put f (.name L)) = .next (s'.put f (.name (List.set L s.j c)))) ∨
    (∃ e r' s' g, readComponent s.rd = (.err e, r') ∧ s'.err = some .unexpectedEof ∧ s'.kvs = s.kvs ∧ Keep s s' ∧
      (nameRound f).exec E (s.put f (.name L)) = .brk (s'.put f g)) ∨
    (∃ r', readComponent s.rd = (.panic, r') ∧ (nameRound f).exec E (s.put f (.name L)) = .panic) := by
  have hL : (L : List Component)[s.j]? = some ((L : List Component)[s.j]) := List.getElem?_eq_getElem hj
  have hset : ∀ x : Component, (List.set L s.j x : List Component)[s.j]? = some x := fun x => by
    rw [List.getElem?_set_self hj]
  rcases tlBoth_cases s.rd hg with ⟨typ, r1, a1, a2, a3, a4⟩ | ⟨k1, e1, r1, a1, a2, a3, a4, a5⟩
  · rcases tlBoth_cases r1 a4 with ⟨l, r2, b1, b2, b3, b4⟩ | ⟨k2, e2, r2, b1, b2, b3, b4, b5⟩
    · have hc : readComponent s.rd = (match BR.readBuf (toInt l) r2 with
          | (.ok v, r') => (.ok ⟨typ, v⟩, r')
          | (.err e, r') => (.err e, r')
          | (.panic, r') => (.panic, r')) := by
        unfold readComponent
        rw [RM.bind_ok a1, RM.bind_ok (a := l) (s' := r2) (by simp [RM.onErr, b1]), RM.bind_apply]
        rcases BR.readBuf (toInt l) r2 with ⟨_ | _ | _, _⟩ <;> rfl
      have hexec : (nameRound f).exec E (s.put f (.name L)) = (match BR.readBuf (toInt l) r2 with
          | (.ok v, r') => .next (({ s with err1 := none, l2 := l, err2 := none, err3 := none, rd := r' } : PS).put f (.name (List.set L s.j ⟨typ, v⟩)))
          | (.err e, r') => .brk (({ s with err1 := none, l2 := l, err2 := none, err3 := some e, err := some .unexpectedEof, rd := r' } : PS).put f
              (.name (List.set L s.j ⟨typ, []⟩)))
          | (.panic, _) => .panic) := by
        simp only [nameRound, P.all, P.exec, Out.bind, PS.put, lookup_setKv, if_neg h, setKv_setKv, hL, a2, b2, hset]
        rcases BR.readBuf (toInt l) r2 with ⟨_ | _ | _, _⟩ <;> simp [List.set_set]
      rcases hb : BR.readBuf (toInt l) r2 with ⟨v | e | _, r'⟩
      · rw [hb] at hc hexec
        obtain ⟨c1, c2⟩ := readBuf_ok_good b4 hb
        exact .inl ⟨_, _, { s with err1 := none, l2 := l, err2 := none, err3 := none, rd := r' }, hc, by rw [c1, b3, a3], c2, rfl, rfl, rfl, ⟨rfl, rfl, rfl⟩, hexec⟩
      · rw [hb] at hc hexec
        exact .inr (.inl ⟨_, _, { s with err1 := none, l2 := l, err2 := none, err3 := some e, err := some .unexpectedEof, rd := r' }, _, hc, rfl, rfl, ⟨rfl, rfl, rfl⟩, hexec⟩)
      · rw [hb] at hc hexec
        exact .inr (.inr ⟨_, hc, hexec⟩)
    · right; left
      have hc : readComponent s.rd = (.err (if e2 = .eof then .unexpectedEof else e2), r2) := by
        unfold readComponent
        rw [RM.bind_ok a1, RM.bind_err (e := if e2 = .eof then .unexpectedEof else e2) (s' := r2) (by simp [RM.onErr, b1])]
      have hp := readBuf_small (k := k2) (r := r2) ⟨by rw [b4, b3]; exact Nat.le_refl _, by rw [b3, a3]; exact hg.2⟩
        (Nat.lt_of_lt_of_le b5 (by decide))
      rcases hb : BR.readBuf (toInt k2) r2 with ⟨v | e | _, r'⟩
      · refine ⟨_, _, { s with err1 := none, l2 := k2, err2 := some e2, err3 := none, err := some .unexpectedEof, rd := r' },
          .name (List.set L s.j ⟨typ, v⟩), hc, rfl, rfl, ⟨rfl, rfl, rfl⟩, ?_⟩
        simp only [nameRound, P.all, P.exec, Out.bind, PS.put, lookup_setKv, if_neg h, setKv_setKv, hL, a2, b2, hset, hb]
        simp [List.set_set]
      · refine ⟨_, _, { s with err1 := none, l2 := k2, err2 := some e2, err3 := some e, err := some .unexpectedEof, rd := r' },
          .name (List.set L s.j ⟨typ, []⟩), hc, rfl, rfl, ⟨rfl, rfl, rfl⟩, ?_⟩
        simp only [nameRound, P.all, P.exec, Out.bind, PS.put, lookup_setKv, if_neg h, setKv_setKv, hL, a2, b2, hset, hb]
        simp [List.set_set]
      · rw [hb] at hp; exact absurd rfl hp
  · right; left
    have hc : readComponent s.rd = (.err e1, r1) := by
      unfold readComponent
      rw [RM.bind_err a1]
    have h1 : r1.Good := ⟨by rw [a4, a3]; exact Nat.le_refl _, by rw [a3]; exact hg.2⟩
    have b2 := tlBoth_end (r := r1) (by rw [a4, a3])
    have hp := readBuf_small (k := 0) (r := r1) h1 (by decide)
    rcases hb : BR.readBuf (toInt 0) r1 with ⟨v | e | _, r'⟩
    · refine ⟨_, _, { s with err1 := some e1, l2 := 0, err2 := some .eof, err3 := none, err := some .unexpectedEof, rd := r' },
        .name (List.set L s.j ⟨k1, v⟩), hc, rfl, rfl, ⟨rfl, rfl, rfl⟩, ?_⟩
      simp only [nameRound, P.all, P.exec, Out.bind, PS.put, lookup_setKv, if_neg h, setKv_setKv, hL, a2, b2, hset, hb]
      simp [List.set_set]
    · refine ⟨_, _, { s with err1 := some e1, l2 := 0, err2 := some .eof, err3 := some e, err := some .unexpectedEof, rd := r' },
        .name (List.set L s.j ⟨k1, []⟩), hc, rfl, rfl, ⟨rfl, rfl, rfl⟩, ?_⟩
      simp only [nameRound, P.all, P.exec, Out.bind, PS.put, lookup_setKv, if_neg h, setKv_setKv, hL, a2, b2, hset, hb]
      simp [List.set_set]
    · rw [hb] at hp; exact absurd rfl hp

/-- the loop over the components, with the check at its end -/
theorem nameLoop (E : Env) (f : Txt) (en : Nat) : ∀ (n : Nat) (done : List Component) (s : PS), s.err = none → s.rd.Good → s.endName = en →
    (∃ nm r' s', readNameSlots n en s.rd = (.ok nm, r') ∧ r'.Good ∧ s'.err = none ∧ s'.rd = r' ∧ s'.kvs = s.kvs ∧ Keep s s' ∧
      (upTo (fun j s => (nameRound f).exec E { s with j := j }) n done.length (s.put f (.name (done ++ List.replicate n ⟨0, []⟩)))).bind
        ((P.ifNotAt .errOverflow).exec E) = .next (s'.put f (.name (done ++ nm)))) ∨
    (∃ e r' s' g, readNameSlots n en s.rd = (.err e, r') ∧ s'.err = some e ∧ s'.kvs = s.kvs ∧ Keep s s' ∧
      (upTo (fun j s => (nameRound f).exec E { s with j := j }) n done.length (s.put f (.name (done ++ List.replicate n ⟨0, []⟩)))).bind
        ((P.ifNotAt .errOverflow).exec E) = .next (s'.put f g)) ∨
    (∃ r', readNameSlots n en s.rd = (.panic, r') ∧
      (upTo (fun j s => (nameRound f).exec E { s with j := j }) n done.length (s.put f (.name (done ++ List.replicate n ⟨0, []⟩)))).bind
        ((P.ifNotAt .errOverflow).exec E) = .panic)
  | 0, done, s, he, hg, hen => by
    by_cases h : s.rd.pos = en
    · left
      refine ⟨[], s.rd, s, by simp [readNameSlots, h], hg, he, rfl, rfl, .refl s, ?_⟩
      simp [upTo, Out.bind, P.exec, PS.put, he, hen, h]
    · right; left
      refine ⟨.overflow, s.rd, { s with err := some .overflow }, .name done, by simp [readNameSlots, h], rfl, rfl, ⟨rfl, rfl, rfl⟩, ?_⟩
      have h' : ¬ ((s.rd.pos : Int) = en) := by omega
      simp [upTo, Out.bind, P.exec, PS.put, he, hen, h']
  | n + 1, done, s, he, hg, hen => by
    have hlen : List.length (done ++ List.replicate (n + 1) (⟨0, []⟩ : Component)) = done.length + (n + 1) := by simp
    have hj : ∀ g, ({ s.put f g with j := done.length } : PS) = ({ s with j := done.length } : PS).put f g := fun _ => rfl
    by_cases hp : s.rd.pos ≥ en
    · have hr : ∀ L : List Component, done.length ≤ L.length → (nameRound f).exec E (({ s with j := done.length } : PS).put f (.name L)) =
          .brk (({ s with j := done.length } : PS).put f (.name (List.take done.length L))) := fun L hL =>
        nameRound_past E (s := { s with j := done.length }) (by show (s.rd.pos : Int) ≥ s.endName; omega) hL
      have ht : List.take done.length (done ++ List.replicate (n + 1) (⟨0, []⟩ : Component)) = done := by simp
      by_cases h : s.rd.pos = en
      · left
        refine ⟨[], s.rd, { s with j := done.length }, by simp [readNameSlots, h], hg, he, rfl, rfl, ⟨rfl, rfl, rfl⟩, ?_⟩
        simp only [upTo, hj]
        rw [hr _ (by rw [hlen]; omega), ht]
        simp [Out.bind, P.exec, PS.put, he, hen, h]
      · right; left
        refine ⟨.overflow, s.rd, { s with j := done.length, err := some .overflow }, .name done, by simp [readNameSlots, h, hp], rfl, rfl, ⟨rfl, rfl, rfl⟩, ?_⟩
        have h' : ¬ ((s.rd.pos : Int) = en) := by omega
        simp only [upTo, hj]
        rw [hr _ (by rw [hlen]; omega), ht]
        simp [Out.bind, P.exec, PS.put, he, hen, h']
    · have hround := nameRound_read E (f := f) (s := { s with j := done.length }) (L := done ++ List.replicate (n + 1) (⟨0, []⟩ : Component))
        (by show ¬ (s.rd.pos : Int) ≥ s.endName; omega) (by show done.length < _; rw [hlen]; omega) hg
      rcases hround with ⟨c, r', s', a1, a2, a3, a4, a5, a6, a7, a8⟩ | ⟨e, r', s', g, a1, a2, a3, a4, a5⟩ | ⟨r', a1, a2⟩
      · have hset : List.set (done ++ List.replicate (n + 1) (⟨0, []⟩ : Component)) done.length c = (done ++ [c]) ++ List.replicate n ⟨0, []⟩ := by
          simp [List.replicate_succ]
        have hr := nameLoop E f en n (done ++ [c]) s' (a4.trans he) (a5 ▸ a3) (a7.endName.trans hen)
        simp only [upTo, hj, a8]
        rw [hset]
        rw [List.length_append, List.length_singleton] at hr
        have hrd : readNameSlots (n + 1) en s.rd = (match readNameSlots n en r' with
            | (.ok n, r'') => (.ok (c :: n), r'')
            | (.err e, r'') => (.err e, r'')
            | (.panic, r'') => (.panic, r'')) := by
          have a1' : readComponent s.rd = (.ok c, r') := a1
          rw [readNameSlots, if_neg hp, a1']
          simp only
          rcases readNameSlots n en r' with ⟨_ | _ | _, _⟩ <;> rfl
        rw [hrd, ← a5]
        have hk : Keep s s' := ⟨a7.1, a7.2, a7.3⟩
        rcases hr with ⟨nm, r'', s'', b1, b2, b3, b4, b5, b6, b7⟩ | ⟨e, r'', s'', g, b1, b2, b3, b4, b5⟩ | ⟨r'', b1, b2⟩
        · left
          refine ⟨c :: nm, r'', s'', by rw [b1], b2, b3, b4, b5.trans a6, hk.trans b6, ?_⟩
          rw [b7, List.append_assoc]; rfl
        · right; left
          exact ⟨e, r'', s'', g, by rw [b1], b2, b3.trans a6, hk.trans b4, b5⟩
        · right; right
          exact ⟨r'', by rw [b1], b2⟩
      · right; left
        refine ⟨.unexpectedEof, r', s', g, ?_, a2, a3, ⟨a4.1, a4.2, a4.3⟩, ?_⟩
        · rw [readNameSlots, if_neg hp, a1]
        · simp only [upTo, hj, a5]
          simp [Out.bind, P.exec, PS.put, a2]
      · right; right
        refine ⟨r', ?_, ?_⟩
        · rw [readNameSlots, if_neg hp, a1]
        · simp only [upTo, hj, a2, Out.bind]

end Ndn.Codec.Gen
