import Verif.Codec.ParseSim

/-!
# The statements of the emitted parser and the model of the parser: single fields
-/

namespace Ndn.Codec.Gen

/-! ## What a field yields -/

/-- the outcome `o` of the statements of the field `f`, begun with `s`, is the outcome of reading it; `Q` says which Go values stand for what was read -/
def Yields {α : Type} (Q : α → GV → Prop) (f : Txt) (s : PS) (o : Out) : PR α → Prop
  | none => o = .stuck
  | some (.panic, _) => o = .panic
  | some (.err x, _) => ∃ s', o = .next s' ∧ s'.err = some x ∧ s'.typ = s.typ ∧ s'.handledF = s.handledF ∧ ((lookup f s.kvs).isSome → (lookup f s'.kvs).isSome)
  | some (.ok v, r) => ∃ s' g, o = .next s' ∧ s'.err = none ∧ s'.rd = r ∧ r.Good ∧ s'.kvs = setKv f g s.kvs ∧ Q v g ∧ s'.typ = s.typ ∧ s'.handledF = s.handledF

theorem readBeLoop_lt : ∀ (n val : Nat) (r : BR) {y : Nat} {r' : BR}, val < 2 ^ 64 → readBeLoop BR.readByte n val r = (.ok y, r') → y < 2 ^ 64
  | 0, val, r, y, r', hv, h => by cases h; exact hv
  | n + 1, val, r, y, r', hv, h => by
    rcases readByte_cases r with ⟨b, h1, h2⟩ | ⟨h1, h2⟩
    · rw [readBeLoop, RM.bind_ok (a := b) (s' := ⟨r.buf, r.pos + 1⟩) (by simp [RM.onErr, h1])] at h
      exact readBeLoop_lt n _ _ (by have := b.toNat_lt; omega) h
    · rw [readBeLoop, RM.bind_err (e := .unexpectedEof) (s' := r) (by simp [RM.onErr, h1])] at h
      cases h

theorem isSome_put {f : Txt} {s : PS} {g : GV} : (lookup f (s.put f g).kvs).isSome := by simp [PS.put, lookup_setKv]

theorem natural_yields (E : Env) (f : Txt) (o : Bool) (s : PS) (he : s.err = none) (hg : s.rd.Good) :
    Yields (fun (x : Nat) g => g = boxed o (.num x)) f s ((readCode f (.natural o)).exec E s) (some (readNatural s.l s.rd)) := by
  cases o with
  | false =>
    rcases decodeNum_exec E (.field f) .u64 (by decide) (by decide) s he hg with ⟨y, r', x, a1, a2, a3, a4⟩ | ⟨e, r', a, a1, a2⟩
    · rw [a1]
      have hy := readBeLoop_lt _ _ _ (by decide) a1
      exact ⟨_, .num y, a4, he, rfl, a3, by simp only [Slot.set, PS.put, Ty.bits]; rw [Nat.mod_eq_of_lt hy], rfl, rfl, rfl⟩
    · rw [a1]
      exact ⟨_, a2, rfl, rfl, rfl, fun _ => isSome_put⟩
  | true =>
    rcases decodeNum_exec E .temp .u64 (by decide) (by decide) { s with temp := .num 0 } he hg with ⟨y, r', x, a1, a2, a3, a4⟩ | ⟨e, r', a, a1, a2⟩
    · have hy := readBeLoop_lt _ _ _ (by decide) a1
      have a1' : readNatural s.l s.rd = (.ok y, r') := a1
      have e : (readCode f (.natural true)).exec E s = .next (({ s with temp := .num y, x := x, rd := r' } : PS).put f (.ptr (.num y))) := by
        rw [show y % 2 ^ Ty.u64.bits = y from Nat.mod_eq_of_lt hy] at a4
        simp only [readCode, P.exec, P.all, Out.bind, Slot.set] at a4 ⊢
        simp only [a4]
      rw [a1', e]
      exact ⟨_, _, rfl, he, rfl, a3, rfl, rfl, rfl, rfl⟩
    · have a1' : readNatural s.l s.rd = (.err e, r') := a1
      have e' : (readCode f (.natural true)).exec E s = .next (({ s with temp := .num a, x := 0, err := some e, rd := r' } : PS).put f (.ptr (.num a))) := by
        simp only [readCode, P.exec, P.all, Out.bind, Slot.set] at a2 ⊢
        simp only [a2]
      rw [a1', e']
      exact ⟨_, rfl, rfl, rfl, rfl, fun _ => isSome_put⟩

theorem time_yields (E : Env) (f : Txt) (o : Bool) (s : PS) (he : s.err = none) (hg : s.rd.Good) :
    Yields (fun (d : Int) g => g = boxed o (.dur d)) f s ((readCode f (.time o)).exec E s)
      (PR.map (α := Nat) (β := Int) durOfMs (some (readNatural s.l s.rd))) := by
  rcases decodeNum_exec E .timeInt .u64 (by decide) (by decide) { s with timeInt := 0 } he hg with ⟨y, r', x, a1, a2, a3, a4⟩ | ⟨e, r', a, a1, a2⟩
  · have hy := readBeLoop_lt _ _ _ (by decide) a1
    have a1' : readNatural s.l s.rd = (.ok y, r') := a1
    rw [show y % 2 ^ Ty.u64.bits = y from Nat.mod_eq_of_lt hy] at a4
    simp only [Slot.set] at a4
    rw [a1']
    cases o with
    | false =>
      have e : (readCode f (.time false)).exec E s = .next (({ s with timeInt := y, x := x, rd := r' } : PS).put f (.dur (durOfMs y))) := by
        simp [readCode, P.exec, P.all, Out.bind, Slot.set, a4, durOfMs]
      rw [e]
      exact ⟨_, _, rfl, he, rfl, a3, rfl, rfl, rfl, rfl⟩
    | true =>
      have e : (readCode f (.time true)).exec E s =
          .next (({ s with timeInt := y, x := x, rd := r', temp := .dur (durOfMs y) } : PS).put f (.ptr (.dur (durOfMs y)))) := by
        simp [readCode, P.exec, P.all, Out.bind, Slot.set, a4, durOfMs]
      rw [e]
      exact ⟨_, _, rfl, he, rfl, a3, rfl, rfl, rfl, rfl⟩
  · have a1' : readNatural s.l s.rd = (.err e, r') := a1
    simp only [Slot.set] at a2
    rw [a1']
    cases o with
    | false =>
      have e' : (readCode f (.time false)).exec E s = .next (({ s with timeInt := a, x := 0, err := some e, rd := r' } : PS).put f (.dur (durOfMs a))) := by
        simp [readCode, P.exec, P.all, Out.bind, Slot.set, a2, durOfMs]
      rw [e']
      exact ⟨_, rfl, rfl, rfl, rfl, fun _ => isSome_put⟩
    | true =>
      have e' : (readCode f (.time true)).exec E s =
          .next (({ s with timeInt := a, x := 0, err := some e, rd := r', temp := .dur (durOfMs a) } : PS).put f (.ptr (.dur (durOfMs a)))) := by
        simp [readCode, P.exec, P.all, Out.bind, Slot.set, a2, durOfMs]
      rw [e']
      exact ⟨_, rfl, rfl, rfl, rfl, fun _ => isSome_put⟩

theorem widthTy_bits {w : Nat} (hw : w = 1 ∨ w = 2 ∨ w = 4 ∨ w = 8) : 2 ^ (widthTy w).bits = 256 ^ w ∧ 8 ≤ (widthTy w).bits ∧ (widthTy w).bits ≤ 64 := by
  rcases hw with rfl | rfl | rfl | rfl <;> decide

theorem fixed_yields (E : Env) (f : Txt) {w : Nat} (o : Bool) (hw : w = 1 ∨ w = 2 ∨ w = 4 ∨ w = 8) (s : PS) (he : s.err = none) (hg : s.rd.Good) :
    Yields (fun (x : Nat) g => g = boxed o (.num x)) f s ((readCode f (.fixedUint w o)).exec E s) (some (readFixed w (o && w == 1) s.l s.rd)) := by
  by_cases h1 : w = 1
  · subst h1
    cases o with
    | false =>
      rcases readByte_cases s.rd with ⟨b, h1, h2⟩ | ⟨h1, h2⟩
      · have e1 : readFixed 1 (false && 1 == 1) s.l s.rd = (.ok b.toNat, ⟨s.rd.buf, s.rd.pos + 1⟩) := by
          simp [readFixed, RM.onErr, h1]
        have e2 : (readCode f (.fixedUint 1 false)).exec E s = .next (({ s with err := none, rd := ⟨s.rd.buf, s.rd.pos + 1⟩ } : PS).put f (.num b.toNat)) := by
          simp [readCode, P.exec, P.all, Out.bind, h1, PS.put]
        rw [e1, e2]
        exact ⟨_, _, rfl, rfl, rfl, ⟨h2, hg.2⟩, rfl, rfl, rfl, rfl⟩
      · have e1 : readFixed 1 (false && 1 == 1) s.l s.rd = (.err .unexpectedEof, s.rd) := by
          simp [readFixed, RM.onErr, h1]
        have e2 : (readCode f (.fixedUint 1 false)).exec E s = .next (({ s with err := some .unexpectedEof } : PS).put f (.num 0)) := by
          simp [readCode, P.exec, P.all, Out.bind, h1, PS.put]
        rw [e1, e2]
        exact ⟨_, rfl, rfl, rfl, rfl, fun _ => isSome_put⟩
    | true =>
      have hs : (∃ r', BR.skip 1 s.rd = (.ok (), r') ∧ r'.Good) ∨ (∃ e, BR.skip 1 s.rd = (.err e, s.rd) ∧ e ≠ .eof) := by
        simp only [BR.skip]
        split
        · right; exact ⟨_, rfl, by decide⟩
        · split
          · right; exact ⟨_, rfl, by decide⟩
          · left; exact ⟨_, rfl, by simp only; omega, hg.2⟩
      rcases hs with ⟨r', hs, hg'⟩ | ⟨e, hs, hne⟩
      · rcases hq : r'.range ((r'.pos : Int) - 1) r'.pos with _ | _ | ⟨_ | ⟨b, _⟩, _⟩
        all_goals simp [readFixed, RM.onErr, hs, hq, readCode, P.exec, P.all, Out.bind, Res.asErr, Yields]
        exact ⟨rfl, rfl, hg', _, rfl, rfl, rfl, rfl⟩
      · rcases hq : s.rd.range ((s.rd.pos : Int) - 1) s.rd.pos with _ | _ | ⟨_ | ⟨b, _⟩, _⟩
        all_goals simp [readFixed, RM.onErr, hs, hq, readCode, P.exec, P.all, Out.bind, Res.asErr, Yields, hne]
        exact ⟨rfl, rfl, rfl, fun _ => isSome_put⟩
  · obtain ⟨hb, hb8, hb64⟩ := widthTy_bits hw
    have hfix : readFixed w (o && w == 1) s.l s.rd = (match readNatural s.l s.rd with
        | (.ok x, r') => (.ok (x % 256 ^ w), r')
        | (.err e, r') => (.err e, r')
        | (.panic, r') => (.panic, r')) := by
      simp only [readFixed, if_neg h1, readNatural]
      rcases readBeLoop BR.readByte (toInt s.l).toNat 0 s.rd with ⟨_ | _ | _, _⟩ <;> rfl
    rw [hfix]
    cases o with
    | false =>
      rcases decodeNum_exec E (.field f) (widthTy w) hb8 hb64 s he hg with ⟨y, r', x, a1, a2, a3, a4⟩ | ⟨e, r', a, a1, a2⟩
      · have e2 : (readCode f (.fixedUint w false)).exec E s = .next (({ s with x := x, rd := r' } : PS).put f (.num (y % 256 ^ w))) := by
          simp only [readCode, if_neg h1, Bool.false_eq_true, if_false, a4, hb]; rfl
        rw [a1, e2]
        exact ⟨_, _, rfl, he, rfl, a3, rfl, rfl, rfl, rfl⟩
      · have e2 : (readCode f (.fixedUint w false)).exec E s = .next (({ s with x := 0, err := some e, rd := r' } : PS).put f (.num a)) := by
          simp only [readCode, if_neg h1, Bool.false_eq_true, if_false, a2]; rfl
        rw [a1, e2]
        exact ⟨_, rfl, rfl, rfl, rfl, fun _ => isSome_put⟩
    | true =>
      rcases decodeNum_exec E .temp (widthTy w) hb8 hb64 { s with temp := .num 0 } he hg with ⟨y, r', x, a1, a2, a3, a4⟩ | ⟨e, r', a, a1, a2⟩
      · have a1' : readNatural s.l s.rd = (.ok y, r') := a1
        simp only [Slot.set] at a4
        have e2 : (readCode f (.fixedUint w true)).exec E s =
            .next (({ s with temp := .num (y % 256 ^ w), x := x, rd := r' } : PS).put f (.ptr (.num (y % 256 ^ w)))) := by
          simp [readCode, if_neg h1, P.exec, P.all, Out.bind, Slot.set, a4, hb]
        rw [a1', e2]
        exact ⟨_, _, rfl, he, rfl, a3, rfl, rfl, rfl, rfl⟩
      · have a1' : readNatural s.l s.rd = (.err e, r') := a1
        simp only [Slot.set] at a2
        have e2 : (readCode f (.fixedUint w true)).exec E s =
            .next (({ s with temp := .num a, x := 0, err := some e, rd := r' } : PS).put f (.ptr (.num a))) := by
          simp [readCode, if_neg h1, P.exec, P.all, Out.bind, Slot.set, a2]
        rw [a1', e2]
        exact ⟨_, rfl, rfl, rfl, rfl, fun _ => isSome_put⟩

theorem binary_yields (E : Env) (f : Txt) (s : PS) (hg : s.rd.Good) :
    Yields (fun (b : Bytes) g => g = .bytes b) f s ((readCode f .binary).exec E s) (some (readFull s.l s.rd)) := by
  by_cases hl : s.l > maxAlloc
  · simp [readFull, hl, readCode, P.exec, P.all, Out.bind, Yields]
  · have e1 : readFull s.l s.rd = fillBytes s.l s.rd := by
      simp only [readFull, fillBytes, if_neg hl]
      split
      · rfl
      · rcases BR.read s.l s.rd with ⟨_ | _ | _, _⟩ <;> rfl
    have hgood : ∀ b r', fillBytes s.l s.rd = (.ok b, r') → r'.Good := by
      intro b r' h
      unfold fillBytes at h
      split at h
      · cases h; exact hg
      · unfold BR.read at h
        split at h
        · split at h
          · rename_i h1 h2
            split at h1
            · cases h1
            · cases h1; cases h
              have := hg.1
              refine ⟨?_, hg.2⟩
              simp only [List.length_take, List.length_drop]
              omega
          · cases h
        · cases h
        · cases h
    rw [e1]
    have e2 : (readCode f .binary).exec E s = (match fillBytes s.l s.rd with
      | (.ok bs, rd) => .next (({ s with err := none, rd := rd } : PS).put f (.bytes bs))
      | (.err e, rd) => .next (({ s with err := some e, rd := rd } : PS).put f (.bytes (List.replicate s.l 0)))
      | (.panic, _) => .panic) := by
      simp only [readCode, P.exec, P.all, Out.bind, if_neg hl, PS.put, lookup_setKv, List.length_replicate]
      rcases fillBytes s.l s.rd with ⟨_ | _ | _, _⟩ <;> simp [setKv_setKv]
    rw [e2]
    rcases h : fillBytes s.l s.rd with ⟨b | e | _, r'⟩
    · exact ⟨_, _, rfl, rfl, rfl, hgood _ _ h, rfl, rfl, rfl, rfl⟩
    · exact ⟨_, rfl, rfl, rfl, rfl, fun _ => isSome_put⟩
    · rfl

theorem string_yields (E : Env) (f : Txt) (o : Bool) (s : PS) (hg : s.rd.Good) :
    Yields (fun (b : Bytes) g => g = boxed o (.bytes b)) f s ((readCode f (.string o)).exec E s) (some (copyN s.l s.rd)) := by
  have hc : (∃ b r', copyN s.l s.rd = (.ok b, r') ∧ r'.Good) ∨ (∃ e r', copyN s.l s.rd = (.err e, r')) := by
    simp only [copyN]
    split
    · exact .inr ⟨_, _, rfl⟩
    · refine .inl ⟨_, _, rfl, ?_, hg.2⟩
      have := hg.1
      simp only [List.length_take, List.length_drop]
      omega
  rcases hc with ⟨b, r', h, hg'⟩ | ⟨e, r', h⟩
  · cases o with
    | false =>
      have e2 : (readCode f (.string false)).exec E s = .next (({ s with builder := b, err := none, rd := r' } : PS).put f (.bytes b)) := by
        simp [readCode, P.exec, P.all, Out.bind, h]
      rw [e2, h]
      exact ⟨_, _, rfl, rfl, rfl, hg', rfl, rfl, rfl, rfl⟩
    | true =>
      have e2 : (readCode f (.string true)).exec E s = .next (({ s with builder := b, err := none, rd := r', str := b } : PS).put f (.ptr (.bytes b))) := by
        simp [readCode, P.exec, P.all, Out.bind, h]
      rw [e2, h]
      exact ⟨_, _, rfl, rfl, rfl, hg', rfl, rfl, rfl, rfl⟩
  · have e2 : (readCode f (.string o)).exec E s = .next ({ s with builder := [], err := some e, rd := r' } : PS) := by
      simp [readCode, P.exec, P.all, Out.bind, h]
    rw [e2, h]
    exact ⟨_, rfl, rfl, rfl, rfl, id⟩

theorem wire_yields (E : Env) (f : Txt) (nc : Bool) (s : PS) (hg : s.rd.Good) :
    Yields (fun (w : Wire) g => g = .wire w) f s ((readCode f (.wire nc)).exec E s) (some (BR.readWire (toInt s.l) s.rd)) := by
  have hgood : ∀ w r', BR.readWire (toInt s.l) s.rd = (.ok w, r') → r'.Good := by
    intro w r' h
    simp only [BR.readWire] at h
    split at h
    · cases h
    · split at h
      · cases h
      · split at h
        · cases h
          exact ⟨by simp only; omega, hg.2⟩
        · cases h
  rcases h : BR.readWire (toInt s.l) s.rd with ⟨w | e | _, r'⟩
  · refine ⟨({ s with err := none, rd := r' } : PS).put f (.wire w), .wire w, ?_, rfl, rfl, hgood _ _ h, rfl, rfl, rfl, rfl⟩
    simp [readCode, P.exec, h]
  · refine ⟨({ s with err := some e, rd := r' } : PS).put f .nil, ?_, rfl, rfl, rfl, fun _ => isSome_put⟩
    simp [readCode, P.exec, h]
  · simp [readCode, P.exec, h, Yields]

theorem name_yields (E : Env) (f : Txt) (s : PS) (he : s.err = none) (hg : s.rd.Good) :
    Yields (fun (n : Name) g => g = .name n) f s ((readCode f .name).exec E s) (some (readNameField s.l s.rd)) := by
  by_cases hl : (s.l / 2 + 1) * 32 > maxAlloc
  · simp [readNameField, hl, readCode, P.exec, P.all, Out.bind, Yields]
  · have hl' : s.l < 2 ^ 62 := by simp only [maxAlloc] at hl; omega
    have hen : wrap64 ((s.rd.pos : Int) + toInt s.l) = ((s.rd.pos + s.l : Nat) : Int) := by
      rw [toInt_small hl']
      exact BR.wrap_add (by have := hg.1; have := hg.2; omega) (Nat.le_of_lt hl')
    have e1 : (readCode f .name).exec E s =
        (upTo (fun j s => (nameRound f).exec E { s with j := j }) (s.l / 2 + 1) 0
          (({ s with startName := s.rd.pos, endName := ((s.rd.pos + s.l : Nat) : Int) } : PS).put f (.name (List.replicate (s.l / 2 + 1) ⟨0, []⟩)))).bind
        ((P.ifNotAt .errOverflow).exec E) := by
      simp only [readCode, P.all, P.exec, Out.bind, if_neg hl, PS.put, lookup_setKv, List.length_replicate, hen]
    have e2 : readNameField s.l s.rd = readNameSlots (s.l / 2 + 1) (s.rd.pos + s.l) s.rd := by
      simp only [readNameField, if_neg hl]
    rw [e1, e2]
    rcases nameLoop E f (s.rd.pos + s.l) (s.l / 2 + 1) [] { s with startName := s.rd.pos, endName := ((s.rd.pos + s.l : Nat) : Int) } he hg rfl with
      ⟨nm, r', s', a1, a2, a3, a4, a5, a6, a7⟩ | ⟨e, r', s', g, a1, a2, a3, a4, a5⟩ | ⟨r', a1, a2⟩
    · have a1' : readNameSlots (s.l / 2 + 1) (s.rd.pos + s.l) s.rd = (.ok nm, r') := a1
      rw [a1']
      exact ⟨_, .name nm, a7, a3, a4, a2, by simp only [PS.put, List.nil_append, a5], rfl, a6.1, a6.2⟩
    · have a1' : readNameSlots (s.l / 2 + 1) (s.rd.pos + s.l) s.rd = (.err e, r') := a1
      rw [a1']
      exact ⟨_, a5, a2, a4.1, a4.2, fun _ => isSome_put⟩
    · have a1' : readNameSlots (s.l / 2 + 1) (s.rd.pos + s.l) s.rd = (.panic, r') := a1
      rw [a1']
      exact a2

end Ndn.Codec.Gen
