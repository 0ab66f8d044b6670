import Verif.Codec.Dict
import Verif.Engine.MgmtProps

/-! # C72: structs and dictionaries -/

namespace Ndn.Codec

/-! ## Specification -/

/-- the field classes and forms that dictionaries support: no sequence, no time, no wire; `binary`, `name` and `struct` can be nil -/
def DictField : Mode → Elem → Prop
  | .req, .nat => True
  | .req, .fixed _ _ => True
  | .req, .str => True
  | .opt, .time => False
  | .opt, .wire => False
  | .opt, _ => True
  | _, _ => False
/-- a struct whose fields are supported, with one name for each of them -/
def Dictable : Fields → Keys → Prop
  | .nil, .nil => True
  | .flag _ rest, .cons _ _ _ ks => Dictable rest ks
  | .cons _ m e rest, .cons _ _ _ ks => DictField m e ∧ Dictable rest ks
  | _, _ => False

/-- the `any` value `dv` is the Go value `x` of the type of the field -/
def Elem.Holds : (e : Elem) → String → DV → e.V → Prop
  | .nat, _, dv, (x : Nat) => dv = .uint 8 x
  | .fixed w _, _, dv, (x : Nat) => dv = .uint w x
  | .bin, _, dv, (x : Bytes) => dv = .bytes x
  | .str, _, dv, (x : Bytes) => dv = .str x
  | .name, _, dv, (x : Name) => dv = .name x
  | .struct fs, t, dv, x => dv = .ptr t fs x
  | .time, _, _, _ => False
  | .wire, _, _, _ => False

/-- the struct says the same as the dictionary: a field has the value of the entry with its name; without an entry it is nil or false, and not required -/
def Agrees : (fs : Fields) → Keys → Dict → fs.V → Prop
  | .nil, _, _, _ => True
  | .flag _ rest, .cons k _ _ ks, d, (b, vs) =>
    (d.get k = some (.bool b) ∨ (d.get k = none ∧ b = false)) ∧ Agrees rest ks d vs
  | .cons _ .req e rest, .cons k t _ ks, d, (x, vs) => (∃ dv, d.get k = some dv ∧ e.Holds t dv x) ∧ Agrees rest ks d vs
  | .cons _ .opt e rest, .cons k t _ ks, d, (some x, vs) => (∃ dv, d.get k = some dv ∧ e.Holds t dv x) ∧ Agrees rest ks d vs
  | .cons _ .opt _ rest, .cons k _ _ ks, d, (none, vs) => d.get k = none ∧ Agrees rest ks d vs
  | _, _, _, _ => False

/-- no nested struct is set -/
def Flat : (fs : Fields) → fs.V → Prop
  | .nil, _ => True
  | .flag _ rest, (_, vs) => Flat rest vs
  | .cons _ .opt (.struct _) rest, (x, vs) => x = none ∧ Flat rest vs
  | .cons _ _ _ rest, (_, vs) => Flat rest vs

/-- a field named `k` has an entry that is not of its type -/
def WrongType : Fields → Keys → Dict → String → Prop
  | .flag _ rest, .cons k' _ _ ks, d, k => (k = k' ∧ ∃ dv, d.get k = some dv ∧ ∀ b, dv ≠ .bool b) ∨ WrongType rest ks d k
  | .cons _ _ e rest, .cons k' t _ ks, d, k => (k = k' ∧ ∃ dv, d.get k = some dv ∧ ∀ x, ¬ e.Holds t dv x) ∨ WrongType rest ks d k
  | _, _, _, _ => False
/-- a required field named `k` has no entry -/
def Missing : Fields → Keys → Dict → String → Prop
  | .flag _ rest, .cons _ _ _ ks, d, k => Missing rest ks d k
  | .cons _ m _ rest, .cons k' _ _ ks, d, k => (m = .req ∧ k = k' ∧ d.get k = none) ∨ Missing rest ks d k
  | _, _, _, _ => False

/-! ## Maps -/

theorem Dict.get_put (d : Dict) (k : String) (v : DV) (k' : String) : (d.put k v).get k' = if k = k' then some v else d.get k' := by
  unfold Dict.put
  rw [Dict.get]
  split
  · rfl
  · rename_i h
    induction d with
    | nil => rfl
    | cons p d ih =>
      rw [List.filter_cons]
      by_cases hp : p.1 = k
      · rw [if_neg (by simp [hp]), ih, Dict.get, if_neg (by rw [hp]; exact h)]
      · rw [if_pos (by simp [hp]), Dict.get, Dict.get, ih]

/-! ## The type assertions -/

theorem Elem.ofDV_iff (e : Elem) (t : String) (dv : DV) (x : e.V) (he : e.inDict = true) : e.ofDV t dv = some x ↔ e.Holds t dv x := by
  cases e with
  | nat =>
    cases dv <;> simp only [Elem.ofDV, Elem.Holds, reduceCtorEq]
    rename_i w n
    by_cases h : w = 8
    · subst h; rw [if_pos rfl]; constructor <;> (intro h; cases h; rfl)
    · rw [if_neg h]; constructor
      · intro h; cases h
      · intro h'; cases h'; exact absurd rfl h
  | fixed w p =>
    cases dv <;> simp only [Elem.ofDV, Elem.Holds, reduceCtorEq]
    rename_i w' n
    by_cases h : w' = w
    · subst h; rw [if_pos rfl]; constructor <;> (intro h; cases h; rfl)
    · rw [if_neg h]; constructor
      · intro h; cases h
      · intro h'; cases h'; exact absurd rfl h
  | time => cases he
  | wire => cases he
  | bin => cases dv <;> simp only [Elem.ofDV, Elem.Holds, reduceCtorEq] <;> constructor <;> (intro h; cases h; rfl)
  | str => cases dv <;> simp only [Elem.ofDV, Elem.Holds, reduceCtorEq] <;> constructor <;> (intro h; cases h; rfl)
  | name => cases dv <;> simp only [Elem.ofDV, Elem.Holds, reduceCtorEq] <;> constructor <;> (intro h; cases h; rfl)
  | struct fs =>
    cases dv <;> simp only [Elem.ofDV, Elem.Holds, reduceCtorEq]
    rename_i t' fs' v
    by_cases h : t' = t ∧ fs' = fs
    · obtain ⟨rfl, rfl⟩ := h
      rw [dif_pos ⟨rfl, rfl⟩]
      constructor <;> (intro h; cases h; rfl)
    · rw [dif_neg h]
      constructor
      · intro h; cases h
      · intro h'; cases h'; exact absurd ⟨rfl, rfl⟩ h

theorem DictField.inDict {m : Mode} {e : Elem} (h : DictField m e) : e.inDict = true := by
  cases m <;> cases e <;> simp_all [DictField, Elem.inDict]

theorem map_ok_iff {ε α β : Type} {r : Except ε α} {f : α → β} {y : β} : r.map f = .ok y ↔ ∃ x, r = .ok x ∧ f x = y := by
  cases r with
  | error e => simp [Except.map]
  | ok x => simp [Except.map]

/-! ## `DictTo…` -/

/-- C72, second half: `DictTo…` succeeds exactly when there is a struct that says the same as the dictionary, and gives this struct. -/
theorem C72_fromDict_iff : ∀ (fs : Fields) (ks : Keys), Dictable fs ks → ∀ (d : Dict) (v : fs.V), fs.fromDict ks d = .ok v ↔ Agrees fs ks d v
  | .nil, .nil, _, d, v => by
    simp only [Fields.fromDict, Agrees, iff_true]; rfl
  | .nil, .cons .., h, _, _ => h.elim
  | .flag _ _, .nil, h, _, _ => h.elim
  | .cons .., .nil, h, _, _ => by simp [Dictable] at h
  | .flag _ rest, .cons k t sub ks, h, d, (b, vs) => by
    have ih := C72_fromDict_iff rest ks h d vs
    rw [Fields.fromDict, Agrees]
    cases hg : d.get k with
    | none =>
      simp only [reduceCtorEq, false_or, true_and]
      refine map_ok_iff.trans ?_
      rw [← ih]
      constructor
      · rintro ⟨x, hx, he⟩; cases he; exact ⟨rfl, hx⟩
      · rintro ⟨rfl, hx⟩; exact ⟨vs, hx, rfl⟩
    | some dv =>
      by_cases hd : ∃ b', dv = .bool b'
      · obtain ⟨b', rfl⟩ := hd
        simp only [reduceCtorEq, false_and, or_false, Option.some.injEq, DV.bool.injEq]
        refine map_ok_iff.trans ?_
        rw [← ih]
        constructor
        · rintro ⟨x, hx, he⟩; cases he; exact ⟨rfl, hx⟩
        · rintro ⟨rfl, hx⟩; exact ⟨vs, hx, rfl⟩
      · constructor
        · intro h'
          split at h'
          · rename_i b' heq; exact absurd ⟨b', Option.some.inj heq⟩ hd
          · cases h'
          · rename_i heq; cases heq
        · rintro ⟨h1 | h1, _⟩
          · exact absurd ⟨b, Option.some.inj h1⟩ hd
          · cases h1.1
  | .cons _ .seq e rest, .cons k t sub ks, h, d, _ => by cases e <;> exact h.1.elim
  | .cons _ .req e rest, .cons k t sub ks, h, d, (x, vs) => by
    have ih := C72_fromDict_iff rest ks h.2 d vs
    have hi := h.1.inDict
    rw [Fields.fromDict, Agrees, if_pos hi]
    cases hg : d.get k with
    | none => simp
    | some dv =>
      simp only
      cases ho : e.ofDV t dv with
      | none =>
        simp only [reduceCtorEq, false_iff]
        rintro ⟨⟨dv', h1, h2⟩, _⟩
        cases h1
        rw [(e.ofDV_iff t dv x hi).mpr h2] at ho
        cases ho
      | some y =>
        simp only
        refine map_ok_iff.trans ?_
        rw [← ih]
        constructor
        · rintro ⟨z, hz, he⟩
          cases he
          exact ⟨⟨dv, rfl, (e.ofDV_iff t dv _ hi).mp ho⟩, hz⟩
        · rintro ⟨⟨dv', h1, h2⟩, hz⟩
          cases h1
          rw [(e.ofDV_iff t dv x hi).mpr h2] at ho
          cases ho
          exact ⟨vs, hz, rfl⟩
  | .cons _ .opt e rest, .cons k t sub ks, h, d, (none, vs) => by
    have ih := C72_fromDict_iff rest ks h.2 d vs
    have hi := h.1.inDict
    rw [Fields.fromDict, Agrees, if_pos hi]
    cases hg : d.get k with
    | none =>
      simp only [true_and]
      refine map_ok_iff.trans ?_
      rw [← ih]
      constructor
      · rintro ⟨z, hz, he⟩; cases he; exact hz
      · intro hz; exact ⟨vs, hz, rfl⟩
    | some dv =>
      simp only [reduceCtorEq, false_and, iff_false]
      cases e.ofDV t dv with
      | none => simp
      | some y =>
        simp only
        intro hh
        obtain ⟨z, hz, he⟩ := map_ok_iff.mp hh
        cases he
  | .cons _ .opt e rest, .cons k t sub ks, h, d, (some x, vs) => by
    have ih := C72_fromDict_iff rest ks h.2 d vs
    have hi := h.1.inDict
    rw [Fields.fromDict, Agrees, if_pos hi]
    cases hg : d.get k with
    | none =>
      simp only [reduceCtorEq, false_and, exists_false, iff_false]
      intro hh
      obtain ⟨z, hz, he⟩ := map_ok_iff.mp hh
      cases he
    | some dv =>
      simp only
      cases ho : e.ofDV t dv with
      | none =>
        simp only [reduceCtorEq, false_iff]
        rintro ⟨⟨dv', h1, h2⟩, _⟩
        cases h1
        rw [(e.ofDV_iff t dv x hi).mpr h2] at ho
        cases ho
      | some y =>
        simp only
        refine map_ok_iff.trans ?_
        rw [← ih]
        constructor
        · rintro ⟨z, hz, he⟩
          cases he
          exact ⟨⟨dv, rfl, (e.ofDV_iff t dv _ hi).mp ho⟩, hz⟩
        · rintro ⟨⟨dv', h1, h2⟩, hz⟩
          cases h1
          rw [(e.ofDV_iff t dv x hi).mpr h2] at ho
          cases ho
          exact ⟨vs, hz, rfl⟩

theorem map_error_iff {ε α β : Type} {r : Except ε α} {f : α → β} {e : ε} : r.map f = .error e ↔ r = .error e := by
  cases r <;> simp [Except.map]

/-- C72: an error of `DictTo…` names a field whose entry has another type, or a required field without entry. -/
theorem C72_fromDict_error : ∀ (fs : Fields) (ks : Keys), Dictable fs ks → ∀ (d : Dict) (e : DErr), fs.fromDict ks d = .error e →
    (∃ k, e = .incompatible k ∧ WrongType fs ks d k) ∨ (∃ k, e = .skipRequired k ∧ Missing fs ks d k)
  | .nil, .nil, _, d, e, he => by rw [Fields.fromDict] at he; cases he; all_goals simp
  | .nil, .cons .., h, _, _, _ => h.elim
  | .flag _ _, .nil, h, _, _, _ => h.elim
  | .cons .., .nil, h, _, _, _ => by simp [Dictable] at h
  | .flag typ rest, .cons k t sub ks, h, d, e, he => by
    have ih := C72_fromDict_error rest ks h d e
    have go : rest.fromDict ks d = .error e → (∃ k', e = .incompatible k' ∧ WrongType (.flag typ rest) (.cons k t sub ks) d k') ∨
        (∃ k', e = .skipRequired k' ∧ Missing (.flag typ rest) (.cons k t sub ks) d k') := by
      intro h'
      rcases ih h' with ⟨k', h1, h2⟩ | ⟨k', h1, h2⟩
      · exact .inl ⟨k', h1, .inr h2⟩
      · exact .inr ⟨k', h1, h2⟩
    rw [Fields.fromDict] at he
    cases hg : d.get k with
    | none => rw [hg] at he; exact go (map_error_iff.mp he)
    | some dv =>
      rw [hg] at he
      by_cases hd : ∃ b', dv = .bool b'
      · obtain ⟨b', rfl⟩ := hd
        exact go (map_error_iff.mp he)
      · split at he
        · rename_i b' heq; exact absurd ⟨b', Option.some.inj heq⟩ hd
        · cases he
          exact .inl ⟨k, rfl, .inl ⟨rfl, dv, hg, fun b hb => hd ⟨b, hb⟩⟩⟩
        · rename_i heq; cases heq
  | .cons _ .seq e rest, .cons k t sub ks, h, d, _, _ => by cases e <;> exact h.1.elim
  | .cons typ .req el rest, .cons k t sub ks, h, d, e, he => by
    have ih := C72_fromDict_error rest ks h.2 d e
    have hi := h.1.inDict
    rw [Fields.fromDict, if_pos hi] at he
    cases hg : d.get k with
    | none => rw [hg] at he; cases he; exact .inr ⟨k, rfl, .inl ⟨rfl, rfl, hg⟩⟩
    | some dv =>
      rw [hg] at he
      simp only at he
      cases ho : el.ofDV t dv with
      | none =>
        rw [ho] at he
        cases he
        refine .inl ⟨k, rfl, .inl ⟨rfl, dv, hg, fun x hx => ?_⟩⟩
        rw [(el.ofDV_iff t dv x hi).mpr hx] at ho
        cases ho
      | some y =>
        rw [ho] at he
        rcases ih (map_error_iff.mp he) with ⟨k', h1, h2⟩ | ⟨k', h1, h2⟩
        · exact .inl ⟨k', h1, .inr h2⟩
        · exact .inr ⟨k', h1, .inr h2⟩
  | .cons typ .opt el rest, .cons k t sub ks, h, d, e, he => by
    have ih := C72_fromDict_error rest ks h.2 d e
    have hi := h.1.inDict
    have go : rest.fromDict ks d = .error e → (∃ k', e = .incompatible k' ∧ WrongType (.cons typ .opt el rest) (.cons k t sub ks) d k') ∨
        (∃ k', e = .skipRequired k' ∧ Missing (.cons typ .opt el rest) (.cons k t sub ks) d k') := by
      intro h'
      rcases ih h' with ⟨k', h1, h2⟩ | ⟨k', h1, h2⟩
      · exact .inl ⟨k', h1, .inr h2⟩
      · exact .inr ⟨k', h1, .inr h2⟩
    rw [Fields.fromDict, if_pos hi] at he
    cases hg : d.get k with
    | none => rw [hg] at he; exact go (map_error_iff.mp he)
    | some dv =>
      rw [hg] at he
      simp only at he
      cases ho : el.ofDV t dv with
      | none =>
        rw [ho] at he
        cases he
        refine .inl ⟨k, rfl, .inl ⟨rfl, dv, hg, fun x hx => ?_⟩⟩
        rw [(el.ofDV_iff t dv x hi).mpr hx] at ho
        cases ho
      | some y => rw [ho] at he; exact go (map_error_iff.mp he)

/-! ## There and back -/

/-- the dictionary has what `ToDict` stores -/
def Stored : (fs : Fields) → Keys → Dict → fs.V → Prop
  | .flag _ rest, .cons k _ _ ks, d, (b, vs) => d.get k = some (.bool b) ∧ Stored rest ks d vs
  | .cons _ .req e rest, .cons k _ sub ks, d, (x, vs) => d.get k = e.toDV sub x ∧ Stored rest ks d vs
  | .cons _ .opt e rest, .cons k _ sub ks, d, (some x, vs) => d.get k = e.toDV sub x ∧ Stored rest ks d vs
  | .cons _ .opt _ rest, .cons k _ _ ks, d, (none, vs) => d.get k = none ∧ Stored rest ks d vs
  | _, _, _, _ => True

theorem toDict_get : ∀ (fs : Fields) (ks : Keys), Dictable fs ks → ∀ (v : fs.V) (d : Dict) (k : String), k ∉ ks.list → (fs.toDict ks v d).get k = d.get k
  | .nil, .nil, _, _, _, _, _ => rfl
  | .nil, .cons .., h, _, _, _, _ => h.elim
  | .flag _ _, .nil, h, _, _, _, _ => h.elim
  | .cons .., .nil, h, _, _, _, _ => by simp [Dictable] at h
  | .cons _ .seq e rest, .cons .., h, _, _, _, _ => by cases e <;> exact h.1.elim
  | .flag _ rest, .cons k t sub ks, h, (b, vs), d, k', hk => by
    rw [Keys.list, List.mem_cons, not_or] at hk
    rw [Fields.toDict, toDict_get rest ks h vs _ k' hk.2, Dict.get_put, if_neg (Ne.symm hk.1)]
  | .cons _ .req e rest, .cons k t sub ks, h, (x, vs), d, k', hk => by
    rw [Keys.list, List.mem_cons, not_or] at hk
    rw [Fields.toDict]
    split
    · rw [toDict_get rest ks h.2 vs _ k' hk.2, Dict.get_put, if_neg (Ne.symm hk.1)]
    · rw [toDict_get rest ks h.2 vs _ k' hk.2]
  | .cons _ .opt e rest, .cons k t sub ks, h, (some x, vs), d, k', hk => by
    rw [Keys.list, List.mem_cons, not_or] at hk
    rw [Fields.toDict]
    split
    · rw [toDict_get rest ks h.2 vs _ k' hk.2, Dict.get_put, if_neg (Ne.symm hk.1)]
    · rw [toDict_get rest ks h.2 vs _ k' hk.2]
  | .cons _ .opt e rest, .cons k t sub ks, h, (none, vs), d, k', hk => by
    rw [Keys.list, List.mem_cons, not_or] at hk
    rw [Fields.toDict, toDict_get rest ks h.2 vs _ k' hk.2]

theorem toDict_stored : ∀ (fs : Fields) (ks : Keys), Dictable fs ks → ks.list.Nodup → ∀ (v : fs.V) (d : Dict), (∀ k ∈ ks.list, d.get k = none) →
    Stored fs ks (fs.toDict ks v d) v
  | .nil, .nil, _, _, _, _, _ => trivial
  | .nil, .cons .., h, _, _, _, _ => h.elim
  | .flag _ _, .nil, h, _, _, _, _ => h.elim
  | .cons .., .nil, h, _, _, _, _ => by simp [Dictable] at h
  | .cons _ .seq e rest, .cons .., h, _, _, _, _ => by cases e <;> exact h.1.elim
  | .flag _ rest, .cons k t sub ks, h, hn, (b, vs), d, hk => by
    rw [Keys.list, List.nodup_cons] at hn
    rw [Fields.toDict, Stored]
    refine ⟨by rw [toDict_get rest ks h vs _ k hn.1, Dict.get_put, if_pos rfl], toDict_stored rest ks h hn.2 vs _ ?_⟩
    intro k' hk'
    rw [Dict.get_put, if_neg (show ¬ k = k' from fun e => hn.1 (e ▸ hk'))]
    exact hk k' (List.mem_cons_of_mem _ hk')
  | .cons _ .req e rest, .cons k t sub ks, h, hn, (x, vs), d, hk => by
    rw [Keys.list, List.nodup_cons] at hn
    rw [Fields.toDict, Stored]
    split
    · rename_i y hy
      refine ⟨by rw [toDict_get rest ks h.2 vs _ k hn.1, Dict.get_put, if_pos rfl, hy], toDict_stored rest ks h.2 hn.2 vs _ ?_⟩
      intro k' hk'
      rw [Dict.get_put, if_neg (show ¬ k = k' from fun e => hn.1 (e ▸ hk'))]
      exact hk k' (List.mem_cons_of_mem _ hk')
    · rename_i hy
      exact ⟨by rw [toDict_get rest ks h.2 vs _ k hn.1, hy, hk k List.mem_cons_self], toDict_stored rest ks h.2 hn.2 vs _
        fun k' hk' => hk k' (List.mem_cons_of_mem _ hk')⟩
  | .cons _ .opt e rest, .cons k t sub ks, h, hn, (some x, vs), d, hk => by
    rw [Keys.list, List.nodup_cons] at hn
    rw [Fields.toDict, Stored]
    split
    · rename_i y hy
      refine ⟨by rw [toDict_get rest ks h.2 vs _ k hn.1, Dict.get_put, if_pos rfl, hy], toDict_stored rest ks h.2 hn.2 vs _ ?_⟩
      intro k' hk'
      rw [Dict.get_put, if_neg (show ¬ k = k' from fun e => hn.1 (e ▸ hk'))]
      exact hk k' (List.mem_cons_of_mem _ hk')
    · rename_i hy
      exact ⟨by rw [toDict_get rest ks h.2 vs _ k hn.1, hy, hk k List.mem_cons_self], toDict_stored rest ks h.2 hn.2 vs _
        fun k' hk' => hk k' (List.mem_cons_of_mem _ hk')⟩
  | .cons _ .opt e rest, .cons k t sub ks, h, hn, (none, vs), d, hk => by
    rw [Keys.list, List.nodup_cons] at hn
    rw [Fields.toDict, Stored]
    exact ⟨by rw [toDict_get rest ks h.2 vs _ k hn.1, hk k List.mem_cons_self], toDict_stored rest ks h.2 hn.2 vs _
      fun k' hk' => hk k' (List.mem_cons_of_mem _ hk')⟩

theorem Elem.toDV_holds (e : Elem) (sub : Keys) (t : String) (x : e.V) (hi : e.inDict = true) (hs : ∀ fs, e ≠ .struct fs) :
    ∃ dv, e.toDV sub x = some dv ∧ e.Holds t dv x := by
  cases e with
  | time => cases hi
  | wire => cases hi
  | struct fs => exact absurd rfl (hs fs)
  | _ => exact ⟨_, rfl, rfl⟩

theorem stored_agrees : ∀ (fs : Fields) (ks : Keys), Dictable fs ks → ∀ (d : Dict) (v : fs.V), Stored fs ks d v → Flat fs v → Agrees fs ks d v
  | .nil, .nil, _, _, _, _, _ => trivial
  | .nil, .cons .., h, _, _, _, _ => h.elim
  | .flag _ _, .nil, h, _, _, _, _ => h.elim
  | .cons .., .nil, h, _, _, _, _ => by simp [Dictable] at h
  | .cons _ .seq e rest, .cons .., h, _, _, _, _ => by cases e <;> exact h.1.elim
  | .flag _ rest, .cons k t sub ks, h, d, (b, vs), hs, hf => ⟨.inl hs.1, stored_agrees rest ks h d vs hs.2 hf⟩
  | .cons _ .req e rest, .cons k t sub ks, h, d, (x, vs), hs, hf => by
    have hne : ∀ fs, e ≠ .struct fs := by rintro fs rfl; exact h.1
    obtain ⟨dv, h1, h2⟩ := e.toDV_holds sub t x h.1.inDict hne
    refine ⟨⟨dv, hs.1.trans h1, h2⟩, stored_agrees rest ks h.2 d vs hs.2 ?_⟩
    cases e <;> exact hf
  | .cons _ .opt e rest, .cons k t sub ks, h, d, (some x, vs), hs, hf => by
    have hne : ∀ fs, e ≠ .struct fs := by rintro fs rfl; exact absurd hf.1 (by simp)
    obtain ⟨dv, h1, h2⟩ := e.toDV_holds sub t x h.1.inDict hne
    refine ⟨⟨dv, hs.1.trans h1, h2⟩, stored_agrees rest ks h.2 d vs hs.2 ?_⟩
    cases e <;> first | exact hf | exact hf.2
  | .cons _ .opt e rest, .cons k t sub ks, h, d, (none, vs), hs, hf => by
    refine ⟨hs.1, stored_agrees rest ks h.2 d vs hs.2 ?_⟩
    cases e <;> first | exact hf | exact hf.2

/-- C72, first half (partial: no nested struct is set): `DictTo…` of `ToDict` is the struct. -/
theorem C72_roundtrip_partial (fs : Fields) (ks : Keys) (hd : Dictable fs ks) (hk : ks.list.Nodup) (v : fs.V) (hv : Flat fs v) :
    fs.fromDict ks (fs.toDict ks v []) = .ok v :=
  (C72_fromDict_iff fs ks hd _ v).mpr (stored_agrees fs ks hd _ v (toDict_stored fs ks hd hk v [] fun _ _ => rfl) hv)

theorem stored_nested : ∀ (fs : Fields) (ks : Keys), Dictable fs ks → ∀ (d : Dict) (v : fs.V), Stored fs ks d v → ¬ Flat fs v →
    ∃ k ∈ ks.list, fs.fromDict ks d = .error (.incompatible k)
  | .nil, .nil, _, _, _, _, hf => absurd trivial hf
  | .nil, .cons .., h, _, _, _, _ => h.elim
  | .flag _ _, .nil, h, _, _, _, _ => h.elim
  | .cons .., .nil, h, _, _, _, _ => by simp [Dictable] at h
  | .cons _ .seq e rest, .cons .., h, _, _, _, _ => by cases e <;> exact h.1.elim
  | .flag _ rest, .cons k t sub ks, h, d, (b, vs), hs, hf => by
    obtain ⟨k', h1, h2⟩ := stored_nested rest ks h d vs hs.2 hf
    refine ⟨k', List.mem_cons_of_mem _ h1, ?_⟩
    rw [Fields.fromDict, hs.1]
    exact map_error_iff.mpr h2
  | .cons _ .req e rest, .cons k t sub ks, h, d, (x, vs), hs, hf => by
    have hne : ∀ fs, e ≠ .struct fs := by rintro fs rfl; exact h.1
    obtain ⟨dv, g1, g2⟩ := e.toDV_holds sub t x h.1.inDict hne
    have hf' : ¬ Flat rest vs := by cases e <;> exact hf
    obtain ⟨k', h1, h2⟩ := stored_nested rest ks h.2 d vs hs.2 hf'
    refine ⟨k', List.mem_cons_of_mem _ h1, ?_⟩
    rw [Fields.fromDict, if_pos h.1.inDict, hs.1, g1]
    simp only
    rw [(e.ofDV_iff t dv x h.1.inDict).mpr g2]
    exact map_error_iff.mpr h2
  | .cons _ .opt e rest, .cons k t sub ks, h, d, (some x, vs), hs, hf => by
    rw [Fields.fromDict, if_pos h.1.inDict, hs.1]
    by_cases hst : ∃ fs, e = .struct fs
    · obtain ⟨fs, rfl⟩ := hst
      exact ⟨k, List.mem_cons_self, rfl⟩
    · have hne : ∀ fs, e ≠ .struct fs := fun fs h => hst ⟨fs, h⟩
      obtain ⟨dv, g1, g2⟩ := e.toDV_holds sub t x h.1.inDict hne
      have hf' : ¬ Flat rest vs := by
        cases e <;> first | exact hf | exact absurd rfl (hne _)
      obtain ⟨k', h1, h2⟩ := stored_nested rest ks h.2 d vs hs.2 hf'
      refine ⟨k', List.mem_cons_of_mem _ h1, ?_⟩
      rw [g1]
      simp only
      rw [(e.ofDV_iff t dv x h.1.inDict).mpr g2]
      exact map_error_iff.mpr h2
  | .cons _ .opt e rest, .cons k t sub ks, h, d, (none, vs), hs, hf => by
    have hf' : ¬ Flat rest vs := by
      cases e <;> first | exact hf | exact fun hh => hf ⟨rfl, hh⟩
    obtain ⟨k', h1, h2⟩ := stored_nested rest ks h.2 d vs hs.2 hf'
    refine ⟨k', List.mem_cons_of_mem _ h1, ?_⟩
    rw [Fields.fromDict, if_pos h.1.inDict, hs.1]
    exact map_error_iff.mpr h2

/-- C72 fails whenever a nested struct is set: `ToDict` stores a dictionary for it, `DictTo…` wants a pointer. -/
theorem C72_nested_violated (fs : Fields) (ks : Keys) (hd : Dictable fs ks) (hk : ks.list.Nodup) (v : fs.V) (hv : ¬ Flat fs v) :
    ∃ k ∈ ks.list, fs.fromDict ks (fs.toDict ks v []) = .error (.incompatible k) :=
  stored_nested fs ks hd _ v (toDict_stored fs ks hd hk v [] fun _ _ => rfl) hv

/-- C72 fails for times and for values in several buffers: nothing is generated for them, so that such a field is absent from the dictionary of every struct and
zero in the struct of every dictionary. -/
theorem C72_unsupported_violated (typ : Nat) (rest : Fields) (k t : String) (sub ks : Keys) (vs : rest.V) (d : Dict) :
    (∀ x : Int, (Fields.cons typ .req .time rest).toDict (.cons k t sub ks) (x, vs) d = rest.toDict ks vs d) ∧
    (∀ x : Wire, (Fields.cons typ .req .wire rest).toDict (.cons k t sub ks) (x, vs) d = rest.toDict ks vs d) ∧
    (∀ x : Int, (Fields.cons typ .opt .time rest).toDict (.cons k t sub ks) (some x, vs) d = rest.toDict ks vs d) ∧
    (∀ x : Wire, (Fields.cons typ .opt .wire rest).toDict (.cons k t sub ks) (some x, vs) d = rest.toDict ks vs d) ∧
    (rest.fromDict ks d = .ok vs →
      (Fields.cons typ .req .time rest).fromDict (.cons k t sub ks) d = .ok ((0 : Int), vs) ∧
      (Fields.cons typ .req .wire rest).fromDict (.cons k t sub ks) d = .ok (([] : Wire), vs) ∧
      (Fields.cons typ .opt .time rest).fromDict (.cons k t sub ks) d = .ok (none, vs) ∧
      (Fields.cons typ .opt .wire rest).fromDict (.cons k t sub ks) d = .ok (none, vs)) := by
  refine ⟨fun x => rfl, fun x => rfl, fun x => rfl, fun x => rfl, fun h => ?_⟩
  simp only [Fields.fromDict, Elem.inDict, h]
  exact ⟨rfl, rfl, rfl, rfl⟩

/-- C72: an entry under another name is ignored, so that a misspelt argument is taken as absent. -/
theorem C72_other_ignored : ∀ (fs : Fields) (ks : Keys), Dictable fs ks → ∀ (d : Dict) (k : String) (dv : DV), k ∉ ks.list →
    fs.fromDict ks (d.put k dv) = fs.fromDict ks d
  | .nil, .nil, _, _, _, _, _ => rfl
  | .nil, .cons .., h, _, _, _, _ => h.elim
  | .flag _ _, .nil, h, _, _, _, _ => h.elim
  | .cons .., .nil, h, _, _, _, _ => by simp [Dictable] at h
  | .cons _ .seq e rest, .cons .., h, _, _, _, _ => by cases e <;> exact h.1.elim
  | .flag _ rest, .cons k' t sub ks, h, d, k, dv, hk => by
    rw [Keys.list, List.mem_cons, not_or] at hk
    rw [Fields.fromDict, Fields.fromDict, Dict.get_put, if_neg hk.1, C72_other_ignored rest ks h d k dv hk.2]
  | .cons _ .req e rest, .cons k' t sub ks, h, d, k, dv, hk => by
    rw [Keys.list, List.mem_cons, not_or] at hk
    rw [Fields.fromDict, Fields.fromDict, Dict.get_put, if_neg hk.1, C72_other_ignored rest ks h.2 d k dv hk.2]
  | .cons _ .opt e rest, .cons k' t sub ks, h, d, k, dv, hk => by
    rw [Keys.list, List.mem_cons, not_or] at hk
    rw [Fields.fromDict, Fields.fromDict, Dict.get_put, if_neg hk.1, C72_other_ignored rest ks h.2 d k dv hk.2]

/-! ## Commands -/

open Schema

theorem controlArgs_dictable : Dictable controlArgs controlArgsKeys ∧ controlArgsKeys.list.Nodup :=
  ⟨by simp [controlArgs, controlArgsKeys, Dictable, DictField], by decide⟩

theorem controlResponseVal_dictable : Dictable controlResponseVal controlResponseValKeys ∧ controlResponseValKeys.list.Nodup :=
  ⟨by simp [controlResponseVal, controlResponseValKeys, Dictable, DictField], by decide⟩

theorem strategy_dictable : Dictable strategy strategyKeys ∧ strategyKeys.list.Nodup :=
  ⟨by simp [strategy, strategyKeys, Dictable, DictField], by decide⟩

/-- the arguments of setting a strategy, and of registering a route with a cost -/
def strategyArgs : controlArgs.V :=
  (some [⟨8, [97]⟩], none, none, none, none, none, none, none, none, none, some (some [⟨8, [98]⟩], ()), none, none, none, none, none, ())
def costArgs : controlArgs.V :=
  (some [⟨8, [97]⟩], some (7 : Nat), none, none, none, some (10 : Nat), none, none, none, none, none, none, none, none, none, none, ())

example : Flat controlArgs costArgs ∧ ¬ Flat controlArgs strategyArgs := by
  constructor
  · simp [Flat, controlArgs, costArgs]
  · simp [Flat, controlArgs, strategyArgs]

/-- the dictionary of `costArgs`, and one that has an `int` in place of a `uint64` -/
example : (controlArgs.toDict controlArgsKeys costArgs []).get "Cost" = some (.uint 8 10) ∧
    WrongType controlArgs controlArgsKeys [("FaceId", .other 0)] "FaceId" ∧ Missing controlResponseVal controlResponseValKeys [] "StatusText" := by
  refine ⟨?_, .inr (.inl ⟨rfl, .other 0, rfl, ?_⟩), .inr (.inl ⟨rfl, rfl, rfl⟩)⟩
  · rfl
  · intro x h; cases h

end Ndn.Codec

namespace Ndn.Engine
open Ndn.Codec Ndn.Codec.Schema Ndn.Packet

/-- C72 for commands: from a dictionary one gets the command with the arguments that the dictionary says, or an error if it says none. -/
theorem C72_command (sha : Bytes → Bytes) (isLocal : Bool) (signer : Signer) (mod cmd : Bytes) (args : Dict) (config : InterestConfig) :
    (∀ v, Agrees controlArgs controlArgsKeys args v →
      makeCmdDict sha isLocal signer mod cmd args config = .ok (makeCmd sha isLocal signer mod cmd (some v) config)) ∧
    ((∀ v, ¬ Agrees controlArgs controlArgsKeys args v) → ∃ k, WrongType controlArgs controlArgsKeys args k ∧
      makeCmdDict sha isLocal signer mod cmd args config = .error (.incompatible k)) := by
  have hd := controlArgs_dictable.1
  constructor
  · intro v hv
    rw [makeCmdDict, (C72_fromDict_iff _ _ hd _ v).mpr hv]
    rfl
  · intro hv
    cases h : controlArgs.fromDict controlArgsKeys args with
    | ok v => exact absurd ((C72_fromDict_iff _ _ hd _ v).mp h) (hv v)
    | error e =>
      rcases C72_fromDict_error _ _ hd _ _ h with ⟨k, rfl, hk⟩ | ⟨k, _, hk⟩
      · exact ⟨k, hk, by rw [makeCmdDict, h]; rfl⟩
      · simp [Missing, controlArgs, controlArgsKeys] at hk

/-- C72 fails for the command that sets a strategy: its arguments, put in a dictionary by `ToDict`, are refused. -/
theorem C72_strategy_violated (sha : Bytes → Bytes) (isLocal : Bool) (signer : Signer) (mod cmd : Bytes) (config : InterestConfig) :
    makeCmdDict sha isLocal signer mod cmd (controlArgs.toDict controlArgsKeys strategyArgs []) config = .error (.incompatible "Strategy") := by
  have h : controlArgs.fromDict controlArgsKeys (controlArgs.toDict controlArgsKeys strategyArgs []) = .error (.incompatible "Strategy") := by rfl
  rw [makeCmdDict, h]
  rfl

/-- a dictionary with a pointer to a strategy -/
example : Agrees controlArgs controlArgsKeys [("Name", .name [⟨8, [97]⟩]), ("Strategy", .ptr "Strategy" strategy (some [⟨8, [98]⟩], ()))] strategyArgs := by
  simp [Agrees, controlArgs, controlArgsKeys, strategyArgs, Dict.get]
  exact ⟨rfl, rfl⟩

end Ndn.Engine
