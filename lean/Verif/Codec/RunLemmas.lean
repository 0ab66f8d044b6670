import Verif.Codec.Stands
import Verif.Codec.EncLemmas
import Verif.Enc.PrimLemmas

/-! # Running the emitted encoder (lemmas) -/

namespace Ndn.Codec.Gen

theorem bind_assoc {α β γ : Type} (x : Res α) (f : α → Res β) (g : β → Res γ) : (x.bind f).bind g = x.bind fun a => (f a).bind g := by
  cases x <;> rfl

theorem exec_append (call : Call) (a b : Code) : ∀ s, (a ++ b).exec call s = (a.exec call s).bind (b.exec call) := by
  show ∀ s, (a.append b).exec call s = _
  induction a with
  | done => intro s; rfl
  | atom x k ih => intro s; simp only [Code.append, Code.exec, bind_assoc]; congr 1; funext s1; exact ih s1
  | cond c d k _ ih => intro s; simp only [Code.append, Code.exec, bind_assoc]; congr 1; funext t; congr 1; funext s1; exact ih s1
  | switch e b1 b2 b3 c1 c2 c3 c4 k _ _ _ _ ih =>
    intro s; simp only [Code.append, Code.exec, bind_assoc]; congr 1; funext n; congr 1; funext s1; exact ih s1
  | each v e d k _ ih => intro s; simp only [Code.append, Code.exec, bind_assoc]; congr 1; funext g; congr 1; funext l; congr 1; funext s1; exact ih s1
  | items e d k _ ih => intro s; simp only [Code.append, Code.exec, bind_assoc]; congr 1; funext g; congr 1; funext l; congr 1; funext s1; exact ih s1
  | times v d k _ ih =>
    intro s; simp only [Code.append, Code.exec]
    cases s.vars v <;> try rfl
    simp only [bind_assoc]; congr 1; funext s1; exact ih s1
  | block d k _ ih => intro s; simp only [Code.append, Code.exec, bind_assoc]; congr 1; funext s1; exact ih s1

theorem decls_append (a b : Code) : (a ++ b).decls = a.decls ++ b.decls := by
  show (a.append b).decls = _
  induction a with
  | done => rfl
  | atom x k ih => cases x <;> simp [Code.append, Code.decls, ih]
  | cond c d k _ ih => simpa [Code.append, Code.decls] using ih
  | switch e b1 b2 b3 c1 c2 c3 c4 k _ _ _ _ ih => simpa [Code.append, Code.decls] using ih
  | each v e d k _ ih => simpa [Code.append, Code.decls] using ih
  | items e d k _ ih => simpa [Code.append, Code.decls] using ih
  | times v d k _ ih => simpa [Code.append, Code.decls] using ih
  | block d k _ ih => simpa [Code.append, Code.decls] using ih

theorem exec_of (call : Call) (a : Atom) (s : S) : (Code.of a).exec call s = a.exec call s := by
  simp only [Code.of, Code.exec]; cases a.exec call s <;> rfl

/-! ## Variables -/

theorem upd_same (vs : Var → GV) (v : Var) (g : GV) : upd vs v g v = g := by simp [upd]

theorem upd_other (vs : Var → GV) {u v : Var} (g : GV) (h : u ≠ v) : upd vs v g u = vs u := by simp [upd, h]

theorem upd_upd (vs : Var → GV) (v : Var) (g g' : GV) : upd (upd vs v g) v g' = upd vs v g' := by
  funext u; simp only [upd]; split <;> rfl

theorem upd_self (vs : Var → GV) (v : Var) (g : GV) (h : vs v = g) : upd vs v g = vs := by
  funext u; simp only [upd]; split
  · rename_i e; rw [e, h]
  · rfl

/-- leaving a block that changed one variable from outside, some that are its own, and memory -/
theorem leave_vars (ds : List Var) (s s' : S) (v : Var) (g : GV) (hv : v ∉ ds) (h : ∀ u, u ∉ ds → s'.vars u = upd s.vars v g u) :
    leave ds s s' = { s' with vars := upd s.vars v g } := by
  unfold leave
  congr 1
  funext u
  by_cases hu : u ∈ ds
  · rw [if_pos hu, upd_other]; intro e; exact hv (e ▸ hu)
  · rw [if_neg hu, h u hu]

/-- leaving a block that changed only its own variables -/
theorem leave_own (ds : List Var) (s s' : S) (h : ∀ u, u ∉ ds → s'.vars u = s.vars u) : leave ds s s' = { s' with vars := s.vars } := by
  unfold leave
  congr 1
  funext u
  by_cases hu : u ∈ ds
  · rw [if_pos hu]
  · rw [if_neg hu, h u hu]

/-! ## Code that adds to `l` -/

/-- the code adds `n` to `l`, for the given memory, encoder and value -/
def Adds (call : Call) (cells : Path → Nat) (p : Path) (kvs : List (Txt × GV)) (c : Code) (n : Nat) : Prop :=
  ∀ (s : S) (a : Nat), s.cells = cells → s.vars .encoder = .ref p → s.vars .value = .ptr (.struct kvs) → s.vars .l = .num a → a + n < 2 ^ 64 →
    c.exec call s = .ok { s with vars := upd s.vars .l (.num (a + n)) }

variable {call : Call} {cells : Path → Nat} {p : Path} {kvs : List (Txt × GV)}

theorem Adds.done : Adds call cells p kvs .done 0 := by
  intro s a _ _ _ hl _
  show Res.ok s = _
  rw [Nat.add_zero, upd_self _ _ _ hl]

theorem Adds.congr {c : Code} {n m : Nat} (h : Adds call cells p kvs c n) (e : n = m) : Adds call cells p kvs c m := e ▸ h

theorem Adds.append {c d : Code} {n m : Nat} (hc : Adds call cells p kvs c n) (hd : Adds call cells p kvs d m) :
    Adds call cells p kvs (c ++ d) (n + m) := by
  intro s a h1 h2 h3 h4 h5
  rw [exec_append, hc s a h1 h2 h3 h4 (by omega)]
  show d.exec call _ = _
  rw [hd { s with vars := upd s.vars .l (.num (a + n)) } (a + n) h1 (by simpa [upd] using h2) (by simpa [upd] using h3) (by simp [upd]) (by omega)]
  simp only [upd_upd, Nat.add_assoc]

theorem evalNum_of {s : S} {e : Ex} {n : Nat} (h : e.eval s = .ok (.num n)) : e.evalNum s = .ok n := by simp only [Ex.evalNum, h, Res.bind]

/-- the expression is a number, for the given memory, encoder and value -/
def IsNum (cells : Path → Nat) (p : Path) (kvs : List (Txt × GV)) (e : Ex) (n : Nat) : Prop :=
  ∀ s : S, s.cells = cells → s.vars .encoder = .ref p → s.vars .value = .ptr (.struct kvs) → e.eval s = .ok (.num n)

theorem Adds.inc {e : Ex} {n : Nat} (h : IsNum cells p kvs e n) : Adds call cells p kvs (.of (.inc .l e)) n := by
  intro s a h1 h2 h3 h4 h5
  rw [exec_of]
  simp only [Atom.exec, evalNum_of (h s h1 h2 h3), Res.bind, h4, Nat.mod_eq_of_lt h5]

theorem IsNum.num (n : Nat) : IsNum cells p kvs (.num n) n := fun _ _ _ _ => rfl

theorem Adds.typeNum (t : Nat) : Adds call cells p kvs (typeNumLen t) (tlLen t) := (Adds.inc (IsNum.num _)).congr rfl

theorem Adds.natural {e : Ex} {n : Nat} (h : IsNum cells p kvs e n) (isTlv : Bool) :
    Adds call cells p kvs (naturalLen e isTlv) (if isTlv then tlLen n else 1 + natW n) := by
  intro s a h1 h2 h3 h4 h5
  have key : ∀ k, a + k < 2 ^ 64 → ((Code.of (.inc .l (.num k))).exec call { s with vars := upd s.vars .x (.num n) }).map
      (leave (.x :: (Code.of (.inc .l (.num k))).decls) s) = .ok { s with vars := upd s.vars .l (.num (a + k)) } := by
    intro k hk
    rw [exec_of]
    simp only [Atom.exec, Ex.evalNum, Ex.eval, Res.bind]
    rw [show upd s.vars .x (.num n) .l = .num a by rw [upd_other _ _ (by decide)]; exact h4]
    simp only [Nat.mod_eq_of_lt hk, Res.map]
    rw [leave_vars _ _ _ .l (.num (a + k)) (by simp [Code.of, Code.decls])]
    intro u hu
    have hux : u ≠ .x := fun e => hu (by simp [e])
    simp [upd, hux]
  simp only [naturalLen, Code.exec, evalNum_of (h s h1 h2 h3), Res.bind]
  cases isTlv
  · simp only [Bool.false_eq_true, if_false, natW] at h5 ⊢
    split at h5
    · rw [if_pos ‹_›, if_pos ‹_›, key 2 h5]
    · split at h5
      · rw [if_neg ‹_›, if_pos ‹_›, key 3 h5, if_neg ‹_›, if_pos ‹_›]
      · split at h5
        · rw [if_neg ‹_›, if_neg ‹_›, if_pos ‹_›, key 5 h5, if_neg ‹_›, if_neg ‹_›, if_pos ‹_›]
        · rw [if_neg ‹_›, if_neg ‹_›, if_neg ‹_›, key 9 h5, if_neg ‹_›, if_neg ‹_›, if_neg ‹_›]
  · simp only [if_true, tlLen] at h5 ⊢
    split at h5
    · rw [if_pos ‹_›, if_pos ‹_›, key 1 h5]
    · split at h5
      · rw [if_neg ‹_›, if_pos ‹_›, key 3 h5, if_neg ‹_›, if_pos ‹_›]
      · split at h5
        · rw [if_neg ‹_›, if_neg ‹_›, if_pos ‹_›, key 5 h5, if_neg ‹_›, if_neg ‹_›, if_pos ‹_›]
        · rw [if_neg ‹_›, if_neg ‹_›, if_neg ‹_›, key 9 h5, if_neg ‹_›, if_neg ‹_›, if_neg ‹_›]

theorem fieldOfValue_eq {s : S} {f : Txt} {g : GV} (h3 : s.vars .value = .ptr (.struct kvs)) (hf : lookup f kvs = some g) : fieldOfValue s f = .ok g := by
  simp only [fieldOfValue, h3, hf]

/-- `if c { … }` with a condition of known value -/
theorem Adds.cond {c : Cond} {b : Code} {n : Nat} (t : Bool) (hc : ∀ s : S, s.cells = cells → s.vars .encoder = .ref p →
      s.vars .value = .ptr (.struct kvs) → c.eval s = .ok t) (hd : Var.l ∉ b.decls) (hb : t = true → Adds call cells p kvs b n) :
    Adds call cells p kvs (.cond c b .done) (if t then n else 0) := by
  intro s a h1 h2 h3 h4 h5
  simp only [Code.exec, hc s h1 h2 h3, Res.bind]
  cases t
  · simp only [Bool.false_eq_true, if_false, Nat.add_zero]; rw [upd_self _ _ _ h4]
  · simp only [if_true] at h5 ⊢
    rw [hb rfl s a h1 h2 h3 h4 h5]
    simp only [Res.map]
    rw [leave_vars _ _ _ .l (.num (a + n)) hd (fun u _ => rfl)]

/-- the value of a field that is not nil -/
def GV.isNil : GV → Bool
  | .nil => true
  | _ => false

theorem notNil_eval {f : Txt} {g : GV} (hf : lookup f kvs = some g) (s : S) (h3 : s.vars .value = .ptr (.struct kvs)) :
    (Cond.notNil f).eval s = .ok (!g.isNil) := by
  simp only [Cond.eval, fieldOfValue_eq h3 hf, Res.map]; cases g <;> rfl

/-! ## Code that writes at `pos` -/

/-- the code writes `bs` at `pos` if there is room -/
def Puts (call : Call) (cells : Path → Nat) (p : Path) (kvs : List (Txt × GV)) (c : Code) (bs : Bytes) : Prop :=
  ∀ (s : S) (off a : Nat), s.cells = cells → s.vars .encoder = .ref p → s.vars .value = .ptr (.struct kvs) → s.vars .buf = .slice off →
    s.vars .pos = .num a → off + a + bs.length ≤ s.mem.length → s.mem.length < 2 ^ 64 →
    c.exec call s = .ok { s with mem := splice s.mem (off + a) bs, vars := upd s.vars .pos (.num (a + bs.length)) }

theorem Puts.done : Puts call cells p kvs .done [] := by
  intro s off a _ _ _ _ hp _ _
  show Res.ok s = _
  rw [splice_nil, List.length_nil, Nat.add_zero, upd_self _ _ _ hp]

theorem Puts.congr {c : Code} {a b : Bytes} (h : Puts call cells p kvs c a) (e : a = b) : Puts call cells p kvs c b := e ▸ h

theorem Puts.append {c d : Code} {x y : Bytes} (hc : Puts call cells p kvs c x) (hd : Puts call cells p kvs d y) :
    Puts call cells p kvs (c ++ d) (x ++ y) := by
  intro s off a h1 h2 h3 h4 h5 h6 h7
  have h6' := h6
  rw [List.length_append] at h6
  rw [exec_append, hc s off a h1 h2 h3 h4 h5 (by omega) h7]
  show d.exec call _ = _
  rw [hd { s with mem := splice s.mem (off + a) x, vars := upd s.vars .pos (.num (a + x.length)) } off (a + x.length) h1 (by simpa [upd] using h2) (by simpa [upd] using h3)
    (by simpa [upd] using h4) (by simp [upd]) (by simp only; rw [splice_length (by omega)]; omega)
    (by simp only; rw [splice_length (by omega)]; exact h7)]
  simp only [upd_upd, ← Nat.add_assoc, List.length_append]
  rw [splice_splice (by rw [List.length_append]; omega)]

theorem be_mod (n v : Nat) : be n (v % 256 ^ n) = be n v := by
  have := be_beVal (be n v)
  rwa [be_length, beVal_be] at this

theorem u8_mod (n : Nat) : UInt8.ofNat (n % 2 ^ 8) = UInt8.ofNat n := by
  apply UInt8.toNat.inj; simp

theorem Ty.be_bits (t : Ty) (n : Nat) : be (t.bits / 8) (n % 2 ^ t.bits) = be (t.bits / 8) n := by
  cases t
  · exact be_mod 1 n
  · exact be_mod 2 n
  · exact be_mod 4 n
  · exact be_mod 8 n
  · exact be_mod 8 n

/-- the expression is a number whatever is in the buffer -/
def Steady (s : S) (e : Ex) (n : Nat) : Prop := ∀ mem : Bytes, e.eval { s with mem := mem } = .ok (.num n)

theorem exec_poke {s : S} {off a : Nat} (hb : s.vars .buf = .slice off) (hp : s.vars .pos = .num a) {e : Ex} {n : Nat} (he : Steady s e n) (next : Bool)
    (mem : Bytes) (hm : off + a + (if next then 1 else 0) + 1 ≤ mem.length) :
    (Code.of (.poke next e)).exec call { s with mem := mem } =
      .ok { s with mem := splice mem (off + a + if next then 1 else 0) [UInt8.ofNat n] } := by
  rw [exec_of]
  simp only [Atom.exec, evalNum_of (he mem), Res.bind, S.cursor, hb, hp, store]
  rw [if_pos (by simpa using hm)]; rfl

theorem exec_putBE {s : S} {off a : Nat} (hb : s.vars .buf = .slice off) (hp : s.vars .pos = .num a) {e : Ex} {n : Nat} (he : Steady s e n) (t : Ty)
    (mem : Bytes) (hm : off + a + 1 + t.bits / 8 ≤ mem.length) :
    (Code.of (.putBE t e)).exec call { s with mem := mem } = .ok { s with mem := splice mem (off + a + 1) (be (t.bits / 8) n) } := by
  rw [exec_of]
  simp only [Atom.exec, evalNum_of (he mem), Res.bind, S.cursor, hb, hp, store, t.be_bits]
  rw [if_pos (by simpa using hm)]; rfl

theorem exec_inc {s : S} {a : Nat} (hp : s.vars .pos = .num a) (k : Nat) (hk : a + k < 2 ^ 64) (mem : Bytes) :
    (Code.of (.inc .pos (.num k))).exec call { s with mem := mem } = .ok { s with mem := mem, vars := upd s.vars .pos (.num (a + k)) } := by
  rw [exec_of]
  simp only [Atom.exec, Ex.evalNum, Ex.eval, Res.bind, hp, Nat.mod_eq_of_lt hk]

/-- a byte and a number after it -/
theorem exec_head_be {s : S} {off a : Nat} (hb : s.vars .buf = .slice off) (hp : s.vars .pos = .num a) {e0 e : Ex} {n0 n : Nat} (h0 : Steady s e0 n0)
    (he : Steady s e n) (t : Ty) (k : Nat) (hk : k = 1 + t.bits / 8) (hm : off + a + k ≤ s.mem.length) (hl : s.mem.length < 2 ^ 64) :
    (Code.of (.poke false e0) ++ Code.of (.putBE t e) ++ Code.of (.inc .pos (.num k))).exec call s =
      .ok { s with mem := splice s.mem (off + a) (UInt8.ofNat n0 :: be (t.bits / 8) n), vars := upd s.vars .pos (.num (a + k)) } := by
  rw [exec_append, exec_append]
  have e1 := exec_poke (call := call) hb hp h0 false s.mem (by simp only [Bool.false_eq_true, if_false]; omega)
  simp only [Bool.false_eq_true, if_false, Nat.add_zero] at e1
  have l1 : (splice s.mem (off + a) [UInt8.ofNat n0]).length = s.mem.length := splice_length (by simp; omega)
  have e2 := exec_putBE (call := call) hb hp he t (splice s.mem (off + a) [UInt8.ofNat n0]) (by rw [l1]; omega)
  rw [show (s : S) = { s with mem := s.mem } from rfl, e1]
  simp only [Res.bind]
  rw [e2]
  simp only
  rw [exec_inc hp k (by omega)]
  have := splice_splice (buf := s.mem) (pos := off + a) (a := [UInt8.ofNat n0]) (b := be (t.bits / 8) n) (by simp; omega)
  rw [List.length_singleton] at this
  rw [this]; rfl

/-- two bytes -/
theorem exec_two {s : S} {off a : Nat} (hb : s.vars .buf = .slice off) (hp : s.vars .pos = .num a) {e0 e : Ex} {n0 n : Nat} (h0 : Steady s e0 n0)
    (he : Steady s e n) (hm : off + a + 2 ≤ s.mem.length) (hl : s.mem.length < 2 ^ 64) :
    (Code.of (.poke false e0) ++ Code.of (.poke true (.conv .byte e)) ++ Code.of (.inc .pos (.num 2))).exec call s =
      .ok { s with mem := splice s.mem (off + a) (UInt8.ofNat n0 :: be 1 n), vars := upd s.vars .pos (.num (a + 2)) } := by
  rw [exec_append, exec_append]
  have e1 := exec_poke (call := call) hb hp h0 false s.mem (by simp only [Bool.false_eq_true, if_false]; omega)
  simp only [Bool.false_eq_true, if_false, Nat.add_zero] at e1
  have l1 : (splice s.mem (off + a) [UInt8.ofNat n0]).length = s.mem.length := splice_length (by simp; omega)
  have e2 := exec_poke (call := call) hb hp (e := .conv .byte e) (n := n % 2 ^ 8) (fun m => by simp only [Ex.eval, he m, Res.bind, Ty.conv, Ty.bits]) true
    (splice s.mem (off + a) [UInt8.ofNat n0]) (by rw [l1]; simp only [if_true]; omega)
  simp only [if_true, u8_mod] at e2
  rw [show (s : S) = { s with mem := s.mem } from rfl, e1]
  simp only [Res.bind]
  rw [e2]
  simp only
  rw [exec_inc hp 2 (by omega)]
  have := splice_splice (buf := s.mem) (pos := off + a) (a := [UInt8.ofNat n0]) (b := [UInt8.ofNat n]) (by simp; omega)
  rw [List.length_singleton] at this
  rw [this]; simp [be]

/-- one byte -/
theorem exec_one {s : S} {off a : Nat} (hb : s.vars .buf = .slice off) (hp : s.vars .pos = .num a) {e : Ex} {n : Nat} (he : Steady s e n)
    (hm : off + a + 1 ≤ s.mem.length) (hl : s.mem.length < 2 ^ 64) :
    (Code.of (.poke false (.conv .byte e)) ++ Code.of (.inc .pos (.num 1))).exec call s =
      .ok { s with mem := splice s.mem (off + a) [UInt8.ofNat n], vars := upd s.vars .pos (.num (a + 1)) } := by
  rw [exec_append]
  have e1 := exec_poke (call := call) hb hp (e := .conv .byte e) (n := n % 2 ^ 8) (fun m => by simp only [Ex.eval, he m, Res.bind, Ty.conv, Ty.bits]) false
    s.mem (by simp only [Bool.false_eq_true, if_false]; omega)
  simp only [Bool.false_eq_true, if_false, Nat.add_zero, u8_mod] at e1
  rw [show (s : S) = { s with mem := s.mem } from rfl, e1]
  simp only [Res.bind]
  rw [exec_inc hp 1 (by omega)]

theorem steady_num (s : S) (n : Nat) : Steady s (.num n) n := fun _ => rfl

theorem Puts.typeNum (t : Nat) : Puts call cells p kvs (encodeTypeNum t) (tlEnc t) := by
  intro s off a h1 h2 h3 h4 h5 h6 h7
  unfold encodeTypeNum
  unfold tlEnc at h6 ⊢
  split at h6
  · rw [if_pos ‹_›, if_pos ‹_›, exec_one h4 h5 (steady_num s t) (by simpa using h6) h7]; rfl
  · split at h6
    · rw [if_neg ‹_›, if_pos ‹_›, exec_head_be h4 h5 (steady_num s _) (steady_num s t) .u16 3 rfl (by simpa using h6) h7, if_neg ‹_›, if_pos ‹_›]
      simp [Ty.bits]
    · split at h6
      · rw [if_neg ‹_›, if_neg ‹_›, if_pos ‹_›, exec_head_be h4 h5 (steady_num s _) (steady_num s t) .u32 5 rfl (by simpa using h6) h7, if_neg ‹_›,
          if_neg ‹_›, if_pos ‹_›]
        simp [Ty.bits]
      · rw [if_neg ‹_›, if_neg ‹_›, if_neg ‹_›, exec_head_be h4 h5 (steady_num s _) (steady_num s t) .u64 9 rfl (by simpa using h6) h7, if_neg ‹_›,
          if_neg ‹_›, if_neg ‹_›]
        simp [Ty.bits]

theorem leave_x {s : S} {n : Nat} {b : Code} (hd : b.decls = []) {M : Bytes} {g : GV}
    (h : b.exec call { s with vars := upd s.vars .x (.num n) } =
      .ok { s with mem := M, vars := upd (upd s.vars .x (.num n)) .pos g }) :
    (b.exec call { s with vars := upd s.vars .x (.num n) }).map (leave (.x :: b.decls) s) = .ok { s with mem := M, vars := upd s.vars .pos g } := by
  rw [h, hd]
  simp only [Res.map]
  rw [leave_vars _ _ _ .pos g (by decide)]
  intro u hu
  have hux : u ≠ .x := fun e => hu (by simp [e])
  simp [upd, hux]

theorem Puts.natural {e : Ex} {n : Nat} (h : IsNum cells p kvs e n) (isTlv : Bool) :
    Puts call cells p kvs (naturalEncode e isTlv) (if isTlv then tlEnc n else UInt8.ofNat (natW n) :: be (natW n) n) := by
  intro s off a h1 h2 h3 h4 h5 h6 h7
  have hb : upd s.vars .x (.num n) .buf = .slice off := by simpa [upd] using h4
  have hp : upd s.vars .x (.num n) .pos = .num a := by simpa [upd] using h5
  have hx : Steady { s with vars := upd s.vars .x (.num n) } (.var .x) n := fun m => by simp [Ex.eval, upd]
  have k1 := @exec_one call { s with vars := upd s.vars .x (.num n) } off a hb hp (.var .x) n hx
  have k2 := fun n0 => @exec_two call { s with vars := upd s.vars .x (.num n) } off a hb hp (.num n0) (.var .x) n0 n (steady_num _ _) hx
  have k3 := fun n0 => @exec_head_be call { s with vars := upd s.vars .x (.num n) } off a hb hp (.num n0) (.var .x) n0 n (steady_num _ _) hx
  have k4 := fun n0 => @exec_head_be call { s with vars := upd s.vars .x (.num n) } off a hb hp (.hex n0) (.var .x) n0 n (fun _ => rfl) hx
  simp only [naturalEncode, Code.exec, evalNum_of (h s h1 h2 h3), Res.bind]
  cases isTlv
  · simp only [Bool.false_eq_true, if_false, natW] at h6 ⊢
    split at h6
    · rw [if_pos ‹_›, if_pos ‹_›, leave_x rfl (k2 1 (by simpa using h6) h7)]; rfl
    · split at h6
      · rw [if_neg ‹_›, if_pos ‹_›, leave_x rfl (k3 2 .u16 3 rfl (by simpa using h6) h7), if_neg ‹_›, if_pos ‹_›]; simp [Ty.bits]
      · split at h6
        · rw [if_neg ‹_›, if_neg ‹_›, if_pos ‹_›, leave_x rfl (k3 4 .u32 5 rfl (by simpa using h6) h7), if_neg ‹_›, if_neg ‹_›, if_pos ‹_›]; simp [Ty.bits]
        · rw [if_neg ‹_›, if_neg ‹_›, if_neg ‹_›, leave_x rfl (k3 8 .u64 9 rfl (by simpa using h6) h7), if_neg ‹_›, if_neg ‹_›, if_neg ‹_›]; simp [Ty.bits]
  · simp only [if_true, tlEnc] at h6 ⊢
    split at h6
    · rw [if_pos ‹_›, if_pos ‹_›, leave_x rfl (k1 (by simpa using h6) h7)]; rfl
    · split at h6
      · rw [if_neg ‹_›, if_pos ‹_›, leave_x rfl (k4 0xfd .u16 3 rfl (by simpa using h6) h7), if_neg ‹_›, if_pos ‹_›]; simp [Ty.bits]
      · split at h6
        · rw [if_neg ‹_›, if_neg ‹_›, if_pos ‹_›, leave_x rfl (k4 0xfe .u32 5 rfl (by simpa using h6) h7), if_neg ‹_›, if_neg ‹_›, if_pos ‹_›]
          simp [Ty.bits]
        · rw [if_neg ‹_›, if_neg ‹_›, if_neg ‹_›, leave_x rfl (k4 0xff .u64 9 rfl (by simpa using h6) h7), if_neg ‹_›, if_neg ‹_›, if_neg ‹_›]
          simp [Ty.bits]

theorem natural_bytes (n : Nat) : UInt8.ofNat (natW n) :: be (natW n) n = tlEnc (natEnc n).length ++ natEnc n := by
  rw [natEnc_natW, Codec.be_length, ← tlEnc_u8 (by rcases natW_cases n with h | h | h | h <;> omega)]; rfl

theorem IsNum.steady {e : Ex} {n : Nat} (h : IsNum cells p kvs e n) {s : S} (h1 : s.cells = cells) (h2 : s.vars .encoder = .ref p)
    (h3 : s.vars .value = .ptr (.struct kvs)) : Steady s e n := fun _ => h _ h1 h2 h3

theorem Puts.fixed {e : Ex} {n : Nat} (h : IsNum cells p kvs e n) {w : Nat} (hw : w = 1 ∨ w = 2 ∨ w = 4 ∨ w = 8) :
    Puts call cells p kvs (fixedEncode w e) (UInt8.ofNat w :: be w n) := by
  intro s off a h1 h2 h3 h4 h5 h6 h7
  have hs := h.steady h1 h2 h3
  rcases hw with rfl | rfl | rfl | rfl
  · have := exec_two (call := call) h4 h5 (steady_num s 1) hs (by simpa using h6) h7
    simpa [fixedEncode] using this
  · have := exec_head_be (call := call) h4 h5 (steady_num s 2) hs .u16 3 rfl (by simpa using h6) h7
    simpa [fixedEncode, Ty.bits] using this
  · have := exec_head_be (call := call) h4 h5 (steady_num s 4) hs .u32 5 rfl (by simpa using h6) h7
    simpa [fixedEncode, Ty.bits] using this
  · have := exec_head_be (call := call) h4 h5 (steady_num s 8) hs .u64 9 rfl (by simpa using h6) h7
    simpa [fixedEncode, Ty.bits] using this

theorem Puts.cond {c : Cond} {b : Code} {bs : Bytes} (t : Bool) (hc : ∀ s : S, s.cells = cells → s.vars .encoder = .ref p →
      s.vars .value = .ptr (.struct kvs) → c.eval s = .ok t) (hd : b.decls = []) (hb : t = true → Puts call cells p kvs b bs) :
    Puts call cells p kvs (.cond c b .done) (if t then bs else []) := by
  intro s off a h1 h2 h3 h4 h5 h6 h7
  simp only [Code.exec, hc s h1 h2 h3, Res.bind]
  cases t
  · simp only [Bool.false_eq_true, if_false]
    rw [splice_nil, List.length_nil, Nat.add_zero, upd_self _ _ _ h5]
  · simp only [if_true] at h6 ⊢
    rw [hb rfl s off a h1 h2 h3 h4 h5 h6 h7, hd]
    simp only [Res.map]
    rw [leave_vars _ _ _ .pos (.num (a + bs.length)) (by simp) (fun u _ => rfl)]

/-- the copy of some bytes, and the step behind them -/
theorem exec_copy {s : S} {off a : Nat} (h4 : s.vars .buf = .slice off) (h5 : s.vars .pos = .num a) {e : Ex} {b : Bytes}
    (he : ∀ mem, e.eval { s with mem := mem } = .ok (.bytes b)) (h6 : off + a + b.length ≤ s.mem.length) (h7 : s.mem.length < 2 ^ 64) :
    (Code.of (.copy e) ++ Code.of (.inc .pos (.conv .uint (.len e)))).exec call s =
      .ok { s with mem := splice s.mem (off + a) b, vars := upd s.vars .pos (.num (a + b.length)) } := by
  rw [exec_append, exec_of]
  have e0 := he s.mem
  simp only [Atom.exec, S.cursor, h4, h5, Res.bind] at e0 ⊢
  rw [show e.eval s = .ok (.bytes b) from e0]
  simp only
  rw [Writes.putCopy b (s.mem, off + a) h6]
  simp only [Res.map]
  rw [exec_of]
  simp only [Atom.exec, Ex.evalNum, Ex.eval, he, Res.bind, GV.len, Ty.conv, Ty.bits, h5]
  rw [Nat.mod_eq_of_lt (show b.length < 2 ^ 64 by omega), Nat.mod_eq_of_lt (show a + b.length < 2 ^ 64 by omega)]

theorem Puts.copy {e : Ex} {b : Bytes} (he : ∀ s : S, s.vars .value = .ptr (.struct kvs) → e.eval s = .ok (.bytes b)) :
    Puts call cells p kvs (Code.of (.copy e) ++ Code.of (.inc .pos (.conv .uint (.len e)))) b := by
  intro s off a _ _ h3 h4 h5 h6 h7
  exact exec_copy h4 h5 (fun m => he { s with mem := m } h3) h6 h7

/-- a loop whose iterations write, one after the other -/
theorem loop_puts {α : Type} (body : Nat → GV → S → Res S) (G : α → GV) (B : α → Bytes) (l : List α) (s : S) (off a n : Nat)
    (hbody : ∀ (k : Nat) (x : α) (mem : Bytes) (a' : Nat), l[k]? = some x → off + a' + (B x).length ≤ mem.length → mem.length < 2 ^ 64 →
      body (n + k) (G x) { s with mem := mem, vars := upd s.vars .pos (.num a') } =
        .ok { s with mem := splice mem (off + a') (B x), vars := upd s.vars .pos (.num (a' + (B x).length)) })
    (h6 : off + a + ((l.map B).flatten).length ≤ s.mem.length) (h7 : s.mem.length < 2 ^ 64) :
    loop body n (l.map G) { s with vars := upd s.vars .pos (.num a) } =
      .ok { s with mem := splice s.mem (off + a) (l.map B).flatten, vars := upd s.vars .pos (.num (a + ((l.map B).flatten).length)) } := by
  have key : ∀ (l : List α) (mem : Bytes) (a n : Nat), (∀ (k : Nat) (x : α) (mem : Bytes) (a' : Nat), l[k]? = some x →
        off + a' + (B x).length ≤ mem.length → mem.length < 2 ^ 64 →
        body (n + k) (G x) { s with mem := mem, vars := upd s.vars .pos (.num a') } =
          .ok { s with mem := splice mem (off + a') (B x), vars := upd s.vars .pos (.num (a' + (B x).length)) }) →
      off + a + ((l.map B).flatten).length ≤ mem.length → mem.length < 2 ^ 64 →
      loop body n (l.map G) { s with mem := mem, vars := upd s.vars .pos (.num a) } =
        .ok { s with mem := splice mem (off + a) (l.map B).flatten, vars := upd s.vars .pos (.num (a + ((l.map B).flatten).length)) } := by
    intro l
    induction l with
    | nil => intro mem a n _ _ _; simp [loop, splice_nil]
    | cons x l ih =>
      intro mem a n hb h6 h7
      simp only [List.map_cons, List.flatten_cons, List.length_append] at h6 ⊢
      have e := hb 0 x mem a rfl (by omega) h7
      simp only [loop]
      rw [Nat.add_zero] at e
      rw [e]
      simp only [Res.bind]
      have hl : (splice mem (off + a) (B x)).length = mem.length := splice_length (by omega)
      rw [ih _ (a + (B x).length) (n + 1) (fun k y m a' hy => by
        have := hb (k + 1) y m a' (by simpa using hy)
        rw [show n + 1 + k = n + (k + 1) by omega]; exact this) (by rw [hl]; omega) (by rw [hl]; exact h7)]
      rw [← Nat.add_assoc off, splice_splice (by rw [List.length_append]; omega), ← Nat.add_assoc a]
  exact key l s.mem a n hbody h6 h7

theorem Puts.components {f : Txt} {n : Name} (hf : lookup f kvs = some (.name n)) :
    Puts call cells p kvs (.each .c (.field f) (.of (.component .c)) .done) (Name.encBody n) := by
  intro s off a h1 h2 h3 h4 h5 h6 h7
  rw [← encBody_flatten] at h6 ⊢
  simp only [Code.exec, Ex.eval, fieldOfValue_eq h3 hf, Res.bind, GV.elems]
  have hs : s = { s with vars := upd s.vars .pos (.num a) } := by rw [upd_self _ _ _ h5]
  conv => lhs; rw [hs]
  rw [loop_puts _ GV.comp Component.enc n s off a 0 ?_ h6 h7]
  intro k x mem a' _ hm hl
  rw [exec_of]
  simp only [Atom.exec, S.cursor, upd, h4, Res.bind, if_true, reduceCtorEq, if_false]
  rw [Writes.component x (mem, off + a') hm]
  simp only [Res.map]
  rw [leave_vars _ _ _ .pos (.num (a' + x.enc.length)) (by decide)]
  · simp only
    congr 2
    exact upd_upd _ _ _ _
  · intro u hu
    have huc : u ≠ .c := fun e => hu (by simp [e])
    simp only [upd, huc, if_false]
    rw [show off + a' + x.enc.length - (off + a') = x.enc.length by omega, Nat.mod_eq_of_lt (by omega)]

theorem Puts.buffers {f : Txt} {w : Wire} (hf : lookup f kvs = some (.wire w)) :
    Puts call cells p kvs (.each .w (.field f) (Code.of (.copy (.var .w)) ++ Code.of (.inc .pos (.conv .uint (.len (.var .w))))) .done) w.flatten := by
  intro s off a h1 h2 h3 h4 h5 h6 h7
  have hid : w.flatten = (List.map id w).flatten := by rw [List.map_id]
  rw [hid] at h6 ⊢
  simp only [Code.exec, Ex.eval, fieldOfValue_eq h3 hf, Res.bind, GV.elems]
  have hs : s = { s with vars := upd s.vars .pos (.num a) } := by rw [upd_self _ _ _ h5]
  conv => lhs; rw [hs]
  rw [loop_puts _ GV.bytes id w s off a 0 ?_ h6 h7]
  intro k x mem a' _ hm hl
  have := @exec_copy call { s with mem := mem, vars := upd (upd s.vars .pos (.num a')) .w (.bytes x) } off a' (by simpa [upd] using h4) (by simp [upd])
    (.var .w) x (fun m => by simp [Ex.eval, upd]) hm hl
  rw [this]
  simp only [Res.map]
  rw [leave_vars _ _ _ .pos (.num (a' + x.length)) (by decide)]
  · simp only [upd_upd]; rfl
  · intro u hu
    have huc : u ≠ .w := fun e => hu (by simp [e])
    simp [upd, huc]

/-! ## Sequences -/

/-- what is done with one element of a sequence, see `general` and `initCode` -/
def pseudoBody (f t : Txt) (v : Var) (e : Ex) (c : Code) : Code :=
  .of (.refSub f v) ++ .of (.pseudo f t e) ++
    .block (.of (.decl .encoder (.var .pseudoEncoder)) ++ .of .addr ++ c ++ .of (.use .encoder) ++ .of (.use .value)) .done

theorem pseudoBody_decls (f t : Txt) (v : Var) (e : Ex) (c : Code) : (pseudoBody f t v e c).decls = [.pseudoEncoder, .pseudoValue] := by
  simp only [pseudoBody, decls_append]; rfl

/-- the place of an element's part of the encoder -/
abbrev subPath (f : Txt) (p : Path) (n : Nat) : Path := .idx n :: .key (.sub f) :: p

theorem exec_pseudo' {f t : Txt} {v : Var} {e : Ex} {c : Code} {s : S} {n : Nat} {g g' : GV} {u : Var} {Q : (Path → Nat) → Bytes → Prop}
    (henc : s.vars .encoder = .ref p) (hv : s.vars v = .num n) (hn : n < s.cells (.key (.sub f) :: p))
    (he : ∀ r, e.eval { s with vars := upd s.vars .pseudoEncoder r } = .ok g) (hd : c.decls = [])
    (hu : u ∉ [Var.encoder, .value, .pseudoEncoder, .pseudoValue])
    (hc : ∀ s' : S, s'.cells = s.cells → s'.mem = s.mem → s'.vars .encoder = .ref (subPath f p n) → s'.vars .value = .ptr (.struct [(f, g)]) →
      (∀ y, y ∉ [Var.encoder, .value, .pseudoEncoder, .pseudoValue] → s'.vars y = s.vars y) →
      ∃ C M, c.exec call s' = .ok { s' with cells := C, mem := M, vars := upd s'.vars u g' } ∧ Q C M) :
    ∃ vars C M, (pseudoBody f t v e c).exec call s = .ok ⟨C, M, vars⟩ ∧ (∀ y, y ∉ [Var.pseudoEncoder, .pseudoValue] → vars y = upd s.vars u g' y) ∧ Q C M := by
  have hu' : u ≠ .encoder ∧ u ≠ .value ∧ u ≠ .pseudoEncoder ∧ u ≠ .pseudoValue := by simpa using hu
  let r : GV := .ref (subPath f p n)
  let V1 := upd (upd s.vars .pseudoEncoder r) .pseudoValue (.struct [(f, g)])
  let V2 := upd (upd V1 .encoder r) .value (.ptr (.struct [(f, g)]))
  have e1 : (Code.of (.refSub f v) ++ Code.of (.pseudo f t e)).exec call s = .ok ⟨s.cells, s.mem, V1⟩ := by
    rw [exec_append, exec_of]
    simp only [Atom.exec, henc, hv, if_pos hn, Res.bind]
    rw [exec_of]
    simp only [Atom.exec]
    rw [he]; rfl
  have e2 : (Code.of (.decl .encoder (.var .pseudoEncoder)) ++ Code.of .addr).exec call ⟨s.cells, s.mem, V1⟩ = .ok ⟨s.cells, s.mem, V2⟩ := by
    rw [exec_append, exec_of]
    simp only [Atom.exec, Ex.eval, Res.map, Res.bind]
    rw [exec_of]
    simp only [Atom.exec]
    congr 2
  obtain ⟨C, M, e3, hQ⟩ := hc ⟨s.cells, s.mem, V2⟩ rfl rfl (by simp [V2, upd]; rfl) (by simp [V2, upd]) (by
    intro y hw
    have : y ≠ .encoder ∧ y ≠ .value ∧ y ≠ .pseudoEncoder ∧ y ≠ .pseudoValue := by simpa using hw
    simp [V2, V1, upd, this.1, this.2.1, this.2.2.1, this.2.2.2])
  refine ⟨upd V1 u g', C, M, ?_, ?_, hQ⟩
  · rw [pseudoBody, exec_append, e1]
    simp only [Res.bind, Code.exec]
    rw [exec_append, exec_append, exec_append, e2]
    simp only [Res.bind]
    rw [e3]
    simp only
    rw [exec_of]
    simp only [Atom.exec]
    rw [exec_of]
    simp only [Atom.exec, Res.map]
    rw [leave_vars _ _ _ u g']
    · simp only [decls_append, hd, Code.of, Code.decls, List.append_nil, List.mem_append, List.mem_singleton, not_or]
      exact ⟨hu'.1, hu'.2.1⟩
    · intro y hw
      simp only [decls_append, hd, Code.of, Code.decls, List.append_nil, List.mem_append, List.mem_singleton, not_or] at hw
      simp only [V2, upd, hw.1, hw.2, if_false]
  · intro y hw
    have : y ≠ .pseudoEncoder ∧ y ≠ .pseudoValue := by simpa using hw
    simp [V1, upd, this.1, this.2]

theorem exec_pseudo {f t : Txt} {v : Var} {e : Ex} {c : Code} {s : S} {n : Nat} {g g' : GV} {u : Var} {C : Path → Nat} {M : Bytes}
    (henc : s.vars .encoder = .ref p) (hv : s.vars v = .num n) (hn : n < s.cells (.key (.sub f) :: p))
    (he : ∀ r, e.eval { s with vars := upd s.vars .pseudoEncoder r } = .ok g) (hd : c.decls = [])
    (hu : u ∉ [Var.encoder, .value, .pseudoEncoder, .pseudoValue])
    (hc : ∀ s' : S, s'.cells = s.cells → s'.mem = s.mem → s'.vars .encoder = .ref (subPath f p n) → s'.vars .value = .ptr (.struct [(f, g)]) →
      (∀ y, y ∉ [Var.encoder, .value, .pseudoEncoder, .pseudoValue] → s'.vars y = s.vars y) →
      c.exec call s' = .ok { s' with cells := C, mem := M, vars := upd s'.vars u g' }) :
    ∃ vars, (pseudoBody f t v e c).exec call s = .ok ⟨C, M, vars⟩ ∧ ∀ y, y ∉ [Var.pseudoEncoder, .pseudoValue] → vars y = upd s.vars u g' y := by
  obtain ⟨vars, C', M', e1, e2, rfl, rfl⟩ := exec_pseudo' (t := t) (Q := fun C' M' => C' = C ∧ M' = M) henc hv hn he hd hu
    fun s' h1 h2 h3 h4 h5 => ⟨C, M, hc s' h1 h2 h3 h4 h5, rfl, rfl⟩
  exact ⟨vars, e1, e2⟩

theorem general_eq (f t : Txt) (c : Code) : general f t c = .cond (.notNil f) (.items (.field f) (pseudoBody f t .seqI (.var .seqV) c) .done) .done := rfl

theorem Puts.general {α : Type} {f t : Txt} {c : Code} {g : GV} (G : α → GV) (B : α → Bytes) (l : List α) (hf : lookup f kvs = some g)
    (hg : IsSeq g (l.map G)) (hn : cells (.key (.sub f) :: p) = l.length) (hd : c.decls = [])
    (hc : ∀ i x, l[i]? = some x → Puts call cells (subPath f p i) [(f, G x)] c (B x)) : Puts call cells p kvs (general f t c) (l.map B).flatten := by
  rw [general_eq]
  rcases hg with rfl | ⟨rfl, hl⟩
  · refine (Puts.cond (bs := (l.map B).flatten) true (fun s _ _ h3 => ?_) rfl ?_).congr (by simp)
    · exact notNil_eval hf s h3
    · intro _ s off a h1 h2 h3 h4 h5 h6 h7
      simp only [Code.exec, Ex.eval, fieldOfValue_eq h3 hf, Res.bind, GV.elems]
      have hs : s = { s with vars := upd s.vars .pos (.num a) } := by rw [upd_self _ _ _ h5]
      conv => lhs; rw [hs]
      rw [loop_puts _ G B l s off a 0 ?_ h6 h7]
      intro k x mem a' hx hm hl
      rw [Nat.zero_add]
      have hk : k < l.length := by
        rcases Nat.lt_or_ge k l.length with h | h
        · exact h
        · rw [List.getElem?_eq_none h] at hx; cases hx
      obtain ⟨vars, e1, e2⟩ := @exec_pseudo call p f t .seqI (.var .seqV) c
        { s with mem := mem, vars := upd (upd (upd s.vars .pos (.num a')) .seqI (.num k)) .seqV (G x) } k (G x) (.num (a' + (B x).length)) .pos
        s.cells (splice mem (off + a') (B x)) (by simpa [upd] using h2) (by simp [upd]) (by show k < s.cells _; rw [h1, hn]; exact hk)
        (fun r => by simp [Ex.eval, upd]) hd (by decide) (by
          intro s' c1 c2 c3 c4 c5
          have := hc k x hx s' off a' (by rw [c1]; exact h1) c3 c4 (by rw [c5 _ (by decide)]; simpa [upd] using h4) (by rw [c5 _ (by decide)]; simp [upd])
            (by rw [c2]; exact hm) (by rw [c2]; exact hl)
          rw [this]
          simp only [c1, c2])
      rw [e1, pseudoBody_decls]
      simp only [Res.map]
      rw [leave_vars _ _ _ .pos (.num (a' + (B x).length)) (by decide)]
      · simp only [upd_upd]
      · intro y hy
        have : y ≠ .seqI ∧ y ≠ .seqV ∧ y ≠ .pseudoEncoder ∧ y ≠ .pseudoValue := by simpa using hy
        simp only
        rw [e2 y (by simpa using ⟨this.2.2.1, this.2.2.2⟩)]
        simp [upd, this.1, this.2.1]
  · have : l = [] := by simpa using hl
    subst this
    refine (Puts.cond (bs := []) false (fun s _ _ h3 => ?_) rfl (fun h => by cases h)).congr (by simp)
    exact notNil_eval hf s h3

/-- a loop whose iterations add to `l` -/
theorem loop_adds {α : Type} (body : Nat → GV → S → Res S) (G : α → GV) (B : α → Nat) (s : S) :
    ∀ (l : List α) (a n : Nat), (∀ (k : Nat) (x : α) (a' : Nat), l[k]? = some x → a' + B x < 2 ^ 64 →
        body (n + k) (G x) { s with vars := upd s.vars .l (.num a') } = .ok { s with vars := upd s.vars .l (.num (a' + B x)) }) →
      a + (l.map B).sum < 2 ^ 64 →
      loop body n (l.map G) { s with vars := upd s.vars .l (.num a) } = .ok { s with vars := upd s.vars .l (.num (a + (l.map B).sum)) } := by
  intro l
  induction l with
  | nil => intro a n _ _; simp [loop]
  | cons x l ih =>
    intro a n hb h
    simp only [List.map_cons, List.sum_cons] at h ⊢
    have e := hb 0 x a rfl (by omega)
    rw [Nat.add_zero] at e
    simp only [loop]
    rw [e]
    simp only [Res.bind]
    rw [ih (a + B x) (n + 1) (fun k y a' hy => by
      have := hb (k + 1) y a' (by simpa using hy)
      rw [show n + 1 + k = n + (k + 1) by omega]; exact this) (by omega)]
    rw [Nat.add_assoc]

theorem Adds.general {α : Type} {f t : Txt} {c : Code} {g : GV} (G : α → GV) (B : α → Nat) (l : List α) (hf : lookup f kvs = some g)
    (hg : IsSeq g (l.map G)) (hn : cells (.key (.sub f) :: p) = l.length) (hd : c.decls = [])
    (hc : ∀ i x, l[i]? = some x → Adds call cells (subPath f p i) [(f, G x)] c (B x)) : Adds call cells p kvs (general f t c) (l.map B).sum := by
  rw [general_eq]
  rcases hg with rfl | ⟨rfl, hl⟩
  · refine (Adds.cond (n := (l.map B).sum) true (fun s _ _ h3 => ?_) (by simp [Code.decls]) ?_).congr (by simp)
    · exact notNil_eval hf s h3
    · intro _ s a h1 h2 h3 h4 h5
      simp only [Code.exec, Ex.eval, fieldOfValue_eq h3 hf, Res.bind, GV.elems]
      have hs : s = { s with vars := upd s.vars .l (.num a) } := by rw [upd_self _ _ _ h4]
      conv => lhs; rw [hs]
      rw [loop_adds _ G B s l a 0 ?_ h5]
      intro k x a' hx hm
      rw [Nat.zero_add]
      have hk : k < l.length := by
        rcases Nat.lt_or_ge k l.length with h | h
        · exact h
        · rw [List.getElem?_eq_none h] at hx; cases hx
      obtain ⟨vars, e1, e2⟩ := @exec_pseudo call p f t .seqI (.var .seqV) c
        { s with vars := upd (upd (upd s.vars .l (.num a')) .seqI (.num k)) .seqV (G x) } k (G x) (.num (a' + B x)) .l
        s.cells s.mem (by simpa [upd] using h2) (by simp [upd]) (by show k < s.cells _; rw [h1, hn]; exact hk)
        (fun r => by simp [Ex.eval, upd]) hd (by decide) (by
          intro s' c1 c2 c3 c4 c5
          have := hc k x hx s' a' (by rw [c1]; exact h1) c3 c4 (by rw [c5 _ (by decide)]; simp [upd]) hm
          rw [this]
          simp only [c1, c2])
      rw [e1, pseudoBody_decls]
      simp only [Res.map]
      rw [leave_vars _ _ _ .l (.num (a' + B x)) (by decide)]
      · simp only [upd_upd]
      · intro y hy
        have : y ≠ .seqI ∧ y ≠ .seqV ∧ y ≠ .pseudoEncoder ∧ y ≠ .pseudoValue := by simpa using hy
        simp only
        rw [e2 y (by simpa using ⟨this.2.2.1, this.2.2.2⟩)]
        simp [upd, this.1, this.2.1]
  · have : l = [] := by simpa using hl
    subst this
    refine (Adds.cond (n := 0) false (fun s _ _ h3 => ?_) (by simp [Code.decls]) (fun h => by cases h)).congr (by simp)
    exact notNil_eval hf s h3

/-! ## No declarations are left behind -/

theorem guarded_decls (o : Bool) (f : Txt) (c : Code) (h : c.decls = []) : (guarded o f c).decls = [] := by cases o <;> simp [guarded, Code.decls, h]

theorem encodeTypeNum_decls (n : Nat) : (encodeTypeNum n).decls = [] := by
  unfold encodeTypeNum; repeat' split
  all_goals rfl

theorem lengthCode_decls (f : Txt) (n : Nat) (c : Cls) : (lengthCode f n c).decls = [] := by
  cases c <;> simp only [lengthCode] <;> first | rfl | (refine guarded_decls _ _ _ ?_; simp only [decls_append]; rfl)

theorem fixedEncode_decls (w : Nat) (e : Ex) : (fixedEncode w e).decls = [] := by
  unfold fixedEncode; repeat' split
  all_goals rfl

theorem intoCode_decls (f : Txt) (n : Nat) (c : Cls) : (intoCode f n c).decls = [] := by
  cases c <;> simp only [intoCode] <;>
    first | rfl | (refine guarded_decls _ _ _ ?_; simp only [decls_append, encodeTypeNum_decls, fixedEncode_decls]; rfl)

theorem initCode_decls (f : Txt) (c : Cls) : (initCode f c).decls = [] := by cases c <;> rfl

end Ndn.Codec.Gen
