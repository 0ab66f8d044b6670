import Verif.Enc.WireReader
import Verif.Enc.PrimLemmas

/-!
# Clients of a reader, and what they should see

`Prog` is an arbitrary adaptive client of a `ParseReader`: every next call may depend on all results so far.
`Prog.run` executes it on the modelled readers; `Prog.spec` says what it should see on a plain byte string.
-/

namespace Ndn

/-- A client of a reader that finally answers an `α` (or stops at the first error). -/
inductive Prog (α : Type) where
  | ret (a : α)
  | readByte (k : UInt8 → Prog α)
  /-- `ReadByte` followed by `UnreadByte` -/
  | peek (k : UInt8 → Prog α)
  | readBuf (l : Nat) (k : Bytes → Prog α)
  /-- `ReadWire`, looking at the joined bytes -/
  | readWire (l : Nat) (k : Bytes → Prog α)
  | skip (n : Nat) (k : Prog α)
  /-- `Length() - Pos()` -/
  | remaining (k : Int → Prog α)
  /-- `Delegate(l)`, run `sub` on the sub-reader, then go on -/
  | within (l : Nat) (sub : Prog α) (k : α → Prog α)

namespace Rd
/-- `UnreadByte` of either reader. -/
def unreadByte : RM Rd Unit := lift BR.unreadByte WR.unreadByte
end Rd

namespace Prog
variable {α : Type}

/-- Go on with the outer reader after the client of a sub-reader has finished with `x`. -/
def after (x : Res α) (k : α → RM Rd α) : RM Rd α := fun s =>
  match x with
  | .ok a => k a s
  | .err e => (.err e, s)
  | .panic => (.panic, s)

/-- Execute a client on a modelled reader. -/
def run : Prog α → RM Rd α
  | ret a => RM.pure a
  | readByte k => RM.bind Rd.readByte (fun b => (k b).run)
  | peek k => RM.bind Rd.readByte (fun b => RM.bind Rd.unreadByte (fun _ => (k b).run))
  | readBuf l k => RM.bind (Rd.readBuf l) (fun b => (k b).run)
  | readWire l k => RM.bind (Rd.readWire l) (fun w => (k w.flatten).run)
  | skip n k => RM.bind (Rd.skip n) (fun _ => k.run)
  | remaining k => RM.bind Rd.remaining (fun n => (k n).run)
  | within l sub k => RM.bind (Rd.delegate l) (fun r => after (sub.run r).1 (fun a => (k a).run))

/-- What the client should see on the bytes `s`: its answer and the bytes left over, or `none` if it asks for more
than there is. -/
def spec : Prog α → Bytes → Option (α × Bytes)
  | ret a, s => some (a, s)
  | readByte k, s => match s with
    | [] => none
    | b :: t => (k b).spec t
  | peek k, s => match s with
    | [] => none
    | b :: t => (k b).spec (b :: t)
  | readBuf l k, s => if l ≤ s.length then (k (s.take l)).spec (s.drop l) else none
  | readWire l k, s => if l ≤ s.length then (k (s.take l)).spec (s.drop l) else none
  | skip n k, s => if n ≤ s.length then k.spec (s.drop n) else none
  | remaining k, s => (k s.length).spec s
  | within l sub k, s =>
    if l ≤ s.length then
      match sub.spec (s.take l) with
      | some (a, _) => (k a).spec (s.drop l)
      | none => none
    else none

/-- The client keeps within the limits under which the readers are claimed to work on `s`: lengths are at most `lim`,
`Delegate` is not asked for more than what remains, and (unless `z`) no zero-length `ReadBuf` or `ReadWire`
is made at the very end. -/
def Adm (z : Prop) (lim : Nat) : Prog α → Bytes → Prop
  | ret _, _ => True
  | readByte k, s => ∀ b t, s = b :: t → (k b).Adm z lim t
  | peek k, s => ∀ b t, s = b :: t → (k b).Adm z lim s
  | readBuf l k, s => l ≤ lim ∧ (l = 0 → s = [] → z) ∧ (l ≤ s.length → (k (s.take l)).Adm z lim (s.drop l))
  | readWire l k, s => l ≤ lim ∧ (l = 0 → s = [] → z) ∧ (l ≤ s.length → (k (s.take l)).Adm z lim (s.drop l))
  | skip n k, s => n ≤ lim ∧ (n ≤ s.length → k.Adm z lim (s.drop n))
  | remaining k, s => (k s.length).Adm z lim s
  | within l sub k, s => l ≤ lim ∧ l ≤ s.length ∧ sub.Adm z lim (s.take l) ∧
      ∀ a t, sub.spec (s.take l) = some (a, t) → (k a).Adm z lim (s.drop l)

end Prog

/-! ## BufferReader -/

namespace BR

/-- The position is inside the buffer and the buffer is not absurdly large. -/
def Good (r : BR) : Prop := r.pos ≤ r.buf.length ∧ r.buf.length < 2 ^ 62

theorem wrap_add {p : Nat} {l : Nat} (h1 : p < 2 ^ 62) (h2 : l ≤ 2 ^ 62) : wrap64 ((p : Int) + (l : Int)) = ((p + l : Nat) : Int) := by
  rw [wrap64_id] <;> omega

theorem slice_ok {b : Bytes} {p l : Nat} (h : p + l ≤ b.length) :
    slice b p ((p + l : Nat) : Int) = .ok ((b.drop p).take l) := by
  unfold slice
  rw [if_pos ⟨by omega, by omega⟩, show ((p + l : Nat) : Int).toNat - p = l by omega]

theorem readBuf_ok {r : BR} (h : r.Good) {l : Nat} (hl : l ≤ r.rest.length) :
    readBuf l r = (.ok (r.rest.take l), r.adv l) := by
  have h1 := h.1; have h2 := h.2
  rw [rest_length] at hl
  unfold readBuf
  simp only
  rw [wrap_add (by omega) (by omega), if_neg (by omega), slice_ok (by omega)]
  rfl

theorem readBuf_err {r : BR} (h : r.Good) {l : Nat} (hl : r.rest.length < l) (hm : l ≤ 2 ^ 62) :
    readBuf l r = (.err .unexpectedEof, r) := by
  have h1 := h.1; have h2 := h.2
  rw [rest_length] at hl
  unfold readBuf
  simp only
  rw [wrap_add (by omega) (by omega), if_pos (by omega)]

theorem readWire_ok {r : BR} (h : r.Good) {l : Nat} (hl : l ≤ r.rest.length) :
    readWire l r = (.ok [r.rest.take l], r.adv l) := by
  have h1 := h.1; have h2 := h.2
  rw [rest_length] at hl
  unfold readWire
  simp only
  rw [wrap_add (by omega) (by omega), if_neg (by omega), if_neg (by omega), slice_ok (by omega)]
  rfl

theorem readWire_err {r : BR} (h : r.Good) {l : Nat} (hl : r.rest.length < l) (hm : l ≤ 2 ^ 62) :
    ∃ e, readWire l r = (.err e, r) := by
  have h1 := h.1; have h2 := h.2
  rw [rest_length] at hl
  unfold readWire
  simp only
  rw [wrap_add (by omega) (by omega)]
  by_cases hc : r.pos ≥ r.buf.length ∧ (l : Int) > 0
  · rw [if_pos hc]; exact ⟨_, rfl⟩
  · rw [if_neg hc, if_pos (by omega)]; exact ⟨_, rfl⟩

theorem skip_ok {r : BR} (h : r.Good) {l : Nat} (hl : l ≤ r.rest.length) : skip l r = (.ok (), r.adv l) := by
  have h1 := h.1; have h2 := h.2
  rw [rest_length] at hl
  unfold skip
  simp only
  rw [wrap_add (by omega) (by omega), if_neg (by omega), if_neg (by omega)]
  rfl

theorem skip_err {r : BR} (h : r.Good) {l : Nat} (hl : r.rest.length < l) (hm : l ≤ 2 ^ 62) :
    skip l r = (.err .outOfRange, r) := by
  have h1 := h.1; have h2 := h.2
  rw [rest_length] at hl
  unfold skip
  simp only
  rw [wrap_add (by omega) (by omega), if_neg (by omega), if_pos (by omega)]

theorem delegate_ok {r : BR} (h : r.Good) {l : Nat} (hl : l ≤ r.rest.length) :
    delegate l r = (.ok (BR.new (r.rest.take l)), r.adv l) := by
  have h1 := h.1; have h2 := h.2
  rw [rest_length] at hl
  unfold delegate
  rw [wrap_add (by omega) (by omega), if_neg (by omega), slice_ok (by omega)]
  rfl

theorem delegate_over {r : BR} (h : r.Good) {l : Nat} (hl : r.rest.length < l) (hm : l ≤ 2 ^ 62) :
    delegate l r = (.ok (BR.new []), r) := by
  have h1 := h.1; have h2 := h.2
  rw [rest_length] at hl
  have hw : wrap64 ((r.pos : Int) + (l : Int)) = ((r.pos + l : Nat) : Int) := wrap_add (by omega) hm
  have hc : (l : Int) < 0 ∨ wrap64 ((r.pos : Int) + (l : Int)) > r.buf.length := by omega
  unfold delegate
  exact if_pos hc

theorem Good.adv {r : BR} (h : r.Good) {l : Nat} (hl : l ≤ r.rest.length) : (r.adv l).Good := by
  have h1 := h.1; have h2 := h.2
  rw [rest_length] at hl
  exact ⟨by simp only [adv_pos, adv_buf]; omega, h.2⟩

theorem Good.new {b : Bytes} (h : b.length < 2 ^ 62) : (BR.new b).Good := ⟨by simp, h⟩

theorem unreadByte_adv (r : BR) : unreadByte (r.adv 1) = (.ok (), r) := by
  simp [unreadByte, BR.adv]

end BR

/-! ## WireReader -/

namespace WR

/-- What is left: the rest of the current segment and all later ones. -/
def rest (r : WR) : Bytes := (r.wire.drop r.seg).flatten.drop r.pos.toNat

/-- The reader stands in a segment, and all later segments are non-empty. -/
structure Good (r : WR) : Prop where
  segs : ∃ s t, r.wire.drop r.seg = s :: t ∧ 0 ≤ r.pos ∧ r.pos ≤ s.length ∧ ∀ x ∈ t, x ≠ []
  small : r.wire.flatten.length < 2 ^ 62

theorem drop_cons_get {w : Wire} {n : Nat} {s : Bytes} {t : Wire} (h : w.drop n = s :: t) :
    w[n]? = some s ∧ n < w.length ∧ w.drop (n + 1) = t := by
  have hn : n < w.length := by
    rcases Nat.lt_or_ge n w.length with h1 | h1
    · exact h1
    · rw [List.drop_eq_nil_of_le h1] at h; cases h
  rw [List.drop_eq_getElem_cons hn] at h
  injection h with h1 h2
  exact ⟨by rw [List.getElem?_eq_getElem hn, h1], hn, h2⟩

theorem rest_eq {r : WR} {s : Bytes} {t : Wire} (h : r.wire.drop r.seg = s :: t) (hp : r.pos ≤ s.length) :
    r.rest = s.drop r.pos.toNat ++ t.flatten := by
  unfold rest
  rw [h, List.flatten_cons, List.drop_append_of_le_length (by omega)]

theorem suffix_length {w : Wire} {n : Nat} : (w.drop n).flatten.length ≤ w.flatten.length := by
  conv => rhs; rw [← List.take_append_drop n w]
  rw [List.flatten_append, List.length_append]; omega

theorem Good.rest_small {r : WR} (h : r.Good) : r.rest.length < 2 ^ 62 := by
  have := h.small
  have := suffix_length (w := r.wire) (n := r.seg)
  unfold rest
  rw [List.length_drop]; omega

theorem Good.cur_small {r : WR} (h : r.Good) {s : Bytes} {t : Wire} (hd : r.wire.drop r.seg = s :: t) :
    s.length + t.flatten.length < 2 ^ 62 := by
  have := h.small
  have h2 := suffix_length (w := r.wire) (n := r.seg)
  rw [hd, List.flatten_cons, List.length_append] at h2; omega

/-- `nextSeg` from a good state: either nothing is left, or the reader stands before a byte. -/
theorem nextSeg_cases {r : WR} (h : r.Good) :
    (r.rest = [] ∧ nextSeg r = (false, { r with seg := r.wire.length, pos := 0 })) ∨
    (∃ r' s t, nextSeg r = (true, r') ∧ r'.Good ∧ r'.rest = r.rest ∧ r'.wire = r.wire ∧
      r'.wire.drop r'.seg = s :: t ∧ 0 ≤ r'.pos ∧ r'.pos < s.length ∧ ∀ x ∈ t, x ≠ []) := by
  obtain ⟨⟨s, t, hd, h0, hp, hne⟩, hs⟩ := h
  obtain ⟨hg, hlt, ht⟩ := drop_cons_get hd
  by_cases hc : r.pos ≥ s.length
  · have hn : nextSeg r = (decide (r.seg + 1 < r.wire.length), { r with seg := r.seg + 1, pos := 0 }) := by
      unfold nextSeg; simp only [hg]; rw [if_pos hc]
    cases t with
    | nil =>
      left
      have hl : r.wire.length = r.seg + 1 := by
        have := congrArg List.length hd
        simp at this; omega
      refine ⟨?_, ?_⟩
      · rw [rest_eq hd hp]; simp; omega
      · rw [hn, hl]; simp
    | cons s' t' =>
      right
      obtain ⟨_, hlt', _⟩ := drop_cons_get ht
      refine ⟨{ r with seg := r.seg + 1, pos := 0 }, s', t', ?_, ⟨⟨s', t', ht, by simp, by simp, fun x hx => hne x (by simp [hx])⟩, hs⟩, ?_, rfl, ht, by simp, ?_, fun x hx => hne x (by simp [hx])⟩
      · rw [hn]; simp [hlt']
      · rw [rest_eq hd hp, rest_eq (r := { r with seg := r.seg + 1, pos := 0 }) ht (by simp)]
        have : s.drop r.pos.toNat = [] := by apply List.drop_eq_nil_of_le; omega
        simp [this]
      · have := hne s' (by simp)
        have : 0 < s'.length := List.length_pos_iff.mpr this
        simp only; omega
  · right
    have hn : nextSeg r = (decide (r.seg < r.wire.length), r) := by
      unfold nextSeg; simp only [hg]; rw [if_neg hc]
    exact ⟨r, s, t, by rw [hn]; simp [hlt], ⟨⟨s, t, hd, h0, hp, hne⟩, hs⟩, rfl, rfl, hd, h0, by omega, hne⟩

theorem readByte_nil {r : WR} (h : r.Good) (hr : r.rest = []) : ∃ e r', readByte r = (.err e, r') := by
  rcases nextSeg_cases h with ⟨_, hn⟩ | ⟨r', s, t, hn, hg, hrest, hw, hd, h0, hp, hne⟩
  · exact ⟨_, _, by unfold readByte; rw [hn]⟩
  · exfalso
    rw [← hrest, rest_eq hd (by omega)] at hr
    have := congrArg List.length hr
    simp at this; omega

theorem readByte_cons {r : WR} (h : r.Good) {b : UInt8} {t : Bytes} (hr : r.rest = b :: t) :
    ∃ r', readByte r = (.ok b, r') ∧ r'.Good ∧ r'.rest = t ∧
      ∃ r'', unreadByte r' = (.ok (), r'') ∧ r''.Good ∧ r''.rest = b :: t := by
  rcases nextSeg_cases h with ⟨he, hn⟩ | ⟨r', s, tt, hn, hg, hrest, hw, hd, h0, hp, hne⟩
  · rw [he] at hr; cases hr
  · obtain ⟨hget, hlt, _⟩ := drop_cons_get hd
    have hlt' : r'.pos.toNat < s.length := by omega
    have hb : s.drop r'.pos.toNat = s[r'.pos.toNat] :: s.drop (r'.pos.toNat + 1) := List.drop_eq_getElem_cons hlt'
    rw [← hrest, rest_eq hd (by omega), hb, List.cons_append] at hr
    injection hr with hb1 hb2
    refine ⟨{ r' with pos := r'.pos + 1 }, ?_, ?_, ?_, r', ?_, hg, ?_⟩
    · unfold readByte
      rw [hn]
      simp only [hget]
      rw [if_neg (by omega), List.getElem?_eq_getElem hlt']
      simp only [hb1]
    · exact ⟨⟨s, tt, hd, by simp only; omega, by simp only; omega, hne⟩, hg.small⟩
    · rw [rest_eq (r := { r' with pos := r'.pos + 1 }) hd (by simp only; omega)]
      rw [← hb2]
      congr 2
      simp only; omega
    · unfold unreadByte
      simp only
      rw [if_neg (by omega)]
      simp
    · rw [rest_eq hd (by omega), hb, List.cons_append, hb1, hb2]

theorem slice_ok {b : Bytes} {p q : Int} (h0 : 0 ≤ p) (h1 : p ≤ q) (h2 : q ≤ b.length) :
    slice b p q = .ok ((b.drop p.toNat).take (q.toNat - p.toNat)) := by
  unfold slice; rw [if_pos ⟨h0, h1, h2⟩]

theorem wrap_add {p l : Int} (h0 : 0 ≤ p) (h1 : p < 2 ^ 62) (h2 : 0 ≤ l) (h3 : l ≤ 2 ^ 62) : wrap64 (p + l) = p + l := by
  rw [wrap64_id] <;> omega

/-- The `ReadWire` loop reads across segments. -/
theorem readWireLoop_ok (t : Wire) : ∀ (s : Bytes) (seg : Nat) (pos : Int) (l : Nat), 0 ≤ pos → pos ≤ s.length →
    s.length + t.flatten.length < 2 ^ 62 → (∀ x ∈ t, x ≠ []) →
    0 < l → l ≤ (s.drop pos.toNat ++ t.flatten).length →
    ∃ (w : Wire) (k : Nat) (pos' : Int) (s' : Bytes) (t' : Wire), readWireLoop (s :: t) seg pos l = (.ok w, seg + k, pos') ∧
      w.flatten = (s.drop pos.toNat ++ t.flatten).take l ∧ (s :: t).drop k = s' :: t' ∧ 0 ≤ pos' ∧ pos' ≤ s'.length ∧
      (∀ x ∈ t', x ≠ []) ∧ s'.drop pos'.toNat ++ t'.flatten = (s.drop pos.toNat ++ t.flatten).drop l := by
  induction t with
  | nil =>
    intro s seg pos l h0 hp hsm hne hl hle
    simp only [List.flatten_nil, List.append_nil, List.length_nil, Nat.add_zero, List.length_drop] at *
    refine ⟨[(s.drop pos.toNat).take l], 0, pos + l, s, [], ?_, ?_, by simp, by omega, by omega, by simp, ?_⟩
    · unfold readWireLoop
      rw [if_neg (by omega)]
      simp only
      rw [wrap_add h0 (by omega) (by omega) (by omega), if_neg (by omega), slice_ok h0 (by omega) (by omega)]
      simp only [Nat.add_zero]
      congr 4; omega
    · simp
    · simp only [List.flatten_nil, List.append_nil, List.drop_drop]
      congr 1; omega
  | cons s2 t ih =>
    intro s seg pos l h0 hp hsm hne hl hle
    rw [List.flatten_cons, List.length_append] at hsm
    by_cases hc : pos + l > s.length
    · have hle2 : l - (s.length - pos.toNat) ≤ (s2.drop (0 : Int).toNat ++ t.flatten).length := by
        simp only [List.flatten_cons, List.length_append, List.length_drop, Int.toNat_zero] at hle ⊢
        omega
      obtain ⟨w, k, pos', s', t', hloop, hw, hd, h0', hp', hne', hr⟩ :=
        ih s2 (seg + 1) 0 (l - (s.length - pos.toNat)) (by omega) (by omega) (by omega)
          (fun x hx => hne x (by simp [hx])) (by omega) hle2
      have hdl : (s.drop pos.toNat).length = s.length - pos.toNat := by simp
      refine ⟨s.drop pos.toNat :: w, k + 1, pos', s', t', ?_, ?_, by simpa using hd, h0', hp', hne', ?_⟩
      · unfold readWireLoop
        rw [if_neg (by omega)]
        simp only
        rw [wrap_add h0 (by omega) (by omega) (by simp only [List.flatten_cons, List.length_append, List.length_drop] at hle; omega), if_pos hc, slice_ok h0 hp (by omega)]
        have e : (l : Int) - (s.length - pos) = ((l - (s.length - pos.toNat) : Nat) : Int) := by omega
        simp only
        rw [e, hloop]
        simp only
        rw [show seg + 1 + k = seg + (k + 1) by omega]
        congr 3
        apply List.take_of_length_le
        simp
      · rw [List.flatten_cons, hw, List.flatten_cons]
        simp only [Int.toNat_zero, List.drop_zero]
        rw [List.take_append (l₁ := s.drop pos.toNat), hdl]
        congr 1
        rw [List.take_of_length_le (by omega)]
      · rw [hr, List.flatten_cons]
        simp only [Int.toNat_zero, List.drop_zero]
        rw [List.drop_append (l₁ := s.drop pos.toNat), hdl]
        rw [List.drop_eq_nil_of_le (as := s.drop pos.toNat) (by omega)]; simp
    · have hl2 : l ≤ (s.drop pos.toNat).length := by simp; omega
      refine ⟨[(s.drop pos.toNat).take l], 0, pos + l, s, s2 :: t, ?_, ?_, by simp, by omega, by omega, hne, ?_⟩
      · unfold readWireLoop
        rw [if_neg (by omega)]
        simp only
        rw [wrap_add h0 (by omega) (by omega) (by omega), if_neg hc, slice_ok h0 (by omega) (by omega)]
        simp only [Nat.add_zero]
        congr 4; omega
      · rw [List.take_append_of_le_length hl2]; simp
      · rw [List.drop_append_of_le_length hl2, List.drop_drop]
        congr 2; omega

theorem readWireLoop_err (t : Wire) : ∀ (s : Bytes) (seg : Nat) (pos : Int) (l : Nat), 0 ≤ pos → pos ≤ s.length →
    s.length + t.flatten.length < 2 ^ 62 → l ≤ 2 ^ 62 → (s.drop pos.toNat ++ t.flatten).length < l →
    ∃ st, readWireLoop (s :: t) seg pos l = (.err .unexpectedEof, st) := by
  induction t with
  | nil =>
    intro s seg pos l h0 hp hsm hm hle
    simp only [List.flatten_nil, List.append_nil, List.length_nil, Nat.add_zero, List.length_drop] at *
    unfold readWireLoop
    rw [if_neg (by omega)]
    simp only
    rw [wrap_add h0 (by omega) (by omega) (by omega), if_pos (by omega), slice_ok h0 hp (by omega)]
    simp only
    unfold readWireLoop
    rw [if_neg (by omega)]
    exact ⟨_, rfl⟩
  | cons s2 t ih =>
    intro s seg pos l h0 hp hsm hm hle
    simp only [List.flatten_cons, List.length_append, List.length_drop] at hsm hle
    obtain ⟨st, hst⟩ := ih s2 (seg + 1) 0 (l - (s.length - pos.toNat)) (by omega) (by omega) (by omega) (by omega)
      (by simp only [List.length_append, List.length_drop, Int.toNat_zero]; omega)
    unfold readWireLoop
    rw [if_neg (by omega)]
    simp only
    rw [wrap_add h0 (by omega) (by omega) (by omega), if_pos (by omega), slice_ok h0 hp (by omega)]
    have e : (l : Int) - (s.length - pos) = ((l - (s.length - pos.toNat) : Nat) : Int) := by omega
    simp only
    rw [e, hst]
    exact ⟨_, rfl⟩

/-- Continue a good state after a walk over `k` more segments. -/
theorem Good.advance {r : WR} (h : r.Good) {k : Nat} {pos' : Int} {s' : Bytes} {t' : Wire}
    (hd : (r.wire.drop r.seg).drop k = s' :: t') (h0 : 0 ≤ pos') (hp : pos' ≤ s'.length) (hne : ∀ x ∈ t', x ≠ []) :
    Good { r with seg := r.seg + k, pos := pos' } ∧
      rest { r with seg := r.seg + k, pos := pos' } = s'.drop pos'.toNat ++ t'.flatten := by
  have hd' : r.wire.drop (r.seg + k) = s' :: t' := by rw [← hd, List.drop_drop]
  exact ⟨⟨⟨s', t', hd', h0, hp, hne⟩, h.small⟩, rest_eq (r := { r with seg := r.seg + k, pos := pos' }) hd' hp⟩

theorem readWire_ok {r : WR} (h : r.Good) {l : Nat} (hl : l ≤ r.rest.length) :
    ∃ w r', readWire l r = (.ok w, r') ∧ w.flatten = r.rest.take l ∧ (l ≠ 0 ∨ r.rest ≠ [] → r'.Good) ∧
      (l ≠ 0 ∨ r.rest ≠ [] → r'.rest = r.rest.drop l) := by
  rcases nextSeg_cases h with ⟨he, hn⟩ | ⟨r', s, t, hn, hg, hrest, hw, hd, h0, hp, hne⟩
  · rw [he] at hl
    have hl0 : l = 0 := by simpa using hl
    subst hl0
    refine ⟨[], { r with seg := r.wire.length, pos := 0 }, ?_, by simp, by simp [he], by simp [he]⟩
    unfold readWire
    rw [hn]
    simp [readWireLoop]
  · unfold readWire
    rw [hn]
    simp only [hd]
    rcases Nat.eq_zero_or_pos l with hl0 | hl0
    · subst hl0
      refine ⟨[], r', ?_, by simp, fun _ => hg, fun _ => by simp [hrest]⟩
      unfold readWireLoop
      simp
    · obtain ⟨w, k, pos', s', t', hloop, hwf, hdd, h0', hp', hne', hr⟩ :=
        readWireLoop_ok t s r'.seg r'.pos l h0 (by omega) (hg.cur_small hd) hne hl0
          (by rw [← rest_eq hd (by omega), hrest]; exact hl)
      rw [hloop]
      have ha := hg.advance (k := k) (by rw [hd]; exact hdd) h0' hp' hne'
      rw [← rest_eq hd (by omega), hrest] at hwf hr
      refine ⟨w, _, ?_, hwf, fun _ => ha.1, fun _ => by rw [ha.2, hr]⟩
      simp

theorem readWire_err {r : WR} (h : r.Good) {l : Nat} (hl : r.rest.length < l) (hm : l ≤ 2 ^ 62) :
    ∃ e r', readWire l r = (.err e, r') := by
  rcases nextSeg_cases h with ⟨he, hn⟩ | ⟨r', s, t, hn, hg, hrest, hw, hd, h0, hp, hne⟩
  · unfold readWire
    rw [hn]
    simp only
    rw [if_pos ⟨trivial, by omega⟩]
    exact ⟨_, _, rfl⟩
  · unfold readWire
    rw [hn]
    simp only [hd]
    obtain ⟨st, hst⟩ := readWireLoop_err t s r'.seg r'.pos l h0 (by omega) (hg.cur_small hd) hm
      (by rw [← rest_eq hd (by omega), hrest]; exact hl)
    rw [hst]
    rw [if_neg (by simp)]
    exact ⟨_, _, rfl⟩

theorem readBuf_ok {r : WR} (h : r.Good) {l : Nat} (hl : l ≤ r.rest.length) (hm : l ≤ maxAlloc)
    (hz : l ≠ 0 ∨ r.rest ≠ []) :
    ∃ r', readBuf l r = (.ok (r.rest.take l), r') ∧ r'.Good ∧ r'.rest = r.rest.drop l := by
  have hmm : maxAlloc ≤ 2 ^ 62 := by unfold maxAlloc; omega
  rcases nextSeg_cases h with ⟨he, hn⟩ | ⟨r', s, t, hn, hg, hrest, hw, hd, h0, hp, hne⟩
  · rw [he] at hl hz
    have : l = 0 := by simpa using hl
    simp [this] at hz
  · obtain ⟨hget, hlt, _⟩ := drop_cons_get hd
    have hcs := hg.cur_small hd
    unfold readBuf
    rw [hn]
    simp only [hget, hd]
    rw [if_neg (by simp), wrap_add h0 (by omega) (by omega) (by omega)]
    rw [← hrest, rest_eq hd (by omega)] at hl ⊢
    by_cases hc : r'.pos + l ≤ s.length
    · rw [if_pos hc, slice_ok h0 (by omega) hc]
      have ha := hg.advance (k := 0) (pos' := r'.pos + l) (by simpa using hd) (by omega) hc hne
      refine ⟨_, ?_, ha.1, ?_⟩
      · simp only [Nat.add_zero]
        rw [List.take_append_of_le_length (by simp; omega)]
        congr 3; omega
      · rw [ha.2, List.drop_append_of_le_length (by simp; omega), List.drop_drop]
        congr 2; omega
    · rw [if_neg hc, if_neg (by omega)]
      obtain ⟨w, k, pos', s', t', hloop, hwf, hdd, h0', hp', hne', hr⟩ :=
        readWireLoop_ok t s r'.seg r'.pos l h0 (by omega) hcs hne (by omega) hl
      rw [hloop]
      have ha := hg.advance (k := k) (by rw [hd]; exact hdd) h0' hp' hne'
      refine ⟨{ r' with seg := r'.seg + k, pos := pos' }, ?_, ha.1, by rw [ha.2, hr]⟩
      simp only [hwf]

theorem readBuf_err {r : WR} (h : r.Good) {l : Nat} (hl : r.rest.length < l) (hm : l ≤ maxAlloc) :
    ∃ e r', readBuf l r = (.err e, r') := by
  have hmm : maxAlloc ≤ 2 ^ 62 := by unfold maxAlloc; omega
  rcases nextSeg_cases h with ⟨he, hn⟩ | ⟨r', s, t, hn, hg, hrest, hw, hd, h0, hp, hne⟩
  · refine ⟨.unexpectedEof, { r with seg := r.wire.length, pos := 0 }, ?_⟩
    have hl0 : ((l : Int) > 0) := by omega
    simp only [readBuf, hn, hl0, and_self, if_true]
  · obtain ⟨hget, hlt, _⟩ := drop_cons_get hd
    have hcs := hg.cur_small hd
    unfold readBuf
    rw [hn]
    simp only [hget, hd]
    rw [← hrest, rest_eq hd (by omega)] at hl
    have hl' := hl
    simp only [List.length_append, List.length_drop] at hl'
    rw [if_neg (by simp), wrap_add h0 (by omega) (by omega) (by omega), if_neg (by omega), if_neg (by omega)]
    obtain ⟨st, hst⟩ := readWireLoop_err t s r'.seg r'.pos l h0 (by omega) hcs (by omega) hl
    rw [hst]
    exact ⟨.unexpectedEof, { r' with seg := st.1, pos := st.2 }, by simp only⟩

/-- The loop of `Skip`/`Delegate`. -/
theorem walk_ok (t : Wire) : ∀ (s : Bytes) (seg : Nat) (pos : Int), 0 ≤ pos → pos ≤ (s ++ t.flatten).length → (∀ x ∈ t, x ≠ []) →
    ∃ (k : Nat) (pos' : Int) (s' : Bytes) (t' : Wire), walk (s :: t) seg pos = (.ok (some (seg + k, pos')), seg + k, pos') ∧
      (s :: t).drop k = s' :: t' ∧ 0 ≤ pos' ∧ pos' ≤ s'.length ∧ (∀ x ∈ t', x ≠ []) ∧
      s'.drop pos'.toNat ++ t'.flatten = (s ++ t.flatten).drop pos.toNat ∧
      (((s :: t).take k).flatten.length : Int) + pos' = pos ∧ (pos > s.length → 0 < k ∧ 0 < pos') := by
  induction t with
  | nil =>
    intro s seg pos h0 hp hne
    simp only [List.flatten_nil, List.append_nil] at *
    refine ⟨0, pos, s, [], ?_, by simp, h0, hp, by simp, by simp, by simp, by omega⟩
    unfold walk
    rw [if_neg (by omega)]; simp
  | cons s2 t ih =>
    intro s seg pos h0 hp hne
    by_cases hc : pos > s.length
    · have hs2 : 0 < s2.length := List.length_pos_iff.mpr (hne s2 (by simp))
      obtain ⟨k, pos', s', t', hw, hd, h0', hp', hne', hr, hsum, hk⟩ := ih s2 (seg + 1) (pos - s.length) (by omega)
        (by simp only [List.flatten_cons, List.length_append] at hp ⊢; omega) (fun x hx => hne x (by simp [hx]))
      refine ⟨k + 1, pos', s', t', ?_, by simpa using hd, h0', hp', hne', ?_, ?_, ?_⟩
      · unfold walk
        rw [if_pos hc, if_neg (by simp), hw]
        rw [show seg + 1 + k = seg + (k + 1) by omega]
      · rw [hr, List.flatten_cons, List.drop_append (l₁ := s), List.drop_eq_nil_of_le (as := s) (by omega)]
        simp only [List.nil_append]
        congr 1; omega
      · simp only [List.take_succ_cons, List.flatten_cons, List.length_append]; omega
      · intro _
        refine ⟨by omega, ?_⟩
        rcases Nat.eq_zero_or_pos k with hk0 | hk0
        · subst hk0; simp only [List.take_zero, List.flatten_nil, List.length_nil] at hsum; omega
        · by_cases hcc : pos - s.length > s2.length
          · exact (hk hcc).2
          · exfalso
            unfold walk at hw
            rw [if_neg hcc] at hw
            simp only [Prod.mk.injEq] at hw
            omega
    · refine ⟨0, pos, s, s2 :: t, ?_, by simp, h0, by omega, hne, ?_, by simp, by omega⟩
      · unfold walk; rw [if_neg hc]; simp
      · rw [List.drop_append_of_le_length (by omega)]

theorem walk_err (t : Wire) : ∀ (s : Bytes) (seg : Nat) (pos : Int), (s ++ t.flatten).length < pos →
    ∃ st, walk (s :: t) seg pos = (.ok none, st) := by
  induction t with
  | nil =>
    intro s seg pos hp
    simp only [List.flatten_nil, List.append_nil] at hp
    unfold walk
    rw [if_pos (by omega), if_pos rfl]; exact ⟨_, rfl⟩
  | cons s2 t ih =>
    intro s seg pos hp
    simp only [List.flatten_cons, List.length_append] at hp
    obtain ⟨st, h⟩ := ih s2 (seg + 1) (pos - s.length) (by simp only [List.length_append]; omega)
    unfold walk
    rw [if_pos (by omega), if_neg (by simp), h]; exact ⟨_, rfl⟩

theorem skip_ok {r : WR} (h : r.Good) {l : Nat} (hl : l ≤ r.rest.length) :
    ∃ r', skip l r = (.ok (), r') ∧ r'.Good ∧ r'.rest = r.rest.drop l := by
  obtain ⟨s, t, hd, h0, hp, hne⟩ := h.segs
  have hcs := h.cur_small hd
  have hrs := h.rest_small
  rw [rest_eq hd hp] at hl ⊢
  simp only [List.length_append, List.length_drop] at hl
  obtain ⟨k, pos', s', t', hw, hdd, h0', hp', hne', hr, hsum, _⟩ := walk_ok t s r.seg (r.pos + l) (by omega)
    (by simp only [List.length_append]; omega) hne
  unfold skip
  rw [if_neg (by omega), wrap_add h0 (by omega) (by omega) (by omega), hd, hw]
  have ha := h.advance (k := k) (by rw [hd]; exact hdd) h0' hp' hne'
  refine ⟨_, rfl, ha.1, ?_⟩
  rw [ha.2, hr]
  rw [show (r.pos + (l : Int)).toNat = r.pos.toNat + l by omega, ← List.drop_drop]
  rw [List.drop_append_of_le_length (l₁ := s) (by omega)]

theorem skip_err {r : WR} (h : r.Good) {l : Nat} (hl : r.rest.length < l) (hm : l ≤ 2 ^ 62) :
    ∃ e r', skip l r = (.err e, r') := by
  obtain ⟨s, t, hd, h0, hp, hne⟩ := h.segs
  have hcs := h.cur_small hd
  rw [rest_eq hd hp] at hl
  simp only [List.length_append, List.length_drop] at hl
  obtain ⟨st, hw⟩ := walk_err t s r.seg (r.pos + l) (by simp only [List.length_append]; omega)
  unfold skip
  rw [if_neg (by omega), wrap_add h0 (by omega) (by omega) (by omega), hd, hw]
  exact ⟨_, _, rfl⟩

theorem remaining_eq {r : WR} (h : r.Good) : (r.length : Int) - r.posOf = r.rest.length := by
  obtain ⟨s, t, hd, h0, hp, hne⟩ := h.segs
  rw [rest_eq hd hp]
  unfold posOf length accSz
  rw [List.take_length]
  have e : r.wire.flatten.length = (r.wire.take r.seg).flatten.length + (s.length + t.flatten.length) := by
    conv => lhs; rw [← List.take_append_drop r.seg r.wire, hd]
    simp
  rw [e]
  simp only [List.length_append, List.length_drop]
  omega

/-- `Delegate` within what is left. -/
theorem delegate_ok {r : WR} (h : r.Good) {l : Nat} (hl : l ≤ r.rest.length) :
    (∃ r', delegate l r = (.ok (.b (BR.new (r.rest.take l))), r') ∧ r'.Good ∧ r'.rest = r.rest.drop l) ∨
    (∃ r2 r', delegate l r = (.ok (.w r2), r') ∧ r2.Good ∧ r2.rest = r.rest.take l ∧ r'.Good ∧ r'.rest = r.rest.drop l) := by
  obtain ⟨s, t, hd, h0, hp, hne⟩ := h.segs
  obtain ⟨hget, hlt, htl⟩ := drop_cons_get hd
  have hcs := h.cur_small hd
  have hr0 := rest_eq hd hp
  rw [hr0] at hl ⊢
  have hl' := hl
  simp only [List.length_append, List.length_drop] at hl'
  have hwr : wrap64 (r.pos + (l : Int)) = r.pos + l := wrap_add h0 (by omega) (by omega) (by omega)
  have hcond : ¬((l : Int) < 0 ∨ r.seg ≥ r.wire.length) := by omega
  by_cases hc : r.pos + l ≤ s.length
  · left
    have ha := h.advance (k := 0) (pos' := r.pos + l) (by simpa using hd) (by omega) hc hne
    refine ⟨{ r with pos := r.pos + l }, ?_, by simpa using ha.1, ?_⟩
    · unfold delegate
      rw [if_neg hcond]
      simp only [hget, hwr]
      rw [if_pos hc, slice_ok h0 (by omega) hc]
      simp only
      rw [List.take_append_of_le_length (by simp; omega), show (r.pos + (l : Int)).toNat - r.pos.toNat = l by omega]
    · have := ha.2
      simp only [Nat.add_zero] at this
      rw [this, List.drop_append_of_le_length (by simp; omega), List.drop_drop]
      congr 2; omega
  · right
    obtain ⟨k, pos', s', t', hw, hdd, h0', hp', hne', hr, hsum, hk⟩ := walk_ok t s r.seg (r.pos + l) (by omega)
      (by simp only [List.length_append]; omega) hne
    obtain ⟨hk0, hpos0⟩ := hk (by omega)
    obtain ⟨j, rfl⟩ : ∃ j, k = j + 1 := ⟨k - 1, by omega⟩
    have ha := h.advance (k := j + 1) (by rw [hd]; exact hdd) h0' hp' hne'
    have hrest' : rest { r with seg := r.seg + (j + 1), pos := pos' } = (s.drop r.pos.toNat ++ t.flatten).drop l := by
      rw [ha.2, hr, show (r.pos + (l : Int)).toNat = r.pos.toNat + l by omega, ← List.drop_drop,
        List.drop_append_of_le_length (l₁ := s) (by omega)]
    have hdj : t.drop j = s' :: t' := by simpa using hdd
    have ht : t = t.take j ++ s' :: t' := by rw [← hdj, List.take_append_drop]
    have hgetl : r.wire[r.seg + (j + 1)]? = some s' := by
      have : r.wire.drop (r.seg + (j + 1)) = s' :: t' := by
        rw [← hdd, ← hd, List.drop_drop]
      exact (drop_cons_get this).1
    have hsum' : (s.length : Int) + (t.take j).flatten.length + pos' = r.pos + l := by
      simp only [List.take_succ_cons, List.flatten_cons, List.length_append] at hsum; omega
    have htake1 : t.take (j + 1) = t.take j ++ [s'] := by
      rw [List.take_add_one]
      congr 1
      have := congrArg List.head? hdj
      rw [List.head?_drop] at this
      rw [this]; rfl
    have hpre : (s :: t).take (j + 2) = s :: (t.take j ++ [s']) := by
      rw [List.take_succ_cons, htake1]
    have hlen : (t.take j).length = j := by
      rw [List.length_take]
      have := congrArg List.length hdj
      simp at this
      omega
    have hneT : ∀ x ∈ t.take j, x ≠ [] := fun x hx => hne x (List.mem_of_mem_take hx)
    have htf : t.flatten = (t.take j).flatten ++ (s' ++ t'.flatten) := by
      conv => lhs; rw [ht]
      simp
    by_cases hf : pos' = s'.length
    · refine ⟨⟨r.wire.take (r.seg + (j + 1) + 1), r.seg, r.pos⟩, { r with seg := r.seg + (j + 1), pos := pos' }, ?_, ?_, ?_, ha.1, hrest'⟩
      · unfold delegate
        rw [if_neg hcond]
        simp only [hget, hwr]
        rw [if_neg hc, hd, hw]
        simp only [hgetl]
        rw [if_pos hf]
      · refine ⟨⟨s, t.take j ++ [s'], ?_, h0, hp, ?_⟩, ?_⟩
        · simp only
          rw [List.drop_take, hd, show r.seg + (j + 1) + 1 - r.seg = j + 2 by omega, hpre]
        · intro x hx
          rcases List.mem_append.1 hx with hx | hx
          · exact hneT x hx
          · have := hne s' (by rw [ht]; simp)
            simp at hx; rw [hx]; exact this
        · have h1 := h.small
          have h2 : (r.wire.take (r.seg + (j + 1) + 1)).flatten.length ≤ r.wire.flatten.length := by
            conv => rhs; rw [← List.take_append_drop (r.seg + (j + 1) + 1) r.wire]
            rw [List.flatten_append, List.length_append]; omega
          simp only; omega
      · rw [rest_eq (r := ⟨r.wire.take (r.seg + (j + 1) + 1), r.seg, r.pos⟩) (s := s) (t := t.take j ++ [s'])
          (by simp only; rw [List.drop_take, hd, show r.seg + (j + 1) + 1 - r.seg = j + 2 by omega, hpre]) hp]
        have e : s.drop r.pos.toNat ++ t.flatten = (s.drop r.pos.toNat ++ (t.take j ++ [s']).flatten) ++ t'.flatten := by
          rw [htf]; simp
        simp only
        rw [e, List.take_left']
        simp only [List.length_append, List.length_drop, List.flatten_append, List.flatten_cons, List.flatten_nil, List.append_nil]
        omega
    · refine ⟨WR.new (s.drop r.pos.toNat :: (t.take j ++ [s'.take pos'.toNat])), { r with seg := r.seg + (j + 1), pos := pos' }, ?_, ?_, ?_, ha.1, hrest'⟩
      · unfold delegate
        rw [if_neg hcond]
        simp only [hget, hwr]
        rw [if_neg hc, hd, hw]
        simp only [hgetl]
        rw [if_neg hf, slice_ok h0 hp (by omega), slice_ok (by omega) h0' hp']
        simp only
        rw [show r.seg + (j + 1) + 1 - r.seg = j + 2 by omega, hpre, show r.seg + (j + 1) - r.seg = j + 1 by omega]
        rw [List.set_cons_zero, List.set_cons_succ]
        have e1 : (s.drop r.pos.toNat).take ((s.length : Int).toNat - r.pos.toNat) = s.drop r.pos.toNat := by
          apply List.take_of_length_le; simp
        have e2 : (t.take j ++ [s']).set j ((s'.drop (0 : Int).toNat).take (pos'.toNat - (0 : Int).toNat)) = t.take j ++ [s'.take pos'.toNat] := by
          rw [List.set_append_right _ _ (by omega)]
          simp [hlen]
        rw [e1, e2]
      · refine ⟨⟨s.drop r.pos.toNat, t.take j ++ [s'.take pos'.toNat], rfl, by simp [WR.new], by simp [WR.new], ?_⟩, ?_⟩
        · intro x hx
          rcases List.mem_append.1 hx with hx | hx
          · exact hneT x hx
          · simp only [List.mem_singleton] at hx
            intro he
            rw [he] at hx
            have := congrArg List.length hx
            simp at this; omega
        · simp only [WR.new, List.flatten_cons, List.flatten_append, List.length_append, List.length_drop, List.flatten_nil, List.length_take, List.length_nil]
          rw [htf] at hcs
          simp only [List.length_append] at hcs
          omega
      · rw [rest_eq (r := WR.new (s.drop r.pos.toNat :: (t.take j ++ [s'.take pos'.toNat]))) (s := s.drop r.pos.toNat) (t := t.take j ++ [s'.take pos'.toNat]) rfl (by simp [WR.new])]
        simp only [WR.new, Int.toNat_zero, List.drop_zero, List.flatten_append, List.flatten_cons, List.flatten_nil, List.append_nil]
        rw [htf, ← List.append_assoc, ← List.append_assoc, List.take_append (l₁ := s.drop r.pos.toNat ++ (t.take j).flatten)]
        rw [List.take_of_length_le (l := s.drop r.pos.toNat ++ (t.take j).flatten) (by simp only [List.length_append, List.length_drop]; omega)]
        congr 1
        rw [List.take_append_of_le_length (by simp only [List.length_append, List.length_drop]; omega)]
        congr 1
        simp only [List.length_append, List.length_drop]; omega

end WR

/-! ## Both readers -/

namespace Rd

/-- The bytes a reader has left. -/
def rest : Rd → Bytes
  | .b r => r.rest
  | .w r => r.rest

/-- A reader in working order. -/
def Good : Rd → Prop
  | .b r => r.Good
  | .w r => r.Good

end Rd

end Ndn
