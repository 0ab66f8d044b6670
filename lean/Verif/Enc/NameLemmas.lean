import Verif.Enc.Name
import Verif.Enc.ReaderRun

set_option linter.unusedSimpArgs false

/-! Lemmas about the binary form of components and names. -/

namespace Ndn

theorem natEnc_eq_tlEnc {x : Nat} (h : x ≤ 0xfc) : natEnc x = tlEnc x := by
  rw [tlEnc_small h, natEnc, if_pos (by omega)]
theorem natLen_eq_tlLen {x : Nat} (h : x ≤ 0xfc) : natLen x = tlLen x := by
  rw [← natEnc_length, natEnc_eq_tlEnc h, tlEnc_length]
/-- above `0xfc` the natural-number form is always shorter than the TL form -/
theorem natLen_lt_tlLen {x : Nat} (h : 0xfc < x) : natLen x < tlLen x := by
  unfold natLen tlLen; repeat' split
  all_goals omega

theorem Component.enc_length (c : Component) : c.enc.length = c.encLen := by
  simp [Component.enc, Component.encLen, tlEnc_length, natEnc_length]; omega

theorem Name.encLen_acc (n : Name) (a : Nat) :
    n.foldl (fun acc c => acc + c.encLen) a = a + (Name.encBody n).length := by
  induction n generalizing a with
  | nil => simp [Name.encBody]
  | cons c n ih => rw [List.foldl_cons, ih, Name.encBody, List.length_append, Component.enc_length]; omega

theorem Name.encLen_eq (n : Name) : Name.encLen n = (Name.encBody n).length := by
  rw [Name.encLen, Name.encLen_acc]; omega

/-- every behaviour of `ReadBuf(int(l))` -/
theorem BR.readBuf_cases {r : BR} (h : r.Good) {l : Nat} (hl : l < 2 ^ 64) :
    (l ≤ r.rest.length ∧ BR.readBuf (toInt l) r = (.ok (r.rest.take l), r.adv l)) ∨
    (r.rest.length < l ∧ r.pos + l < 2 ^ 63 ∧ BR.readBuf (toInt l) r = (.err .unexpectedEof, r)) ∨
    (2 ^ 63 ≤ r.pos + l ∧ ∃ r', BR.readBuf (toInt l) r = (.panic, r')) := by
  have h1 := h.1; have h2 := h.2
  by_cases hr : l ≤ r.rest.length
  · left
    refine ⟨hr, ?_⟩
    have hr' := hr
    rw [BR.rest_length] at hr'
    rw [toInt_of_lt (by omega)]
    exact BR.readBuf_ok h hr
  · right
    have hr' := hr
    rw [BR.rest_length] at hr'
    by_cases hp : r.pos + l < 2 ^ 63
    · left
      refine ⟨by omega, hp, ?_⟩
      rw [toInt_of_lt (by omega)]
      have hw : wrap64 ((r.pos : Int) + (l : Int)) = ((r.pos + l : Nat) : Int) := by rw [wrap64_id] <;> omega
      unfold BR.readBuf
      simp only
      rw [hw, if_pos (by omega)]
    · right
      refine ⟨by omega, ?_⟩
      have hw : wrap64 ((r.pos : Int) + toInt l) = (r.pos : Int) + l - 2 ^ 64 := by
        by_cases hl3 : l < 2 ^ 63
        · rw [toInt_of_lt hl3, wrap64_eq]; omega
        · rw [toInt_neg (by omega) hl, wrap64_id] <;> omega
      unfold BR.readBuf
      simp only
      rw [hw, if_neg (by omega)]
      have hs : BR.slice r.buf r.pos ((r.pos : Int) + l - 2 ^ 64) = .panic := by
        unfold BR.slice; rw [if_neg (by omega)]
      rw [hs]
      exact ⟨_, rfl⟩

theorem RM.onErr_ok {σ α : Type} {m : RM σ α} {f : Err → Err} {s s' : σ} {a : α} (h : m s = (.ok a, s')) :
    RM.onErr f m s = (.ok a, s') := by simp [RM.onErr, h]
theorem RM.onErr_err {σ α : Type} {m : RM σ α} {f : Err → Err} {s s' : σ} {e : Err} (h : m s = (.err e, s')) :
    RM.onErr f m s = (.err (f e), s') := by simp [RM.onErr, h]

/-- every behaviour of `ReadComponent` -/
theorem readComponent_cases (r : BR) (hg : r.Good) :
    (r.rest = [] ∧ readComponent r = (.err .eof, r)) ∨
    (∃ r', r.rest ≠ [] ∧ readComponent r = (.err .unexpectedEof, r')) ∨
    (∃ t n1 l n2, TLSplit r.rest t n1 ∧ TLSplit (r.rest.drop n1) l n2 ∧
      ((n1 + n2 + l ≤ r.rest.length ∧
          readComponent r = (.ok ⟨t, (r.rest.drop (n1 + n2)).take l⟩, r.adv (n1 + n2 + l))) ∨
       (2 ^ 63 ≤ r.pos + (n1 + n2) + l ∧ ∃ r', readComponent r = (.panic, r')))) := by
  rcases readTL_cases r with ⟨h0, e⟩ | ⟨r', e, _, hne⟩ | ⟨t, n1, hs1, e1, _⟩
  · left; refine ⟨h0, ?_⟩
    unfold readComponent; exact RM.bind_err e
  · right; left; refine ⟨r', hne, ?_⟩
    unfold readComponent; exact RM.bind_err e
  · have hne : r.rest ≠ [] := by intro h; rw [h] at hs1; cases hs1
    have hg1 := hg.adv hs1.le_length
    rcases readTL_cases (r.adv n1) with ⟨h0, e⟩ | ⟨r', e, _, _⟩ | ⟨l, n2, hs2, e2, _⟩
    · right; left; refine ⟨r.adv n1, hne, ?_⟩
      unfold readComponent
      rw [RM.bind_ok e1]
      exact RM.bind_err (by rw [RM.onErr_err e]; simp)
    · right; left; refine ⟨r', hne, ?_⟩
      unfold readComponent
      rw [RM.bind_ok e1]
      exact RM.bind_err (by rw [RM.onErr_err e]; simp)
    · have hg2 := hg1.adv hs2.le_length
      have hlen2 : n1 + n2 ≤ r.rest.length := by
        have a := hs1.le_length
        have b := hs2.le_length
        rw [BR.rest_adv, List.length_drop] at b
        omega
      rw [BR.adv_adv] at e2 hg2
      have e2' := RM.onErr_ok (f := fun e => if e = .eof then .unexpectedEof else e) e2
      have hrest : (r.adv (n1 + n2)).rest = r.rest.drop (n1 + n2) := BR.rest_adv r _
      have hs2' : TLSplit (r.rest.drop n1) l n2 := by rw [← BR.rest_adv]; exact hs2
      rcases BR.readBuf_cases hg2 hs2.lt with ⟨hl, e3⟩ | ⟨hl, _, e3⟩ | ⟨hl, r', e3⟩
      · right; right
        refine ⟨t, n1, l, n2, hs1, hs2', .inl ⟨?_, ?_⟩⟩
        · rw [hrest, List.length_drop] at hl; omega
        · unfold readComponent
          rw [RM.bind_ok e1, RM.bind_ok e2', RM.bind_ok e3, hrest, BR.adv_adv]
          rfl
      · right; left
        refine ⟨r.adv (n1 + n2), hne, ?_⟩
        unfold readComponent
        rw [RM.bind_ok e1, RM.bind_ok e2']
        exact RM.bind_err e3
      · right; right
        refine ⟨t, n1, l, n2, hs1, hs2', .inr ⟨by simpa using hl, r', ?_⟩⟩
        unfold readComponent
        rw [RM.bind_ok e1, RM.bind_ok e2']
        exact RM.bind_panic e3

theorem TLSplit.det {s : Bytes} {v n v' n' : Nat} (h : TLSplit s v n) (h' : TLSplit s v' n') : v = v' ∧ n = n' := by
  have e1 := readTL_of_split (r := ⟨s, 0⟩) (by simpa [BR.rest] using h)
  have e2 := readTL_of_split (r := ⟨s, 0⟩) (by simpa [BR.rest] using h')
  rw [e1] at e2
  simp only [BR.adv, Prod.mk.injEq, Res.ok.injEq, BR.mk.injEq] at e2
  exact ⟨e2.1, by omega⟩

theorem tlSplit_tlEnc {x : Nat} (h : x < 2 ^ 64) (t : Bytes) : TLSplit (tlEnc x ++ t) x (tlLen x) := by
  have e := readTL_tlEnc h (r := ⟨tlEnc x ++ t, 0⟩) (t := t) (by simp [BR.rest])
  rcases readTL_cases ⟨tlEnc x ++ t, 0⟩ with ⟨h0, e'⟩ | ⟨r', e', _, _⟩ | ⟨v, n, hs, e', _⟩
  · rw [e] at e'; cases e'
  · rw [e] at e'; cases e'
  · rw [e] at e'
    simp only [BR.adv, Prod.mk.injEq, Res.ok.injEq, BR.mk.injEq] at e'
    obtain ⟨e1, _, e2⟩ := e'
    have : n = tlLen x := by omega
    rw [← e1, this] at hs
    simpa [BR.rest] using hs

/-- what `ReadComponent` returns on the encoding of a component followed by anything -/
theorem readComponent_enc {r : BR} (hg : r.Good) {c : Component} {t : Bytes} (hr : r.rest = c.enc ++ t)
    (ht : c.typ < 2 ^ 64) (hl : c.val.length ≤ 0xfc) : readComponent r = (.ok c, r.adv c.encLen) := by
  have hs1 : TLSplit r.rest c.typ (tlLen c.typ) := by
    rw [hr, Component.enc, List.append_assoc, List.append_assoc]; exact tlSplit_tlEnc ht _
  have hd1 : r.rest.drop (tlLen c.typ) = tlEnc c.val.length ++ (c.val ++ t) := by
    rw [hr, Component.enc, List.append_assoc, List.append_assoc, ← tlEnc_length, List.drop_left,
      natEnc_eq_tlEnc hl]
  have hs2 : TLSplit (r.rest.drop (tlLen c.typ)) c.val.length (tlLen c.val.length) := by
    rw [hd1]; exact tlSplit_tlEnc (by omega) _
  have hd2 : r.rest.drop (tlLen c.typ + tlLen c.val.length) = c.val ++ t := by
    rw [← List.drop_drop, hd1, ← tlEnc_length c.val.length, List.drop_left]
  have hlen : r.rest.length = tlLen c.typ + tlLen c.val.length + c.val.length + t.length := by
    rw [hr, List.length_append, Component.enc_length, Component.encLen, natLen_eq_tlLen hl]
  have hpos : r.pos < 2 ^ 62 := by have := hg.1; have := hg.2; omega
  have hrl : r.rest.length < 2 ^ 62 := by rw [BR.rest_length]; have := hg.2; omega
  rcases readComponent_cases r hg with ⟨h0, _⟩ | ⟨r', _, e⟩ | ⟨t', n1, l, n2, s1, s2, h⟩
  · have := tlLen_pos c.typ; rw [h0] at hlen; simp at hlen; omega
  · exfalso
    have e1 := readTL_of_split hs1
    have e2 := readTL_of_split (r := r.adv (tlLen c.typ)) (by rw [BR.rest_adv]; exact hs2)
    have e2' := RM.onErr_ok (f := fun e => if e = .eof then .unexpectedEof else e) e2
    rw [BR.adv_adv] at e2'
    have hg2 : (r.adv (tlLen c.typ + tlLen c.val.length)).Good := hg.adv (by omega)
    have e3 := BR.readBuf_ok hg2 (l := c.val.length) (by rw [BR.rest_adv, hd2]; simp)
    rw [← toInt_of_lt (by omega)] at e3
    unfold readComponent at e
    rw [RM.bind_ok e1, RM.bind_ok e2', RM.bind_ok e3] at e
    cases e
  · obtain ⟨rfl, rfl⟩ := s1.det hs1
    obtain ⟨rfl, rfl⟩ := s2.det hs2
    rcases h with ⟨_, e⟩ | ⟨hbig, _⟩
    · rw [e, hd2, List.take_left, Component.encLen, natLen_eq_tlLen hl]
    · exfalso
      omega

theorem Component.encLen_ge (c : Component) : 2 ≤ c.encLen := by
  have h1 := tlLen_pos c.typ
  have h2 : 1 ≤ natLen c.val.length := by unfold natLen; repeat' split
                                          all_goals omega
  unfold Component.encLen; omega

/-- Components whose encoding is a well-formed TLV. -/
def Component.Small (c : Component) : Prop := c.typ < 2 ^ 64 ∧ c.val.length ≤ 0xfc

theorem readNameLoop_enc (n : Name) : ∀ (r : BR) (fuel : Nat), r.Good → r.rest = Name.encBody n →
    (∀ c ∈ n, c.Small) → n.length < fuel → readNameLoop fuel r = some (.ok n, r.adv r.rest.length) := by
  induction n with
  | nil =>
    intro r fuel hg hr _ hf
    cases fuel with
    | zero => simp at hf
    | succ f =>
      have hr0 : r.rest = [] := hr
      rcases readComponent_cases r hg with ⟨h0, e⟩ | ⟨r', hne, _⟩ | ⟨t', n1, l, n2, s1, s2, h⟩
      · simp [readNameLoop, e, hr0]
      · exact absurd hr0 hne
      · rw [hr0] at s1; cases s1
  | cons c n ih =>
    intro r fuel hg hr hs hf
    cases fuel with
    | zero => simp at hf
    | succ f =>
      have hc := hs c (by simp)
      have e := readComponent_enc hg hr hc.1 hc.2
      have hle : c.encLen ≤ r.rest.length := by rw [hr, Name.encBody, List.length_append, Component.enc_length]; omega
      have hr' : (r.adv c.encLen).rest = Name.encBody n := by
        rw [BR.rest_adv, hr, Name.encBody, ← Component.enc_length, List.drop_left]
      have := ih (r.adv c.encLen) f (hg.adv hle) hr' (fun c hc => hs c (by simp [hc])) (by simpa using hf)
      simp only [readNameLoop, e, this]
      rw [BR.adv_adv, hr', hr, Name.encBody, List.length_append, Component.enc_length]

/-- more fuel does not change a finished loop -/
theorem readNameLoop_mono {n : Nat} {r : BR} {x : Res Name × BR} (h : readNameLoop n r = some x) :
    ∀ m, n ≤ m → readNameLoop m r = some x := by
  induction n generalizing r x with
  | zero => simp [readNameLoop] at h
  | succ n ih =>
    intro m hm
    obtain ⟨m, rfl⟩ : ∃ k, m = k + 1 := ⟨m - 1, by omega⟩
    simp only [readNameLoop] at h ⊢
    split at h
    · rename_i c r' e
      cases hq : readNameLoop n r' with
      | none => rw [hq] at h; cases h
      | some y =>
        rw [ih hq m (by omega)]
        rw [hq] at h
        exact h
    · exact h
    · exact h

/-- A method that leaves the underlying buffer alone. -/
def Keeps {α : Type} (m : RM BR α) : Prop := ∀ r, (m r).2.buf = r.buf

theorem Keeps.bind {α β : Type} {m : RM BR α} {f : α → RM BR β} (hm : Keeps m) (hf : ∀ a, Keeps (f a)) :
    Keeps (m >>= f) := by
  intro r
  have h := hm r
  rw [RM.bind_apply]
  cases hq : m r with
  | mk x s =>
    rw [hq] at h
    cases x with
    | ok a => exact (hf a s).trans h
    | err e => exact h
    | panic => exact h

theorem Keeps.onErr {α : Type} {m : RM BR α} {f : Err → Err} (hm : Keeps m) : Keeps (RM.onErr f m) := by
  intro r
  have h := hm r
  unfold RM.onErr
  cases hq : m r with
  | mk x s =>
    rw [hq] at h
    cases x <;> exact h

theorem Keeps.pure {α : Type} (a : α) : Keeps (Pure.pure a : RM BR α) := fun _ => rfl

theorem Keeps.readByte : Keeps BR.readByte := by
  intro r; unfold BR.readByte; split <;> rfl

theorem Keeps.readBeLoop (n : Nat) : ∀ v, Keeps (Ndn.readBeLoop BR.readByte n v) := by
  induction n with
  | zero => intro v; exact Keeps.pure v
  | succ n ih => intro v; exact Keeps.bind (Keeps.onErr Keeps.readByte) (fun _ => ih _)

theorem Keeps.readTL : Keeps BR.readTL := by
  refine Keeps.bind Keeps.readByte (fun x => ?_)
  split
  · exact Keeps.pure _
  · split
    · exact Keeps.readBeLoop _ _
    · split <;> exact Keeps.readBeLoop _ _

theorem Keeps.readBuf (l : Int) : Keeps (BR.readBuf l) := by
  intro r; unfold BR.readBuf; simp only; split
  · rfl
  · split <;> rfl

theorem Keeps.readComponent : Keeps Ndn.readComponent :=
  Keeps.bind Keeps.readTL fun _ => Keeps.bind (Keeps.onErr Keeps.readTL) fun _ =>
    Keeps.bind (Keeps.readBuf _) fun _ => Keeps.pure _

theorem readComponent_buf {r r' : BR} {x : Res Component} (e : readComponent r = (x, r')) : r'.buf = r.buf := by
  have := Keeps.readComponent r
  rw [e] at this; exact this

/-- A position in the buffer where the length field of a TLV is at least `2^62`. -/
def HugeLength (s : Bytes) : Prop :=
  ∃ p t n1 l n2, parseTL (s.drop p) = .ok (t, n1) ∧ parseTL (s.drop (p + n1)) = .ok (l, n2) ∧ 2 ^ 62 ≤ l

theorem TLSplit.parseTL {s : Bytes} {v n : Nat} (h : TLSplit s v n) : parseTL s = .ok (v, n) := by
  have e1 := readTL_of_split (r := ⟨s, 0⟩) (by simpa [BR.rest] using h)
  rcases readTL_cases ⟨s, 0⟩ with ⟨_, e⟩ | ⟨_, e, _⟩ | ⟨v', n', hs, _, e⟩
  · rw [e] at e1; cases e1
  · rw [e] at e1; cases e1
  · obtain ⟨rfl, rfl⟩ := h.det (by simpa [BR.rest] using hs)
    simpa [BR.rest] using e

/-- the loop of `ReadName` ends, and panics only at a huge length field -/
theorem readNameLoop_ends (fuel : Nat) : ∀ (r : BR), r.Good → r.rest.length < fuel →
    ∃ x r', readNameLoop fuel r = some (x, r') ∧ (x = .panic → HugeLength r.buf) ∧
      r'.buf = r.buf := by
  induction fuel with
  | zero => intro r _ h; omega
  | succ f ih =>
    intro r hg hf
    rcases readComponent_cases r hg with ⟨h0, e⟩ | ⟨r', hne, e⟩ | ⟨t', n1, l, n2, s1, s2, h⟩
    · exact ⟨.ok [], r, by simp [readNameLoop, e], by simp, rfl⟩
    · refine ⟨.err .unexpectedEof, r', by simp [readNameLoop, e], by simp, ?_⟩
      exact readComponent_buf e
    · have w1 : 1 ≤ n1 := by rcases s1.width with h | h | h | h <;> omega
      have hpos : r.pos < 2 ^ 62 := by have := hg.1; have := hg.2; omega
      rcases h with ⟨hle, e⟩ | ⟨hbig, r', e⟩
      · have := ih (r.adv (n1 + n2 + l)) (hg.adv hle) (by rw [BR.rest_adv, List.length_drop]; omega)
        obtain ⟨x, r', hx, hp, hb⟩ := this
        cases x with
        | ok cs => exact ⟨_, r', by simp [readNameLoop, e, hx]; rfl, by simp, hb⟩
        | err er => exact ⟨.err er, r', by simp [readNameLoop, e, hx], by simp, hb⟩
        | panic => exact ⟨.panic, r', by simp [readNameLoop, e, hx], fun _ => hp rfl, hb⟩
      · refine ⟨.panic, r', by simp [readNameLoop, e], fun _ => ?_, readComponent_buf e⟩
        refine ⟨r.pos, t', n1, l, n2, s1.parseTL, ?_, ?_⟩
        · have := s2.parseTL
          rwa [BR.rest, List.drop_drop] at this
        · have a := s2.le_length
          have b := s1.le_length
          have hrl : r.rest.length < 2 ^ 62 := by rw [BR.rest_length]; have := hg.2; omega
          rw [List.length_drop] at a
          have hposrl : r.pos + r.rest.length = r.buf.length := by rw [BR.rest_length]; have := hg.1; omega
          have := hg.2
          omega
end Ndn
