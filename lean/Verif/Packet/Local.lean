import Verif.Packet.Total

/-! # What the Data parser has read depends on the bytes it has read only (lemmas) -/

namespace Ndn.Packet
open Ndn.Codec Ndn.Codec.Schema

/-- `r'` reads what `r` reads, but ends earlier -/
structure Cut (r r' : BR) : Prop where
  good : r.Good
  good' : r'.Good
  calm : Calm r.buf
  pre : ∃ t, r.rest = r'.rest ++ t

theorem Cut.le {r r' : BR} (h : Cut r r') : r'.rest.length ≤ r.rest.length := by
  obtain ⟨t, ht⟩ := h.pre; rw [ht, List.length_append]; omega

theorem Cut.adv {r r' : BR} (h : Cut r r') {n : Nat} (hn : n ≤ r'.rest.length) : Cut (r.adv n) (r'.adv n) := by
  refine ⟨h.good.adv (by have := h.le; omega), h.good'.adv hn, h.calm, ?_⟩
  obtain ⟨t, ht⟩ := h.pre
  exact ⟨t, by rw [BR.rest_adv, BR.rest_adv, ht, List.drop_append_of_le_length hn]⟩

theorem Cut.take {r r' : BR} (h : Cut r r') {n : Nat} (hn : n ≤ r'.rest.length) : r.rest.take n = r'.rest.take n := by
  obtain ⟨t, ht⟩ := h.pre
  rw [ht, List.take_append_of_le_length hn]

theorem tlSplit_cut {s t : Bytes} {v n : Nat} (h : TLSplit (s ++ t) v n) (hn : n ≤ s.length) : TLSplit s v n := by
  cases s with
  | nil => rcases h.width with h | h | h | h <;> (subst h; simp at hn)
  | cons b s =>
    simp only [List.length_cons] at hn
    generalize hs : (b :: s) ++ t = u at h
    rw [List.cons_append] at hs
    cases h with
    | one b' t' hb => injection hs with h1 h2; subst h1; exact .one b s hb
    | two t' ht => injection hs with h1 h2; subst h1; rw [← h2, List.take_append_of_le_length (by omega)]; exact .two s (by omega)
    | four t' ht => injection hs with h1 h2; subst h1; rw [← h2, List.take_append_of_le_length (by omega)]; exact .four s (by omega)
    | eight t' ht => injection hs with h1 h2; subst h1; rw [← h2, List.take_append_of_le_length (by omega)]; exact .eight s (by omega)

/-- what was read up to the end of `r'` is read from `r'`, too -/
def Local {α : Type} (f : BR → PR α) : Prop :=
  ∀ (r r' : BR), Cut r r' → ∀ v r1, f r = some (.ok v, r1) → r1.pos ≤ r.pos + r'.rest.length →
    ∃ n, n ≤ r'.rest.length ∧ r1 = r.adv n ∧ f r' = some (.ok v, r'.adv n)

theorem Local.map {α β : Type} {f : BR → PR α} (h : Local f) (g : α → β) : Local (fun r => PR.map g (f r)) := by
  intro r r' hc v r1 e hp
  have e : PR.map g (f r) = some (.ok v, r1) := e
  cases hx : f r with
  | none => rw [hx] at e; exact (nomatch e)
  | some y =>
    obtain ⟨y, q⟩ := y
    cases y with
    | ok a =>
      rw [hx] at e
      have e : some (Res.ok (g a), q) = some (Res.ok v, r1) := e
      injection e with e; injection e with e1 e2; injection e1 with e1
      subst e1 e2
      obtain ⟨n, h1, h2, h3⟩ := h r r' hc a q hx hp
      exact ⟨n, h1, h2, by show PR.map g (f r') = _; rw [h3]; rfl⟩
    | err x => rw [hx] at e; exact (nomatch e)
    | panic => rw [hx] at e; exact (nomatch e)

theorem local_readTL {r r' : BR} (hc : Cut r r') {v : Nat} {r1 : BR} (e : BR.readTL r = (.ok v, r1)) (hp : r1.pos ≤ r.pos + r'.rest.length) :
    ∃ n, 1 ≤ n ∧ n ≤ r'.rest.length ∧ r1 = r.adv n ∧ BR.readTL r' = (.ok v, r'.adv n) := by
  rcases readTL_cases r with ⟨_, h⟩ | ⟨_, h, _, _⟩ | ⟨v', n, hs, h, _⟩
  · rw [h] at e; exact (nomatch e)
  · rw [h] at e; exact (nomatch e)
  · rw [h] at e
    injection e with e1 e2; injection e1 with e1
    subst e1 e2
    have hn : n ≤ r'.rest.length := by simp only [BR.adv_pos] at hp; omega
    obtain ⟨t, ht⟩ := hc.pre
    rw [ht] at hs
    exact ⟨n, by rcases hs.width with h | h | h | h <;> omega, hn, rfl, readTL_of_split (tlSplit_cut hs hn)⟩

theorem local_wire {l : Nat} (hl : l < 2 ^ 43) : Local (fun r => some (BR.readWire (toInt l) r)) := by
  intro r r' hc v r1 e hp
  have e : some (BR.readWire (toInt l) r) = some (.ok v, r1) := e
  show ∃ n, _ ∧ _ ∧ some (BR.readWire (toInt l) r') = _
  rw [toInt_small (by omega)] at e ⊢
  by_cases h : l ≤ r.rest.length
  · rw [BR.readWire_ok hc.good h] at e
    injection e with e; injection e with e1 e2; injection e1 with e1
    subst e1 e2
    have hn : l ≤ r'.rest.length := by simp only [BR.adv_pos] at hp; omega
    exact ⟨l, hn, rfl, by rw [BR.readWire_ok hc.good' hn, hc.take hn]⟩
  · obtain ⟨x, hx⟩ := BR.readWire_err hc.good (l := l) (by omega) (by omega)
    rw [hx] at e; exact (nomatch e)

theorem local_skip {r r' : BR} (hc : Cut r r') {l : Nat} (hl : l < 2 ^ 43) {r1 : BR} (e : BR.skip (toInt l) r = (.ok (), r1))
    (hp : r1.pos ≤ r.pos + r'.rest.length) : l ≤ r'.rest.length ∧ r1 = r.adv l ∧ BR.skip (toInt l) r' = (.ok (), r'.adv l) := by
  rw [toInt_small (by omega)] at e ⊢
  by_cases h : l ≤ r.rest.length
  · rw [BR.skip_ok hc.good h] at e
    injection e with _ e2
    subst e2
    have hn : l ≤ r'.rest.length := by simp only [BR.adv_pos] at hp; omega
    exact ⟨hn, rfl, BR.skip_ok hc.good' hn⟩
  · rw [BR.skip_err hc.good (by omega) (by omega)] at e; exact (nomatch e)

theorem local_struct {ic : Bool} {F : Nat} {fs : Fields} {l : Nat} (hl : l < 2 ^ 43) : Local (fun r => Elem.read ic F (.struct fs) l r) := by
  have key : ∀ (r sub r1 : BR), BR.delegate (toInt l) r = (.ok sub, r1) → Elem.read ic F (.struct fs) l r =
      match parseLoop ic (fun t => fs.types.contains t) (Fields.dispatch ic F fs) F fs.init sub with
      | none => none
      | some (.ok st, _) => some (fs.finish st, r1)
      | some (.err e, _) => some (.err e, r1)
      | some (.panic, _) => some (.panic, r1) := by
    intro r sub r1 h
    rw [Elem.read, h]
    rfl
  have fin : ∀ (sub r2 r3 r1 : BR) (v : fs.V), (match parseLoop ic (fun t => fs.types.contains t) (Fields.dispatch ic F fs) F fs.init sub with
      | none => none
      | some (.ok st, _) => some (fs.finish st, r2)
      | some (.err e, _) => some (.err e, r2)
      | some (.panic, _) => some (.panic, r2)) = some (.ok v, r1) →
      r1 = r2 ∧ (match parseLoop ic (fun t => fs.types.contains t) (Fields.dispatch ic F fs) F fs.init sub with
      | none => none
      | some (.ok st, _) => some (fs.finish st, r3)
      | some (.err e, _) => some (.err e, r3)
      | some (.panic, _) => some (.panic, r3)) = some (.ok v, r3) := by
    intro sub r2 r3 r1 v h
    rcases hx : parseLoop ic (fun t => fs.types.contains t) (Fields.dispatch ic F fs) F fs.init sub with _ | ⟨x, q⟩
    · rw [hx] at h; exact (nomatch h)
    · cases x with
      | ok st =>
        rw [hx] at h
        simp only at h ⊢
        injection h with h; injection h with h1 h2
        exact ⟨h2.symm, by rw [h1]⟩
      | err e => rw [hx] at h; exact (nomatch h)
      | panic => rw [hx] at h; exact (nomatch h)
  intro r r' hc v r1 e hp
  have e : Elem.read ic F (.struct fs) l r = some (.ok v, r1) := e
  by_cases h : l ≤ r.rest.length
  · rw [key r _ _ (by rw [toInt_small (by omega)]; exact BR.delegate_ok hc.good h)] at e
    by_cases hn : l ≤ r'.rest.length
    · obtain ⟨h1, h2⟩ := fin _ _ (r'.adv l) _ _ e
      exact ⟨l, hn, h1, by
        show Elem.read ic F (.struct fs) l r' = _
        rw [key r' _ _ (by rw [toInt_small (by omega)]; exact BR.delegate_ok hc.good' hn), ← hc.take hn]; exact h2⟩
    · obtain ⟨h1, _⟩ := fin _ _ (r'.adv l) _ _ e
      rw [h1] at hp; simp only [BR.adv_pos] at hp; omega
  · rw [key r _ _ (by rw [toInt_small (by omega)]; exact BR.delegate_over hc.good (by omega) (by omega))] at e
    obtain ⟨h1, h2⟩ := fin _ _ r' _ _ e
    refine ⟨0, by omega, h1, ?_⟩
    show Elem.read ic F (.struct fs) l r' = _
    rw [key r' _ _ (by rw [toInt_small (by omega)]; exact BR.delegate_over hc.good' (by have := hc.le; omega) (by omega))]
    exact h2

theorem readComponent_of_split {r : BR} (hg : r.Good) {t n1 l n2 : Nat} (s1 : TLSplit r.rest t n1) (s2 : TLSplit (r.rest.drop n1) l n2)
    (h : n1 + n2 + l ≤ r.rest.length) : readComponent r = (.ok ⟨t, (r.rest.drop (n1 + n2)).take l⟩, r.adv (n1 + n2 + l)) := by
  have e1 := readTL_of_split s1
  have s2' : TLSplit (r.adv n1).rest l n2 := by rw [BR.rest_adv]; exact s2
  have e2 := readTL_of_split s2'
  rw [BR.adv_adv] at e2
  have e2' := RM.onErr_ok (f := fun e => if e = .eof then .unexpectedEof else e) e2
  have hg2 := hg.adv (l := n1 + n2) (by omega)
  have hrest : (r.adv (n1 + n2)).rest = r.rest.drop (n1 + n2) := BR.rest_adv r _
  rcases BR.readBuf_cases hg2 s2.lt with ⟨hl, e3⟩ | ⟨hl, _, e3⟩ | ⟨hl, r', e3⟩
  · unfold readComponent
    rw [RM.bind_ok e1, RM.bind_ok e2', RM.bind_ok e3, hrest, BR.adv_adv]
    rfl
  · rw [hrest, List.length_drop] at hl; omega
  · exfalso
    have := hg2.1; have := hg2.2
    rw [BR.rest_length] at h
    simp only [BR.adv_pos, BR.adv_buf] at *
    omega

theorem local_component {r r' : BR} (hc : Cut r r') {c : Component} {r1 : BR} (e : readComponent r = (.ok c, r1))
    (hp : r1.pos ≤ r.pos + r'.rest.length) : ∃ n, n ≤ r'.rest.length ∧ r1 = r.adv n ∧ readComponent r' = (.ok c, r'.adv n) := by
  rcases readComponent_cases r hc.good with ⟨_, h⟩ | ⟨_, _, h⟩ | ⟨t, n1, l, n2, s1, s2, h⟩
  · rw [h] at e; exact (nomatch e)
  · rw [h] at e; exact (nomatch e)
  · rcases h with ⟨hle, h⟩ | ⟨_, _, h⟩
    · rw [h] at e
      injection e with e1 e2; injection e1 with e1
      subst e1 e2
      have hn : n1 + n2 + l ≤ r'.rest.length := by simp only [BR.adv_pos] at hp; omega
      obtain ⟨u, hu⟩ := hc.pre
      refine ⟨n1 + n2 + l, hn, rfl, ?_⟩
      rw [hu] at s1 s2
      rw [List.drop_append_of_le_length (by omega)] at s2
      rw [readComponent_of_split hc.good' (tlSplit_cut s1 (by omega)) (tlSplit_cut s2 (by rw [List.length_drop]; omega)) hn, hu,
        List.drop_append_of_le_length (by omega), List.take_append_of_le_length (by rw [List.length_drop]; omega)]
    · rw [h] at e; exact (nomatch e)

theorem local_nameSlots (slots : Nat) : ∀ (d : Nat) (r r' : BR), Cut r r' → ∀ n r1, readNameSlots slots (r.pos + d) r = (.ok n, r1) →
    r1.pos ≤ r.pos + r'.rest.length → ∃ m, m ≤ r'.rest.length ∧ r1 = r.adv m ∧ readNameSlots slots (r'.pos + d) r' = (.ok n, r'.adv m) := by
  induction slots with
  | zero =>
    intro d r r' hc n r1 e hp
    rw [readNameSlots] at e ⊢
    by_cases h : r.pos ≠ r.pos + d
    · rw [if_pos h] at e; exact (nomatch e)
    · rw [if_neg h] at e
      injection e with e1 e2
      subst e2
      exact ⟨0, by omega, rfl, by rw [if_neg (by omega), e1]; rfl⟩
  | succ slots ih =>
    intro d r r' hc n r1 e hp
    rw [readNameSlots] at e ⊢
    by_cases h : r.pos ≥ r.pos + d
    · rw [if_pos h, if_neg (by omega)] at e
      injection e with e1 e2
      subst e2
      exact ⟨0, by omega, rfl, by rw [if_pos (by omega), if_neg (by omega), e1]; rfl⟩
    · rw [if_neg h] at e
      rcases hx : readComponent r with ⟨x, q⟩
      rw [hx] at e
      cases x with
      | ok c =>
        simp only at e
        rcases hy : readNameSlots slots (r.pos + d) q with ⟨y, q1⟩
        rw [hy] at e
        cases y with
        | ok n' =>
          simp only at e
          injection e with e1 e2; injection e1 with e1
          subst e1 e2
          -- the component ends before the name does
          have hq : q.pos ≤ q1.pos ∧ ∃ m, q = r.adv m := by
            rcases readComponent_cases r hc.good with ⟨_, h⟩ | ⟨_, _, h⟩ | ⟨t, n1, l, n2, s1, s2, h⟩
            · rw [h] at hx; exact (nomatch hx)
            · rw [h] at hx; exact (nomatch hx)
            · rcases h with ⟨hle, h⟩ | ⟨_, _, h⟩
              · rw [h] at hx
                injection hx with _ hx
                subst hx
                obtain ⟨y, q2, hh, _, hk⟩ := tot_nameSlots slots (r.pos + d) (r.adv (n1 + n2 + l)) (hc.good.adv hle) hc.calm
                injection hh with hh
                rw [hy] at hh
                injection hh with h1 h2
                subst h1 h2
                exact ⟨(hk n' rfl).2.2, _, rfl⟩
              · rw [h] at hx; exact (nomatch hx)
          obtain ⟨m, hm, hqm, hx'⟩ := local_component hc hx (by omega)
          subst hqm
          have hdm : m ≤ d := by
            refine Decidable.byContradiction fun hcon => ?_
            cases slots with
            | zero =>
              rw [readNameSlots, if_pos (by simp only [BR.adv_pos]; omega)] at hy; exact (nomatch hy)
            | succ s =>
              rw [readNameSlots, if_pos (by simp only [BR.adv_pos]; omega), if_pos (by simp only [BR.adv_pos]; omega)] at hy; exact (nomatch hy)
          have hy2 : readNameSlots slots ((r.adv m).pos + (d - m)) (r.adv m) = (.ok n', q1) := by
            rw [← hy, BR.adv_pos]; congr 1; omega
          obtain ⟨k, hk, hq1, hy'⟩ := ih (d - m) (r.adv m) (r'.adv m) (hc.adv hm) n' q1 hy2 (by
            rw [BR.rest_adv, List.length_drop, BR.adv_pos]; omega)
          rw [BR.rest_adv, List.length_drop] at hk
          refine ⟨m + k, by omega, by rw [hq1, BR.adv_adv], ?_⟩
          have hy3 : readNameSlots slots (r'.pos + d) (r'.adv m) = (.ok n', (r'.adv m).adv k) := by
            rw [← hy', BR.adv_pos]; congr 1; omega
          rw [if_neg (by omega), hx']
          simp only
          rw [hy3]
          simp only
          rw [BR.adv_adv]
        | err x => exact (nomatch e)
        | panic => exact (nomatch e)
      | err x => exact (nomatch e)
      | panic => exact (nomatch e)

theorem local_name {ic : Bool} {F l : Nat} : Local (fun r => Elem.read ic F .name l r) := by
  intro r r' hc v r1 e hp
  have e : some (readNameField l r) = some (.ok v, r1) := e
  show ∃ n, _ ∧ _ ∧ some (readNameField l r') = _
  unfold readNameField at e ⊢
  by_cases h : (l / 2 + 1) * 32 > maxAlloc
  · rw [if_pos h] at e; exact (nomatch e)
  · rw [if_neg h] at e
    injection e with e
    obtain ⟨n, h1, h2, h3⟩ := local_nameSlots _ l r r' hc v r1 e hp
    exact ⟨n, h1, h2, by rw [if_neg h, h3]; rfl⟩

end Ndn.Packet
