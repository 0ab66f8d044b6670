import Verif.Packet.SignedLemmas
import Verif.Packet.Props

/-! # Property C29 for every buffer with one Data -/

namespace Ndn.Packet
open Ndn.Codec Ndn.Codec.Schema

theorem rangeOf_flatten {B : Bytes} {a e : Nat} (h1 : a ≤ e) (h2 : e ≤ B.length) : (rangeOf (BR.new B) a e).flatten = (B.take e).drop a := by
  unfold rangeOf BR.range
  rw [if_neg (by simp only [BR.new]; omega)]
  simp [BR.new, List.drop_take]

theorem parseData_split {F : Nat} {B : Bytes} {st : DSt} {rf : BR} (h : parseData false F {} (BR.new B) = some (.ok st, rf)) :
    ∃ o, ordLoop false (dataSlots false F) F ⟨8, [], ({}, {})⟩ (BR.new B) = some (.ok o, rf) ∧
      ordFinish o.handled rf 0 (dataSlots false F) o.st = .ok st := by
  unfold parseData ordParse at h
  have hl : (dataSlots false F).length + 1 = 8 := rfl
  rw [hl] at h
  rcases hx : ordLoop false (dataSlots false F) F ⟨8, [], ({}, {})⟩ (BR.new B) with _ | ⟨x, q⟩
  · rw [hx] at h; exact (nomatch h)
  · cases x with
    | ok o =>
      rw [hx] at h
      simp only at h
      injection h with h; injection h with h1 h2
      subst h2
      exact ⟨o, rfl, h1⟩
    | err x => rw [hx] at h; exact (nomatch h)
    | panic => rw [hx] at h; exact (nomatch h)

theorem parseData_join {F : Nat} {B : Bytes} {o : Ord DSt} {rf : BR}
    (h : ordLoop false (dataSlots false F) F ⟨8, [], ({}, {})⟩ (BR.new B) = some (.ok o, rf)) :
    ∃ st, parseData false F {} (BR.new B) = some (.ok st, rf) ∧ ({ st.1 with sigValue := none } : DataV) = vals o.handled o.st.1 := by
  obtain ⟨st, h1, h2, _⟩ := data_finish F o.handled rf o.st
  refine ⟨st, ?_, h2⟩
  unfold parseData ordParse
  have hl : (dataSlots false F).length + 1 = 8 := rfl
  rw [hl, h]
  simp only [h1]

/-- parsing the covered bytes gives the same fields -/
theorem data_cov {F : Nat} {B : Bytes} (hB : Calm B) (hl : B.length < 2 ^ 62) (hF : B.length < F) {st : DSt} {rf : BR}
    (h : parseData false F {} (BR.new B) = some (.ok st, rf)) (hn : st.1.name ≠ none) (hs : st.1.sigValue ≠ none) :
    ∃ st' r', parseData false F {} (BR.new st.2.sigCovered.flatten) = some (.ok st', r') ∧
      ({ st'.1 with sigValue := none } : DataV) = { st.1 with sigValue := none } := by
  obtain ⟨of, hloop, hfin⟩ := parseData_split h
  obtain ⟨st0, f1, f2, f3, f4, f5⟩ := data_finish F of.handled rf of.st
  rw [hfin] at f1
  injection f1 with f1
  subst f1
  have hsf : of.st.1.sigValue ≠ none := fun h => hs (f4 h)
  have hnf : of.st.1.name ≠ none := fun h => hn (f5 h)
  have hg0 : (BR.new B).Good := ⟨by simp [BR.new], hl⟩
  have hgt : ∀ e a, ((BR.new ((B.take e).drop a)).Good) := fun e a => ⟨by simp [BR.new], by
    show ((B.take e).drop a).length < _
    rw [List.length_drop, List.length_take]; omega⟩
  suffices hsuf : ∃ of' rf', ordLoop false (dataSlots false F) F ⟨8, [], ({}, {})⟩ (BR.new st.2.sigCovered.flatten) = some (.ok of', rf') ∧
      vals of.handled of.st.1 = vals of'.handled of'.st.1 by
    obtain ⟨of', rf', g1, g2⟩ := hsuf
    obtain ⟨st', k1, k2⟩ := parseData_join g1
    exact ⟨st', rf', k1, k2.trans (g2.symm.trans f2.symm)⟩
  rw [f3]
  have sim0 : ∀ o : Ord DSt, Sim o o := fun o => ⟨rfl, fun _ _ => Iff.rfl, rfl⟩
  -- the first element
  obtain ⟨f, rfl, ⟨_, rfl⟩ | ⟨hp, o1, r1, h1, h2⟩⟩ := loop_cases hloop
  · exact absurd rfl hsf
  obtain ⟨hg1, hb1, hp1⟩ := ordStep_good h1 hg0 hB hF
  obtain ⟨typ, l, n1, n2, s1, s2, e1, e2, hin⟩ := ordStep_ok h1
  obtain ⟨a1, a2, a3⟩ := inner_name 8 [] ({}, {}) _ o1 r1 (by omega) hin rfl
  by_cases hn1 : o1.st.1.name = none
  case neg =>
    obtain ⟨rfl, _, hl5⟩ := a3 hn1
    obtain ⟨_, b2, b3, b4⟩ := inner_start (.inl rfl) hin
    obtain ⟨e, c1, c2, c3, c4⟩ := data_cut hB hF f o1 of r1 rf hg1 hb1 (by omega) (fun i hi => by have := b2 i hi; omega) b3 h2 hsf
    rw [b4] at c3
    have c3 : of.st.2.sigCovered = rangeOf (BR.new B) 0 e := c3
    have hcov : (B.take e).drop 0 = B.take e := rfl
    rw [c3, rangeOf_flatten (by omega) c2]
    obtain ⟨hcut, hlen⟩ := cut_take (r := BR.new B) (r' := BR.new ((B.take e).drop 0)) hg0 rfl hB (hgt e 0) c2 rfl
    obtain ⟨n, o1', d1, d2, d3, d4, d5⟩ := step_local (f + 1) hF hcut (sim0 _) h1 b3 (by rw [hlen]; show _ ≤ 0 + (e - 0); omega)
    obtain ⟨of', rf', k1, k2⟩ := c4 o1' _ d5 ((hgt e 0).adv d2) (by
      rw [BR.rest_adv, d3]
      show ((B.take e).drop 0).drop n = (B.take e).drop (0 + n)
      rw [List.drop_drop])
    refine ⟨of', rf', ?_, k2⟩
    have hp' : ¬(BR.new ((B.take e).drop 0)).pos ≥ (BR.new ((B.take e).drop 0)).buf.length := by
      have := BR.rest_length (BR.new ((B.take e).drop 0))
      omega
    rw [ordLoop_step hp', d4]
    exact k1
  case pos =>
  rcases a2 hn1 with hl5 | ⟨hkn, rfl⟩
  · exact absurd (loop_noname f hl5 hn1 h2) hnf
  -- the second element
  obtain ⟨f, rfl, ⟨_, rfl⟩ | ⟨hpb, o2, r2, h3, h4⟩⟩ := loop_cases h2
  · exact absurd rfl hsf
  obtain ⟨hg2, hb2, hp2⟩ := ordStep_good h3 hg1 (hb1 ▸ hB) (hb1 ▸ hF)
  obtain ⟨typ', l', m1, m2, s1', s2', e1', e2', hin'⟩ := ordStep_ok h3
  obtain ⟨a1', a2', a3'⟩ := inner_name 7 [] ({}, {}) _ o2 r2 (by omega) hin' rfl
  have hb2' : r2.buf = B := hb2.trans hb1
  by_cases hn2 : o2.st.1.name = none
  case neg =>
    obtain ⟨rfl, _, hl5⟩ := a3' hn2
    obtain ⟨_, b2, b3, b4⟩ := inner_start (.inr rfl) hin'
    obtain ⟨e, c1, c2, c3, c4⟩ := data_cut hB hF f o2 of r2 rf hg2 hb2' (by omega) (fun i hi => by have := b2 i hi; omega) b3 h4 hsf
    rw [b4] at c3
    have c3 : of.st.2.sigCovered = rangeOf (BR.new B) r1.pos e := c3
    rw [c3, rangeOf_flatten (by omega) c2]
    obtain ⟨hcut, hlen⟩ := cut_take (r' := BR.new ((B.take e).drop r1.pos)) hg1 hb1 hB (hgt e r1.pos) c2 rfl
    obtain ⟨n, o2', d1, d2, d3, d4, d5⟩ := step_local (o := ⟨8 - 1, [], ({}, {})⟩) (o' := ⟨7, [0], ({}, {})⟩) (f + 1 + 1) (hb1 ▸ hF) hcut
      ⟨rfl, fun i hi => ⟨fun h => (nomatch h), fun h => by simp at h; omega⟩, rfl⟩ h3 b3 (by rw [hlen]; omega)
    obtain ⟨of', rf', k1, k2⟩ := c4 o2' _ d5 ((hgt e r1.pos).adv d2) (by
      rw [BR.rest_adv, d3]
      show ((B.take e).drop r1.pos).drop n = (B.take e).drop (r1.pos + n)
      rw [List.drop_drop])
    refine ⟨of', rf', ?_, k2⟩
    have hp' : ¬(BR.new ((B.take e).drop r1.pos)).pos ≥ (BR.new ((B.take e).drop r1.pos)).buf.length := by
      have := BR.rest_length (BR.new ((B.take e).drop r1.pos))
      omega
    obtain ⟨t, u, p1, p2, q1, q2, q3, q4, q5⟩ := ordStep_ok d4
    have ht7 : t = 7 := by
      obtain ⟨p, _, x1, x2, x3⟩ := local_readTL hcut e1' (by
        rw [hlen]
        have hle1 := s1'.le_length
        have hle2 := s2'.le_length
        rw [BR.rest_adv, List.length_drop] at hle2
        have w1 : 1 ≤ m1 := by rcases s1'.width with h | h | h | h <;> omega
        obtain ⟨y, r', hx, _, hk⟩ := ordInner_tot (ic := false) (dataSlots_tot (B := r1.buf) (by rw [hb1]; exact hB) (by rw [hb1]; exact hF)) r1.pos 7 l' (calm_len (r := r1) (by rw [hb1]; exact hB) m1 s2') (8 - 1) []
          ({}, {}) (r1.adv (m1 + m2)) (hg1.adv (by omega)) rfl (by simp; omega)
        rw [hin'] at hx
        injection hx with hx; injection hx with y1 y2
        subst y1 y2
        have := (hk o2 rfl).2.2
        simp only [BR.adv_pos] at this ⊢
        omega)
      rw [x3] at q3
      injection q3 with q3 _
      injection q3 with q3
      exact q3.symm
    subst ht7
    have d4' : ordStep false (dataSlots false (f + 1 + 1)) ⟨8, [], ({}, {})⟩ (BR.new ((B.take e).drop r1.pos)) =
        some (.ok o2', (BR.new ((B.take e).drop r1.pos)).adv n) := by
      rw [ordStep_of q3 q4, inner_shift]
      exact q5
    rw [ordLoop_step hp', d4']
    exact loop_mono (f) 1 k1
  case pos =>
  rcases a2' hn2 with hl5 | ⟨hkn', rfl⟩
  · exact absurd (loop_noname f hl5 hn2 h4) hnf
  -- two unrecognised elements: the covered bytes are taken from the start of the Data
  obtain ⟨e, c1, c2, c3, c4⟩ := data_cut hB hF f ⟨6, [], ({}, {})⟩ of r2 rf hg2 hb2' (by simp) (by simp) rfl h4 hsf
  have c3 : of.st.2.sigCovered = rangeOf (BR.new B) 0 e := c3
  rw [c3, rangeOf_flatten (by omega) c2]
  obtain ⟨hcut, hlen⟩ := cut_take (r := BR.new B) (r' := BR.new ((B.take e).drop 0)) hg0 rfl hB (hgt e 0) c2 rfl
  obtain ⟨n, o1', d1, d2, d3, d4, d5⟩ := step_local (f + 1 + 1) hF hcut (sim0 _) h1 rfl (by rw [hlen]; show _ ≤ 0 + (e - 0); omega)
  have hr1 : ((BR.new ((B.take e).drop 0)).adv n).rest = (B.take e).drop r1.pos := by
    rw [BR.rest_adv, d3]
    show ((B.take e).drop 0).drop n = (B.take e).drop (0 + n)
    rw [List.drop_drop]
  obtain ⟨hcut1, hlen1⟩ := cut_take hg1 hb1 hB ((hgt e 0).adv d2) c2 hr1
  obtain ⟨m, o2', g1, g2, g3, g4, g5⟩ := step_local (f + 1 + 1) (hb1 ▸ hF) hcut1 d5 h3 rfl (by rw [hlen1]; omega)
  obtain ⟨of', rf', k1, k2⟩ := c4 o2' _ g5 (((hgt e 0).adv d2).adv g2) (by
    rw [BR.rest_adv, hr1, g3, List.drop_drop, BR.adv_pos])
  refine ⟨of', rf', ?_, k2⟩
  have hp' : ¬(BR.new ((B.take e).drop 0)).pos ≥ (BR.new ((B.take e).drop 0)).buf.length := by
    have := BR.rest_length (BR.new ((B.take e).drop 0))
    omega
  have hp'' : ¬((BR.new ((B.take e).drop 0)).adv n).pos ≥ ((BR.new ((B.take e).drop 0)).adv n).buf.length := by
    have := BR.rest_length ((BR.new ((B.take e).drop 0)).adv n)
    omega
  rw [ordLoop_step hp', d4]
  simp only
  rw [ordLoop_step hp'', g4]
  exact k1

/-- the buffer is one TLV element of type 6, in whatever form its type and length numbers are written -/
def OneData (buf : Bytes) : Prop := ∃ n1 l n2, TLSplit buf 6 n1 ∧ TLSplit (buf.drop n1) l n2 ∧ n1 + n2 + l = buf.length

theorem packet_one {buf : Bytes} {F n1 l n2 : Nat} (hc : Calm buf) (hl : buf.length < 2 ^ 62) (h1 : TLSplit buf 6 n1) (h2 : TLSplit (buf.drop n1) l n2)
    (h3 : n1 + n2 + l = buf.length) {s : PacketSt} {r : BR} (h : parsePacket false F (BR.new buf) = some (.ok s, r)) {d : DataV}
    (hd : s.data = some d) : ∃ r', parseData false F {} (BR.new (buf.drop (n1 + n2))) = some (.ok (d, s.dctx), r') := by
  have hg0 : (BR.new buf).Good := ⟨by simp [BR.new], hl⟩
  have w1 : 1 ≤ n1 := by rcases h1.width with h | h | h | h <;> omega
  unfold parsePacket at h
  cases hF : F with
  | zero => rw [hF] at h; exact (nomatch h)
  | succ f =>
    rw [hF, parseLoop, if_neg (by show ¬0 ≥ buf.length; omega), readTL_of_split (r := BR.new buf) h1] at h
    simp only at h
    have e2 : BR.readTL ((BR.new buf).adv n1) = (.ok l, (BR.new buf).adv (n1 + n2)) := by
      have := readTL_of_split (r := (BR.new buf).adv n1) (v := l) (n := n2) (by rw [BR.rest_adv, BR.rest_new]; exact h2)
      rw [BR.adv_adv] at this; exact this
    have hl43 : l < 2 ^ 43 := hc.split h2
    rw [e2] at h
    simp only at h
    rw [if_pos (by decide)] at h
    have hrest : ((BR.new buf).adv (n1 + n2)).rest = buf.drop (n1 + n2) := by rw [BR.rest_adv, BR.rest_new]
    have hdel : BR.delegate (toInt l) ((BR.new buf).adv (n1 + n2)) = (.ok (BR.new (buf.drop (n1 + n2))), ((BR.new buf).adv (n1 + n2)).adv l) := by
      rw [toInt_small (by omega), BR.delegate_ok (hg0.adv (by rw [BR.rest_new]; omega)) (by rw [hrest, List.length_drop]; omega), hrest,
        List.take_of_length_le (by rw [List.length_drop]; omega)]
    unfold packetRead at h
    rw [hdel] at h
    simp only at h
    rw [if_neg (by decide), if_pos trivial] at h
    rcases hx : parseData false (f + 1) {} (BR.new (buf.drop (n1 + n2))) with _ | ⟨x, q⟩
    · have hx' : parseData false (f + 1) ({} : PacketSt).dctx (BR.new (buf.drop (n1 + n2))) = none := hx
      rw [hx'] at h; exact (nomatch h)
    · have hx' : parseData false (f + 1) ({} : PacketSt).dctx (BR.new (buf.drop (n1 + n2))) = some (x, q) := hx
      rw [hx'] at h
      cases x with
      | ok p =>
        simp only at h
        have hend : (((BR.new buf).adv (n1 + n2)).adv l).rest = [] := by
          rw [BR.rest_adv, hrest, List.drop_drop, List.drop_eq_nil_of_le (by omega)]
        cases f with
        | zero => exact (nomatch h)
        | succ f =>
          rw [parseLoop_end _ hend] at h
          injection h with h; injection h with h _; injection h with h
          subst h
          injection hd with hd
          subst hd
          exact ⟨q, rfl⟩
      | err x => exact (nomatch h)
      | panic => exact (nomatch h)

theorem calm_drop {B : Bytes} (h : Calm B) (n : Nat) : Calm (B.drop n) := by
  intro p v m e
  rw [List.drop_drop] at e
  exact h _ _ _ e

/-- C29: if `ReadData` accepts two buffers, each with one Data that has a signature value, and reports the same covered bytes for both, then
the two Data have the same name, meta information, content and signature info.  The elements inside may be in any order, repeated,
unrecognised, and with type and length numbers of any form; nothing is assumed about how the buffers came about, except that no TLV number
in them is `2 ^ 43` or more.  Missing: Data without a signature value and buffers with several Data, for which the claim is false, see
`C29_violated` and `C29_signed_violated`. -/
theorem C29_signed_bytes_any_partial (buf buf' : Bytes) (ho : OneData buf) (ho' : OneData buf') (hc : Calm buf) (hc' : Calm buf')
    (hl : buf.length < 2 ^ 62) (hl' : buf'.length < 2 ^ 62) (F : Nat) (hF : buf.length < F) (hF' : buf'.length < F)
    (x x' : DataV) (cov cov' : Wire) (h : readData F (BR.new buf) = some (.ok (.ok (x, cov))))
    (h' : readData F (BR.new buf') = some (.ok (.ok (x', cov')))) (hs : x.sigValue.isSome) (hs' : x'.sigValue.isSome)
    (he : cov.flatten = cov'.flatten) :
    x.name = x'.name ∧ x.metaInfo = x'.metaInfo ∧ x.content = x'.content ∧ x.sigInfo = x'.sigInfo := by
  have key : ∀ (buf : Bytes) (ho : OneData buf) (hc : Calm buf) (hl : buf.length < 2 ^ 62) (hF : buf.length < F) (x : DataV) (cov : Wire)
      (h : readData F (BR.new buf) = some (.ok (.ok (x, cov)))) (hs : x.sigValue.isSome),
      ∃ st r, parseData false F {} (BR.new cov.flatten) = some (.ok st, r) ∧ ({ st.1 with sigValue := none } : DataV) = { x with sigValue := none } := by
    intro buf ho hc hl hF x cov h hs
    obtain ⟨n1, l, n2, h1, h2, h3⟩ := ho
    unfold readData at h
    rcases hx : parsePacket false F (BR.new buf) with _ | ⟨y, q⟩
    · rw [hx] at h; exact (nomatch h)
    · rw [hx] at h
      cases y with
      | ok s =>
        simp only [finishParse] at h
        injection h with h; injection h with h
        cases hd : s.data with
        | none => rw [hd] at h; exact (nomatch h)
        | some d =>
          rw [hd] at h
          simp only at h
          by_cases hn : d.name.isNone = true
          · rw [if_pos hn] at h; exact (nomatch h)
          · rw [if_neg hn] at h
            injection h with h; injection h with a b
            subst a b
            obtain ⟨r', hp⟩ := packet_one hc hl h1 h2 h3 hx hd
            obtain ⟨st', r'', g1, g2⟩ := data_cov (calm_drop hc _) (by rw [List.length_drop]; omega) (by rw [List.length_drop]; omega) hp
              (by intro hh; rw [hh] at hn; exact hn rfl) (by intro hh; rw [hh] at hs; exact (nomatch hs))
            exact ⟨st', r'', g1, g2⟩
      | err x => simp only [finishParse] at h; injection h with h; injection h with h; exact (nomatch h)
      | panic => simp only [finishParse] at h; injection h with h; exact (nomatch h)
  obtain ⟨st, r, h1, h2⟩ := key buf ho hc hl hF x cov h hs
  obtain ⟨st', r', h1', h2'⟩ := key buf' ho' hc' hl' hF' x' cov' h' hs'
  rw [he, h1'] at h1
  injection h1 with h1
  injection h1 with h1 _
  injection h1 with h1
  rw [h1, h2] at h2'
  injection h2' with a1 a2 a3 a4 _
  exact ⟨a1, a2, a3, a4⟩

theorem oddData_parse : parseData false 14 {} ⟨[32, 0, 7, 0, 32, 0, 23, 1, 5], 0⟩ =
      some (.ok ({ name := some [], sigValue := some [[5]] }, { sigCoverStart := 2, sigCovered := [[7, 0, 32, 0]] }),
        ⟨[32, 0, 7, 0, 32, 0, 23, 1, 5], 9⟩) := by
  eval_parse

/-- a Data with a long form of its length, an unrecognised element before the name and one before the signature value: the buffer satisfies
the hypotheses, and the covered bytes start at the name -/
def oddData : Bytes := [6, 253, 0, 9, 32, 0, 7, 0, 32, 0, 23, 1, 5]

example : OneData oddData ∧ Calm oddData ∧ readData 14 (BR.new oddData) =
    some (.ok (.ok ({ name := some [], sigValue := some [[5]] }, [[7, 0, 32, 0]]))) := by
  refine ⟨⟨1, 9, 3, .one 6 _ (by decide), .two _ (by decide), by decide⟩, calm_no_ff (by decide), ?_⟩
  unfold oddData
  have hlen : BR.readTL ⟨[6, 253, 0, 9, 32, 0, 7, 0, 32, 0, 23, 1, 5], 1⟩ = (.ok 9, ⟨[6, 253, 0, 9, 32, 0, 7, 0, 32, 0, 23, 1, 5], 4⟩) :=
    readTL_of_split (r := ⟨[6, 253, 0, 9, 32, 0, 7, 0, 32, 0, 23, 1, 5], 1⟩) (.two [0, 9, 32, 0, 7, 0, 32, 0, 23, 1, 5] (by decide))
  eval_packet [oddData_parse, hlen]

end Ndn.Packet
