import Verif.Packet.Props

/-! # Properties of the packet parsers: C26, the counterexample -/

namespace Ndn.Packet
open Ndn.Codec Ndn.Codec.Schema

/-- C26 fails: an Interest with a parameters digest of its empty parameters alone, and a second (empty) name element behind them, is
accepted.  The hash function need only tell the two byte strings apart. -/
theorem C26_violated (sha : Bytes → Bytes) (hs : (sha [0x24, 0]).length = 32) (hne : sha [0x24, 0] ≠ sha [0x24, 0, 7, 0]) :
    let name : Name := [⟨2, sha [0x24, 0]⟩]
    let buf := tlv 5 (tlv 7 (Name.encBody name) ++ [0x24, 0, 7, 0])
    ∃ v cov, (∀ F, 60 < F → readInterest sha F (BR.new buf) = some (.ok (.ok (v, cov)))) ∧ v.appParam.isSome ∧
      ¬ ∃ n, v.name = some (n ++ [⟨2, sha [0x24, 0, 7, 0]⟩]) := by
  intro name buf
  have hsmall : ∀ c ∈ name, c.Small := by
    intro c hc
    simp only [name, List.mem_cons, List.not_mem_nil, or_false] at hc
    subst hc
    exact ⟨(by decide : 2 < 2 ^ 64), by simp only; omega⟩
  have hnb : (Name.encBody name).length = 34 := by
    simp [name, Name.encBody, Component.enc, hs, tlEnc_length, tlLen, natEnc]
  obtain ⟨N, hN⟩ : ∃ N, N = Name.encBody name := ⟨_, rfl⟩
  have hbody : tlv 7 (Name.encBody name) ++ [0x24, 0, 7, 0] = tlv 7 N ++ (tlv 0x24 [] ++ (tlv 7 [] ++ [])) := by
    rw [hN]; congr 1
  have hlN : (tlv 7 N).length = 36 := by rw [tlv_length, hN, hnb]; decide
  obtain ⟨B, hB⟩ : ∃ B, B = tlv 7 N ++ (tlv 0x24 [] ++ (tlv 7 [] ++ [])) := ⟨_, rfl⟩
  have hlB : B.length = 40 := by rw [hB, List.length_append, hlN]; decide
  have hr0 : (BR.new B).rest = tlv 7 N ++ (tlv 0x24 [] ++ (tlv 7 [] ++ [])) := by rw [BR.rest_new, hB]
  have hr1 := rest_adv_append hr0
  have hr2 := rest_adv_append hr1
  have hr3 := rest_adv_append hr2
  let v : InterestV := { name := some name, appParam := some [[]] }
  have hparse : ∀ F, 60 < F → ∃ ctx r, parseInterest false F {} (BR.new B) = some (.ok (v, ctx), r) ∧ ctx.digestCovered = [[0x24, 0]] ∧
      ctx.sigCovered = nameCover v := by
    intro F hF
    obtain ⟨f, rfl⟩ : ∃ f, F = f + 1 + 1 + 1 + 1 := ⟨F - 4, by omega⟩
    unfold parseInterest ordParse
    have e1 := ordLoop_elem (ic := false) (slots := interestSlots false (f + 1 + 1 + 1 + 1)) (o := ⟨16, [], ({}, {})⟩)
      (o' := ⟨13, [2, 1, 0], ({ name := some name }, { sigCovered := nameCover v })⟩) (f + 1 + 1 + 1) hr0 (by decide) (by rw [hN, hnb]; decide)
      (by
        intro r2 h1 h2 h3 h4
        refine ordInner_pass (ic := false) (slots := interestSlots false (f + 1 + 1 + 1 + 1)) (typ := 7) (st1 := ({}, {})) (by rfl) 2 0 [] ({}, {}) rfl rfl ?_ rfl ?_
        · intro j s' _ hj hs
          rcases (by omega : j = 0 ∨ j = 1) with rfl | rfl <;> (injection hs with hs; subst hs; decide)
        · have := read_intName (n := name) (t := tlv 0x24 [] ++ (tlv 7 [] ++ [])) (r := r2) ⟨h4, by rw [h3]; simp [hlB]⟩ (by rw [h1, hN]) hsmall
          rw [← hN] at this
          show PR.map _ (some (readIntName N.length r2)) = _
          rw [this]
          rfl)
    have e2 := ordLoop_elem (ic := false) (slots := interestSlots false (f + 1 + 1 + 1 + 1))
      (o := ⟨13, [2, 1, 0], ({ name := some name }, { sigCovered := nameCover v })⟩)
      (o' := ⟨4, 11 :: pass 8 3 [2, 1, 0], (v, { sigCovered := nameCover v, sigCoverStart := 36, digestCoverStart := 36 })⟩) (f + 1 + 1) hr1
      (by decide) (by decide)
      (by
        intro r2 h1 h2 h3 h4
        have hp : ((BR.new B).adv (tlv 7 N).length).pos = 36 := by rw [hlN]; rfl
        rw [hp]
        refine ordInner_pass (ic := false) (slots := interestSlots false (f + 1 + 1 + 1 + 1)) (typ := 0x24) (st1 := ({ name := some name }, { sigCovered := nameCover v, sigCoverStart := 36, digestCoverStart := 36 }))
          (by rfl) 8 3 [2, 1, 0] ({ name := some name }, { sigCovered := nameCover v }) rfl rfl ?_ rfl ?_
        · intro j s' _ hj hs
          rcases (by omega : j = 3 ∨ j = 4 ∨ j = 5 ∨ j = 6 ∨ j = 7 ∨ j = 8 ∨ j = 9 ∨ j = 10) with rfl | rfl | rfl | rfl | rfl | rfl | rfl | rfl <;>
            (injection hs with hs; subst hs; simp [flagSlot, elemSlot, markSlot])
        · have := BR.readWire_ok (r := r2) (l := 0) ⟨h4, by rw [h3]; simp [hlB]⟩ (by omega)
          show PR.map _ (some (BR.readWire (toInt 0) r2)) = _
          rw [toInt_small (by decide), this]
          rfl)
    have e3 := ordLoop_elem (ic := false) (slots := interestSlots false (f + 1 + 1 + 1 + 1))
      (o := ⟨4, 11 :: pass 8 3 [2, 1, 0], (v, { sigCovered := nameCover v, sigCoverStart := 36, digestCoverStart := 36 })⟩)
      (o' := ⟨0, [14, 13, 12, 11] ++ pass 8 3 [2, 1, 0], (v, { sigCovered := nameCover v, digestCovered := [[0x24, 0]], sigCoverStart := 36, digestCoverStart := 36 })⟩) (f + 1) hr2
      (by decide) (by decide)
      (by
        intro r2 h1 h2 h3 h4
        have hp : (((BR.new B).adv (tlv 7 N).length).adv (tlv 0x24 []).length).pos = 38 := by rw [hlN]; rfl
        rw [hp]
        have hrange : rangeOf r2 36 38 = [[0x24, 0]] := by
          have hb : r2.buf = B := h3
          unfold rangeOf BR.range
          rw [hb, hlB, if_neg (by decide)]
          have : List.drop (Int.toNat 36) B = [0x24, 0, 7, 0] := by
            rw [hB]
            have := List.drop_left (l₁ := tlv 7 N) (l₂ := tlv 0x24 [] ++ (tlv 7 [] ++ []))
            rw [hlN] at this
            exact this
          show Option.getD (some [List.take _ (List.drop (Int.toNat 36) B)]) [] = _
          rw [this]
          rfl
        simp [interestSlots, ordInner, knows, argSlot, flagSlot, markSlot, elemSlot, sigSlot, hrange, v]
        rfl)
    have e4 := ordLoop_end (ic := false) (slots := interestSlots false (f + 1 + 1 + 1 + 1)) f
      (o := ⟨0, [14, 13, 12, 11] ++ pass 8 3 [2, 1, 0], (v, { sigCovered := nameCover v, digestCovered := [[0x24, 0]], sigCoverStart := 36, digestCoverStart := 36 })⟩) hr3
    refine ⟨{ sigCovered := nameCover v, digestCovered := [[0x24, 0]], sigCoverStart := 36, digestCoverStart := 36 },
      (((BR.new B).adv (tlv 7 N).length).adv (tlv 0x24 []).length).adv (tlv 7 []).length, ?_, rfl, rfl⟩
    have e5 := e1.trans (e2.trans (e3.trans e4))
    have e6 : (interestSlots false (f + 1 + 1 + 1 + 1)).length + 1 = 16 := rfl
    rw [e6]
    rw [e5]
    rfl
  refine ⟨v, nameCover v, fun F hF => ?_, rfl, ?_⟩
  · obtain ⟨ctx, r, h1, h2, h3⟩ := hparse F hF
    obtain ⟨r', h4⟩ := packet_interest (by rw [hlB]; decide) (by omega) h1
    have : buf = tlv 5 B := by simp only [buf]; rw [hbody, hB]
    rw [this]
    unfold readInterest
    rw [h4]
    simp only [finishParse]
    rw [checkInterest_valid ⟨rfl, fun _ => ⟨[], by simp [v, name, h2]⟩, fun h => absurd h (by simp [v])⟩, h3]
  · rintro ⟨n, hn⟩
    have hn : some name = some (n ++ [⟨2, sha [0x24, 0, 7, 0]⟩]) := hn
    injection hn with hn
    have := congrArg List.getLast? hn
    simp [name] at this
    exact hne this

/-- C26 fails altogether: with two elements of an unrecognised type between the hop limit and the parameters, `ReadInterest` compares the
last name component with the digest of the empty string.  It accepts whatever parameters `P` stand there, under the same name.  (The
unrecognised elements take up the round in which the parser marks the start of the digested bytes, so the mark is set when the Interest
has been read, to its end.) -/
theorem C26_unbound_violated (sha : Bytes → Bytes) (hs : (sha []).length = 32) (P : Bytes) (hP : P.length < 2 ^ 40) :
    let name : Name := [⟨2, sha []⟩]
    let buf := tlv 5 (tlv 7 (Name.encBody name) ++ (tlv 0x22 [5] ++ (tlv 32 [] ++ (tlv 32 [] ++ (tlv 0x24 P ++ [])))))
    ∃ v cov, (∀ F, 60 < F → readInterest sha F (BR.new buf) = some (.ok (.ok (v, cov)))) ∧ v.name = some name ∧ v.appParam = some [P] := by
  intro name buf
  have hsmall : ∀ c ∈ name, c.Small := by
    intro c hc
    simp only [name, List.mem_cons, List.not_mem_nil, or_false] at hc
    subst hc
    exact ⟨(by decide : 2 < 2 ^ 64), by simp only; omega⟩
  have hnb : (Name.encBody name).length = 34 := by
    simp [name, Name.encBody, Component.enc, hs, tlEnc_length, tlLen, natEnc]
  obtain ⟨N, hN⟩ : ∃ N, N = Name.encBody name := ⟨_, rfl⟩
  have hlN : (tlv 7 N).length = 36 := by rw [tlv_length, hN, hnb]; decide
  have hlP : (tlv 0x24 P).length ≤ 10 + P.length := by
    rw [tlv_length]
    have : tlLen P.length ≤ 9 := by unfold tlLen; split <;> (try split) <;> (try split) <;> omega
    have : tlLen 0x24 = 1 := by decide
    omega
  obtain ⟨B, hB⟩ : ∃ B, B = tlv 7 N ++ (tlv 0x22 [5] ++ (tlv 32 [] ++ (tlv 32 [] ++ (tlv 0x24 P ++ [])))) := ⟨_, rfl⟩
  have hlB : B.length = 43 + (tlv 0x24 P).length := by
    rw [hB]
    simp only [List.length_append, hlN, List.length_nil]
    rw [show (tlv 0x22 [5]).length = 3 by decide, show (tlv 32 []).length = 2 by decide]
    omega
  have hr0 : (BR.new B).rest = tlv 7 N ++ (tlv 0x22 [5] ++ (tlv 32 [] ++ (tlv 32 [] ++ (tlv 0x24 P ++ [])))) := by rw [BR.rest_new, hB]
  have hr1 := rest_adv_append hr0
  have hr2 := rest_adv_append hr1
  have hr3 := rest_adv_append hr2
  have hr4 := rest_adv_append hr3
  have hr5 := rest_adv_append hr4
  let v : InterestV := { name := some name, hopLimit := some 5, appParam := some [P] }
  have hparse : ∀ F, 60 < F → ∃ ctx r, parseInterest false F {} (BR.new B) = some (.ok (v, ctx), r) ∧ ctx.digestCovered.flatten = [] ∧
      ctx.sigCovered = nameCover v := by
    intro F hF
    obtain ⟨f, rfl⟩ : ∃ f, F = f + 1 + 1 + 1 + 1 + 1 + 1 := ⟨F - 6, by omega⟩
    obtain ⟨slots, hsl⟩ : ∃ s, s = interestSlots false (f + 1 + 1 + 1 + 1 + 1 + 1) := ⟨_, rfl⟩
    unfold parseInterest ordParse
    have e1 := ordLoop_elem (ic := false) (slots := slots) (o := ⟨16, [], ({}, {})⟩)
      (o' := ⟨13, [2, 1, 0], ({ name := some name }, { sigCovered := nameCover v })⟩) (f + 1 + 1 + 1 + 1 + 1) hr0 (by decide) (by rw [hN, hnb]; decide)
      (by
        intro r2 h1 h2 h3 h4
        subst hsl
        refine ordInner_pass (ic := false) (slots := interestSlots false (f + 1 + 1 + 1 + 1 + 1 + 1)) (typ := 7) (st1 := ({}, {})) (by rfl) 2 0 [] ({}, {}) rfl rfl ?_ rfl ?_
        · intro j s' _ hj hs
          rcases (by omega : j = 0 ∨ j = 1) with rfl | rfl <;> (injection hs with hs; subst hs; decide)
        · have := read_intName (n := name) (r := r2) ⟨h4, by rw [h3]; show B.length < _; omega⟩ (by rw [h1, hN]) hsmall
          rw [← hN] at this
          show PR.map _ (some (readIntName N.length r2)) = _
          rw [this]
          rfl)
    have e2 := ordLoop_elem (ic := false) (slots := slots)
      (o := ⟨13, [2, 1, 0], ({ name := some name }, { sigCovered := nameCover v })⟩)
      (o' := ⟨7, 8 :: pass 5 3 [2, 1, 0], ({ name := some name, hopLimit := some 5 }, { sigCovered := nameCover v })⟩) (f + 1 + 1 + 1 + 1) hr1
      (by decide) (by decide)
      (by
        intro r2 h1 h2 h3 h4
        subst hsl
        refine ordInner_pass (ic := false) (slots := interestSlots false (f + 1 + 1 + 1 + 1 + 1 + 1)) (typ := 0x22) (st1 := ({ name := some name }, { sigCovered := nameCover v }))
          (by rfl) 5 3 [2, 1, 0] ({ name := some name }, { sigCovered := nameCover v }) rfl rfl ?_ rfl ?_
        · intro j s' _ hj hs
          rcases (by omega : j = 3 ∨ j = 4 ∨ j = 5 ∨ j = 6 ∨ j = 7) with rfl | rfl | rfl | rfl | rfl <;>
            (injection hs with hs; subst hs; simp [flagSlot, elemSlot])
        · have := read_fixed (w := 1) (x := 5) (p := true) (r := r2) (.inl rfl) (by decide) ⟨h4, by rw [h3]; show B.length < _; omega⟩ h1
          have this : readFixed 1 true 1 r2 = (.ok 5, r2.adv 1) := this
          show PR.map _ (some (readFixed 1 true 1 r2)) = _
          rw [this]
          rfl)
    have junk : ∀ (m : Nat) (o' : Ord (InterestV × InterestCtx)) (r : BR) (t : Bytes), r.rest = tlv 32 [] ++ t → r.buf = B → r.pos ≤ B.length →
        ∀ p, p ≤ 15 → o'.left = 16 - p →
        ordLoop false slots (m + 1) o' r = ordLoop false slots m ⟨16 - (p + 1), o'.handled, o'.st⟩ (r.adv (tlv 32 []).length) := by
      intro m o' r t hr hb hle p hp ho
      refine ordLoop_elem (ic := false) (slots := slots) m hr (by decide) (by decide) ?_
      intro r2 h1 h2 h3 h4
      subst hsl
      rw [ho]
      refine ordInner_junk (slots := interestSlots false (f + 1 + 1 + 1 + 1 + 1 + 1)) (by rfl) (.inr (by decide)) (p := p) hp ?_
      have := BR.skip_ok (r := r2) (l := 0) ⟨h4, by rw [h3, hb]; omega⟩ (by omega)
      rw [List.length_nil, toInt_small (by decide)]
      exact this
    have e3 := junk (f + 1 + 1 + 1) ⟨7, 8 :: pass 5 3 [2, 1, 0], ({ name := some name, hopLimit := some 5 }, { sigCovered := nameCover v })⟩ _ _ hr2 rfl
      (by simp [hlN, hlB]; rw [show (tlv 34 [5]).length = 3 by decide]; omega) 9 (by omega) rfl
    have e4 := junk (f + 1 + 1) ⟨6, 8 :: pass 5 3 [2, 1, 0], ({ name := some name, hopLimit := some 5 }, { sigCovered := nameCover v })⟩ _ _ hr3 rfl
      (by simp [hlN, hlB]; rw [show (tlv 34 [5]).length = 3 by decide, show (tlv 32 []).length = 2 by decide]; omega) 10 (by omega) rfl
    have e5 := ordLoop_elem (ic := false) (slots := slots)
      (o := ⟨5, 8 :: pass 5 3 [2, 1, 0], ({ name := some name, hopLimit := some 5 }, { sigCovered := nameCover v })⟩)
      (o' := ⟨4, 11 :: 8 :: pass 5 3 [2, 1, 0], (v, { sigCovered := nameCover v })⟩) (f + 1) hr4
      (by decide) (by omega)
      (by
        intro r2 h1 h2 h3 h4
        subst hsl
        refine ordInner_pass (ic := false) (slots := interestSlots false (f + 1 + 1 + 1 + 1 + 1 + 1)) (typ := 0x24)
          (st1 := ({ name := some name, hopLimit := some 5 }, { sigCovered := nameCover v }))
          (by rfl) 0 11 (8 :: pass 5 3 [2, 1, 0]) ({ name := some name, hopLimit := some 5 }, { sigCovered := nameCover v }) rfl rfl ?_ rfl ?_
        · intro j s' _ hj hs
          omega
        · have := BR.readWire_ok (r := r2) (l := P.length) ⟨h4, by rw [h3]; show B.length < _; omega⟩ (by rw [h1]; simp)
          show PR.map _ (some (BR.readWire (toInt P.length) r2)) = _
          rw [toInt_small (by omega), this, h1, List.take_left]
          rfl)
    have e6 := ordLoop_end (ic := false) (slots := slots) f
      (o := ⟨4, 11 :: 8 :: pass 5 3 [2, 1, 0], (v, { sigCovered := nameCover v })⟩) hr5
    have e7 := e1.trans (e2.trans (e3.trans (e4.trans (e5.trans e6))))
    have e8 : (interestSlots false (f + 1 + 1 + 1 + 1 + 1 + 1)).length + 1 = 16 := rfl
    rw [e8, ← hsl, e7, hsl]
    obtain ⟨R, hR⟩ : ∃ R, R = (((((BR.new B).adv (tlv 7 N).length).adv (tlv 0x22 [5]).length).adv (tlv 32 []).length).adv (tlv 32 []).length).adv (tlv 0x24 P).length := ⟨_, rfl⟩
    rw [← hR]
    refine ⟨_, R, rfl, ?_, rfl⟩
    show (rangeOf R R.pos R.pos).flatten = []
    unfold rangeOf BR.range
    split
    · rfl
    · simp
  refine ⟨v, nameCover v, fun F hF => ?_, rfl, rfl⟩
  obtain ⟨ctx, r, h1, h2, h3⟩ := hparse F hF
  obtain ⟨r', h4⟩ := packet_interest (by rw [hlB]; omega) (by omega) h1
  have : buf = tlv 5 B := by simp only [buf]; rw [hB, hN]
  rw [this]
  unfold readInterest
  rw [h4]
  simp only [finishParse]
  rw [checkInterest_valid ⟨rfl, fun _ => ⟨[], by simp [v, name, h2]⟩, fun h => absurd h (by simp [v])⟩, h3]

example : ([1, 2, 3] : Bytes).length < 2 ^ 40 := by decide

end Ndn.Packet
