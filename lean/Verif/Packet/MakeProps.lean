import Verif.Packet.MakeData

/-! # C27: a Data that is made is read back -/

namespace Ndn.Packet
open Ndn.Codec Ndn.Codec.Schema

/-- the signature configuration that is in effect -/
def signerConfig (signer : Option Signer) : Option SigConfig :=
  match signer with
  | some ⟨some (some c), _, _⟩ => if c.typ = signatureNone then none else some c
  | _ => none

/-- times in a configuration are whole milliseconds, not negative -/
def WholeMs (d : Int) : Prop := ∃ ms : Int, d = ms * 1000000 ∧ -2 ^ 63 ≤ d ∧ d < 2 ^ 63

theorem data_clean (b : DataB) : Fitting 7 dataTypes b.items b.items := by
  refine ⟨?_, ?_, ?_⟩
  · obtain ⟨a1, a2, a3, a4, a5⟩ := b
    cases a1 <;> cases a2 <;> cases a3 <;> cases a4 <;> cases a5 <;> simp [DataB.items, DataB.signed, ownIt, Fits]
  · obtain ⟨a1, a2, a3, a4, a5⟩ := b
    cases a1 <;> cases a2 <;> cases a3 <;> cases a4 <;> cases a5 <;> simp [DataB.items, DataB.signed, ownIt, owns]
  · intro x hx hn
    obtain ⟨j, g1, _⟩ := (data_items_incr b).ge x hx
    rw [hn] at g1; exact (nomatch g1)

theorem sigTypeNum_lt (t : Int) : sigTypeNum t < 2 ^ 64 := by
  unfold sigTypeNum; omega

theorem toInt_sigTypeNum {t : Int} (h1 : -2 ^ 63 ≤ t) (h2 : t < 2 ^ 63) : toInt (sigTypeNum t) = t := by
  unfold sigTypeNum
  by_cases h : 0 ≤ t
  · rw [toInt_of_lt (by omega)]; omega
  · rw [toInt_neg (by omega) (by omega)]; omega

/-- the signature info that is made -/
theorem dataSig_cases {signer : Option Signer} {si : Option signatureInfo.V} {est : Nat} (h : dataSig signer = .ok (si, est)) :
    (signerConfig signer = none ∧ si = none ∧ est = 0) ∨
    ∃ sg c, signer = some sg ∧ sg.sigInfo = some (some c) ∧ signerConfig signer = some c ∧ est = sg.est ∧
      ∃ val, si = some (mkSigInfo (sigTypeNum c.typ) c.keyName none none none val) ∧
        (c.notBefore = val.map (·.1) ∧ c.notAfter = val.map (·.2)) := by
  unfold dataSig at h
  cases signer with
  | none => injection h with h; injection h with h1 h2; exact .inl ⟨rfl, h1.symm, h2.symm⟩
  | some sg =>
    obtain ⟨info, e, sign⟩ := sg
    simp only at h
    cases info with
    | none => exact (nomatch h)
    | some info =>
      cases info with
      | none => injection h with h; injection h with h1 h2; exact .inl ⟨rfl, h1.symm, h2.symm⟩
      | some c =>
        simp only at h
        by_cases ht : c.typ = signatureNone
        · rw [if_pos ht] at h
          injection h with h; injection h with h1 h2; exact .inl ⟨by simp [signerConfig, ht], h1.symm, h2.symm⟩
        · rw [if_neg ht] at h
          by_cases hx : (c.nonce.isSome || c.seqNum.isSome || c.sigTime.isSome) = true
          · rw [if_pos hx] at h; exact (nomatch h)
          · rw [if_neg hx] at h
            refine .inr ⟨_, c, rfl, rfl, by simp [signerConfig, ht], ?_⟩
            cases hb : c.notBefore with
            | none =>
              cases ha : c.notAfter with
              | none => rw [hb, ha] at h; injection h with h; injection h with h1 h2; exact ⟨h2.symm, none, h1.symm, rfl, rfl⟩
              | some a => rw [hb, ha] at h; exact (nomatch h)
            | some b =>
              cases ha : c.notAfter with
              | none => rw [hb, ha] at h; exact (nomatch h)
              | some a => rw [hb, ha] at h; injection h with h; injection h with h1 h2; exact ⟨h2.symm, some (b, a), h1.symm, rfl, rfl⟩

theorem all_opt {α : Type} {p : α → Prop} {o : Option α} (h : ∀ a, o = some a → p a) : Mode.All p .opt o := by
  cases o with
  | none => trivial
  | some a => exact h a rfl

theorem mkSigInfo_inRange {typ : Nat} {keyName : Option Name} {nonce : Option Bytes} {time : Option Int} {seq : Option Nat}
    {val : Option (Bytes × Bytes)} (h1 : typ < 2 ^ 64) (h2 : ∀ n, keyName = some n → ∀ c ∈ n, c.Small)
    (h3 : ∀ d, time = some d → WholeMs d) (h4 : ∀ x, seq = some x → x < 2 ^ 64) :
    OptIn (.struct signatureInfo) (some (mkSigInfo typ keyName nonce time seq val)) := by
  refine ⟨h1, all_opt ?_, all_opt fun _ _ => trivial, all_opt h3, all_opt h4, all_opt ?_, trivial, trivial⟩
  · intro k hk
    cases keyName with
    | none => exact (nomatch hk)
    | some n =>
      injection hk with hk
      subst hk
      exact ⟨h2 n rfl, trivial, trivial⟩
  · intro k hk
    cases val with
    | none => exact (nomatch hk)
    | some n =>
      injection hk with hk
      subst hk
      exact ⟨trivial, trivial, trivial⟩

/-- reading the Data with canonical bytes -/
theorem read_made {v : DataV} (hv : v.InRange) (hn : v.name.isSome) (hl : v.enc.length < 2 ^ 43) {F : Nat} (hF : v.enc.length < F) :
    ∃ cov, readData F (BR.new v.enc) = some (.ok (.ok (v, cov))) ∧ (v.sigValue.isSome → cov.flatten = bytesOf v.bodies.signed) := by
  have hle : (bytesOf v.bodies.items).length + 2 ≤ v.enc.length := by
    rw [DataV.enc, tlv_length]
    have := tlLen_pos 6
    have := tlLen_pos (bytesOf v.bodies.items).length
    omega
  obtain ⟨cov, h1, h2⟩ := readData_items v.bodies_bodies hv hn (data_clean v.bodies) (by omega) (by omega : _ < F)
  refine ⟨cov, h1, fun hs => ?_⟩
  rw [h2 rfl, if_pos (show v.bodies.sigValue.isSome = true from (Option.isSome_map (f := Elem.body .wire) (x := v.sigValue)).trans hs)]
  simp

/-- the bytes of a made Data are those of a value with the parts of C27 -/
theorem madeData_parts (name : Name) (config : DataConfig) (content : Option Wire) (signer : Option Signer) (e : Encoded)
    (h : makeData (some name) (some config) content signer = .ok e)
    (hname : ∀ c ∈ name, c.Small) (hct : ∀ t, config.contentType = some t → t < 2 ^ 64) (hfr : ∀ d, config.freshness = some d → WholeMs d)
    (hfb : ∀ c, config.finalBlock = some c → c.Small)
    (hkey : ∀ c n, signerConfig signer = some c → c.keyName = some n → ∀ x ∈ n, x.Small)
    (hty : ∀ c, signerConfig signer = some c → -2 ^ 63 ≤ c.typ ∧ c.typ < 2 ^ 63)
    (hsig : ∀ sg sig, signer = some sg → sg.sign e.covered = some sig →
      sg.est ≤ 252 ∨ (253 ≤ sig.length ∧ sg.est / 256 = sig.length / 256 ∧ sg.est < 2 ^ 63))
    (hl : e.wire.flatten.length < 2 ^ 43) (F : Nat) (hF : e.wire.flatten.length < F) :
    ∃ d cov, (e.wire.flatten = d.enc ∧ d.InRange ∧ d.name.isSome) ∧ readData F (BR.new e.wire.flatten) = some (.ok (.ok (d, cov))) ∧
      d.name = some name ∧ d.contentType = config.contentType ∧ d.freshness = config.freshness ∧ d.finalBlockID = config.finalBlock ∧
      d.content = content.map (fun w => [w.flatten]) ∧
      (signerConfig signer = none → d.sigInfo = none ∧ d.sigValue = none) ∧
      ∀ c, signerConfig signer = some c → sigTypeOf d.sigInfo = c.typ ∧ keyNameOf d.sigInfo = c.keyName ∧
        (validityOf d.sigInfo).map (·.1) = c.notBefore ∧ (validityOf d.sigInfo).map (·.2) = c.notAfter ∧
        ∀ sg, signer = some sg →
          if sg.est = 0 then d.sigValue = none
          else ∃ sig, sg.sign e.covered = some sig ∧ d.sigValue = some [sig] ∧ cov.flatten = e.covered.flatten := by
  unfold makeData at h
  simp only at h
  cases hsi : dataSig signer with
  | panic => rw [hsi] at h; exact (nomatch h)
  | err x => rw [hsi] at h; exact (nomatch h)
  | ok p =>
    obtain ⟨si, est⟩ := p
    rw [hsi] at h
    have hcases := dataSig_cases hsi
    have hsiIn : OptIn (.struct signatureInfo) si := by
      rcases hcases with ⟨_, rfl, _⟩ | ⟨sg, c, _, _, hc, _, val, rfl, _⟩
      · trivial
      · refine mkSigInfo_inRange (sigTypeNum_lt _) (fun n hn => hkey c n hc hn) (fun d hd => (nomatch hd)) (fun x hx => (nomatch hx))
    have hin : DataV.InRange (dataOf name config (content.map fun w => [w.flatten]) si) := by
      refine ⟨hname, ⟨all_opt fun t ht => hct t ht, all_opt fun d hd => hfr d hd, all_opt fun _ _ => trivial, trivial⟩, ?_, hsiIn, trivial⟩
      show OptIn .wire (content.map fun w => [w.flatten])
      cases content with
      | none => trivial
      | some w => exact ⟨_, rfl⟩
    have hacc : ∀ sv, DataV.contentType { dataOf name config (content.map fun w => [w.flatten]) si with sigValue := sv } = config.contentType ∧
        DataV.freshness { dataOf name config (content.map fun w => [w.flatten]) si with sigValue := sv } = config.freshness ∧
        DataV.finalBlockID { dataOf name config (content.map fun w => [w.flatten]) si with sigValue := sv } = config.finalBlock := by
      intro sv
      refine ⟨rfl, rfl, ?_⟩
      unfold DataV.finalBlockID dataOf
      cases hc : config.finalBlock with
      | none => rfl
      | some c =>
        show (match readComponent (BR.new c.enc) with | (.ok c, _) => some c | _ => none) = some c
        have hs := hfb c hc
        rw [readComponent_enc (r := BR.new c.enc) (t := []) (Tiny.new (by
          rw [Component.enc_length, Component.encLen]
          have := tlLen_le c.typ
          have : natLen c.val.length ≤ 8 := by unfold natLen; (repeat' split) <;> omega
          have := hs.2; omega)).good
          (by rw [BR.rest_new, List.append_nil]) hs.1 hs.2]
    have hsigacc : ∀ c, signerConfig signer = some c → sigTypeOf si = c.typ ∧ keyNameOf si = c.keyName ∧
        (validityOf si).map (·.1) = c.notBefore ∧ (validityOf si).map (·.2) = c.notAfter := by
      intro c hc
      rcases hcases with ⟨hx, _⟩ | ⟨sg, c', _, _, hc', _, val, rfl, hv1, hv2⟩
      · rw [hx] at hc; exact (nomatch hc)
      · rw [hc] at hc'; injection hc' with hc'; subst hc'
        refine ⟨toInt_sigTypeNum (hty c hc).1 (hty c hc).2, ?_, ?_, ?_⟩
        · unfold keyNameOf mkSigInfo; cases c.keyName <;> rfl
        · rw [hv1]; unfold validityOf mkSigInfo; cases val <;> rfl
        · rw [hv2]; unfold validityOf mkSigInfo; cases val <;> rfl
    have hb : ∀ sv, DataV.bodies { dataOf name config content si with sigValue := sv } =
        DataV.bodies { dataOf name config (content.map fun w => [w.flatten]) si with sigValue := sv } := by
      intro sv
      cases content with
      | none => rfl
      | some w =>
        have : some w.flatten = some ([w.flatten] : Wire).flatten := by simp
        simp only [DataV.bodies, dataOf, Elem.body]
        congr 1
    simp only [Res.bind] at h
    by_cases he : est = 0
    · subst he
      obtain ⟨w, s, h1, h2⟩ := data_unsigned (v := dataOf name config content si) rfl
      rw [h1] at h
      simp only at h
      rw [if_neg (by omega)] at h
      injection h with h
      subst h
      have hw : w.flatten = DataV.enc (dataOf name config (content.map fun w => [w.flatten]) si) := by
        rw [h2, ← data_enc, DataV.enc, hb none]; rfl
      simp only at hl hF ⊢
      rw [hw] at hl hF ⊢
      obtain ⟨cov, g1, _⟩ := read_made hin rfl hl hF
      refine ⟨_, cov, ⟨rfl, hin, rfl⟩, g1, rfl, (hacc none).1, (hacc none).2.1, (hacc none).2.2, rfl, ?_, ?_⟩
      · intro hc
        rcases hcases with ⟨_, rfl, _⟩ | ⟨sg, c, _, _, hc', _⟩
        · exact ⟨rfl, rfl⟩
        · rw [hc] at hc'; exact (nomatch hc')
      · intro c hc
        obtain ⟨a1, a2, a3, a4⟩ := hsigacc c hc
        refine ⟨a1, a2, a3, a4, fun sg hsg => ?_⟩
        rcases hcases with ⟨hx, _⟩ | ⟨sg', c', hsg', _, _, hest, _⟩
        · rw [hx] at hc; exact (nomatch hc)
        · rw [hsg] at hsg'; injection hsg' with hsg'; subst hsg'
          rw [if_pos hest.symm]; rfl
    · have hpos : 0 < est := by omega
      obtain ⟨w, s, i, h1, h2, h3, h4⟩ := data_signed (v := dataOf name config content si) hpos
      rcases hcases with ⟨_, _, hx⟩ | ⟨sg, c, hsg, hinfo, hc, hest, _⟩
      · exact absurd hx he
      rw [h1] at h
      simp only at h
      rw [if_pos hpos, h3, hsg] at h
      simp only [Option.bind_some] at h
      cases hsign : sg.sign s.covered with
      | none => rw [hsign] at h; exact (nomatch h)
      | some sig =>
        rw [hsign] at h
        simp only at h
        by_cases hlen : sig.length > est
        · rw [if_pos hlen] at h; exact (nomatch h)
        · rw [if_neg hlen] at h
          cases hp : patchSig w i sig with
          | err x => rw [hp] at h; exact (nomatch h)
          | panic => rw [hp] at h; exact (nomatch h)
          | ok w1 =>
            cases hsh : shrinkHead w1 (est - sig.length) with
            | err x => rw [hp] at h; simp only [hsh] at h; exact (nomatch h)
            | panic => rw [hp] at h; simp only [hsh] at h; exact (nomatch h)
            | ok w2 =>
              rw [hp] at h
              simp only [hsh] at h
              have h : Res.ok ({ wire := w2, covered := s.covered } : Encoded) = Res.ok e := h
              injection h with h
              subst h
              simp only at hl hF hsig ⊢
              have hcond := hsig sg sig hsg hsign
              rw [← hest] at hcond
              have g2 := h4 sig (by omega) (by omega) (by omega) w1 w2 hp hsh (by omega)
              have hw : w2.flatten = DataV.enc { dataOf name config (content.map fun w => [w.flatten]) si with sigValue := some [sig] } := by
                rw [g2, ← data_enc_sig, DataV.enc, hb (some [sig])]; rfl
              have hvin : DataV.InRange { dataOf name config (content.map fun w => [w.flatten]) si with sigValue := some [sig] } :=
                ⟨hin.name, hin.metaInfo, hin.content, hin.sigInfo, ⟨_, rfl⟩⟩
              rw [hw] at hl hF
              obtain ⟨cov, k1, k2⟩ := read_made hvin rfl hl hF
              rw [← hw] at k1
              obtain ⟨b1, b2, b3⟩ := hacc (some [sig])
              refine ⟨_, cov, ⟨hw, hvin, rfl⟩, k1, rfl, b1, b2, b3, rfl, fun hn => ?_, fun c' hc' => ?_⟩
              · rw [hn] at hc; exact (nomatch hc)
              · obtain ⟨a1, a2, a3, a4⟩ := hsigacc c' hc'
                refine ⟨a1, a2, a3, a4, fun sg' hsg' => ?_⟩
                rw [hsg] at hsg'; injection hsg' with hsg'; subst hsg'
                rw [if_neg (by omega)]
                refine ⟨sig, hsign, rfl, ?_⟩
                rw [k2 rfl, h2]
                exact (congrArg (fun b => bytesOf (DataB.signed b)) (hb (some [sig])).symm).trans rfl

/-- C27: a Data that `MakeData` makes is read by `ReadData` with the same name, content type, freshness, final block id, content (as one
buffer), signature type, key name, validity period and signature value, and what `ReadData` reports as covered is what the signer got.
Assumed: freshness in whole milliseconds (`C27_violated`), components of at most 252 bytes; a signature whose length differs from
the estimate only in the last byte of the encoded length (`C27_length_violated`). -/
theorem C27_data_round_trip_partial (name : Name) (config : DataConfig) (content : Option Wire) (signer : Option Signer) (e : Encoded)
    (h : makeData (some name) (some config) content signer = .ok e)
    (hname : ∀ c ∈ name, c.Small) (hct : ∀ t, config.contentType = some t → t < 2 ^ 64) (hfr : ∀ d, config.freshness = some d → WholeMs d)
    (hfb : ∀ c, config.finalBlock = some c → c.Small)
    (hkey : ∀ c n, signerConfig signer = some c → c.keyName = some n → ∀ x ∈ n, x.Small)
    (hty : ∀ c, signerConfig signer = some c → -2 ^ 63 ≤ c.typ ∧ c.typ < 2 ^ 63)
    (hsig : ∀ sg sig, signer = some sg → sg.sign e.covered = some sig →
      sg.est ≤ 252 ∨ (253 ≤ sig.length ∧ sg.est / 256 = sig.length / 256 ∧ sg.est < 2 ^ 63))
    (hl : e.wire.flatten.length < 2 ^ 43) (F : Nat) (hF : e.wire.flatten.length < F) :
    ∃ d cov, readData F (BR.new e.wire.flatten) = some (.ok (.ok (d, cov))) ∧
      d.name = some name ∧ d.contentType = config.contentType ∧ d.freshness = config.freshness ∧ d.finalBlockID = config.finalBlock ∧
      d.content = content.map (fun w => [w.flatten]) ∧
      (signerConfig signer = none → d.sigInfo = none ∧ d.sigValue = none) ∧
      ∀ c, signerConfig signer = some c → sigTypeOf d.sigInfo = c.typ ∧ keyNameOf d.sigInfo = c.keyName ∧
        (validityOf d.sigInfo).map (·.1) = c.notBefore ∧ (validityOf d.sigInfo).map (·.2) = c.notAfter ∧
        ∀ sg, signer = some sg →
          if sg.est = 0 then d.sigValue = none
          else ∃ sig, sg.sign e.covered = some sig ∧ d.sigValue = some [sig] ∧ cov.flatten = e.covered.flatten := by
  obtain ⟨d, cov, _, r⟩ := madeData_parts name config content signer e h hname hct hfr hfb hkey hty hsig hl F hF
  exact ⟨d, cov, r⟩

/-- a signer that makes a given signature value, with digest type -/
def exSigner (est : Nat) (sig : Bytes) : Signer := ⟨some (some { typ := 0 }), est, fun _ => some sig⟩

/-- the hypotheses are met: `/A`, 2 s fresh, final block `/A`, content in two buffers, an estimate of 72 bytes and 2 bytes of signature -/
example : (∀ c ∈ ([⟨8, [65]⟩] : Name), c.Small) ∧ WholeMs 2000000000 ∧ signerConfig (some (exSigner 72 [1, 2])) = some { typ := 0 } ∧
    ∃ e, makeData (some [⟨8, [65]⟩]) (some { contentType := some 0, freshness := some 2000000000, finalBlock := some ⟨8, [65]⟩ }) (some [[1], [2]])
      (some (exSigner 72 [1, 2])) = .ok e ∧ e.wire.flatten.length < 2 ^ 43 := by
  refine ⟨by simp [Component.Small], ⟨2000, by decide⟩, rfl, ?_⟩
  have hs : dataSig (some (exSigner 72 [1, 2])) = .ok (some (mkSigInfo 0 none none none none none), 72) := by rfl
  unfold makeData
  simp only [hs, Res.bind]
  obtain ⟨s, X, last, h1, h2, hx, h3⟩ := data_signed_raw (dataOf [⟨8, [65]⟩]
    { contentType := some 0, freshness := some 2000000000, finalBlock := some ⟨8, [65]⟩ } (some [[1], [2]])
    (some (mkSigInfo 0 none none none none none))) (est := 72) (by omega)
  have hb : bytesOf (DataV.bodies (dataOf [⟨8, [65]⟩]
    { contentType := some 0, freshness := some 2000000000, finalBlock := some ⟨8, [65]⟩ } (some [[1], [2]])
    (some (mkSigInfo 0 none none none none none)))).signed =
      [7, 3, 8, 1, 65, 20, 12, 24, 1, 0, 25, 2, 7, 208, 26, 3, 8, 1, 65, 21, 2, 1, 2, 22, 3, 27, 1, 0] := by rfl
  rw [h1, h3]
  simp only [exSigner, Option.bind_some]
  rw [if_pos (by decide), if_neg (by decide), patchSig_eq _ _ _ _ _ _ (by decide) (by decide)]
  simp only
  rw [hb] at hx ⊢
  rw [shrinkHead_eq (by decide) (by decide) (by decide) (by simp)]
  refine ⟨_, rfl, ?_⟩
  have hx := congrArg List.length hx
  rw [before_flatten (by simp)]
  simp [tlEnc_length, tlvLen] at hx ⊢
  have := tlLen_le 23
  have := tlLen_le 2
  have := tlLen_le 6
  have := tlLen_le (28 + (tlLen 23 + tlLen 72 + 72) - 70)
  omega

/-- C27 fails: half a millisecond of freshness is read back as nothing -/
theorem C27_violated : ∃ e d cov, makeData (some []) (some { freshness := some 500000 }) none none = .ok e ∧
    readData 10 (BR.new e.wire.flatten) = some (.ok (.ok (d, cov))) ∧ d.freshness = some 0 := by
  obtain ⟨w, s, h1, h2⟩ := data_unsigned (v := dataOf [] { freshness := some 500000 } none none) rfl
  have hb : (dataOf [] { freshness := some 500000 } none none).bodies = (dataOf [] { freshness := some 0 } none none).bodies := by rfl
  have hw : w.flatten = DataV.enc (dataOf [] { freshness := some 0 } none none) := by
    rw [h2]; rfl
  have hl : (DataV.enc (dataOf [] { freshness := some 0 } none none)).length = 9 := by rfl
  obtain ⟨cov, g1, _⟩ := read_made (v := dataOf [] { freshness := some 0 } none none) (F := 10)
    ⟨fun c hc => (nomatch hc), ⟨trivial, ⟨0, by decide⟩, trivial, trivial⟩, trivial, trivial, trivial⟩ rfl (by omega) (by omega)
  refine ⟨{ wire := w, covered := [] }, dataOf [] { freshness := some 0 } none none, cov, ?_, ?_, rfl⟩
  · simp only [makeData, dataSig, Res.bind, h1]; rfl
  · rw [hw]; exact g1

theorem name_lb : Elem.read false 10 .name 0 ⟨[7, 0, 20, 0, 22, 3, 27, 1, 0, 23, 253, 1, 1, 1], 2⟩ = some (.ok [], ⟨[7, 0, 20, 0, 22, 3, 27, 1, 0, 23, 253, 1, 1, 1], 2⟩) := by
  eval_parse

theorem meta_lb : Elem.read false 10 (.struct metaInfo) 0 ⟨[7, 0, 20, 0, 22, 3, 27, 1, 0, 23, 253, 1, 1, 1], 4⟩ = some (.ok (none, none, none, ()), ⟨[7, 0, 20, 0, 22, 3, 27, 1, 0, 23, 253, 1, 1, 1], 4⟩) := by
  eval_parse

theorem si_lb : Elem.read false 10 (.struct signatureInfo) 3 ⟨[7, 0, 20, 0, 22, 3, 27, 1, 0, 23, 253, 1, 1, 1], 6⟩ = some (.ok (mkSigInfo 0 none none none none none), ⟨[7, 0, 20, 0, 22, 3, 27, 1, 0, 23, 253, 1, 1, 1], 9⟩) := by
  refine Elem.read_ok false (.struct signatureInfo) (mkSigInfo 0 none none none none none) [27, 1, 0] signatureInfo_wf ?_ ?_ 10 _
    [23, 253, 1, 1, 1] ⟨by decide, by decide⟩ rfl (by decide)
  · exact mkSigInfo_inRange (by decide) (fun n hn => (nomatch hn)) (fun n hn => (nomatch hn)) (fun n hn => (nomatch hn))
  · exact Elem.body_body _ _ _

theorem tl_lb : BR.readTL ⟨[7, 0, 20, 0, 22, 3, 27, 1, 0, 23, 253, 1, 1, 1], 10⟩ = (.ok 257, ⟨[7, 0, 20, 0, 22, 3, 27, 1, 0, 23, 253, 1, 1, 1], 13⟩) := by
  exact readTL_tlEnc (r := ⟨[7, 0, 20, 0, 22, 3, 27, 1, 0, 23, 253, 1, 1, 1], 10⟩) (x := 257) (t := [1]) (by decide) (by decide)

theorem long_parse : ∃ x r, parseData false 10 {} ⟨[7, 0, 20, 0, 22, 3, 27, 1, 0, 23, 253, 1, 1, 1], 0⟩ = some (.err x, r) := by
  simp [parseData, ordParse, ordLoop, dataSlots, readTL_at, ordInner, knows, argSlot, markSlot, elemSlot, sigSlot, name_lb, meta_lb, si_lb, tl_lb,
    toInt_lit, BR.readWire, BR.slice, BR.range, rangeOf, wrap64_id, PR.map, Res.map]

/-- C27 fails: with an estimate of 256 bytes and one byte of signature, the element says that it has 257 bytes -/
theorem C27_length_violated : ∃ e, makeData (some []) (some {}) none (some (exSigner 256 [1])) = .ok e ∧
    e.wire.flatten = [6, 14, 7, 0, 20, 0, 22, 3, 27, 1, 0, 23, 253, 1, 1, 1] ∧
    ∃ x, readData 10 (BR.new e.wire.flatten) = some (.ok (.error x)) := by
  have hs : dataSig (some (exSigner 256 [1])) = .ok (some (mkSigInfo 0 none none none none none), 256) := by rfl
  unfold makeData
  simp only [hs, Res.bind]
  obtain ⟨s, X, last, h1, h2, hx, h3⟩ := data_signed_raw (dataOf [] {} none (some (mkSigInfo 0 none none none none none))) (est := 256) (by omega)
  have hb : bytesOf (DataV.bodies (dataOf [] {} none (some (mkSigInfo 0 none none none none none)))).signed = [7, 0, 20, 0, 22, 3, 27, 1, 0] := by rfl
  rw [h1, h3]
  simp only [exSigner, Option.bind_some]
  rw [if_pos (by decide), if_neg (by decide), patchSig_any _ _ _ _ (by simp [tlEnc_ne])]
  simp only
  rw [hb] at hx ⊢
  rw [shrinkHead_eq (by decide) (by decide) (by decide) (by simp)]
  have key : ∀ c, (before c (X ++ [(last ++ (tlEnc 23 ++ tlEnc 256)).dropLast ++ [UInt8.ofNat [(1 : UInt8)].length], [1]])).flatten =
      c ++ [7, 0, 20, 0, 22, 3, 27, 1, 0, 23, 253, 1, 1, 1] := by
    intro c
    have e : tlEnc 23 ++ tlEnc 256 = [23, 253, 1] ++ [0] := by decide
    rw [before_flatten (by simp), e, ← List.append_assoc, List.dropLast_concat]
    simp only [List.flatten_append, List.flatten_cons, List.flatten_nil, List.append_nil]
    rw [show X.flatten ++ (last ++ [23, 253, 1] ++ [UInt8.ofNat [(1 : UInt8)].length] ++ [1]) = (X.flatten ++ last) ++ [23, 253, 1, 1, 1] by simp, hx]
    rfl
  refine ⟨_, rfl, ?_⟩
  simp only
  have e : tlEnc 6 ++ tlEnc (([7, 0, 20, 0, 22, 3, 27, 1, 0] : Bytes).length + tlvLen 23 256 - (256 - ([1] : Bytes).length)) = [6, 14] := by decide
  rw [key, e]
  obtain ⟨x, r, h⟩ := long_parse
  exact ⟨rfl, by eval_packet [h]⟩

end Ndn.Packet
