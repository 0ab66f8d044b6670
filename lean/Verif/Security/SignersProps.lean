import Verif.Security.Signers
import Verif.Packet.MakeProps
import Verif.Packet.MakeInterestProps

/-! # Properties of the signers and validators: C57, C58 -/

namespace Ndn.Security
open Ndn.Packet

/-! ## C57 -/

/-- C57: what the digest signer makes is accepted, however the covered bytes are split into buffers. -/
theorem C57_sha256 (sha : Bytes → Bytes) (covered covered' : Wire) (h : covered'.flatten = covered.flatten) :
    ∃ sig, (sha256Signer sha).sign covered = some sig ∧ sha256Validate sha covered' ⟨0, sig⟩ = true := by
  refine ⟨_, rfl, ?_⟩
  simp [sha256Validate, sigSha256, h]

/-- C57: what the HMAC signer makes is accepted with the same key. -/
theorem C57_hmac (mac : Bytes → Bytes → Bytes) (keyName : Option Name) (key : Bytes) (cert : Option (Bytes × Bytes)) (covered covered' : Wire)
    (h : covered'.flatten = covered.flatten) :
    ∃ sig, (hmacSigner mac keyName key cert).sign covered = some sig ∧ hmacValidate mac covered' ⟨4, sig⟩ key = true := by
  refine ⟨_, rfl, ?_⟩
  simp [hmacValidate, checkHmacSig, sigHmac, h]

/-- C57: a digest is accepted only for the bytes that were signed, or the hash collides. -/
theorem C57_reject (sha : Bytes → Bytes) (covered covered' : Wire) (typ : Int) (sig : Bytes) (hs : (sha256Signer sha).sign covered = some sig)
    (hv : sha256Validate sha covered' ⟨typ, sig⟩ = true) :
    typ = 0 ∧ (covered'.flatten = covered.flatten ∨ (covered'.flatten ≠ covered.flatten ∧ sha covered'.flatten = sha covered.flatten)) := by
  have hs : sha covered.flatten = sig := Option.some.inj hs
  unfold sha256Validate at hv
  by_cases ht : typ = 0
  · refine ⟨ht, ?_⟩
    rw [if_neg (by simpa [sigSha256] using ht)] at hv
    have hv : sha covered'.flatten = sig := by simpa using hv
    by_cases hc : covered'.flatten = covered.flatten
    · exact .inl hc
    · exact .inr ⟨hc, hv.trans hs.symm⟩
  · rw [if_pos (by simpa [sigSha256] using ht)] at hv
    cases hv

/-- what `MakeData` and `ReadData` do to a signature: the type and the value of the signer, over the same bytes -/
theorem data_sig {name : Name} {config : DataConfig} {content : Option Wire} {signer : Signer} {c : SigConfig} {e : Encoded}
    (hinfo : signer.sigInfo = some (some c)) (hc : c.typ ≠ signatureNone) (hest : signer.est ≠ 0)
    (h : makeData (some name) (some config) content (some signer) = .ok e)
    (hname : ∀ c ∈ name, c.Small) (hct : ∀ t, config.contentType = some t → t < 2 ^ 64) (hfr : ∀ d, config.freshness = some d → WholeMs d)
    (hfb : ∀ c, config.finalBlock = some c → c.Small) (hkey : ∀ n, c.keyName = some n → ∀ x ∈ n, x.Small) (hty : -2 ^ 63 ≤ c.typ ∧ c.typ < 2 ^ 63)
    (hsig : ∀ sig, signer.sign e.covered = some sig → signer.est ≤ 252 ∨ (253 ≤ sig.length ∧ signer.est / 256 = sig.length / 256 ∧ signer.est < 2 ^ 63))
    (hl : e.wire.flatten.length < 2 ^ 43) {F : Nat} (hF : e.wire.flatten.length < F) :
    ∃ d cov sig, readData F (BR.new e.wire.flatten) = some (.ok (.ok (d, cov))) ∧ signer.sign e.covered = some sig ∧
      sigOf d.sigInfo d.sigValue = ⟨c.typ, sig⟩ ∧ cov.flatten = e.covered.flatten := by
  have hsc : signerConfig (some signer) = some c := by
    obtain ⟨i, est, sg⟩ := signer
    simp only at hinfo
    subst hinfo
    exact if_neg hc
  obtain ⟨d, cov, g1, _, _, _, _, _, _, g2⟩ := C27_data_round_trip_partial name config content (some signer) e h hname hct hfr hfb
    (by intro c' n h1 h2; rw [hsc] at h1; injection h1 with h1; subst h1; exact hkey n h2)
    (by intro c' h1; rw [hsc] at h1; injection h1 with h1; subst h1; exact hty)
    (by intro sg sig h1 h2; injection h1 with h1; subst h1; exact hsig sig h2) hl F hF
  obtain ⟨a1, _, _, _, a5⟩ := g2 c hsc
  have a5 := a5 signer rfl
  rw [if_neg hest] at a5
  obtain ⟨sig, b1, b2, b3⟩ := a5
  refine ⟨d, cov, sig, g1, b1, ?_, b3⟩
  unfold sigOf
  rw [a1, b2]
  simp

/-- C57, end to end: a Data made with the digest signer is read with a signature that `Sha256Validate` accepts for the bytes that are reported as covered. -/
theorem C57_data_sha256_partial (sha : Bytes → Bytes) (name : Name) (config : DataConfig) (content : Option Wire) (e : Encoded)
    (h : makeData (some name) (some config) content (some (sha256Signer sha)) = .ok e)
    (hname : ∀ c ∈ name, c.Small) (hct : ∀ t, config.contentType = some t → t < 2 ^ 64) (hfr : ∀ d, config.freshness = some d → WholeMs d)
    (hfb : ∀ c, config.finalBlock = some c → c.Small) (hl : e.wire.flatten.length < 2 ^ 43) (F : Nat) (hF : e.wire.flatten.length < F) :
    ∃ d cov, readData F (BR.new e.wire.flatten) = some (.ok (.ok (d, cov))) ∧ sha256Validate sha cov (sigOf d.sigInfo d.sigValue) = true := by
  obtain ⟨d, cov, sig, h1, h2, h3, h4⟩ := data_sig (c := { typ := sigSha256 }) rfl (by decide) (by simp [sha256Signer]) h hname hct hfr hfb
    (fun n hn => (nomatch hn)) (by decide) (fun _ _ => .inl (by simp [sha256Signer])) hl hF
  refine ⟨d, cov, h1, ?_⟩
  obtain ⟨sig', h5, h6⟩ := C57_sha256 sha e.covered cov h4
  rw [h2] at h5
  injection h5 with h5
  subst h5
  rw [h3]; exact h6

/-- C57, end to end, for HMAC: the key of the validator is that of the signer. -/
theorem C57_data_hmac_partial (mac : Bytes → Bytes → Bytes) (keyName : Option Name) (key : Bytes) (cert : Option (Bytes × Bytes))
    (name : Name) (config : DataConfig) (content : Option Wire) (e : Encoded)
    (h : makeData (some name) (some config) content (some (hmacSigner mac keyName key cert)) = .ok e)
    (hname : ∀ c ∈ name, c.Small) (hct : ∀ t, config.contentType = some t → t < 2 ^ 64) (hfr : ∀ d, config.freshness = some d → WholeMs d)
    (hfb : ∀ c, config.finalBlock = some c → c.Small) (hkey : ∀ n, keyName = some n → ∀ x ∈ n, x.Small)
    (hl : e.wire.flatten.length < 2 ^ 43) (F : Nat) (hF : e.wire.flatten.length < F) :
    ∃ d cov, readData F (BR.new e.wire.flatten) = some (.ok (.ok (d, cov))) ∧ hmacValidate mac cov (sigOf d.sigInfo d.sigValue) key = true := by
  obtain ⟨d, cov, sig, h1, h2, h3, h4⟩ := data_sig
    (c := { typ := sigHmac, keyName := keyName, notBefore := cert.map (·.1), notAfter := cert.map (·.2) }) rfl (show sigHmac ≠ signatureNone by decide) (by simp [hmacSigner]) h hname hct hfr hfb
    (fun n hn => hkey n hn) (show -2 ^ 63 ≤ sigHmac ∧ sigHmac < 2 ^ 63 by decide) (fun _ _ => .inl (by simp [hmacSigner])) hl hF
  refine ⟨d, cov, h1, ?_⟩
  obtain ⟨sig', h5, h6⟩ := C57_hmac mac keyName key cert e.covered cov h4
  rw [h2] at h5
  injection h5 with h5
  subst h5
  rw [h3]; exact h6

/-- the sizes of the signatures for an estimate: it is at most 252 (the usual curves), or the signatures have the estimated size (RSA) -/
def Fit (S : Scheme) (k : S.SK) (r : S.ρ) (est : Nat) : Prop := est ≤ 252 ∨ (253 ≤ est ∧ est < 2 ^ 63 ∧ ∀ d s, S.sign k r d = some s → s.length = est)

theorem fits {S : Scheme} {k : S.SK} {r : S.ρ} {est : Nat} (h : Fit S k r est) {d sig : Bytes} (hs : S.sign k r d = some sig) :
    est ≤ 252 ∨ (253 ≤ sig.length ∧ est / 256 = sig.length / 256 ∧ est < 2 ^ 63) := by
  rcases h with h | ⟨h1, h2, h3⟩
  · exact .inl h
  · rw [h3 d sig hs]; exact .inr ⟨h1, rfl, h2⟩

/-- C57, end to end, for ECDSA with any correct signature scheme and any randomness. -/
theorem C57_data_ecdsa_partial (S : Scheme) (hS : S.Correct) (sha : Bytes → Bytes) (k : S.SK) (r : S.ρ) (est : Nat) (h0 : 0 < est) (h1 : Fit S k r est)
    (keyName : Option Name) (cert : Option (Bytes × Bytes)) (seq : Nat) (name : Name) (config : DataConfig) (content : Option Wire) (e : Encoded)
    (h : makeData (some name) (some config) content (some (eccSigner S sha k r est keyName cert none seq)) = .ok e)
    (hname : ∀ c ∈ name, c.Small) (hct : ∀ t, config.contentType = some t → t < 2 ^ 64) (hfr : ∀ d, config.freshness = some d → WholeMs d)
    (hfb : ∀ c, config.finalBlock = some c → c.Small) (hkey : ∀ n, keyName = some n → ∀ x ∈ n, x.Small)
    (hl : e.wire.flatten.length < 2 ^ 43) (F : Nat) (hF : e.wire.flatten.length < F) :
    ∃ d cov, readData F (BR.new e.wire.flatten) = some (.ok (.ok (d, cov))) ∧
      ecdsaValidate S sha cov (sigOf d.sigInfo d.sigValue) (S.pub k) = true := by
  obtain ⟨d, cov, sig, g1, g2, g3, g4⟩ := data_sig
    (c := { typ := sigEcdsa, keyName := keyName, notBefore := cert.map (·.1), notAfter := cert.map (·.2) }) rfl (show sigEcdsa ≠ signatureNone by decide)
    (by simp [eccSigner]; omega) h hname hct hfr hfb (fun n hn => hkey n hn) (show -2 ^ 63 ≤ sigEcdsa ∧ sigEcdsa < 2 ^ 63 by decide) (fun sig hs => fits h1 hs) hl hF
  refine ⟨d, cov, g1, ?_⟩
  unfold ecdsaValidate
  rw [g3, g4, if_neg (by simp)]
  exact hS k r _ _ g2

/-- C57 fails for RSA: no Data made with the RSA signer is accepted by `RsaValidate`, whatever the key, because the signer reports the type of ECDSA. -/
theorem C57_rsa_violated (S : Scheme) (sha : Bytes → Bytes) (k : S.SK) (r : S.ρ) (est : Nat) (h0 : 0 < est) (h1 : Fit S k r est)
    (keyName : Option Name) (cert : Option (Bytes × Bytes)) (seq : Nat) (name : Name) (config : DataConfig) (content : Option Wire) (e : Encoded)
    (h : makeData (some name) (some config) content (some (rsaSigner S sha k r est keyName cert none seq)) = .ok e)
    (hname : ∀ c ∈ name, c.Small) (hct : ∀ t, config.contentType = some t → t < 2 ^ 64) (hfr : ∀ d, config.freshness = some d → WholeMs d)
    (hfb : ∀ c, config.finalBlock = some c → c.Small) (hkey : ∀ n, keyName = some n → ∀ x ∈ n, x.Small)
    (hl : e.wire.flatten.length < 2 ^ 43) (F : Nat) (hF : e.wire.flatten.length < F) :
    ∃ d cov, readData F (BR.new e.wire.flatten) = some (.ok (.ok (d, cov))) ∧
      ∀ pk, rsaValidate S sha cov (sigOf d.sigInfo d.sigValue) pk = false := by
  obtain ⟨d, cov, sig, g1, _, g3, _⟩ := data_sig
    (c := { typ := sigEcdsa, keyName := keyName, notBefore := cert.map (·.1), notAfter := cert.map (·.2) }) rfl (show sigEcdsa ≠ signatureNone by decide)
    (by simp [rsaSigner]; omega) h hname hct hfr hfb (fun n hn => hkey n hn) (show -2 ^ 63 ≤ sigEcdsa ∧ sigEcdsa < 2 ^ 63 by decide) (fun sig hs => fits h1 hs) hl hF
  refine ⟨d, cov, g1, fun pk => ?_⟩
  unfold rsaValidate
  rw [g3]
  exact if_pos (show sigEcdsa ≠ sigRsa by decide)

/-- C57, the numbers of the types in the specification of NDN packets: each validator accepts its own type only, and the signers write theirs (RSA that of ECDSA). -/
theorem C57_types (S : Scheme) (sha : Bytes → Bytes) (mac : Bytes → Bytes → Bytes) (cov : Wire) (sig : Sig) (key : Bytes) (pk : S.PK) (keyName : Option Name)
    (cert : Option (Bytes × Bytes)) (forInt : Option Tick) (seq : Nat) :
    (sha256Validate sha cov sig = true → sig.typ = 0) ∧ (rsaValidate S sha cov sig pk = true → sig.typ = 1) ∧
    (ecdsaValidate S sha cov sig pk = true → sig.typ = 3) ∧ (hmacValidate mac cov sig key = true → sig.typ = 4) ∧
    (eccSigInfo keyName cert forInt seq).1.typ = 3 := by
  refine ⟨?_, ?_, ?_, ?_, by unfold eccSigInfo; cases forInt <;> rfl⟩
  · unfold sha256Validate
    split
    · intro h; cases h
    · rename_i h; exact fun _ => Classical.byContradiction h
  · unfold rsaValidate
    split
    · intro h; cases h
    · rename_i h; exact fun _ => Classical.byContradiction h
  · unfold ecdsaValidate
    split
    · intro h; cases h
    · rename_i h; exact fun _ => Classical.byContradiction h
  · unfold hmacValidate
    split
    · intro h; cases h
    · rename_i h; exact fun _ => Classical.byContradiction h

/-- C57: an Interest is signed with the same key name and validity period as a Data; it has a nonce, a time and a sequence number, and a Data
has none of them. -/
theorem C57_info (keyName : Option Name) (b a : Bytes) (t : Tick) (seq : Nat) :
    let d := (eccSigInfo keyName (some (b, a)) none seq).1
    let i := (eccSigInfo keyName (some (b, a)) (some t) seq).1
    d.keyName = keyName ∧ d.notBefore = some b ∧ d.notAfter = some a ∧ d.nonce = none ∧ d.sigTime = none ∧ d.seqNum = none ∧
      i.keyName = keyName ∧ i.notBefore = some b ∧ i.notAfter = some a ∧ i.nonce = some t.nonce ∧ i.sigTime = some t.now ∧ i.seqNum.isSome :=
  ⟨rfl, rfl, rfl, rfl, rfl, rfl, rfl, rfl, rfl, rfl, rfl, rfl⟩

/-- `MakeData` succeeds with a signer whose signatures are no longer than its estimate -/
theorem makeData_ok {name : Name} {config : DataConfig} {content : Option Wire} {sg : Signer} {si : Option Codec.Schema.signatureInfo.V} {est : Nat}
    (hsi : dataSig (some sg) = .ok (si, est)) (h0 : 0 < est) (h252 : est ≤ 252) (hsign : ∀ w, ∃ sig, sg.sign w = some sig ∧ sig.length ≤ est)
    (hL : (bytesOf (dataOf name config content si).bodies.signed).length < 2 ^ 42) :
    ∃ e, makeData (some name) (some config) content (some sg) = .ok e ∧ e.wire.flatten.length < 2 ^ 43 := by
  unfold makeData
  simp only [hsi, Res.bind]
  obtain ⟨s, X, last, h1, _, hx, h3⟩ := data_signed_raw (dataOf name config content si) h0
  obtain ⟨sig, h4, h5⟩ := hsign s.covered
  have ht : tlvLen 0x17 est ≤ 18 + est := by
    unfold tlvLen
    have := tlLen_le 0x17
    have := tlLen_le est
    omega
  rw [h1, h3]
  simp only [Option.bind_some, h4]
  rw [if_pos h0, if_neg (by omega), patchSig_eq _ _ _ _ _ _ h5 (.inl h252)]
  simp only
  rw [shrinkHead_eq (by decide) (by omega) (by unfold tlvLen; omega) (by simp)]
  refine ⟨_, rfl, ?_⟩
  have hx := congrArg List.length hx
  rw [before_flatten (by simp)]
  simp only [List.length_append, List.flatten_append, List.flatten_cons, List.flatten_nil, tlEnc_length, List.append_nil] at hx ⊢
  have := tlLen_le 23
  have := tlLen_le sig.length
  have := tlLen_le 6
  have := tlLen_le ((bytesOf (dataOf name config content si).bodies.signed).length + tlvLen 0x17 est - (est - sig.length))
  omega

/-- the hypotheses are met: `/A` with a content in two buffers, signed with the digest, with HMAC, and with a signature of 3 bytes for an estimate of 72 -/
example : (∃ e, makeData (some [⟨8, [65]⟩]) (some { contentType := some 0 }) (some [[1], [2]]) (some (sha256Signer sha32)) = .ok e ∧ e.wire.flatten.length < 2 ^ 43) ∧
    (∃ e, makeData (some [⟨8, [65]⟩]) (some {}) none (some (hmacSigner (fun _ => sha32) (some [⟨8, [75]⟩]) [1, 2] (some ([48], [49])))) = .ok e ∧
      e.wire.flatten.length < 2 ^ 43) ∧
    let S : Scheme := ⟨Unit, Unit, Unit, id, fun _ _ _ => some [1, 2, 3], fun _ _ s => s == [1, 2, 3]⟩
    S.Correct ∧ Fit S () () 72 ∧
    ∃ e, makeData (some [⟨8, [65]⟩]) (some {}) none (some (eccSigner S sha32 () () 72 none none none 0)) = .ok e ∧ e.wire.flatten.length < 2 ^ 43 := by
  refine ⟨makeData_ok (by rfl) (by decide) (by decide) (fun w => ⟨_, rfl, by simp [sha32, sha256Signer]⟩) (by decide),
    makeData_ok (by rfl) (by decide) (by decide) (fun w => ⟨_, rfl, by simp [sha32, hmacSigner]⟩) (by decide), ?_, .inl (by decide),
    makeData_ok (by rfl) (by decide) (by decide) (fun w => ⟨_, rfl, by decide⟩) (by decide)⟩
  intro k r d s h
  injection h with h
  subst h
  rfl

/-- what `MakeInterest` and `ReadInterest` do to a signature -/
theorem interest_sig {sha : Bytes → Bytes} (hsha : ∀ b, (sha b).length = 32) {name : Name} {config : InterestConfig} {appParam : Option Wire} {signer : Signer}
    {c : SigConfig} {e : Encoded} (hinfo : signer.sigInfo = some (some c)) (hc : c.typ ≠ signatureNone) (hest : signer.est ≠ 0)
    (h : makeInterest sha (some name) (some config) appParam (some signer) = .ok e)
    (hname : ∀ c ∈ name, c.Small) (hhint : ∀ ns, config.fwdHint = some ns → ∀ n ∈ ns, ∀ c ∈ n, c.Small)
    (hnonce : ∀ x, config.nonce = some x → x < 2 ^ 32) (hlife : ∀ d, config.lifetime = some d → WholeMs d)
    (hhop : ∀ x, config.hopLimit = some x → x < 2 ^ 8) (hkey : ∀ n, c.keyName = some n → ∀ x ∈ n, x.Small) (hty : -2 ^ 63 ≤ c.typ ∧ c.typ < 2 ^ 63)
    (htime : ∀ t, c.sigTime = some t → 0 ≤ t ∧ t < 2 ^ 63) (hseq : ∀ x, c.seqNum = some x → x < 2 ^ 64)
    (hl : e.wire.flatten.length < 2 ^ 43) {F : Nat} (hF : e.wire.flatten.length < F) :
    ∃ v cov sig, readInterest sha F (BR.new e.wire.flatten) = some (.ok (.ok (v, cov))) ∧ signer.sign e.covered = some sig ∧
      sigOf v.sigInfo v.sigValue = ⟨c.typ, sig⟩ ∧ cov.flatten = e.covered.flatten ∧ sigSeqNumOf v.sigInfo = c.seqNum ∧
      sigNonceOf v.sigInfo = c.nonce ∧ sigTimeOf v.sigInfo = c.sigTime.map (· / 1000000) := by
  have hsc : signerConfig (some signer) = some c := by
    obtain ⟨i, est, sg⟩ := signer
    simp only at hinfo
    subst hinfo
    exact if_neg hc
  have inj : ∀ {c'}, signerConfig (some signer) = some c' → c = c' := fun h1 => by rw [hsc] at h1; exact Option.some.inj h1
  obtain ⟨v, cov, g1, _, _, _, _, _, _, _, _, _, _, g2⟩ := C28_interest_round_trip_partial sha hsha name config appParam (some signer) e h hname hhint hnonce hlife hhop
    (by intro c' n h1 h2; exact hkey n (inj h1 ▸ h2)) (by intro c' h1; exact inj h1 ▸ hty)
    (by intro c' t h1 h2; exact htime t (inj h1 ▸ h2)) (by intro c' t h1 h2; exact hseq t (inj h1 ▸ h2)) hl F hF
  obtain ⟨a1, _, a2, a3, a4, a5⟩ := g2 c hsc
  have a5 := a5 signer rfl
  rw [if_neg hest] at a5
  obtain ⟨sig, b1, b2, b3⟩ := a5
  refine ⟨v, cov, sig, g1, b1, ?_, b3, a4, a2, a3⟩
  unfold sigOf
  rw [a1, b2]
  simp

/-- C57 and C58, end to end: an Interest made with the digest signer in state `seq` is read with a signature that `Sha256Validate` accepts, and
with the number after `seq`, the nonce and the time (in ms) of the timer. -/
theorem C57_interest_sha256_partial (sha : Bytes → Bytes) (hsha : ∀ b, (sha b).length = 32) (seq : Nat) (t : Tick) (ht : 0 ≤ t.now ∧ t.now < 2 ^ 63)
    (name : Name) (config : InterestConfig) (appParam : Option Wire) (e : Encoded)
    (h : makeInterest sha (some name) (some config) appParam (some (sha256IntSigner sha seq t)) = .ok e)
    (hname : ∀ c ∈ name, c.Small) (hhint : ∀ ns, config.fwdHint = some ns → ∀ n ∈ ns, ∀ c ∈ n, c.Small)
    (hnonce : ∀ x, config.nonce = some x → x < 2 ^ 32) (hlife : ∀ d, config.lifetime = some d → WholeMs d)
    (hhop : ∀ x, config.hopLimit = some x → x < 2 ^ 8) (hl : e.wire.flatten.length < 2 ^ 43) (F : Nat) (hF : e.wire.flatten.length < F) :
    ∃ v cov, readInterest sha F (BR.new e.wire.flatten) = some (.ok (.ok (v, cov))) ∧ sha256Validate sha cov (sigOf v.sigInfo v.sigValue) = true ∧
      sigSeqNumOf v.sigInfo = some ((seq + 1) % 2 ^ 64) ∧ sigNonceOf v.sigInfo = some t.nonce ∧ sigTimeOf v.sigInfo = some (t.now / 1000000) := by
  obtain ⟨v, cov, sig, h1, h2, h3, h4, h5, h7⟩ := interest_sig hsha (c := (sha256IntSigInfo seq t).1) rfl (by simp [sha256IntSigInfo, sigSha256, signatureNone])
    (by simp [sha256IntSigner]) h hname hhint hnonce hlife hhop
    (fun n hn => (nomatch hn)) (by simp [sha256IntSigInfo, sigSha256]) (fun x hx => by injection hx with hx; subst hx; exact ht)
    (fun x hx => by injection hx with hx; subst hx; exact Nat.mod_lt _ (by decide)) hl hF
  refine ⟨v, cov, h1, ?_, h5, h7⟩
  obtain ⟨sig', h5, h6⟩ := C57_sha256 sha e.covered cov h4
  have h2 : (sha256Signer sha).sign e.covered = some sig := h2
  rw [h2] at h5
  injection h5 with h5
  subst h5
  rw [h3]; exact h6

/-- C57, end to end, for Interests with HMAC (a key of at most 252 bytes, because the key is put into the packet as a name component). -/
theorem C57_interest_hmac_partial (sha : Bytes → Bytes) (hsha : ∀ b, (sha b).length = 32) (mac : Bytes → Bytes → Bytes) (key : Bytes) (hk : key.length ≤ 252)
    (seq : Nat) (hq : seq < 2 ^ 64) (t : Tick) (ht : 0 ≤ t.now ∧ t.now < 2 ^ 63)
    (name : Name) (config : InterestConfig) (appParam : Option Wire) (e : Encoded)
    (h : makeInterest sha (some name) (some config) appParam (some (hmacIntSigner mac key seq t)) = .ok e)
    (hname : ∀ c ∈ name, c.Small) (hhint : ∀ ns, config.fwdHint = some ns → ∀ n ∈ ns, ∀ c ∈ n, c.Small)
    (hnonce : ∀ x, config.nonce = some x → x < 2 ^ 32) (hlife : ∀ d, config.lifetime = some d → WholeMs d)
    (hhop : ∀ x, config.hopLimit = some x → x < 2 ^ 8) (hl : e.wire.flatten.length < 2 ^ 43) (F : Nat) (hF : e.wire.flatten.length < F) :
    ∃ v cov, readInterest sha F (BR.new e.wire.flatten) = some (.ok (.ok (v, cov))) ∧ hmacValidate mac cov (sigOf v.sigInfo v.sigValue) key = true ∧
      sigSeqNumOf v.sigInfo = some seq ∧ sigNonceOf v.sigInfo = some t.nonce ∧ sigTimeOf v.sigInfo = some (t.now / 1000000) := by
  obtain ⟨v, cov, sig, h1, h2, h3, h4, h5, h7⟩ := interest_sig hsha (c := (hmacIntSigInfo key seq t).1) rfl (by simp [hmacIntSigInfo, sigHmac, signatureNone])
    (by simp [hmacIntSigner]) h hname hhint hnonce hlife hhop
    (fun n hn => by
      injection hn with hn
      subst hn
      intro x hx
      rw [List.mem_singleton.mp hx]
      exact ⟨(show 8 < 2 ^ 64 by decide), hk⟩) (by simp [hmacIntSigInfo, sigHmac]) (fun x hx => by injection hx with hx; subst hx; exact ht)
    (fun x hx => by injection hx with hx; subst hx; exact hq) hl hF
  refine ⟨v, cov, h1, ?_, h5, h7⟩
  obtain ⟨sig', h5, h6⟩ := C57_hmac mac none key none e.covered cov h4
  have h2 : (hmacSigner mac none key none).sign e.covered = some sig := h2
  rw [h2] at h5
  injection h5 with h5
  subst h5
  rw [h3]; exact h6

/-- C57 and C58, end to end, for Interests with ECDSA. -/
theorem C57_interest_ecdsa_partial (sha : Bytes → Bytes) (hsha : ∀ b, (sha b).length = 32) (S : Scheme) (hS : S.Correct) (k : S.SK) (r : S.ρ) (est : Nat)
    (h0 : 0 < est) (keyName : Option Name) (hkey : ∀ n, keyName = some n → ∀ x ∈ n, x.Small) (cert : Option (Bytes × Bytes)) (seq : Nat) (t : Tick)
    (ht : 0 ≤ t.now ∧ t.now < 2 ^ 63) (name : Name) (config : InterestConfig) (appParam : Option Wire) (e : Encoded)
    (h : makeInterest sha (some name) (some config) appParam (some (eccSigner S sha k r est keyName cert (some t) seq)) = .ok e)
    (hname : ∀ c ∈ name, c.Small) (hhint : ∀ ns, config.fwdHint = some ns → ∀ n ∈ ns, ∀ c ∈ n, c.Small)
    (hnonce : ∀ x, config.nonce = some x → x < 2 ^ 32) (hlife : ∀ d, config.lifetime = some d → WholeMs d)
    (hhop : ∀ x, config.hopLimit = some x → x < 2 ^ 8) (hl : e.wire.flatten.length < 2 ^ 43) (F : Nat) (hF : e.wire.flatten.length < F) :
    ∃ v cov, readInterest sha F (BR.new e.wire.flatten) = some (.ok (.ok (v, cov))) ∧ ecdsaValidate S sha cov (sigOf v.sigInfo v.sigValue) (S.pub k) = true ∧
      sigSeqNumOf v.sigInfo = some ((seq + 1) % 2 ^ 64) ∧ sigNonceOf v.sigInfo = some t.nonce ∧ sigTimeOf v.sigInfo = some (t.now / 1000000) := by
  obtain ⟨v, cov, sig, h1, h2, h3, h4, h5, h7⟩ := interest_sig hsha (c := (eccSigInfo keyName cert (some t) seq).1) rfl
    (show sigEcdsa ≠ signatureNone by decide) (by simp [eccSigner]; omega) h hname hhint hnonce hlife hhop
    (fun n hn => hkey n hn) (show -2 ^ 63 ≤ sigEcdsa ∧ sigEcdsa < 2 ^ 63 by decide) (fun x hx => by injection hx with hx; subst hx; exact ht)
    (fun x hx => by injection hx with hx; subst hx; exact Nat.mod_lt _ (by decide)) hl hF
  refine ⟨v, cov, h1, ?_, h5, h7⟩
  unfold ecdsaValidate
  rw [h3, h4, if_neg (by simp [eccSigInfo])]
  exact hS k r _ _ h2

/-- the hypotheses are met: `/A` with options and parameters, signed with the digest, and with HMAC -/
example : (∃ e, makeInterest sha32 (some [⟨8, [65]⟩]) (some exConfig) (some [[1], [2]]) (some (sha256IntSigner sha32 6 ⟨[9], 1600000000000000000⟩)) = .ok e ∧
      e.wire.flatten.length < 2 ^ 43) ∧
    ∃ e, makeInterest sha32 (some [⟨8, [65]⟩]) (some exConfig) (some [[1], [2]]) (some (hmacIntSigner (fun _ => sha32) [1, 2] 0 ⟨[9], 1600000000000000000⟩)) = .ok e ∧
      e.wire.flatten.length < 2 ^ 43 := by
  constructor
  · refine makeInterest_ok (fun _ => List.length_replicate) (si := some (mkSigInfo 0 none (some [9]) (some 1600000000000000000) (some 7) none)) (est := 32)
      ?_ rfl (fun _ => rfl) (by omega) (by simp) ?_
    · show Res.ok (some (mkSigInfo 0 none (some [9]) (some (sigTimeDur 1600000000000000000)) (some 7) none), 32) = _
      rw [sigTimeDur_eq (by decide) (by decide)]; rfl
    · decide
  · refine makeInterest_ok (fun _ => List.length_replicate) (si := some (mkSigInfo 4 (some [⟨8, [1, 2]⟩]) (some [9]) (some 1600000000000000000) (some 0) none)) (est := 32)
      ?_ rfl (fun _ => rfl) (by omega) (by simp) ?_
    · show Res.ok (some (mkSigInfo 4 (some [⟨8, [1, 2]⟩]) (some [9]) (some (sigTimeDur 1600000000000000000)) (some 0) none), 32) = _
      rw [sigTimeDur_eq (by decide) (by decide)]; rfl
    · decide

/-! ## C58 -/

/-- the numbers put into the packets -/
def numbers (l : List SigConfig) : List (Option Nat) := l.map (·.seqNum)

theorem count_up {info : Nat → Tick → SigConfig × Nat} (hi : ∀ seq t, (info seq t).2 = (seq + 1) % 2 ^ 64 ∧ (info seq t).1.seqNum = some ((seq + 1) % 2 ^ 64)) :
    ∀ (ts : List Tick) (seq i : Nat), i < ts.length → (numbers (sigInfos info seq ts))[i]? = some (some ((seq + i + 1) % 2 ^ 64)) := by
  intro ts
  induction ts with
  | nil => intro seq i h; exact absurd h (Nat.not_lt_zero _)
  | cons t ts ih =>
    intro seq i h
    unfold numbers at ih ⊢
    rw [sigInfos, List.map_cons]
    cases i with
    | zero => rw [List.getElem?_cons_zero, (hi seq t).2, Nat.add_zero]
    | succ i =>
      rw [List.getElem?_cons_succ, (hi seq t).1, ih _ i (by rw [List.length_cons] at h; omega)]
      congr 2
      omega

theorem sha256Int_counts (seq : Nat) (t : Tick) : (sha256IntSigInfo seq t).2 = (seq + 1) % 2 ^ 64 ∧ (sha256IntSigInfo seq t).1.seqNum = some ((seq + 1) % 2 ^ 64) := ⟨rfl, rfl⟩

theorem eccInt_counts (keyName : Option Name) (cert : Option (Bytes × Bytes)) (seq : Nat) (t : Tick) :
    (eccSigInfo keyName cert (some t) seq).2 = (seq + 1) % 2 ^ 64 ∧ (eccSigInfo keyName cert (some t) seq).1.seqNum = some ((seq + 1) % 2 ^ 64) := ⟨rfl, rfl⟩

/-- C58: for fewer than 2^64 signings the numbers of the digest signer strictly increase. -/
theorem C58_sha256_partial (ts : List Tick) (hl : ts.length < 2 ^ 64) (i j : Nat) (hij : i < j) (hj : j < ts.length) :
    ∃ a b, (numbers (sigInfos sha256IntSigInfo 0 ts))[i]? = some (some a) ∧ (numbers (sigInfos sha256IntSigInfo 0 ts))[j]? = some (some b) ∧ a < b := by
  refine ⟨_, _, count_up sha256Int_counts ts 0 i (by omega), count_up sha256Int_counts ts 0 j hj, ?_⟩
  omega

/-- C58: the same for the ECDSA signer, and for the RSA signer. -/
theorem C58_ecdsa_partial (keyName : Option Name) (cert : Option (Bytes × Bytes)) (ts : List Tick) (hl : ts.length < 2 ^ 64) (i j : Nat) (hij : i < j)
    (hj : j < ts.length) :
    ∃ a b, (numbers (sigInfos (fun seq t => eccSigInfo keyName cert (some t) seq) 0 ts))[i]? = some (some a) ∧
      (numbers (sigInfos (fun seq t => eccSigInfo keyName cert (some t) seq) 0 ts))[j]? = some (some b) ∧ a < b := by
  refine ⟨_, _, count_up (eccInt_counts keyName cert) ts 0 i (by omega), count_up (eccInt_counts keyName cert) ts 0 j hj, ?_⟩
  omega

/-- the hypotheses are met, with the numbers 1, 2, 3 -/
example : numbers (sigInfos sha256IntSigInfo 0 [⟨[1], 5⟩, ⟨[2], 6⟩, ⟨[3], 6⟩]) = [some 1, some 2, some 3] := by decide

/-- C58 fails after 2^64 signings: the number 0 comes after 2^64 - 1. -/
theorem C58_wrap_violated (ts : List Tick) (hl : ts.length = 2 ^ 64) :
    (numbers (sigInfos sha256IntSigInfo 0 ts))[2 ^ 64 - 2]? = some (some (2 ^ 64 - 1)) ∧
      (numbers (sigInfos sha256IntSigInfo 0 ts))[2 ^ 64 - 1]? = some (some 0) := by
  constructor
  · rw [count_up sha256Int_counts ts 0 _ (by omega)]
  · rw [count_up sha256Int_counts ts 0 _ (by omega)]

/-- C58 fails for the HMAC Interest signer: all its numbers are the same. -/
theorem C58_hmac_violated (key : Bytes) (ts : List Tick) : ∀ x ∈ numbers (sigInfos (hmacIntSigInfo key) 0 ts), x = some 0 := by
  induction ts with
  | nil => intro x hx; cases hx
  | cons t ts ih =>
    intro x hx
    rcases List.mem_cons.mp hx with rfl | hx
    · rfl
    · exact ih x hx

/-- and it puts its secret key into the packet, as the key name -/
theorem C58_hmac_key_in_packet (key : Bytes) (seq : Nat) (t : Tick) : (hmacIntSigInfo key seq t).1.keyName = some [⟨8, key⟩] := rfl

end Ndn.Security
