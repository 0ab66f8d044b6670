import Verif.Schema.Policies
import Verif.Security.SignersProps

/-!
# C63: the signer policies accept exactly what they can verify
-/

namespace Ndn.Schema
open Ndn.Packet Ndn.Security

/-! ## Specification -/

/-- the signature type a policy is about, and the value it expects for the signed bytes -/
def SignerPolicy.sigType : SignerPolicy → Int
  | .sha256 => 0
  | .hmac _ => 4
def SignerPolicy.expects (sha : Bytes → Bytes) (mac : Bytes → Bytes → Bytes) (signed : Bytes) : SignerPolicy → Bytes
  | .sha256 => sha signed
  | .hmac key => mac key signed

/-- a packet with a signature of this type and value over these bytes is genuine for a policy -/
def Genuine (sha : Bytes → Bytes) (mac : Bytes → Bytes → Bytes) (p : SignerPolicy) (typ : Int) (value signed : Bytes) : Prop :=
  typ = p.sigType ∧ value = p.expects sha mac signed

/-- a packet is forged for a policy -/
def Forged (sha : Bytes → Bytes) (mac : Bytes → Bytes → Bytes) (p : SignerPolicy) (typ : Int) (value signed : Bytes) : Prop :=
  typ = p.sigType ∧ value ≠ p.expects sha mac signed

/-! ## Lemmas -/

/-- what a policy answers for a packet with a signature -/
theorem answer_cases (sha : Bytes → Bytes) (mac : Bytes → Bytes → Bytes) (p : SignerPolicy) (cov : Wire) (typ : Int) (value : Bytes) :
    (p.answer sha mac ⟨some cov, some ⟨typ, value⟩⟩ = 1 ∧ Genuine sha mac p typ value cov.flatten) ∨
    (p.answer sha mac ⟨some cov, some ⟨typ, value⟩⟩ = -2 ∧ Forged sha mac p typ value cov.flatten) ∨
    (p.answer sha mac ⟨some cov, some ⟨typ, value⟩⟩ = 0 ∧ typ ≠ p.sigType) := by
  cases p with
  | sha256 =>
    simp only [SignerPolicy.answer, sha256OnValidate, Genuine, Forged, SignerPolicy.sigType, SignerPolicy.expects, sigSha256, vrSilence, vrPass, vrFail]
    by_cases ht : typ = 0
    · by_cases hv : value = sha cov.flatten <;> simp [ht, hv]
    · simp [ht]
  | hmac key =>
    simp only [SignerPolicy.answer, hmacOnValidate, checkHmacSig, Genuine, Forged, SignerPolicy.sigType, SignerPolicy.expects, sigHmac, vrSilence, vrPass, vrFail]
    by_cases ht : typ = 4
    · by_cases hv : value = mac key cov.flatten
      · simp [ht, hv]
      · simp [ht, hv, Ne.symm hv]
    · simp [ht]

theorem answer_absent (sha : Bytes → Bytes) (mac : Bytes → Bytes → Bytes) (p : SignerPolicy) (sig : Option Sig) : p.answer sha mac ⟨none, sig⟩ = 0 := by
  cases p <;> rfl

/-- the result of `DispatchUntil` for such answers: a failure if there is one, otherwise the last answer -/
theorem dispatch_result {f : Cb → VAns} : ∀ (val : List Cb) (nil : VAns) (s : Unit), (∀ c ∈ val, ∃ r, f c = some r ∧ (r = 1 ∨ r = -2 ∨ r = 0)) →
    (dispatchLoop (fun c s => (f c, s)) (some stopValidation) val nil s).1 =
      if ∃ c ∈ val, f c = some (-2) then some (-2) else (val.getLast?.map f).getD nil := by
  intro val
  induction val with
  | nil => intro nil s _; simp [dispatchLoop]
  | cons c cs ih =>
    intro nil s hf
    obtain ⟨r, hr, hc⟩ := hf c List.mem_cons_self
    rw [dispatchLoop]
    simp only [hr]
    by_cases h2 : r = -2
    · subst h2
      rw [if_pos (by decide), if_pos ⟨c, List.mem_cons_self, hr⟩]
    · rw [if_neg (by rcases hc with rfl | rfl | rfl <;> simp_all [stopValidation])]
      show (dispatchLoop (fun c s => (f c, s)) (some stopValidation) cs (some r) s).1 = _
      rw [ih _ _ (fun d hd => hf d (List.mem_cons_of_mem _ hd))]
      have he : (∃ d ∈ cs, f d = some (-2)) ↔ ∃ d ∈ c :: cs, f d = some (-2) := by
        constructor
        · rintro ⟨d, h, h'⟩; exact ⟨d, List.mem_cons_of_mem _ h, h'⟩
        · rintro ⟨d, h, h'⟩
          rcases List.mem_cons.mp h with rfl | h
          · rw [hr] at h'; injection h' with h'; exact absurd h' h2
          · exact ⟨d, h, h'⟩
      by_cases h3 : ∃ d ∈ cs, f d = some (-2)
      · rw [if_pos h3, if_pos (he.mp h3)]
      · rw [if_neg h3, if_neg (fun h => h3 (he.mpr h))]
        cases cs with
        | nil => simp [hr]
        | cons d ds => simp [List.getLast?_cons]

/-- whether the packet is refused, by the policies of a node -/
theorem policies_refused (sha : Bytes → Bytes) (mac : Bytes → Bytes → Bytes) (ps : List SignerPolicy) (hk : ∀ key, .hmac key ∈ ps → key ≠ [])
    (e : VEvent) : ∃ v, applyPolicies sha mac ps e = .ok v ∧ v.val = List.range ps.length ∧
      (refused (validate v ()).1 = false ↔ (∀ p ∈ ps, p.answer sha mac e ≠ -2) ∧ ∃ p, ps.getLast? = some p ∧ p.answer sha mac e = 1) := by
  have hany : ps.any SignerPolicy.noKey = false := by
    rw [List.any_eq_false]
    intro p hp
    cases p with
    | sha256 => simp [SignerPolicy.noKey]
    | hmac key => simpa [SignerPolicy.noKey] using hk key hp
  refine ⟨_, by rw [applyPolicies, hany]; rfl, rfl, ?_⟩
  have hall : ∀ p : SignerPolicy, p.answer sha mac e = 1 ∨ p.answer sha mac e = -2 ∨ p.answer sha mac e = 0 := by
    intro p
    obtain ⟨cov, sig⟩ := e
    cases cov with
    | none => exact .inr (.inr (answer_absent sha mac p sig))
    | some cov =>
      cases sig with
      | none => cases p <;> exact .inr (.inr rfl)
      | some sig => rcases answer_cases sha mac p cov sig.typ sig.value with h | h | h
                    · exact .inl h.1
                    · exact .inr (.inl h.1)
                    · exact .inr (.inr h.1)
  unfold validate dispatchUntil
  rw [dispatch_result (f := fun c => (ps[c]?).map (SignerPolicy.answer sha mac e))]
  · have hex : (∃ c ∈ List.range ps.length, (ps[c]?).map (SignerPolicy.answer sha mac e) = some (-2)) ↔ ∃ p ∈ ps, p.answer sha mac e = -2 := by
      constructor
      · rintro ⟨c, hc, h⟩
        rw [List.mem_range] at hc
        rw [List.getElem?_eq_getElem hc] at h
        exact ⟨_, List.getElem_mem hc, by simpa using h⟩
      · rintro ⟨p, hp, h⟩
        obtain ⟨c, hc, rfl⟩ := List.mem_iff_getElem.mp hp
        exact ⟨c, List.mem_range.mpr hc, by rw [List.getElem?_eq_getElem hc]; simpa using h⟩
    by_cases h2 : ∃ p ∈ ps, p.answer sha mac e = -2
    · rw [if_pos (hex.mpr h2)]
      obtain ⟨p, hp, h⟩ := h2
      constructor
      · intro h; simp [refused] at h
      · rintro ⟨h', _⟩; exact absurd h (h' p hp)
    · rw [if_neg (fun h => h2 (hex.mp h))]
      have h2' : ∀ p ∈ ps, p.answer sha mac e ≠ -2 := fun p hp h => h2 ⟨p, hp, h⟩
      rcases List.eq_nil_or_concat ps with rfl | ⟨qs, q, rfl⟩
      · simp [refused]
      · have hlen : (qs.concat q).length = qs.length + 1 := by simp
        rw [hlen, List.range_succ, List.getLast?_concat]
        simp only [List.concat_eq_append, List.getLast?_concat] at *
        have hq : (qs ++ [q])[qs.length]? = some q := by simp
        simp only [Option.map_some, Option.getD_some, hq]
        constructor
        · intro h
          refine ⟨h2', q, rfl, ?_⟩
          rcases hall q with h' | h' | h'
          · exact h'
          · exact absurd h' (h2' q (by simp))
          · rw [h'] at h; simp [refused] at h
        · rintro ⟨_, p, hp, h⟩
          injection hp with hp
          rw [hp, h]; rfl
  · intro c hc
    rw [List.mem_range] at hc
    rw [List.getElem?_eq_getElem hc]
    exact ⟨_, rfl, hall _⟩

/-! ## C63 -/

/-- C63: with signer policies, in whatever number and order, a Data with a signature is handed to the application only if it is genuine for one of them and
forged for none; and it is, if moreover the policy applied last is about its type of signature.  (Missing: without that condition, see
`C63_order_violated`.) -/
theorem C63_data_partial (sha : Bytes → Bytes) (mac : Bytes → Bytes → Bytes) (ps : List SignerPolicy) (hk : ∀ key, .hmac key ∈ ps → key ≠ [])
    (d : DataV) (cov : Wire) (hc : cov ≠ []) :
    let sig := sigOf d.sigInfo d.sigValue
    ∃ v, applyPolicies sha mac ps (.ofData d cov) = .ok v ∧
      ((onDataResult v ()).1 = .data → (∃ p ∈ ps, Genuine sha mac p sig.typ sig.value cov.flatten) ∧ ∀ p ∈ ps, ¬Forged sha mac p sig.typ sig.value cov.flatten) ∧
      ((∀ p ∈ ps, ¬Forged sha mac p sig.typ sig.value cov.flatten) → (∃ p, ps.getLast? = some p ∧ p.sigType = sig.typ) →
        (onDataResult v ()).1 = .data) := by
  obtain ⟨v, h1, _, h2⟩ := policies_refused sha mac ps hk (.ofData d cov)
  refine ⟨v, h1, ?_⟩
  have hs : (onDataResult v ()).1 = .data ↔ refused (validate v ()).1 = false := by
    unfold onDataResult
    generalize validate v () = r
    obtain ⟨a, s, c⟩ := r
    simp only
    cases refused a <;> simp
  rw [hs, h2]
  simp only [VEvent.ofData, hc, if_false]
  constructor
  · rintro ⟨h3, p, hp, h4⟩
    refine ⟨⟨p, List.mem_of_getLast? hp, ?_⟩, fun q hq hf => ?_⟩
    · rcases answer_cases sha mac p cov (sigOf d.sigInfo d.sigValue).typ (sigOf d.sigInfo d.sigValue).value with h | h | h
      · exact h.2
      · rw [h.1] at h4; cases h4
      · rw [h.1] at h4; cases h4
    · rcases answer_cases sha mac q cov (sigOf d.sigInfo d.sigValue).typ (sigOf d.sigInfo d.sigValue).value with h | h | h
      · exact hf.2 h.2.2
      · exact h3 q hq h.1
      · exact h.2 hf.1
  · rintro h3 ⟨p, hp, ht⟩
    have key : ∀ q ∈ ps, q.answer sha mac ⟨some cov, some (sigOf d.sigInfo d.sigValue)⟩ ≠ -2 := by
      intro q hq h'
      rcases answer_cases sha mac q cov (sigOf d.sigInfo d.sigValue).typ (sigOf d.sigInfo d.sigValue).value with h | h | h
      · rw [h.1] at h'; cases h'
      · exact h3 q hq h.2
      · rw [h.1] at h'; cases h'
    refine ⟨key, p, hp, ?_⟩
    rcases answer_cases sha mac p cov (sigOf d.sigInfo d.sigValue).typ (sigOf d.sigInfo d.sigValue).value with h | h | h
    · exact h.1
    · exact absurd h.1 (key p (List.mem_of_getLast? hp))
    · exact absurd ht.symm h.2

/-- the signature of a packet with a type that is a small number -/
theorem sigOf_eq {t : Nat} (h : t < 2 ^ 63) (sv : Option Wire) : sigOf (some (mkSigInfo t none none none none none)) sv = ⟨t, (sv.getD []).flatten⟩ := by
  have : Packet.sigTypeOf (some (mkSigInfo t none none none none none)) = t := toInt_of_lt h
  unfold sigOf
  rw [this]

/-- the hypotheses are met: two policies that concern the Data, and one that does not -/
example : let d : DataV := { sigInfo := some (mkSigInfo 4 none none none none none), sigValue := some [[1, 5, 6]] }
    let ps : List SignerPolicy := [.sha256, .hmac [1], .hmac [1]]
    (∀ key, .hmac key ∈ ps → key ≠ []) ∧
    (∀ p ∈ ps, ¬Forged (fun b => 7 :: b) (fun k b => k ++ b) p (sigOf d.sigInfo d.sigValue).typ (sigOf d.sigInfo d.sigValue).value [5, 6]) ∧
    ∃ p, ps.getLast? = some p ∧ p.sigType = (sigOf d.sigInfo d.sigValue).typ := by
  intro d ps
  have hs : sigOf d.sigInfo d.sigValue = ⟨4, [1, 5, 6]⟩ := sigOf_eq (by decide) _
  rw [hs]
  simp [ps, Forged, SignerPolicy.sigType, SignerPolicy.expects]

/-- C63 fails: a Data with a correct digest, which no policy finds forged, is refused if the policy for HMAC was applied after that for digests (and
handed on in the other order). -/
theorem C63_order_violated (sha : Bytes → Bytes) (mac : Bytes → Bytes → Bytes) (key : Bytes) (hkey : key ≠ []) :
    ∃ (d : DataV) (cov : Wire) (v w : Listeners Unit VAns), Genuine sha mac .sha256 (sigOf d.sigInfo d.sigValue).typ (sigOf d.sigInfo d.sigValue).value cov.flatten ∧
      (∀ p ∈ [SignerPolicy.sha256, .hmac key], ¬Forged sha mac p (sigOf d.sigInfo d.sigValue).typ (sigOf d.sigInfo d.sigValue).value cov.flatten) ∧
      applyPolicies sha mac [.sha256, .hmac key] (.ofData d cov) = .ok v ∧ (onDataResult v ()).1 = .unverified ∧
      applyPolicies sha mac [.hmac key, .sha256] (.ofData d cov) = .ok w ∧ (onDataResult w ()).1 = .data := by
  have hs : sigOf (some (mkSigInfo 0 none none none none none)) (some [sha [5]]) = ⟨0, sha [5]⟩ := by
    rw [sigOf_eq (by decide)]; simp
  let d : DataV := { sigInfo := some (mkSigInfo 0 none none none none none), sigValue := some [sha [5]] }
  have hd : sigOf d.sigInfo d.sigValue = ⟨0, sha [5]⟩ := hs
  have hk : ∀ k, SignerPolicy.hmac k ∈ [SignerPolicy.sha256, .hmac key] → k ≠ [] := by simp [hkey]
  have hk' : ∀ k, SignerPolicy.hmac k ∈ [SignerPolicy.hmac key, .sha256] → k ≠ [] := by simp [hkey]
  have hf : ∀ p ∈ [SignerPolicy.sha256, .hmac key], ¬Forged sha mac p (sigOf d.sigInfo d.sigValue).typ (sigOf d.sigInfo d.sigValue).value [[5]].flatten := by
    rw [hd]; simp [Forged, SignerPolicy.sigType, SignerPolicy.expects]
  obtain ⟨w, hw, _, hw2⟩ := C63_data_partial sha mac [.hmac key, .sha256] hk' d [[5]] (by simp)
  obtain ⟨v, hv, _, hv2⟩ := policies_refused sha mac [.sha256, .hmac key] hk (.ofData d [[5]])
  refine ⟨d, [[5]], v, w, ?_, hf, hv, ?_, hw, hw2 ?_ ?_⟩
  · rw [hd]; exact ⟨rfl, rfl⟩
  · have hr : refused (validate v ()).1 = true := by
      rw [← Bool.not_eq_false, hv2]
      rintro ⟨_, p, hp, h⟩
      have hp : p = .hmac key := by simpa using hp.symm
      subst hp
      simp only [VEvent.ofData] at h
      rw [if_neg (by simp), hd] at h
      simp [SignerPolicy.answer, hmacOnValidate, sigHmac, vrSilence] at h
    unfold onDataResult
    generalize validate v () = r at *
    obtain ⟨a, s, c⟩ := r
    simp only at *
    rw [if_pos hr]
  · intro p hp; exact hf p (by simp at hp ⊢; exact hp.symm)
  · rw [hd]; exact ⟨.sha256, rfl, rfl⟩

/-- what the signer of a Data covers is not empty -/
theorem covered_ne {name : Name} {config : DataConfig} {content : Option Wire} {signer : Signer} {e : Encoded} {si : Option Codec.Schema.signatureInfo.V} {est : Nat}
    (hsi : dataSig (some signer) = .ok (si, est)) (h0 : 0 < est) (h : makeData (some name) (some config) content (some signer) = .ok e) : e.covered.flatten ≠ [] := by
  unfold makeData at h
  simp only [hsi, Res.bind] at h
  obtain ⟨s, X, last, h1, h2, hx, h3⟩ := data_signed_raw (dataOf name config content si) h0
  rw [h1, h3] at h
  simp only [Option.bind_some] at h
  rw [if_pos h0] at h
  cases hsig : signer.sign s.covered with
  | none => rw [hsig] at h; cases h
  | some sig =>
    rw [hsig] at h
    simp only at h
    split at h
    · cases h
    · generalize patchSig _ _ _ = q at h
      cases q with
      | ok w1 =>
        simp only at h
        generalize shrinkHead _ _ = q at h
        cases q with
        | ok w2 =>
          have he : ({ wire := w2, covered := s.covered } : Encoded) = e := by simpa [Res.map] using h
          rw [← he]
          show s.covered.flatten ≠ []
          rw [h2]
          intro hn
          have := length_le_bytesOf (dataOf name config content si).bodies.signed
          rw [hn] at this
          simp [DataV.bodies, DataB.signed, dataOf, ownIt] at this
          exact List.cons_ne_nil _ _ this.1
        | err => cases h
        | panic => cases h
      | err => cases h
      | panic => cases h

/-- C63: what a policy's signer makes is handed on, after encoding and reading, by a node with this policy (with the sizes of `C57_data_hmac_partial`). -/
theorem C63_own_data_partial (sha : Bytes → Bytes) (mac : Bytes → Bytes → Bytes) (keyName : Option Name) (cert : Option (Bytes × Bytes)) (p : SignerPolicy)
    (hk : ∀ key, p = .hmac key → key ≠ []) (name : Name) (config : DataConfig) (content : Option Wire) (e : Encoded)
    (h : makeData (some name) (some config) content (some (p.signer sha mac keyName cert)) = .ok e)
    (hname : ∀ c ∈ name, c.Small) (hct : ∀ t, config.contentType = some t → t < 2 ^ 64) (hfr : ∀ d, config.freshness = some d → WholeMs d)
    (hfb : ∀ c, config.finalBlock = some c → c.Small) (hkey : ∀ n, keyName = some n → ∀ x ∈ n, x.Small)
    (hl : e.wire.flatten.length < 2 ^ 43) (F : Nat) (hF : e.wire.flatten.length < F) :
    ∃ d cov v, readData F (BR.new e.wire.flatten) = some (.ok (.ok (d, cov))) ∧ applyPolicies sha mac [p] (.ofData d cov) = .ok v ∧
      (onDataResult v ()).1 = .data := by
  have key : ∃ d cov sig, readData F (BR.new e.wire.flatten) = some (.ok (.ok (d, cov))) ∧ (p.signer sha mac keyName cert).sign e.covered = some sig ∧
      sigOf d.sigInfo d.sigValue = ⟨p.sigType, sig⟩ ∧ cov.flatten = e.covered.flatten ∧ e.covered.flatten ≠ [] := by
    cases p with
    | sha256 =>
      obtain ⟨d, cov, sig, h1, h2, h3, h4⟩ := data_sig (c := { typ := sigSha256 }) rfl (by decide) (by simp [sha256Signer, SignerPolicy.signer]) h hname hct hfr hfb
        (fun n hn => (nomatch hn)) (by decide) (fun _ _ => .inl (by simp [sha256Signer, SignerPolicy.signer])) hl hF
      exact ⟨d, cov, sig, h1, h2, h3, h4, covered_ne (si := some (mkSigInfo 0 none none none none none)) (est := 32) (by rfl) (by decide) h⟩
    | hmac key =>
      obtain ⟨d, cov, sig, h1, h2, h3, h4⟩ := data_sig
        (c := { typ := sigHmac, keyName := keyName, notBefore := cert.map (·.1), notAfter := cert.map (·.2) }) rfl (show sigHmac ≠ signatureNone by decide)
        (by simp [hmacSigner, SignerPolicy.signer]) h hname hct hfr hfb
        (fun n hn => hkey n hn) (show -2 ^ 63 ≤ sigHmac ∧ sigHmac < 2 ^ 63 by decide) (fun _ _ => .inl (by simp [hmacSigner, SignerPolicy.signer])) hl hF
      cases cert with
      | none => exact ⟨d, cov, sig, h1, h2, h3, h4, covered_ne (si := some (mkSigInfo 4 keyName none none none none)) (est := 32) (by rfl) (by decide) h⟩
      | some ct => exact ⟨d, cov, sig, h1, h2, h3, h4, covered_ne (si := some (mkSigInfo 4 keyName none none none (some ct))) (est := 32) (by rfl) (by decide) h⟩
  obtain ⟨d, cov, sig, h1, h2, h3, h4, h5⟩ := key
  have hc : cov ≠ [] := by rintro rfl; exact h5 h4.symm
  obtain ⟨v, g1, _, g2⟩ := C63_data_partial sha mac [p] (by simpa using fun k hk' => hk k hk'.symm) d cov hc
  refine ⟨d, cov, v, h1, g1, g2 ?_ ⟨p, rfl, by rw [h3]⟩⟩
  intro q hq hf
  have hq : q = p := by simpa using hq
  subst hq
  apply hf.2
  rw [h3, h4]
  cases q with
  | sha256 => exact (Option.some.inj h2).symm
  | hmac key => exact (Option.some.inj h2).symm

/-- the hypotheses are met -/
example : ∃ e, makeData (some [⟨8, [65]⟩]) (some {}) none (some ((SignerPolicy.hmac [1, 2]).signer sha32 (fun _ => sha32) (some [⟨8, [75]⟩]) none)) = .ok e ∧
    e.wire.flatten.length < 2 ^ 43 :=
  makeData_ok (by rfl) (by decide) (by decide) (fun w => ⟨_, rfl, by simp [sha32, hmacSigner, SignerPolicy.signer]⟩) (by decide)

/-- C63: the same for Interests that carry parameters or a signature (of a type below 2^64-1): `OnInt` is reached only if the Interest is genuine for one
policy and forged for none. -/
theorem C63_interest_partial (sha : Bytes → Bytes) (mac : Bytes → Bytes → Bytes) (ps : List SignerPolicy) (hk : ∀ key, .hmac key ∈ ps → key ≠ [])
    (i : InterestV) (cov : Wire) (cached : Option Wire) (hn : ∃ c cs, i.name = some (c :: cs)) (hcache : ∀ w, cached = some w → w = [])
    (hsig : i.appParam.isSome ∨ ∃ si, i.sigInfo = some si ∧ siType si < 2 ^ 64 - 1) :
    let sig := sigOf i.sigInfo i.sigValue
    ∃ v, applyPolicies sha mac ps (.ofInterest i cov) = .ok v ∧
      ((∃ calls, onInterest i cached v () = .handled calls) →
        cov ≠ [] ∧ (∃ p ∈ ps, Genuine sha mac p sig.typ sig.value cov.flatten) ∧ ∀ p ∈ ps, ¬Forged sha mac p sig.typ sig.value cov.flatten) ∧
      (cov ≠ [] → (∀ p ∈ ps, ¬Forged sha mac p sig.typ sig.value cov.flatten) → (∃ p, ps.getLast? = some p ∧ p.sigType = sig.typ) →
        ∃ calls, onInterest i cached v () = .handled calls) := by
  obtain ⟨v, h1, _, h2⟩ := policies_refused sha mac ps hk (.ofInterest i cov)
  refine ⟨v, h1, ?_⟩
  have hs : (∃ calls, onInterest i cached v () = .handled calls) ↔ refused (validate v ()).1 = false := by
    have hac : onInterest i cached v () = afterCache i v () := by
      obtain ⟨c, cs, hn⟩ := hn
      have hne : ∃ x, (i.name.getD []).getLast? = some x := by
        rw [hn]; exact ⟨_, List.getLast?_eq_some_getLast (by simp)⟩
      obtain ⟨x, hx⟩ := hne
      unfold onInterest
      rw [hx]
      simp only
      cases cached with
      | none => rfl
      | some w => rw [hcache w rfl]; rfl
    have hs : Schema.sigTypeOf i ≠ -1 ∨ i.appParam.isSome := by
      rcases hsig with h | ⟨si, h, hlt⟩
      · exact .inr h
      · left
        unfold Schema.sigTypeOf
        rw [h]
        simp only
        by_cases hl : siType si < 2 ^ 63
        · rw [toInt_of_lt hl]; omega
        · rw [toInt_neg (by omega) (by omega)]; omega
    rw [hac]
    unfold afterCache
    rw [if_pos hs]
    generalize validate v () = r
    obtain ⟨a, s, c⟩ := r
    simp only
    cases refused a <;> simp
  rw [hs, h2]
  constructor
  · rintro ⟨h3, p, hp, h4⟩
    have hc : cov ≠ [] := by
      rintro rfl
      simp only [VEvent.ofInterest, if_true, answer_absent] at h4
      cases h4
    simp only [VEvent.ofInterest, hc, if_false] at h3 h4
    refine ⟨hc, ⟨p, List.mem_of_getLast? hp, ?_⟩, fun q hq hf => ?_⟩
    · rcases answer_cases sha mac p cov (sigOf i.sigInfo i.sigValue).typ (sigOf i.sigInfo i.sigValue).value with h | h | h
      · exact h.2
      · rw [h.1] at h4; cases h4
      · rw [h.1] at h4; cases h4
    · rcases answer_cases sha mac q cov (sigOf i.sigInfo i.sigValue).typ (sigOf i.sigInfo i.sigValue).value with h | h | h
      · exact hf.2 h.2.2
      · exact h3 q hq h.1
      · exact h.2 hf.1
  · rintro hc h3 ⟨p, hp, ht⟩
    simp only [VEvent.ofInterest, hc, if_false]
    have key : ∀ q ∈ ps, q.answer sha mac ⟨some cov, some (sigOf i.sigInfo i.sigValue)⟩ ≠ -2 := by
      intro q hq h'
      rcases answer_cases sha mac q cov (sigOf i.sigInfo i.sigValue).typ (sigOf i.sigInfo i.sigValue).value with h | h | h
      · rw [h.1] at h'; cases h'
      · exact h3 q hq h.2
      · rw [h.1] at h'; cases h'
    refine ⟨key, p, hp, ?_⟩
    rcases answer_cases sha mac p cov (sigOf i.sigInfo i.sigValue).typ (sigOf i.sigInfo i.sigValue).value with h | h | h
    · exact h.1
    · exact absurd h.1 (key p (List.mem_of_getLast? hp))
    · exact absurd ht.symm h.2

/-- the hypotheses are met: an Interest signed with HMAC, and two policies -/
example : let i : InterestV := { name := some [⟨8, [65]⟩], appParam := some [[1]], sigInfo := some (mkSigInfo 4 none none none none none), sigValue := some [[1, 5]] }
    let ps : List SignerPolicy := [.sha256, .hmac [1]]
    (∀ key, .hmac key ∈ ps → key ≠ []) ∧ (∃ c cs, i.name = some (c :: cs)) ∧ i.appParam.isSome ∧
    (∀ p ∈ ps, ¬Forged (fun b => 7 :: b) (fun k b => k ++ b) p (sigOf i.sigInfo i.sigValue).typ (sigOf i.sigInfo i.sigValue).value [5]) ∧
    ∃ p, ps.getLast? = some p ∧ p.sigType = (sigOf i.sigInfo i.sigValue).typ := by
  intro i ps
  have hs : sigOf i.sigInfo i.sigValue = ⟨4, [1, 5]⟩ := sigOf_eq (by decide) _
  rw [hs]
  simp [ps, i, Forged, SignerPolicy.sigType, SignerPolicy.expects]

end Ndn.Schema
