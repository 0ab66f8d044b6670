import Verif.Packet.MakeInterestProps

/-!
# C27 and C28 for durations that are not whole milliseconds

The encoder writes a duration in milliseconds, so that it writes the same bytes for a duration and for the duration cut to milliseconds.
-/

namespace Ndn.Packet
open Ndn.Codec Ndn.Codec.Schema

/-- a duration of Go: 64 bits -/
def Dur (d : Int) : Prop := -2 ^ 63 ≤ d ∧ d < 2 ^ 63

/-- `d.Truncate(time.Millisecond)`: the whole milliseconds of `d`, towards zero -/
def cutMs (d : Int) : Int := d.tdiv 1000000 * 1000000

theorem cutMs_whole {d : Int} (h : Dur d) : WholeMs (cutMs d) := by
  refine ⟨d.tdiv 1000000, rfl, ?_⟩
  unfold cutMs
  obtain ⟨h1, h2⟩ := h
  have := tdiv_ms d
  omega

theorem timeMs_cut (d : Int) : timeMs (cutMs d) = timeMs d := by
  unfold timeMs cutMs
  rw [Int.mul_tdiv_cancel _ (by decide)]

/-- the two fields are written in the same way -/
inductive SameF : NF → NF → Prop where
  | refl (f : NF) : SameF f f
  | elem (typ : Nat) (e : Elem) (v v' : e.V) (hl : e.encLen v = e.encLen v') (hw : ∀ s, e.encodeInto v s = e.encodeInto v' s) :
    SameF (.elem typ e v) (.elem typ e v')

inductive SameL : List NF → List NF → Prop where
  | nil : SameL [] []
  | cons {f f' : NF} {fs fs' : List NF} (h : SameF f f') (hs : SameL fs fs') : SameL (f :: fs) (f' :: fs')

theorem SameL.refl : ∀ fs, SameL fs fs
  | [] => .nil
  | f :: fs => .cons (.refl f) (SameL.refl fs)

theorem SameL.append {a a' b b' : List NF} (h : SameL a a') (h' : SameL b b') : SameL (a ++ b) (a' ++ b') := by
  induction h with
  | nil => exact h'
  | cons h _ ih => exact .cons h ih

theorem SameF.len {f f' : NF} (h : SameF f f') : f.len = f'.len := by
  cases h with
  | refl => rfl
  | elem typ e v v' hl hw => simp only [NF.len, hl]

theorem SameL.lens {a a' : List NF} (h : SameL a a') : a.map NF.len = a'.map NF.len := by
  induction h with
  | nil => rfl
  | cons h _ ih => simp only [List.map_cons, h.len, ih]

theorem SameL.coverStart {a a' : List NF} (h : SameL a a') : ∀ l, coverStart l a = coverStart l a' := by
  induction h with
  | nil => intro l; rfl
  | @cons f f' fs fs' h hs ih =>
    intro l
    cases h with
    | refl => cases f <;> simp only [Packet.coverStart, ih]
    | elem typ e v v' hl hw => simp only [Packet.coverStart, NF.len, hl, ih]

theorem SameL.wirePlan {a a' : List NF} (h : SameL a a') : ∀ l, wirePlan l a = wirePlan l a' := by
  induction h with
  | nil => intro l; rfl
  | @cons f f' fs fs' h hs ih =>
    intro l
    cases h with
    | refl => cases f <;> simp only [Packet.wirePlan, ih]
    | elem typ e v v' hl hw => simp only [Packet.wirePlan, NF.len, hl, ih]

theorem SameL.sigIdx {a a' : List NF} (h : SameL a a') : ∀ l, sigIdx l a = sigIdx l a' := by
  induction h with
  | nil => intro l; rfl
  | @cons f f' fs fs' h hs ih =>
    intro l
    cases h with
    | refl => cases f <;> simp only [Packet.sigIdx, ih]
    | elem typ e v v' hl hw => simp only [Packet.sigIdx, ih]

theorem SameL.encodeFields {a a' : List NF} (h : SameL a a') (start : Nat) : ∀ s, encodeFields start a s = encodeFields start a' s := by
  induction h with
  | nil => intro s; rfl
  | cons h _ ih =>
    intro s
    have ih' := funext ih
    cases h with
    | refl f => simp only [Packet.encodeFields, ih']
    | elem typ e v v' hl hw =>
      have hw' : e.encodeInto v = e.encodeInto v' := funext hw
      simp only [Packet.encodeFields, NF.encodeInto, ih', hw']

theorem SameL.packet {a a' : List NF} (h : SameL a a') (typ : Nat) : packetEncode typ a = packetEncode typ a' := by
  have h1 : encLength a = encLength a' := by unfold encLength; rw [h.lens]
  unfold packetEncode
  rw [h1, h.wirePlan, h.coverStart]
  simp only [h.encodeFields]

/-- the config with the freshness in whole milliseconds -/
def DataConfig.cut (c : DataConfig) : DataConfig := { c with freshness := c.freshness.map cutMs }

/-- the config with the lifetime in whole milliseconds -/
def InterestConfig.cut (c : InterestConfig) : InterestConfig := { c with lifetime := c.lifetime.map cutMs }

theorem dataFields_cut (name : Name) (config : DataConfig) (content : Option Wire) (si : Option signatureInfo.V) (est : Nat) :
    SameL (dataFields (dataOf name config content si) est) (dataFields (dataOf name config.cut content si) est) := by
  unfold dataFields
  refine .append (.append (.append (.append (.refl _) ?_) (.refl _)) (.refl _)) (.refl _)
  refine .cons (.elem _ _ _ _ ?_ fun s => ?_) .nil
  · obtain ⟨c, f, b⟩ := config
    cases c <;> cases f <;> cases b <;>
      simp only [DataConfig.cut, Elem.encLen, Fields.encLen, Schema.metaInfo, Option.map, timeMs_cut]
  · obtain ⟨c, f, b⟩ := config
    cases f with
    | none => rfl
    | some f =>
    cases c <;> cases b <;>
      (simp only [DataConfig.cut, Elem.encodeInto, Fields.encodeInto, Elem.encLen, Fields.encLen, Schema.metaInfo, Option.map, timeMs_cut]; rfl)

theorem makeData_cut (name : Option Name) (config : DataConfig) (content : Option Wire) (signer : Option Signer) :
    makeData name (some config) content signer = makeData name (some config.cut) content signer := by
  cases name with
  | none => rfl
  | some n =>
    simp only [makeData]
    congr 1
    funext p
    have h := dataFields_cut n config content p.1 p.2
    rw [h.packet, h.sigIdx]

theorem interestFields_cut (name : Name) (config : InterestConfig) (appParam : Option Wire) (si : Option signatureInfo.V) (need : Bool) (est : Nat) :
    SameL (interestFields (interestOf name config appParam si) need est) (interestFields (interestOf name config.cut appParam si) need est) := by
  unfold interestFields
  refine .append (.append (.append (.append (.append (.append (.refl _) ?_) (.refl _)) (.refl _)) (.refl _)) (.refl _)) (.refl _)
  simp only [interestOf, InterestConfig.cut]
  cases config.lifetime with
  | none => exact .nil
  | some d =>
    exact .cons (.elem _ _ _ _ (by simp only [Elem.encLen, timeMs_cut]) fun s => by simp only [Elem.encodeInto, timeMs_cut]) .nil

theorem makeInterest_cut (sha : Bytes → Bytes) (name : Option Name) (config : InterestConfig) (appParam : Option Wire) (signer : Option Signer) :
    makeInterest sha name (some config) appParam signer = makeInterest sha name (some config.cut) appParam signer := by
  cases name with
  | none => rfl
  | some n =>
    rw [makeInterest, makeInterest]
    refine congrArg (Res.bind _) (funext fun p => ?_)
    obtain ⟨si, est⟩ := p
    have h := interestFields_cut n config appParam si appParam.isSome est
    have hs : ∀ w s, signInterest signer (interestFields (interestOf n config appParam si) appParam.isSome est) est w s =
        signInterest signer (interestFields (interestOf n config.cut appParam si) appParam.isSome est) est w s := by
      intro w s
      unfold signInterest
      rw [h.sigIdx]
    simp only [h.packet, hs]

/-- C27, for every freshness of 64 bits: it comes back cut to whole milliseconds (so that a freshness below a millisecond comes back as zero and a negative
one stays negative); all else is as in `C27_data_round_trip_partial`. -/
theorem C27_any_freshness_partial (name : Name) (config : DataConfig) (content : Option Wire) (signer : Option Signer) (e : Encoded)
    (h : makeData (some name) (some config) content signer = .ok e)
    (hname : ∀ c ∈ name, c.Small) (hct : ∀ t, config.contentType = some t → t < 2 ^ 64) (hfr : ∀ d, config.freshness = some d → Dur d)
    (hfb : ∀ c, config.finalBlock = some c → c.Small)
    (hkey : ∀ c n, signerConfig signer = some c → c.keyName = some n → ∀ x ∈ n, x.Small)
    (hty : ∀ c, signerConfig signer = some c → -2 ^ 63 ≤ c.typ ∧ c.typ < 2 ^ 63)
    (hsig : ∀ sg sig, signer = some sg → sg.sign e.covered = some sig →
      sg.est ≤ 252 ∨ (253 ≤ sig.length ∧ sg.est / 256 = sig.length / 256 ∧ sg.est < 2 ^ 63))
    (hl : e.wire.flatten.length < 2 ^ 43) (F : Nat) (hF : e.wire.flatten.length < F) :
    ∃ d cov, readData F (BR.new e.wire.flatten) = some (.ok (.ok (d, cov))) ∧
      d.name = some name ∧ d.contentType = config.contentType ∧ d.freshness = config.freshness.map cutMs ∧ d.finalBlockID = config.finalBlock ∧
      d.content = content.map (fun w => [w.flatten]) ∧
      (signerConfig signer = none → d.sigInfo = none ∧ d.sigValue = none) ∧
      ∀ c, signerConfig signer = some c → sigTypeOf d.sigInfo = c.typ ∧ keyNameOf d.sigInfo = c.keyName ∧
        (validityOf d.sigInfo).map (·.1) = c.notBefore ∧ (validityOf d.sigInfo).map (·.2) = c.notAfter ∧
        ∀ sg, signer = some sg →
          if sg.est = 0 then d.sigValue = none
          else ∃ sig, sg.sign e.covered = some sig ∧ d.sigValue = some [sig] ∧ cov.flatten = e.covered.flatten := by
  rw [makeData_cut] at h
  refine C27_data_round_trip_partial name config.cut content signer e h hname hct (fun d hd => ?_) hfb hkey hty hsig hl F hF
  cases hc : config.freshness with
  | none => rw [DataConfig.cut, hc] at hd; cases hd
  | some d' =>
    rw [DataConfig.cut, hc] at hd
    injection hd with hd
    subst hd
    exact cutMs_whole (hfr d' hc)

/-- C27: the freshness comes back as it was exactly if it is whole milliseconds. -/
theorem C27_freshness_iff (d : Int) : cutMs d = d ↔ ∃ ms : Int, d = ms * 1000000 := by
  refine ⟨fun hc => ⟨_, hc.symm⟩, fun ⟨ms, hm⟩ => ?_⟩
  unfold cutMs
  rw [hm, Int.mul_tdiv_cancel _ (by decide)]

/-- C28, for every lifetime of 64 bits: it comes back cut to whole milliseconds; all else is as in `C28_interest_round_trip_partial`. -/
theorem C28_any_lifetime_partial (sha : Bytes → Bytes) (hsha : ∀ b, (sha b).length = 32) (name : Name) (config : InterestConfig)
    (appParam : Option Wire) (signer : Option Signer) (e : Encoded)
    (h : makeInterest sha (some name) (some config) appParam signer = .ok e)
    (hname : ∀ c ∈ name, c.Small) (hhint : ∀ ns, config.fwdHint = some ns → ∀ n ∈ ns, ∀ c ∈ n, c.Small)
    (hnonce : ∀ x, config.nonce = some x → x < 2 ^ 32) (hlife : ∀ d, config.lifetime = some d → Dur d)
    (hhop : ∀ x, config.hopLimit = some x → x < 2 ^ 8)
    (hkey : ∀ c n, signerConfig signer = some c → c.keyName = some n → ∀ x ∈ n, x.Small)
    (hty : ∀ c, signerConfig signer = some c → -2 ^ 63 ≤ c.typ ∧ c.typ < 2 ^ 63)
    (htime : ∀ c t, signerConfig signer = some c → c.sigTime = some t → 0 ≤ t ∧ t < 2 ^ 63)
    (hseq : ∀ c x, signerConfig signer = some c → c.seqNum = some x → x < 2 ^ 64)
    (hl : e.wire.flatten.length < 2 ^ 43) (F : Nat) (hF : e.wire.flatten.length < F) :
    ∃ v cov, readInterest sha F (BR.new e.wire.flatten) = some (.ok (.ok (v, cov))) ∧
      v.name = some e.finalName ∧
      (if appParam.isSome then ∃ d, e.finalName = stripDigest name ++ [⟨2, d⟩] ∧ d.length = 32 else e.finalName = stripDigest name) ∧
      v.canBePrefix = config.canBePrefix ∧ v.mustBeFresh = config.mustBeFresh ∧ v.hintNames = config.fwdHint ∧ v.nonce = config.nonce ∧
      v.lifetime = config.lifetime.map cutMs ∧ v.hopLimit = config.hopLimit ∧ v.appParam = appParam.map (fun w => [w.flatten]) ∧
      (signerConfig signer = none → v.sigInfo = none ∧ v.sigValue = none) ∧
      ∀ c, signerConfig signer = some c → sigTypeOf v.sigInfo = c.typ ∧ keyNameOf v.sigInfo = (if c.typ = 0 then none else c.keyName) ∧
        sigNonceOf v.sigInfo = c.nonce ∧ sigTimeOf v.sigInfo = c.sigTime.map (· / 1000000) ∧ sigSeqNumOf v.sigInfo = c.seqNum ∧
        ∀ sg, signer = some sg →
          if sg.est = 0 then v.sigValue = none
          else ∃ sig, sg.sign e.covered = some sig ∧ v.sigValue = some [sig] ∧ cov.flatten = e.covered.flatten := by
  rw [makeInterest_cut] at h
  refine C28_interest_round_trip_partial sha hsha name config.cut appParam signer e h hname hhint hnonce (fun d hd => ?_) hhop hkey hty htime hseq hl F hF
  cases hc : config.lifetime with
  | none => rw [InterestConfig.cut, hc] at hd; cases hd
  | some d' =>
    rw [InterestConfig.cut, hc] at hd
    injection hd with hd
    subst hd
    exact cutMs_whole (hlife d' hc)

/-- the hypotheses are met by durations that are not whole milliseconds: 1.5 ms and -2.5 ms come back as 1 ms and -2 ms -/
example : Dur 1500000 ∧ Dur (-2500000) ∧ cutMs 1500000 = 1000000 ∧ cutMs (-2500000) = -2000000 := by
  refine ⟨⟨by decide, by decide⟩, ⟨by decide, by decide⟩, by decide, by decide⟩

/-- a Data with a freshness of 1.5 ms is made -/
example : ∃ e, makeData (some []) (some { freshness := some 1500000 }) none none = .ok e ∧ e.wire.flatten.length < 2 ^ 43 := by
  obtain ⟨w, s, h1, h2⟩ := data_unsigned (v := dataOf [] { freshness := some 1500000 } none none) rfl
  refine ⟨{ wire := w, covered := [] }, ?_, ?_⟩
  · simp only [makeData, dataSig, Res.bind, h1]; rfl
  · have : w.flatten.length = 9 := by rw [h2]; rfl
    simp only [this]
    decide

end Ndn.Packet
