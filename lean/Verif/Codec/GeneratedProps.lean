import Verif.Codec.RunProps
import Verif.Codec.GeneratedSpec
import Verif.Codec.GeneratedMgmtA
import Verif.Codec.GeneratedMgmtB
import Verif.Codec.GeneratedSync
import Verif.Codec.GeneratedCert
import Verif.Codec.GeneratedSvs
import Verif.Codec.GeneratedRdr
import Verif.Codec.GeneratedCrdt

/-! # C90 for the library: the encoders in the repository -/

namespace Ndn.Codec.Gen

/-- the declarations of the packages, and the encoders that are checked in -/
def checkedIn : List (List DeclSrc × List (Txt × Nat × Nat)) :=
  [(specSource, specTexts), (mgmtSource, mgmtATexts), (mgmtSource, mgmtBTexts), (syncSource, syncTexts), (certSource, certTexts), (svsSource, svsTexts),
    (rdrSource, rdrTexts), (crdtSource, crdtTexts)]

theorem checkedIn_same : ∀ c ∈ checkedIn, allSame c.1 c.2 = true := by
  simp only [checkedIn, List.mem_cons, List.not_mem_nil, or_false]
  rintro c (rfl | rfl | rfl | rfl | rfl | rfl | rfl | rfl)
  · exact spec_same
  · exact mgmtA_same
  · exact mgmtB_same
  · exact sync_same
  · exact cert_same
  · exact svs_same
  · exact rdr_same
  · exact crdt_same

/-- the models are covered and have schemas -/
def allPlain (src : List DeclSrc) (l : List Txt) : Bool :=
  match processAll asWritten src with
  | .ok ms => l.all fun n => plainAt ms ms.length n && (resolve ms ms.length n).isSome
  | _ => false

theorem checkedIn_plain : (checkedIn.map fun c => (c.1, c.2.map Prod.fst)).all (fun c => allPlain c.1 c.2) = true := by decide +kernel

/-- **C90, the library**: for each of these types, the encoder in the repository is what the generator writes, up to space; and running that gives, for every
message of the type's schema, the bytes of the message -/
theorem C90_library_partial {ord : Nat → List (Txt × Kind)} (h : ∀ i, (ord i).Perm classTable) : ∀ c ∈ checkedIn, ∃ ms, processAll ord c.1 = .ok ms ∧
    ∀ p ∈ c.2, Same ms p.1 p.2 ∧ ∃ fs, resolve ms ms.length p.1 = some fs ∧ ∀ v : fs.V, (∃ g, StandsFor ms p.1 fs v g) ∧
      ∀ g, StandsFor ms p.1 fs v g → (fs.enc v).length < 2 ^ 64 → runEncode ms ms.length p.1 g = .ok (fs.enc v) := by
  intro c hc
  obtain ⟨ms, h1, h2⟩ := allSame_spec (checkedIn_same c hc) h
  refine ⟨ms, h1, fun p hp => ⟨h2 p hp, ?_⟩⟩
  have h3 := List.all_eq_true.1 checkedIn_plain (c.1, c.2.map Prod.fst) (List.mem_map.2 ⟨c, hc, rfl⟩)
  rw [processAll_order h] at h1
  simp only [allPlain, h1, List.all_eq_true, Bool.and_eq_true] at h3
  obtain ⟨h4, h5⟩ := h3 p.1 (List.mem_map.2 ⟨p, hp, rfl⟩)
  obtain ⟨fs, hfs⟩ := Option.isSome_iff_exists.1 h5
  exact ⟨fs, hfs, fun v => ⟨C90_represented h4 hfs v, fun g hg hl => C90_encode_partial h4 hfs hg hl⟩⟩

/-- the types -/
example : (checkedIn.map fun c => c.2.map fun p => String.ofList p.1) = [
    ["KeyLocator", "Links", "MetaInfo", "ValidityPeriod", "CertDescriptionEntry", "CertAdditionalDescription", "SignatureInfo", "NetworkNack", "CachePolicy"],
    ["Strategy", "ControlArgs", "ControlResponseVal", "ControlParameters", "ControlResponse", "FaceEventNotificationValue", "FaceEventNotification",
      "GeneralStatus", "FaceStatus", "FaceStatusMsg", "FaceQueryFilterValue"],
    ["FaceQueryFilter", "Route", "RibEntry", "RibStatus", "NextHopRecord", "FibEntry", "FibStatus", "StrategyChoice", "StrategyChoiceMsg", "CsInfo",
      "CsInfoMsg"],
    ["StateVectorAppParam", "StateVector", "StateVectorEntry"],
    ["CaProfile", "ProbeRes", "ProbeResContent", "CmdNewInt", "CmdNewData", "CipherMsg", "ErrorMsgData"],
    ["StateVecEntry", "StateVec", "StateVecAppParam"],
    ["ManifestDigest", "ManifestData", "MetaData"],
    ["IDType", "Record"]] := by decide +kernel

end Ndn.Codec.Gen
