import Verif.Codec.Library
import Verif.Codec.Props
import Verif.Codec.MapProps

/-! # C71: all the messages of the library -/

namespace Ndn.Codec.Schema
open Ndn.Codec

theorem library_wf : ∀ fs ∈ library, fs.WF := by
  simp [library, keyLocator, links, metaInfo, validityPeriod, certDescriptionEntry, certAdditionalDescription, signatureInfo, networkNack, cachePolicy, lpPacket,
    strategy, controlArgs, controlResponseVal, controlParameters, controlResponse, stateVectorEntry, stateVector, stateVectorAppParam,
    faceEventNotificationValue, faceEventNotification, generalStatus, faceStatus, faceStatusMsg, faceQueryFilterValue, faceQueryFilter, route,
    ribEntry, ribStatus, nextHopRecord, fibEntry, fibStatus, strategyChoice, strategyChoiceMsg, csInfo, csInfoMsg,
    caProfile, cmdNewInt, cmdNewData, cipherMsg, errorMsgData, svsEntry, svsVec, svsAppParam, crdtId, crdtRecord, Fields.WF, Elem.WF, Fields.types]

theorem libraryMaps_wf : ∀ m ∈ libraryMaps, m.WF := by
  intro m hm
  simp only [libraryMaps, List.mem_cons, List.not_mem_nil, or_false] at hm
  rcases hm with rfl | rfl | rfl
  · refine ⟨trivial, by decide, by decide, trivial⟩
  · refine ⟨?_, by simp [challengeIntPlain, Fields.types], by decide, trivial⟩
    simp [challengeIntPlain, Fields.WF, Elem.WF, Fields.types]
  · refine ⟨?_, by simp [challengeDataPlain, Fields.types], by decide, trivial⟩
    simp [challengeDataPlain, Fields.WF, Elem.WF, Fields.types]

/-- C71 (partial: values in range, messages shorter than 2^43 bytes): every message of the library without maps is encoded, and parsing gives it back. -/
theorem C71_library_roundtrip_partial : ∀ fs ∈ library, ∀ v : fs.V, fs.InRange v → (fs.enc v).length < 2 ^ 43 →
    ∃ b, fs.encode v = .ok b ∧ ∀ (ic : Bool) (fuel : Nat), b.length < fuel → ∃ r, fs.parse ic fuel (BR.new b) = some (.ok v, r) :=
  fun fs hf v hv hs => C19_codec_roundtrip_partial fs (library_wf fs hf) v hv hs

/-- a routing entry with two routes, one of them expiring -/
def ribSample : ribStatus.V :=
  ([(some [⟨8, [97]⟩], [((1 : Nat), (0 : Nat), (10 : Nat), (1 : Nat), none, ()), ((2 : Nat), (255 : Nat), (300 : Nat), (1 : Nat), some (70000 : Nat), ())], ())], ())

example : ribStatus ∈ library ∧ ribStatus.InRange ribSample ∧ (ribStatus.enc ribSample).length = 42 := by
  refine ⟨by simp [library], ⟨?_, trivial⟩, by decide⟩
  intro a ha
  rcases List.mem_cons.mp ha with rfl | ha
  · refine ⟨?_, ?_, trivial⟩
    · intro c hc
      rcases List.mem_cons.mp hc with rfl | hc
      · exact ⟨by decide, by decide⟩
      · cases hc
    · intro a ha
      rcases List.mem_cons.mp ha with rfl | ha
      · simp [route, Fields.InRange, Elem.InRange, Mode.All]
      · rcases List.mem_cons.mp ha with rfl | ha
        · simp [route, Fields.InRange, Elem.InRange, Mode.All]
        · cases ha
  · cases ha

/-- C71 for the messages with maps, whichever order the two passes of the encoder visit the map in. -/
theorem C71_maps_roundtrip_partial : ∀ m ∈ libraryMaps, ∀ (v : m.fs.V) (ps ps1 ps2 : List (m.key.V × m.val.V)), m.fs.InRange v →
    (∀ p ∈ ps, m.EntryOk p) → (ps.map (·.1)).Nodup → ps.Perm ps1 → ps.Perm ps2 → (m.bytes v (ps.map full)).length < 2 ^ 43 →
    ∃ b, m.encode v (ps1.map full) (ps2.map full) = .ok b ∧ ∀ (ic : Bool) (fuel : Nat), b.length < fuel →
      ∃ r l, m.parse ic fuel (BR.new b) = some (.ok (v, l), r) ∧ ∀ k, mget l k = mget ps k :=
  fun m hm v ps ps1 ps2 hv hps hd h1 h2 hs => C68_roundtrip_partial m (libraryMaps_wf m hm) v hv ps ps1 ps2 hps hd h1 h2 hs

/-- an answer to a challenge with two parameters -/
example : challengeIntPlain ∈ libraryMaps ∧ challengeIntPlain.fs.InRange ([112, 105, 110], ()) ∧
    (∀ p ∈ ([([99], [1, 2]), ([100], [])] : List (Bytes × Bytes)), challengeIntPlain.EntryOk p) ∧
    (([([99], [1, 2]), ([100], [])] : List (Bytes × Bytes)).map (·.1)).Nodup :=
  ⟨by simp [libraryMaps], by simp [challengeIntPlain, Fields.InRange, Elem.InRange, Mode.All], fun p _ => ⟨trivial, trivial⟩, by decide⟩

/-- C71 fails for `ProbeRes`: whatever the name and the suffix length, the encoding is refused by the parser, or the suffix length is lost. -/
theorem C71_probe_violated (n : Option Name) (x : Nat) (hn : probeResParsed.InRange (n, ()))
    (hs : (probeRes.enc (n, some x, ())).length < 2 ^ 43) :
    ∃ b, probeRes.encode (n, some x, ()) = .ok b ∧ ∀ fuel, b.length < fuel →
      (∃ r, parseProbeRes false fuel (BR.new b) = some (.err (.unrecognized 0), r)) ∧
      (∃ r, parseProbeRes true fuel (BR.new b) = some (.ok (n, none, ()), r)) := by
  have hw : probeResParsed.WF := by simp [probeResParsed, Fields.WF, Elem.WF, Fields.types]
  have e : probeRes.enc (n, some x, ()) =
      ((probeResParsed.elems (n, ())).take 1).flatten ++ (tlv 0 (Elem.body .nat x) ++ ((probeResParsed.elems (n, ())).drop 1).flatten) := by
    cases n with
    | none => rfl
    | some n => simp [probeRes, probeResParsed, Fields.enc, Fields.elems, Elem.body]
  refine ⟨probeRes.enc (n, some x, ()), Fields.encode_eq _ _ (by simp [probeRes, Fields.Widths, Elem.Widths]), ?_⟩
  intro fuel hf
  rw [e] at hs hf ⊢
  obtain ⟨r1, h1⟩ := C21_critical_rejected probeResParsed hw (n, ()) hn 1 0 _ (by decide) (by decide) (.inl (by decide)) hs fuel hf
  obtain ⟨r2, h2⟩ := C21_unknown_ignored_one true probeResParsed hw (n, ()) hn 1 0 _ (by decide) (by decide) (.inl rfl) hs fuel hf
  exact ⟨⟨r1, by rw [parseProbeRes, h1]; rfl⟩, ⟨r2, by rw [parseProbeRes, h2]; rfl⟩⟩

example : probeResParsed.InRange (some [⟨8, [97]⟩], ()) ∧ (probeRes.enc (some [⟨8, [97]⟩], some (3 : Nat), ())) = [7, 3, 8, 1, 97, 0, 1, 3] :=
  ⟨by simp [probeResParsed, Fields.InRange, Elem.InRange, Mode.All, Component.Small], by decide⟩

end Ndn.Codec.Schema
