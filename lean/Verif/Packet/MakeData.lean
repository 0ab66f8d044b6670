import Verif.Packet.MakeLemmas

/-! # What MakeData makes (lemmas) -/

namespace Ndn.Packet
open Ndn.Codec Ndn.Codec.Schema

/-- the fields of a Data without the signature value -/
def dataFields0 (v : DataV) : List NF :=
  [.mark] ++ optElem 0x07 .name v.name ++ optElem 0x14 (.struct Schema.metaInfo) v.metaInfo ++ optWire 0x15 v.content ++
    optElem 0x16 (.struct signatureInfo) v.sigInfo

theorem dataFields_eq (v : DataV) (est : Nat) : dataFields v est = dataFields0 v ++ optSig 0x17 est := rfl

theorem mem_optElem {t : Nat} {e : Elem} {o : Option e.V} {f : NF} (h : f ∈ optElem t e o) : ∃ v, f = .elem t e v := by
  cases o with
  | none => exact absurd h (by simp [optElem])
  | some v => exact ⟨v, by simpa [optElem] using h⟩

theorem mem_optWire {t : Nat} {o : Option Wire} {f : NF} (h : f ∈ optWire t o) : ∃ w, f = .wire t w := by
  cases o with
  | none => exact absurd h (by simp [optWire])
  | some v => exact ⟨v, by simpa [optWire] using h⟩

theorem dataFields0_mem {v : DataV} {f : NF} (h : f ∈ (dataFields0 v).tail) :
    f.Ok ∧ (∀ n need, f ≠ .iname n need) ∧ (∀ t e, f ≠ .sig t e) ∧ f ≠ .mark := by
  have h' : f ∈ optElem 0x07 .name v.name ++ optElem 0x14 (.struct Schema.metaInfo) v.metaInfo ++ optWire 0x15 v.content ++
    optElem 0x16 (.struct signatureInfo) v.sigInfo := by simpa [dataFields0] using h
  simp only [List.mem_append] at h'
  rcases h' with ((h' | h') | h') | h'
  · obtain ⟨x, rfl⟩ := mem_optElem h'
    exact ⟨trivial, by simp, by simp, by simp⟩
  · obtain ⟨x, rfl⟩ := mem_optElem h'
    exact ⟨Fields.WF.widths _ metaInfo_wf, by simp, by simp, by simp⟩
  · obtain ⟨x, rfl⟩ := mem_optWire h'
    exact ⟨trivial, by simp, by simp, by simp⟩
  · obtain ⟨x, rfl⟩ := mem_optElem h'
    exact ⟨Fields.WF.widths _ signatureInfo_wf, by simp, by simp, by simp⟩

theorem dataFields0_cons (v : DataV) : dataFields0 v = .mark :: (dataFields0 v).tail := rfl

theorem fieldBytes_optElem (i t : Nat) (e : Elem) (o : Option e.V) : fieldBytes (optElem t e o) = bytesOf (ownIt i t (o.map e.body)) := by
  cases o <;> rfl

theorem fieldBytes_optWire (i t : Nat) (o : Option Wire) : fieldBytes (optWire t o) = bytesOf (ownIt i t (o.map (Elem.body .wire))) := by
  cases o <;> rfl

theorem dataFields0_bytes (v : DataV) : fieldBytes (dataFields0 v) = bytesOf v.bodies.signed := by
  have h1 := fieldBytes_optElem 2 0x07 .name v.name
  have h2 := fieldBytes_optElem 3 0x14 (.struct Schema.metaInfo) v.metaInfo
  have h3 := fieldBytes_optWire 4 0x15 v.content
  have h4 := fieldBytes_optElem 5 0x16 (.struct signatureInfo) v.sigInfo
  simp only [dataFields0, fieldBytes_append, DataB.signed, bytesOf_append]
  erw [h1, h2, h3, h4]
  rfl

theorem optSig_pos {t est : Nat} (h : 0 < est) : optSig t est = [.sig t est] := by rw [optSig, if_pos h]

theorem optSig_zero (t : Nat) : optSig t 0 = [] := rfl

/-- the run of the encoder -/
theorem data_run (v : DataV) (est : Nat) : ∃ s, encodeFields (coverStart 0 (dataFields v est)) (dataFields v est)
      { wire := alloc (wirePlan 0 (dataFields v est)) } = .ok s ∧ s.wire = chunks [] (dataFields v est) ∧
      s.covered.flatten = coverOf 0 [] (dataFields v est) := by
  obtain ⟨s, h1, h2, h3, _⟩ := run_fields (start := 0) (dataFields v est)
    (by
      intro f hf
      rw [dataFields_eq, dataFields0_cons] at hf
      simp only [List.cons_append, List.mem_cons, List.mem_append] at hf
      rcases hf with rfl | hf | hf
      · exact ⟨trivial, by simp⟩
      · exact ⟨(dataFields0_mem hf).1, (dataFields0_mem hf).2.1⟩
      · unfold optSig at hf
        split at hf
        · simp only [List.mem_singleton] at hf; subst hf; exact ⟨trivial, by simp⟩
        · exact absurd hf (by simp))
    (s := { wire := alloc (wirePlan 0 (dataFields v est)) }) (done := []) (acc := [])
    ⟨by rw [alloc_fill]; rfl, rfl, rfl⟩ rfl
    (by
      intro _
      refine ⟨rfl, rfl, fun hm => ?_⟩
      rw [dataFields_eq, dataFields0_cons] at hm
      simp only [List.cons_append, List.tail_cons, List.mem_append] at hm
      rcases hm with hm | hm
      · exact (dataFields0_mem hm).2.2.2 rfl
      · unfold optSig at hm
        split at hm <;> simp at hm)
    (by simp)
  exact ⟨s, h1, h2, by simpa using h3⟩

theorem dataFields0_nsig (v : DataV) : ∀ f ∈ dataFields0 v, f.Ok ∧ ∀ t e, f ≠ .sig t e := by
  intro f hf
  rw [dataFields0_cons, List.mem_cons] at hf
  rcases hf with rfl | hf
  · exact ⟨trivial, by simp⟩
  · exact ⟨(dataFields0_mem hf).1, (dataFields0_mem hf).2.2.1⟩

theorem dataFields0_length (v : DataV) : encLength (dataFields0 v) = (bytesOf v.bodies.signed).length := by
  rw [encLength_eq (dataFields0_nsig v), dataFields0_bytes]

theorem signed_pos {v : DataV} (h : v.name.isSome) : 0 < (bytesOf v.bodies.signed).length := by
  obtain ⟨n, hn⟩ := Option.isSome_iff_exists.mp h
  have : (bytesOf (ownIt 2 0x07 v.bodies.name)).length ≤ (bytesOf v.bodies.signed).length := by
    rw [DataB.signed, bytesOf_append, bytesOf_append, bytesOf_append, List.length_append, List.length_append, List.length_append]; omega
  have h2 : 0 < (bytesOf (ownIt 2 0x07 v.bodies.name)).length := by
    have e : v.bodies.name = some (Name.encBody n) := (congrArg (Option.map (Elem.body .name)) hn : _)
    rw [e]
    simp only [ownIt, bytesOf_cons, It.bytes, List.length_append, tlv_length]
    have := tlLen_pos 0x07
    omega
  omega

theorem data_enc (v : DataV) : DataV.enc { v with sigValue := none } = tlv 6 (bytesOf v.bodies.signed) := by
  show tlv 6 (bytesOf (DataB.signed _ ++ [])) = _
  rw [List.append_nil]; rfl

theorem data_enc_sig (v : DataV) (sig : Bytes) :
    DataV.enc { v with sigValue := some [sig] } = tlv 6 (bytesOf v.bodies.signed ++ tlv 0x17 sig) := by
  show tlv 6 (bytesOf (DataB.signed _ ++ [⟨some 6, 0x17, [sig].flatten⟩])) = _
  rw [bytesOf_append]
  simp only [List.flatten_cons, List.flatten_nil, List.append_nil]
  rw [show bytesOf [(⟨some 6, 0x17, sig⟩ : It)] = tlv 0x17 sig by simp [bytesOf, It.bytes]]
  rfl

/-- a Data without signature value -/
theorem data_unsigned {v : DataV} (hn : v.name.isSome) : ∃ w s, packetEncode 6 (dataFields v 0) = .ok (w, s) ∧ w.flatten = tlv 6 (bytesOf v.bodies.signed) := by
  obtain ⟨s, h1, h2, _⟩ := data_run v 0
  rw [dataFields_eq, optSig_zero, List.append_nil] at h1 h2 ⊢
  have hfl : s.wire.flatten = bytesOf v.bodies.signed := by
    rw [h2, chunks_flatten fun f hf => (dataFields0_nsig v f hf).2, dataFields0_bytes]; rfl
  have hne : s.wire ≠ [] := by
    intro h; rw [h] at hfl
    have := signed_pos hn
    rw [← hfl] at this; simp at this
  refine ⟨_, s, packetEncode_eq (by rw [dataFields0_length]; exact signed_pos hn) h1 hne, ?_⟩
  rw [before_flatten hne, hfl, dataFields0_length]; rfl

/-- a Data with a signature value: the buffers before it is put in -/
theorem data_signed_raw (v : DataV) {est : Nat} (he : 0 < est) : ∃ s X last, packetEncode 6 (dataFields v est) =
      .ok (before (tlEnc 6 ++ tlEnc ((bytesOf v.bodies.signed).length + tlvLen 0x17 est)) (X ++ [last ++ (tlEnc 0x17 ++ tlEnc est), []]), s) ∧
    s.covered.flatten = bytesOf v.bodies.signed ∧ X.flatten ++ last = bytesOf v.bodies.signed ∧
    sigIdx 0 (dataFields v est) = some (X.length + 1) := by
  obtain ⟨s, h1, h2, h3⟩ := data_run v est
  have hns := fun f hf => (dataFields0_nsig v f hf).2
  obtain ⟨X, last, hc, hx, hi⟩ := chunks_sig hns 0x17 est []
  have hlen : encLength (dataFields v est) = (bytesOf v.bodies.signed).length + tlvLen 0x17 est := by
    rw [dataFields_eq, optSig_pos he, encLength_append, dataFields0_length]; simp [encLength, NF.len]
  rw [dataFields_eq, optSig_pos he] at h1 h2 h3 hlen ⊢
  rw [hc] at h2
  rw [dataFields0_bytes, List.nil_append] at hx
  have hne : s.wire ≠ [] := by rw [h2]; simp
  refine ⟨s, X, last, ?_, ?_, hx, ?_⟩
  · rw [packetEncode_eq (by rw [hlen]; simp [tlvLen]; omega) h1 hne, hlen, h2]
  · rw [h3, coverOf_sig hns, dataFields0_bytes]; simp
  · rw [hi 0, Nat.zero_add]

/-- a Data with a signature value -/
theorem data_signed {v : DataV} {est : Nat} (he : 0 < est) : ∃ w s i, packetEncode 6 (dataFields v est) = .ok (w, s) ∧
    s.covered.flatten = bytesOf v.bodies.signed ∧ sigIdx 0 (dataFields v est) = some i ∧
    ∀ sig : Bytes, sig.length ≤ est → (est ≤ 252 ∨ (253 ≤ sig.length ∧ est / 256 = sig.length / 256)) →
      est < 2 ^ 63 → ∀ w1 w', patchSig w i sig = .ok w1 → shrinkHead w1 (est - sig.length) = .ok w' → w'.flatten.length < 2 ^ 63 →
        w'.flatten = tlv 6 (bytesOf v.bodies.signed ++ tlv 0x17 sig) := by
  obtain ⟨s, X, last, h1, h2, hx, h3⟩ := data_signed_raw v he
  refine ⟨_, s, _, h1, h2, h3, ?_⟩
  intro sig hle hw hest w1 w' hp hsh hsz
  rw [patchSig_eq _ _ _ _ _ _ hle hw] at hp
  injection hp with hp
  subst hp
  have hbig : (bytesOf v.bodies.signed).length + tlvLen 0x17 est < 2 ^ 64 := by
    have hz := shrinkHead_size hsh
    have a : (bytesOf v.bodies.signed).length = X.flatten.length + last.length := by rw [← hx, List.length_append]
    rw [before_flatten (by simp)] at hz
    simp only [List.flatten_append, List.flatten_cons, List.flatten_nil, List.append_nil, List.length_append] at hz
    have := tlLen_le est
    have := tlLen_le 0x17
    unfold tlvLen; omega
  rw [shrinkHead_eq (by decide) hbig (by simp [tlvLen]; omega) (by simp)] at hsh
  injection hsh with hsh
  subst hsh
  rw [before_flatten (by simp)]
  have e : (bytesOf v.bodies.signed).length + tlvLen 0x17 est - (est - sig.length) = (bytesOf v.bodies.signed ++ tlv 0x17 sig).length := by
    have : tlLen est = tlLen sig.length := by
      rw [← tlEnc_length, ← tlEnc_length, ← tlEnc_patch hle hw, List.length_append, List.length_dropLast, List.length_singleton]
      have := tlLen_pos est
      rw [tlEnc_length]; omega
    rw [List.length_append, tlv_length, tlvLen, this]; omega
  rw [e]
  simp only [List.flatten_append, List.flatten_cons, List.flatten_nil, List.append_nil]
  have : X.flatten ++ (last ++ (tlEnc 0x17 ++ tlEnc sig.length) ++ sig) = bytesOf v.bodies.signed ++ tlv 0x17 sig := by
    rw [← hx]; simp [tlv]
  rw [this]; rfl

end Ndn.Packet
