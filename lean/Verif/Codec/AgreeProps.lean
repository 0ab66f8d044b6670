import Verif.Codec.GeneratedOuter
import Verif.Packet.MakeInterest

/-!
# The encoders of packets: the model by hand and the emitted code (C98)

`Verif/Packet/Encode.lean` models the encoders of Data, Interest and Packet by hand, for `MakeData` and `MakeInterest`.  Here they are compared with running the
statements that the code generator writes for them, buffer by buffer.
-/

namespace Ndn.Codec.Gen

/-! ## What the models are -/

theorem data_model {ord : Nat → List (Txt × Kind)} (h : ∀ i, (ord i).Perm classTable) {ms : List TModel} (hms : processAll ord specSource = .ok ms) :
    ∃ m, (ms.find? fun m => m.name == t!"Data") = some m ∧ SignedModel ms ms.length m dataPre dataMark dataMid dataSig [] t!"sigCovered" ∧
      schemaOf (resolve ms ms.length) (dataMid.filter keep) = some dataSchema := by
  have hb := dataChecked_true
  unfold dataChecked at hb
  split at hb
  · rename_i ms' hms'
    rw [processAll_order h, hms'] at hms
    cases hms
    split at hb
    · rename_i m hm
      simp only [Bool.and_eq_true, decide_eq_true_eq] at hb
      exact ⟨m, hm, signedModelB_spec hb.1.2, hb.2⟩
    · cases hb
  · cases hb

theorem interest_model {ord : Nat → List (Txt × Kind)} (h : ∀ i, (ord i).Perm classTable) {ms : List TModel} (hms : processAll ord specSource = .ok ms) :
    ∃ m, (ms.find? fun m => m.name == t!"Interest") = some m ∧
      InterestModel ms ms.length m interestArgs interestName interestPre interestMark interestMid interestSig interestPost t!"sigCovered" ∧
      schemaOf (resolve ms ms.length) (interestPre.filter keep) = some selectorSchema ∧ schemaOf (resolve ms ms.length) (interestMid.filter keep) = some paramSchema := by
  have hb := interestChecked_true
  unfold interestChecked at hb
  split at hb
  · rename_i ms' hms'
    rw [processAll_order h, hms'] at hms
    cases hms
    split at hb
    · rename_i m hm
      simp only [Bool.and_eq_true, decide_eq_true_eq] at hb
      exact ⟨m, hm, interestModelB_spec hb.1.1.2, hb.1.2, hb.2⟩
    · cases hb
  · cases hb

/-! ## The same message in both -/

/-- the signed fields of a Data, as a value of its schema -/
def dataValue (v : Packet.DataV) : dataSchema.V := (v.name, v.metaInfo, v.content, v.sigInfo, ())

/-- the fields of an Interest between name and parameters -/
def selectorValue (v : Packet.InterestV) : selectorSchema.V := (v.canBePrefix, v.mustBeFresh, v.fwdHint, v.nonce, v.lifetime, v.hopLimit, ())

/-- parameters and signature info of an Interest -/
def paramValue (v : Packet.InterestV) : paramSchema.V := (v.appParam, v.sigInfo, ())

/-! ## Buffers -/

theorem given_bytes (w : Wire) : w.map (Piece.bytes ∘ Piece.given) = w := List.map_id'' (fun _ => rfl) _

theorem last_buffer (acc : Bytes) : (if 0 < acc.length then [Piece.own acc] else []).map Piece.bytes = if acc = [] then [] else [acc] := by
  cases acc <;> simp [Piece.bytes]

theorem tlv_ne (t : Nat) (b : Bytes) : tlv t b ≠ [] := by
  rw [tlv_eq]
  intro e
  exact tlEnc_ne t _ (by rw [List.append_assoc] at e; exact e)

theorem data_chunks (v : Packet.DataV) : (layout (items dataSchema (dataValue v)) []).map Piece.bytes = Packet.chunks [] (Packet.dataFields v 0) := by
  obtain ⟨n, m, c, s, _⟩ := v
  cases n <;> cases m <;> cases c <;> cases s <;>
    simp [dataSchema, dataValue, items, itemOf, layout, Packet.dataFields, Packet.optElem, Packet.optWire, Packet.optSig, Packet.chunks, Packet.NF.bytes, Piece.bytes,
      given_bytes, last_buffer, tlv_ne, -List.length_append]

theorem data_chunks_sig (v : Packet.DataV) {E : Nat} (h : 0 < E) :
    (closed (items dataSchema (dataValue v)) [] ++ [Piece.own (openBuf (items dataSchema (dataValue v)) [] ++ (tlEnc 0x17 ++ tlEnc E))] ++ [Piece.own []]).map Piece.bytes =
      Packet.chunks [] (Packet.dataFields v E) ∧
    Packet.sigIdx 0 (Packet.dataFields v E) = some ((closed (items dataSchema (dataValue v)) []).length + 1) := by
  obtain ⟨n, m, c, s, _⟩ := v
  cases n <;> cases m <;> cases c <;> cases s <;>
    simp [dataSchema, dataValue, items, itemOf, closed, openBuf, Packet.dataFields, Packet.optElem, Packet.optWire, Packet.optSig, h, Packet.chunks, Packet.NF.bytes,
      Piece.bytes, given_bytes, Packet.sigIdx, Nat.add_comm]

theorem data_sig_none (v : Packet.DataV) : Packet.sigIdx 0 (Packet.dataFields v 0) = none := by
  obtain ⟨n, m, c, s, _⟩ := v
  cases n <;> cases m <;> cases c <;> cases s <;> rfl

theorem data_bytes (v : Packet.DataV) : Packet.bytesOf v.bodies.signed = dataSchema.enc (dataValue v) := by
  rw [← Packet.dataFields0_bytes]
  obtain ⟨n, m, c, s, _⟩ := v
  cases n <;> cases m <;> cases c <;> cases s <;>
    simp [dataSchema, dataValue, Fields.enc, Fields.elems, Packet.dataFields0, Packet.optElem, Packet.optWire, Packet.fieldBytes, Packet.NF.bytes, Elem.body]

/-! ## Interests -/

theorem select_bytes (v : Packet.InterestV) : Packet.fieldBytes (Packet.midFields v) = selectorSchema.enc (selectorValue v) := by
  obtain ⟨n, a, b, f, o, l, hl, p, s, _⟩ := v
  cases a <;> cases b <;> cases f <;> cases o <;> cases l <;> cases hl <;>
    simp [selectorSchema, selectorValue, Fields.enc, Fields.elems, Packet.midFields, Packet.optElem, Packet.fieldBytes, Packet.NF.bytes]

theorem param_bytes (v : Packet.InterestV) : Packet.bytesOf v.bodies.params = paramSchema.enc (paramValue v) := by
  rw [← Packet.tailFields_bytes]
  obtain ⟨n, a, b, f, o, l, hl, p, s, _⟩ := v
  cases p <;> cases s <;>
    simp [paramSchema, paramValue, Fields.enc, Fields.elems, Packet.tailFields, Packet.optElem, Packet.optWire, Packet.fieldBytes, Packet.NF.bytes, Elem.body]

theorem param_chunks (v : Packet.InterestV) (acc : Bytes) :
    (layout (items paramSchema (paramValue v)) acc).map Piece.bytes = Packet.chunks acc (Packet.tailFields v) := by
  obtain ⟨n, a, b, f, o, l, hl, p, s, _⟩ := v
  cases p <;> cases s <;>
    simp [paramSchema, paramValue, items, itemOf, layout, Packet.tailFields, Packet.optElem, Packet.optWire, Packet.chunks, Packet.NF.bytes, Piece.bytes, given_bytes,
      last_buffer, tlv_ne, -List.length_append]


theorem param_chunks_sig (v : Packet.InterestV) (acc : Bytes) (E : Nat) :
    (closed (items paramSchema (paramValue v)) acc ++ [Piece.own (openBuf (items paramSchema (paramValue v)) acc ++ (tlEnc 0x2e ++ tlEnc E))] ++ [Piece.own []]).map Piece.bytes =
      Packet.chunks acc (Packet.tailFields v ++ [.sig 0x2e E]) ∧
    ∀ n, Packet.sigIdx n (Packet.tailFields v ++ [.sig 0x2e E]) = some (n + (closed (items paramSchema (paramValue v)) acc).length + 1) := by
  obtain ⟨n, a, b, f, o, l, hl, p, s, _⟩ := v
  cases p <;> cases s <;>
    simp [paramSchema, paramValue, items, itemOf, closed, openBuf, Packet.tailFields, Packet.optElem, Packet.optWire, Packet.chunks, Packet.NF.bytes, Piece.bytes,
      given_bytes, Packet.sigIdx, Nat.add_comm, Nat.add_left_comm]

theorem layout_owned {I J : List Item} (h : ∀ i ∈ I, ∃ b, i = .own b) : ∀ acc : Bytes, layout (I ++ J) acc = layout J (acc ++ (I.map Item.bytes).flatten) := by
  induction I with
  | nil => intro acc; simp
  | cons i I ih =>
    intro acc
    obtain ⟨b, rfl⟩ := h i (by simp)
    show layout (I ++ J) (acc ++ b) = _
    rw [ih fun j hj => h j (by simp [hj])]
    simp [Item.bytes]

theorem select_own (v : Packet.InterestV) : ∀ i ∈ items selectorSchema (selectorValue v), ∃ b, i = .own b := by
  obtain ⟨n, a, b, f, o, l, hl, p, s, _⟩ := v
  cases f <;> cases o <;> cases l <;> cases hl <;> simp [selectorSchema, selectorValue, items, itemOf]

theorem sigIdx_plain : ∀ (fs gs : List Packet.NF) (n : Nat), (∀ f ∈ fs, f.Plain) → Packet.sigIdx n (fs ++ gs) = Packet.sigIdx n gs
  | [], _, _, _ => rfl
  | f :: fs, gs, n, hf => by
    have hp := hf f (by simp)
    rw [List.cons_append, ← sigIdx_plain fs gs n fun g hg => hf g (by simp [hg])]
    cases f <;> first | rfl | exact absurd hp id

theorem sigIdx_interest {v : Packet.InterestV} {n : Name} (hn : v.name = some n) (need : Bool) (E : Nat) :
    Packet.sigIdx 0 (Packet.interestFields v need E) = Packet.sigIdx 0 (Packet.tailFields v ++ Packet.optSig 0x2e E) := by
  rw [Packet.interestFields_eq' hn, sigIdx_plain]
  intro f hf
  rcases List.mem_cons.mp hf with rfl | hf
  · trivial
  · exact (Packet.midFields_mem hf).1

theorem param_sig_none (v : Packet.InterestV) : Packet.sigIdx 0 (Packet.tailFields v) = none := by
  obtain ⟨n, a, b, f, o, l, hl, p, s, _⟩ := v
  cases p <;> cases s <;> rfl

/-- the name without the digest it may end with -/
theorem digestFree_of (n : Name) : DigestFree n (Packet.interestName false n) := by
  unfold Packet.interestName DigestFree
  rcases List.eq_nil_or_concat n with rfl | ⟨l, c, rfl⟩
  · exact .inl ⟨rfl, fun c hc => by simp at hc⟩
  · by_cases hc : c.typ = 2
    · refine .inr ⟨c, hc, ?_⟩
      simp [Packet.typParamsDigest, hc]
    · refine .inl ⟨?_, ?_⟩
      · simp [Packet.typParamsDigest, hc]
      · intro c' hc'
        simp [Packet.typParamsDigest, hc] at hc'
        subst hc'; exact hc

theorem nameWith_of (need : Bool) (n : Name) : nameWith need (Packet.interestName false n) (List.replicate 32 0) = Packet.interestName need n := by
  cases need <;> simp [nameWith, Packet.interestName, Packet.typParamsDigest]

theorem chunks_le : ∀ (fs : List Packet.NF), (∀ f ∈ fs, f.Ok) → ∀ acc : Bytes, (Packet.chunks acc fs).flatten.length ≤ acc.length + Packet.encLength fs
  | [], _, acc => by
    unfold Packet.chunks
    split <;> simp [Packet.encLength]
  | f :: fs, hf, acc => by
    have ih := fun a => chunks_le fs (fun g hg => hf g (by simp [hg])) a
    have hlen := Packet.NF.len_eq (hf f (by simp))
    rw [Packet.encLength_cons]
    have plain : (∀ t e, f ≠ .sig t e) → (Packet.chunks (acc ++ f.bytes) fs).flatten.length ≤ acc.length + (f.len + Packet.encLength fs) := by
      intro h
      have := ih (acc ++ f.bytes)
      rw [List.length_append, ← hlen h] at this
      omega
    cases f with
    | wire t w =>
      have := ih []
      have h := hlen (by simp)
      simp only [Packet.chunks, List.flatten_cons, List.flatten_append, List.length_append, h, Packet.NF.bytes, tlv, List.length_nil] at this ⊢
      omega
    | sig t e =>
      have := ih []
      simp only [Packet.chunks, List.flatten_cons, List.length_append, Packet.NF.len, Packet.tlvLen, tlEnc_length, List.length_nil] at this ⊢
      omega
    | elem t e v => exact plain (by simp)
    | flag t => exact plain (by simp)
    | iname n need => exact plain (by simp)
    | mark => exact plain (by simp)

theorem optSig_ok {t E : Nat} {f : Packet.NF} (hf : f ∈ Packet.optSig t E) : f.Ok := by
  unfold Packet.optSig at hf
  split at hf
  · simp only [List.mem_singleton] at hf; subst hf; trivial
  · exact absurd hf (by simp)

theorem dataFields_ok (v : Packet.DataV) (E : Nat) : ∀ f ∈ Packet.dataFields v E, f.Ok := by
  intro f hf
  rw [Packet.dataFields_eq] at hf
  rcases List.mem_append.1 hf with hf | hf
  · exact (Packet.dataFields0_nsig v f hf).1
  · exact optSig_ok hf

/-! ## The property -/

theorem before_own (h b : Bytes) (w : List Piece) : (Piece.own (h ++ b) :: w).map Piece.bytes = Packet.before h ((Piece.own b :: w).map Piece.bytes) := rfl

theorem data_cover_none (v : Packet.DataV) : Packet.coverOf 0 [] (Packet.dataFields v 0) = [] := by
  obtain ⟨n, m, c, s, _⟩ := v
  cases n <;> cases m <;> cases c <;> cases s <;> rfl

theorem data_length (v : Packet.DataV) (E : Nat) : Packet.encLength (Packet.dataFields v E) =
    (dataSchema.enc (dataValue v)).length + if 0 < E then (tlEnc 0x17 ++ tlEnc E).length + E else 0 := by
  rw [Packet.dataFields_eq, Packet.encLength_append, Packet.dataFields0_length, data_bytes]
  unfold Packet.optSig
  split
  · simp [Packet.encLength, Packet.NF.len, Packet.tlvLen, tlEnc_length]
  · rfl

/-- **C98, Data**: for every Data, with a signature of any estimated length or without, the statements that the generator writes for the encoders of `Data` and
`Packet` make the buffers that the model by hand makes, one by one, tell the same index for the signature, and cover the same bytes. -/
theorem C98_data_partial {ord : Nat → List (Txt × Kind)} (h : ∀ i, (ord i).Perm classTable) {ms : List TModel} (hms : processAll ord specSource = .ok ms)
    {v : Packet.DataV} {kvs kv0 : List (Txt × GV)} (hv : StandsAll ms dataSchema dataMid (dataValue v) kv0) (hk : Carries kvs t!"Data" kv0) (est : Txt → Txt → Nat)
    (need : Txt → Txt → Bool) {E : Nat} (he : est t!"Data" t!"SignatureValue" = E) (hl : (dataSchema.enc (dataValue v)).length + E < 2 ^ 61)
    (hne : 0 < E ∨ dataSchema.enc (dataValue v) ≠ []) :
    ∃ p w s, runOuter ms (ms.length + 1) t!"Packet" (.ptr (.struct kvs)) est need = .ok p ∧ Packet.packetEncode 6 (Packet.dataFields v E) = .ok (w, s) ∧
      p.wire.map Piece.bytes = w ∧ (p.covered t!"Data" t!"sigCovered").flatten = s.covered.flatten ∧
      Packet.sigIdx 0 (Packet.dataFields v E) = if 0 < E then some (p.idx t!"Data" t!"SignatureValue").toNat else none := by
  obtain ⟨mp, hmp, hmf, _, _⟩ := packet_model h hms
  obtain ⟨m, hm, hs, hf⟩ := data_model h hms
  have h1 : Holds ms ms.length dataPre .nil () kv0 := ⟨rfl, by simp [StandsAll, dataPre, keep]⟩
  have h2 : Holds ms ms.length dataMid dataSchema (dataValue v) kv0 := ⟨hf, by rw [show dataMid.filter keep = dataMid by decide +kernel]; exact hv⟩
  have h3 : Holds ms ms.length [] .nil () kv0 := ⟨rfl, by simp [StandsAll]⟩
  have hz : Fields.nil.enc () = [] := rfl
  have hn : dataSig.num = 0x17 := rfl
  have hnn : dataSig.name = t!"SignatureValue" := rfl
  have t1 : (tlEnc 0x17).length = 1 := by decide
  have t2 := tlEnc_le E
  -- the run of the emitted encoder of Data
  obtain ⟨r, hr, hrl, hrw, hrc, hri⟩ : ∃ r, runSigned ms (ms.length + 1) t!"Data" (.ptr (.struct kv0)) (est t!"Data") (need t!"Data") = .ok r ∧
      r.length = Packet.encLength (Packet.dataFields v E) ∧ r.wire.map Piece.bytes = Packet.chunks [] (Packet.dataFields v E) ∧
      (r.covered t!"sigCovered").flatten = Packet.coverOf 0 [] (Packet.dataFields v E) ∧
      Packet.sigIdx 0 (Packet.dataFields v E) = if 0 < E then some (r.idx t!"SignatureValue").toNat else none := by
    rw [data_length]
    rcases Nat.eq_zero_or_pos E with h0 | h0
    · subst h0
      obtain ⟨ss, ss', R, _, _, _, e3, e4, e5, e6⟩ := runs_unsigned hs h1 h2 h3 (by rw [hnn]; exact he) (by rw [hn, t1, hz]; simp only [List.nil_append, List.append_nil]; omega)
        (by rw [hz]; simpa using hne) (need t!"Data")
      refine ⟨_, by simp only [runSigned, hm]; exact R.run, ?_, ?_, ?_, ?_⟩
      · rw [e5, hz]; simp
      · rw [e6, ← data_chunks]; simp [items]
      · rw [e4, data_cover_none]; rfl
      · rw [data_sig_none]; rfl
    · obtain ⟨ss, ss', front, back, R, _, e2, e3, _, _, _, e7, e8, e9, e10⟩ := runs_signed hs h1 h2 h3 (by rw [hnn]; exact he) h0
        (by rw [hn, hz]; simp only [List.nil_append, List.append_nil, List.length_append, t1]; omega) (need t!"Data")
      rw [hz] at e9
      obtain ⟨c1, c2⟩ := data_chunks_sig v h0
      refine ⟨_, by simp only [runSigned, hm]; exact R.run, ?_, ?_, ?_, ?_⟩
      · rw [e8, hz, hn, if_pos h0]; simp only [List.nil_append, List.append_nil, List.length_append]; omega
      · rw [e2, e9, e10, ← c1, hn]; simp [items, layout]
      · rw [e7, Packet.dataFields_eq, Packet.optSig_pos h0, Packet.coverOf_sig fun f hf => (Packet.dataFields0_nsig v f hf).2, Packet.dataFields0_bytes, data_bytes]
        simp
      · rw [c2, if_pos h0, ← hnn, e3, Int.toNat_natCast, e9]
        simp
  -- the run by hand
  obtain ⟨s, g1, g2, g3⟩ := Packet.data_run v E
  have hpos : 0 < Packet.encLength (Packet.dataFields v E) := by
    rw [data_length]
    rcases hne with h0 | h0
    · rw [if_pos h0]; omega
    · have := List.length_pos_iff.2 h0; omega
  have hlt : Packet.encLength (Packet.dataFields v E) < 2 ^ 62 := by
    rw [data_length]
    split
    · simp only [List.length_append, t1]; omega
    · omega
  have hrn : r.wire.map Piece.bytes = s.wire := by rw [hrw, g2]
  have hhead : ∀ b, r.wire.head? = some (.own b) → b.length ≤ r.length := by
    intro b hb
    have := head_le' hb
    rw [hrw] at this
    have e := chunks_le (Packet.dataFields v E) (dataFields_ok v E) []
    rw [List.length_nil] at e
    omega
  obtain ⟨p, b, w, hp, hrw', hpw, _, hpi, _, hpc⟩ := C97_wrap_partial (f := ⟨t!"Data", 0x06, .struct t!"Data" true⟩) (pre := packetFields.take 1)
    (post := packetFields.drop 2) (est := est) (need := need) (r := r) hmp hmf (by rw [hmf]; simp [packetFields]) rfl (by rw [hmf]; decide +kernel) hk.1 (data_skip hk)
    hr (by rw [hrl]; exact hpos) (by rw [hrl]; omega) (fun b hb => by have := hhead b hb; omega)
  simp only at hpw hpi hpc
  refine ⟨p, _, s, hp, Packet.packetEncode_eq hpos g1 (by rw [← hrn, hrw']; simp), ?_, ?_, ?_⟩
  · rw [hpw, before_own, ← hrw', hrn, hrl]
  · rw [hpc, hrc, g3]
  · rw [hpi, hri]

theorem interest_cover_none (v : Packet.InterestV) (a : Nat) (pre : Bytes) : Packet.coverOf a pre (Packet.tailFields v) = [] := by
  obtain ⟨n, x, b, f, o, l, hl, p, s, _⟩ := v
  cases p <;> cases s <;> rfl

theorem interest_length {v : Packet.InterestV} {n : Name} (hn : v.name = some n) (need : Bool) (E : Nat) : Packet.encLength (Packet.interestFields v need E) =
    (tlv 0x07 (Name.encBody n) ++ selectorSchema.enc (selectorValue v) ++ paramSchema.enc (paramValue v)).length +
      if 0 < E then (tlEnc 0x2e ++ tlEnc E).length + E else 0 := by
  rw [Packet.interestFields_eq' hn, Packet.encLength_append, Packet.encLength_append, Packet.headFields_length hn, Packet.encLength_eq (Packet.tailFields_nsig v),
    Packet.tailFields_bytes, param_bytes, Packet.head_bytes v n hn, select_bytes, List.length_append (bs := paramSchema.enc _), Nat.add_assoc]
  unfold Packet.optSig
  split
  · simp [Packet.encLength, Packet.NF.len, Packet.tlvLen, tlEnc_length]
  · simp [Packet.encLength]

/-- **C98, Interests**: for every name, with or without a digest at its end, and all other fields of an Interest, with a signature of any estimated length or
without, the statements that the generator writes for the encoders of `Interest` and `Packet` make the buffers that the model by hand makes, one by one, tell
the same index for the signature and the same place for the digest, and cover the same bytes. -/
theorem C98_interest_partial {ord : Nat → List (Txt × Kind)} (h : ∀ i, (ord i).Perm classTable) {ms : List TModel} (hms : processAll ord specSource = .ok ms)
    {n : Name} {v : Packet.InterestV} {kvs kv0 : List (Txt × GV)} (hv : StandsInterest ms n (selectorValue v) (paramValue v) kv0) (hk : Carries kvs t!"Interest" kv0)
    (est : Txt → Txt → Nat) (need : Txt → Txt → Bool) {E : Nat} {nd : Bool} (he : est t!"Interest" t!"SignatureValue" = E) (hd : need t!"Interest" t!"NameV" = nd)
    (hname : v.name = some (Packet.interestName nd n))
    (hl : (tlv 0x07 (Name.encBody (Packet.interestName nd n)) ++ selectorSchema.enc (selectorValue v) ++ paramSchema.enc (paramValue v)).length + E < 2 ^ 61) :
    ∃ p w s, runOuter ms (ms.length + 1) t!"Packet" (.ptr (.struct kvs)) est need = .ok p ∧ Packet.packetEncode 5 (Packet.interestFields v nd E) = .ok (w, s) ∧
      p.wire.map Piece.bytes = w ∧ (p.covered t!"Interest" t!"sigCovered").flatten = s.covered.flatten ∧
      (Packet.sigIdx 0 (Packet.interestFields v nd E) = if 0 < E then some (p.idx t!"Interest" t!"SignatureValue").toNat else none) ∧
      (Packet.interestName nd n ≠ [] → p.pos t!"Interest" t!"NameV" = (s.namePos : Int)) := by
  obtain ⟨mp, hmp, hmf, _, _⟩ := packet_model h hms
  obtain ⟨m, hm, hs, hf1, hf2⟩ := interest_model h hms
  obtain ⟨hn, hv1, hv2⟩ := hv
  have h1 : Holds ms ms.length interestPre selectorSchema (selectorValue v) kv0 := ⟨hf1, by rw [show interestPre.filter keep = interestPre by decide +kernel]; exact hv1⟩
  have h2 : Holds ms ms.length interestMid paramSchema (paramValue v) kv0 := ⟨hf2, hv2⟩
  have h3 : Holds ms ms.length interestPost .nil () kv0 := ⟨rfl, by simp [StandsAll, interestPost, keep]⟩
  have hz : Fields.nil.enc () = [] := rfl
  have hsn : interestSig.num = 0x2e := rfl
  have hsnn : interestSig.name = t!"SignatureValue" := rfl
  have hnn : interestName.name = t!"NameV" := rfl
  have hnu : interestName.num = 0x07 := rfl
  have t1 : (tlEnc 0x2e).length = 1 := by decide
  have t2 := tlEnc_le E
  have hnm : nameWith (need t!"Interest" interestName.name) (Packet.interestName false n) (List.replicate 32 0) = Packet.interestName nd n := by
    rw [hnn, hd, nameWith_of]
  have hhb := Packet.head_bytes v _ hname
  rw [select_bytes] at hhb
  simp only [List.length_append] at hl
  -- the run by hand
  obtain ⟨s, g1, g2, g3, g4⟩ := Packet.interest_run hname nd E
  have hlen := interest_length hname nd E
  -- the run of the emitted encoder of Interest
  obtain ⟨r, hr, hrl, hrw, hrc, hri, hrp⟩ : ∃ r, runSigned ms (ms.length + 1) t!"Interest" (.ptr (.struct kv0)) (est t!"Interest") (need t!"Interest") = .ok r ∧
      r.length = Packet.encLength (Packet.interestFields v nd E) ∧ r.wire.map Piece.bytes = s.wire ∧
      (r.covered t!"sigCovered").flatten = s.covered.flatten ∧
      (Packet.sigIdx 0 (Packet.interestFields v nd E) = if 0 < E then some (r.idx t!"SignatureValue").toNat else none) ∧
      (Packet.interestName nd n ≠ [] → r.pos t!"NameV" = (s.namePos : Int)) := by
    rw [hlen, sigIdx_interest hname, g2, g3, g4, hhb]
    have hcov : Name.encBody (if nd then (Packet.interestName nd n).dropLast else Packet.interestName nd n) = Name.encBody (Packet.interestName false n) := by
      rw [← nameWith_of nd n]
      cases nd <;> simp [nameWith]
    rw [hcov]
    rcases Nat.eq_zero_or_pos E with h0 | h0
    · subst h0
      obtain ⟨r, e1, e2, e3, e4, e5, e6⟩ := interest_layout hm hs hn (digestFree_of n) h1 h2 h3 (need := need t!"Interest") (by rw [hsnn]; exact he)
        (by rw [hnm, hnu, hsn, t1, hz]; simp only [List.append_nil, List.length_append]; omega)
      rw [hnm, hnu] at e4 e5 e6
      rw [hnn] at e6
      rw [Packet.optSig_zero, List.append_nil]
      refine ⟨r, e1, ?_, ?_, ?_, ?_, ?_⟩
      · rw [e4, hz]; simp
      · rw [e5, ← param_chunks, show items .nil () = [] from rfl, List.append_nil]
        show (layout (items selectorSchema (selectorValue v) ++ items paramSchema (paramValue v)) ([] ++ _)).map Piece.bytes = _
        rw [layout_owned (select_own v), items_bytes, List.nil_append]
      · rw [e3, interest_cover_none, List.append_nil]
      · rw [param_sig_none]; rfl
      · intro hne
        rw [if_neg hne]
        exact e6 hne
    · obtain ⟨r, front, back, e1, e2, e3, _, _, _, e7, _, e9, ⟨e10, e11⟩, e12, _⟩ := interest_signed hm hs hn (digestFree_of n) h1 h2 h3 (need := need t!"Interest")
        (by rw [hsnn]; exact he) h0 (by rw [hnm, hnu, hsn, hz]; simp only [List.append_nil, List.length_append, t1]; omega)
      rw [hnm, hnu] at e9 e10 e12
      rw [hnn] at e12
      rw [Packet.optSig_pos h0]
      obtain ⟨c1, c2⟩ := param_chunks_sig v (tlv 0x07 (Name.encBody (Packet.interestName nd n)) ++ selectorSchema.enc (selectorValue v)) E
      refine ⟨r, e1, ?_, ?_, ?_, ?_, ?_⟩
      · rw [e9, hz, hsn, if_pos h0]; simp only [List.append_nil, List.length_append]; omega
      · rw [e2, e10, e11, ← c1, hsn]; simp [items, layout]
      · rw [e7, Packet.coverOf_sig fun f hf => (Packet.tailFields_nsig v f hf).2, List.drop_left, Packet.tailFields_bytes, param_bytes]
      · rw [c2, if_pos h0, ← hsnn, e3, Int.toNat_natCast, e10]
        simp
      · intro hne
        rw [if_neg hne]
        exact e12 hne
  have hpos : 0 < Packet.encLength (Packet.interestFields v nd E) := by
    rw [hlen]
    have : (tlEnc 0x07).length = 1 := by decide
    simp only [tlv, List.length_append]
    omega
  have hlt : Packet.encLength (Packet.interestFields v nd E) < 2 ^ 62 := by
    rw [hlen]
    split
    · simp only [List.length_append, t1]; omega
    · simp only [List.length_append]; omega
  have hhead : ∀ b, r.wire.head? = some (.own b) → b.length ≤ r.length := by
    intro b hb
    have := head_le' hb
    rw [hrw, g2] at this
    have e := chunks_le (Packet.tailFields v ++ Packet.optSig 0x2e E) (fun f hf => by
      rcases List.mem_append.1 hf with hf | hf
      · exact (Packet.tailFields_nsig v f hf).1
      · exact optSig_ok hf) (Packet.bytesOf v.bodies.head)
    have e' := Packet.encLength_append (.iname (Packet.interestName nd n) nd :: Packet.midFields v) (Packet.tailFields v ++ Packet.optSig 0x2e E)
    rw [Packet.headFields_length hname, ← Packet.interestFields_eq' hname] at e'
    omega
  obtain ⟨p, b, w, hp, hrw', hpw, _, hpi, hpp, hpc⟩ := C97_wrap_partial (f := ⟨t!"Interest", 0x05, .struct t!"Interest" true⟩) (pre := [])
    (post := packetFields.drop 1) (est := est) (need := need) (r := r) hmp hmf (by rw [hmf]; simp [packetFields]) rfl (by rw [hmf]; decide +kernel) hk.1
    (fun g hg => hk.2 g (List.mem_of_mem_drop (i := 1) hg) (by
      simp only [packetFields, List.drop_succ_cons, List.drop_zero, List.nil_append, List.mem_cons, List.not_mem_nil, or_false] at hg
      rcases hg with rfl | rfl <;> decide +kernel)) hr (by rw [hrl]; exact hpos) (by rw [hrl]; omega)
    (fun b hb => by have := hhead b hb; omega)
  simp only at hpw hpi hpp hpc
  refine ⟨p, _, s, hp, Packet.packetEncode_eq hpos g1 (by rw [← hrw, hrw']; simp), ?_, ?_, ?_, ?_⟩
  · rw [hpw, before_own, ← hrw', hrw, hrl]
  · rw [hpc, hrc]
  · rw [hpi, hri]
  · rw [hpp]; exact hrp

/-! ## Signatures shorter than estimated -/

/-- **C98, MakeData on the emitted encoder**: for every signature that is not longer than estimated, and the length of which takes as many bytes, what
spec.go:333-352 does with the buffers that the emitted encoder of `Packet` makes, at the index that it tells, gives the TLV of the Data. -/
theorem C98_short_partial {ord : Nat → List (Txt × Kind)} (h : ∀ i, (ord i).Perm classTable) {ms : List TModel} (hms : processAll ord specSource = .ok ms)
    {v : Packet.DataV} {kvs kv0 : List (Txt × GV)} (hv : StandsAll ms dataSchema dataMid (dataValue v) kv0) (hk : Carries kvs t!"Data" kv0) (est : Txt → Txt → Nat)
    (need : Txt → Txt → Bool) {E : Nat} (he : est t!"Data" t!"SignatureValue" = E) (h0 : 0 < E) (hl : (dataSchema.enc (dataValue v)).length + E < 2 ^ 61) :
    ∃ p, runOuter ms (ms.length + 1) t!"Packet" (.ptr (.struct kvs)) est need = .ok p ∧ (p.covered t!"Data" t!"sigCovered").flatten = dataSchema.enc (dataValue v) ∧
      ∀ sig : Bytes, sig.length ≤ E → (E ≤ 252 ∨ (253 ≤ sig.length ∧ E / 256 = sig.length / 256)) → ∀ w1 w',
        Packet.patchSig (p.wire.map Piece.bytes) (p.idx t!"Data" t!"SignatureValue").toNat sig = .ok w1 → Packet.shrinkHead w1 (E - sig.length) = .ok w' →
        w'.flatten.length < 2 ^ 63 → w'.flatten = tlv 0x06 (dataSchema.enc (dataValue v) ++ tlv 0x17 sig) := by
  obtain ⟨p, w, s, e1, e2, e3, e4, e5⟩ := C98_data_partial h hms hv hk est need he hl (.inl h0)
  obtain ⟨w0, s0, i, f1, f2, f3, f4⟩ := Packet.data_signed (v := v) h0
  rw [e2] at f1
  cases f1
  rw [f3, if_pos h0] at e5
  cases e5
  refine ⟨p, e1, by rw [e4, f2, data_bytes], fun sig h1 h2 w1 w' h3 h4 h5 => ?_⟩
  rw [← data_bytes]
  exact f4 sig h1 h2 (by omega) w1 w' (by rw [← e3]; exact h3) h4 h5

/-! ## Examples -/

/-- what both give -/
structure Both where
  emitted : Option (List Bytes)
  byHand : Option (List Bytes)
  deriving DecidableEq

/-- the buffers of the emitted encoder of `Packet` and of the model by hand -/
def bothOf (f : Txt) (g : GV) (E : Nat) (nd : Bool) (typ : Nat) (fs : List Packet.NF) : Both :=
  ⟨(Outer.told f (runOuter (modelsOf specSource) 4 t!"Packet" g (fun _ _ => E) fun _ _ => nd)).map fun t => t.wire.map Piece.bytes,
    match Packet.packetEncode typ fs with
    | .ok (w, _) => some w
    | _ => none⟩

/-- a Data with a content of two buffers and room for a signature of 32 bytes -/
example : bothOf t!"Data" (examplePacket .nil (exampleData (.name [⟨8, [65]⟩]) (.wire [[1, 2], [3]])) .nil) 32 false 6
      (Packet.dataFields { name := some [⟨8, [65]⟩], content := some [[1, 2], [3]] } 32) =
    ⟨some [[6, 44, 7, 3, 8, 1, 65, 21, 3], [1, 2], [3], [23, 32], []], some [[6, 44, 7, 3, 8, 1, 65, 21, 3], [1, 2], [3], [23, 32], []]⟩ := by decide +kernel

/-- an Interest with parameters and room for a digest and a signature of 4 bytes -/
example : bothOf t!"Interest" (examplePacket (exampleInterest (.name [⟨8, [65]⟩]) (.wire [[1, 2], [3]])) .nil .nil) 4 true 5
      (Packet.interestFields { name := some (Packet.interestName true [⟨8, [65]⟩]), mustBeFresh := true, appParam := some [[1, 2], [3]] } true 4) =
    ⟨some [[5, 52, 7, 37, 8, 1, 65, 2, 32] ++ List.replicate 32 0 ++ [18, 0, 36, 3], [1, 2], [3], [46, 4], []],
      some [[5, 52, 7, 37, 8, 1, 65, 2, 32] ++ List.replicate 32 0 ++ [18, 0, 36, 3], [1, 2], [3], [46, 4], []]⟩ := by decide +kernel

/-- there are Go values for every Data, so the hypotheses of `C98_data_partial` can be met -/
example {ms : List TModel} (hms : processAll asWritten specSource = .ok ms) (v : Packet.DataV) :
    ∃ kvs kv0, StandsAll ms dataSchema dataMid (dataValue v) kv0 ∧ Carries kvs t!"Data" kv0 := by
  obtain ⟨ms', hms', _, hi⟩ := C95_library_partial (ord := asWritten) fun _ => List.Perm.refl _
  rw [hms] at hms'
  cases hms'
  obtain ⟨kv0, hk⟩ := (hi (dataValue v)).1
  refine ⟨[(t!"Interest", .nil), (t!"Data", .ptr (.struct kv0)), (t!"LpPacket", .nil)], kv0, hk, by rfl, fun f hf hn => ?_⟩
  simp only [packetFields, List.mem_cons, List.not_mem_nil, or_false] at hf
  rcases hf with rfl | rfl | rfl
  · rfl
  · exact absurd rfl hn
  · rfl

/-- and for every Interest -/
example {ms : List TModel} (hms : processAll asWritten specSource = .ok ms) (n : Name) (v : Packet.InterestV) :
    ∃ kv0, StandsInterest ms n (selectorValue v) (paramValue v) kv0 := by
  obtain ⟨ms', hms', _, hi⟩ := C96_library_partial (ord := asWritten) fun _ => List.Perm.refl _
  rw [hms] at hms'
  cases hms'
  exact (hi n _ (selectorValue v) (paramValue v) (digestFree_of n)).1

end Ndn.Codec.Gen
