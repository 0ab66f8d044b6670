import Verif.Codec.GoText
import Verif.Codec.GeneratedNoCopy
import Verif.Codec.SignedRunProps

/-!
# The encoder of `Data` in the repository

The Go below is copied from `/repo/pkg/ndn/spec_2022/zz_generated.go`.
-/

namespace Ndn.Codec.Gen

/-- the encoder of the model called `n`, as the generator writes it, is the Go `g` up to space -/
def SameSigned (ms : List TModel) (n : Txt) (g : Nat × Nat) : Prop := ∃ m, (ms.find? fun m => m.name == n) = some m ∧ (signedText m).map tight = goLines g

/-- the types and methods of the encoder of `Data`, copied from `/repo/pkg/ndn/spec_2022/zz_generated.go` -/
def dataGo : Nat × Nat := go! r#"type DataEncoder struct {
	length uint

	wirePlan []uint

	sigCovered             enc.Wire
	sigCoverStart          int
	sigCoverStart_wireIdx  int
	sigCoverStart_pos      int
	NameV_length           uint
	MetaInfo_encoder       MetaInfoEncoder
	ContentV_length        uint
	SignatureInfo_encoder  SignatureInfoEncoder
	SignatureValue_wireIdx int
	SignatureValue_estLen  uint
}
func (encoder *DataEncoder) Init(value *Data) {

	if value.NameV != nil {
		encoder.NameV_length = 0
		for _, c := range value.NameV {
			encoder.NameV_length += uint(c.EncodingLength())
		}
	}
	if value.MetaInfo != nil {
		encoder.MetaInfo_encoder.Init(value.MetaInfo)
	}
	if value.ContentV != nil {
		encoder.ContentV_length = 0
		for _, c := range value.ContentV {
			encoder.ContentV_length += uint(len(c))
		}
	}
	if value.SignatureInfo != nil {
		encoder.SignatureInfo_encoder.Init(value.SignatureInfo)
	}
	encoder.SignatureValue_wireIdx = -1

	l := uint(0)

	encoder.sigCoverStart = int(l)
	if value.NameV != nil {
		l += 1
		switch x := encoder.NameV_length; {
		case x <= 0xfc:
			l += 1
		case x <= 0xffff:
			l += 3
		case x <= 0xffffffff:
			l += 5
		default:
			l += 9
		}
		l += encoder.NameV_length
	}
	if value.MetaInfo != nil {
		l += 1
		switch x := encoder.MetaInfo_encoder.length; {
		case x <= 0xfc:
			l += 1
		case x <= 0xffff:
			l += 3
		case x <= 0xffffffff:
			l += 5
		default:
			l += 9
		}
		l += encoder.MetaInfo_encoder.length
	}
	if value.ContentV != nil {
		l += 1
		switch x := encoder.ContentV_length; {
		case x <= 0xfc:
			l += 1
		case x <= 0xffff:
			l += 3
		case x <= 0xffffffff:
			l += 5
		default:
			l += 9
		}
		l += encoder.ContentV_length
	}
	if value.SignatureInfo != nil {
		l += 1
		switch x := encoder.SignatureInfo_encoder.length; {
		case x <= 0xfc:
			l += 1
		case x <= 0xffff:
			l += 3
		case x <= 0xffffffff:
			l += 5
		default:
			l += 9
		}
		l += encoder.SignatureInfo_encoder.length
	}
	if encoder.SignatureValue_estLen > 0 {
		l += 1
		switch x := encoder.SignatureValue_estLen; {
		case x <= 0xfc:
			l += 1
		case x <= 0xffff:
			l += 3
		case x <= 0xffffffff:
			l += 5
		default:
			l += 9
		}
		l += encoder.SignatureValue_estLen
	}
	encoder.length = l

	wirePlan := make([]uint, 0)
	l = uint(0)

	if value.NameV != nil {
		l += 1
		switch x := encoder.NameV_length; {
		case x <= 0xfc:
			l += 1
		case x <= 0xffff:
			l += 3
		case x <= 0xffffffff:
			l += 5
		default:
			l += 9
		}
		l += encoder.NameV_length
	}
	if value.MetaInfo != nil {
		l += 1
		switch x := encoder.MetaInfo_encoder.length; {
		case x <= 0xfc:
			l += 1
		case x <= 0xffff:
			l += 3
		case x <= 0xffffffff:
			l += 5
		default:
			l += 9
		}
		l += encoder.MetaInfo_encoder.length
	}
	if value.ContentV != nil {
		l += 1
		switch x := encoder.ContentV_length; {
		case x <= 0xfc:
			l += 1
		case x <= 0xffff:
			l += 3
		case x <= 0xffffffff:
			l += 5
		default:
			l += 9
		}
		wirePlan = append(wirePlan, l)
		l = 0
		for range value.ContentV {
			wirePlan = append(wirePlan, l)
			l = 0
		}
	}
	if value.SignatureInfo != nil {
		l += 1
		switch x := encoder.SignatureInfo_encoder.length; {
		case x <= 0xfc:
			l += 1
		case x <= 0xffff:
			l += 3
		case x <= 0xffffffff:
			l += 5
		default:
			l += 9
		}
		l += encoder.SignatureInfo_encoder.length
	}
	if encoder.SignatureValue_estLen > 0 {
		l += 1
		switch x := encoder.SignatureValue_estLen; {
		case x <= 0xfc:
			l += 1
		case x <= 0xffff:
			l += 3
		case x <= 0xffffffff:
			l += 5
		default:
			l += 9
		}
		wirePlan = append(wirePlan, l)
		l = 0
		encoder.SignatureValue_wireIdx = len(wirePlan)
		wirePlan = append(wirePlan, l)
		l = 0
	}
	if l > 0 {
		wirePlan = append(wirePlan, l)
	}
	encoder.wirePlan = wirePlan
}
func (encoder *DataEncoder) EncodeInto(value *Data, wire enc.Wire) {

	wireIdx := 0
	buf := wire[wireIdx]

	pos := uint(0)

	encoder.sigCoverStart_wireIdx = int(wireIdx)
	encoder.sigCoverStart_pos = int(pos)
	if value.NameV != nil {
		buf[pos] = byte(7)
		pos += 1
		switch x := encoder.NameV_length; {
		case x <= 0xfc:
			buf[pos] = byte(x)
			pos += 1
		case x <= 0xffff:
			buf[pos] = 0xfd
			binary.BigEndian.PutUint16(buf[pos+1:], uint16(x))
			pos += 3
		case x <= 0xffffffff:
			buf[pos] = 0xfe
			binary.BigEndian.PutUint32(buf[pos+1:], uint32(x))
			pos += 5
		default:
			buf[pos] = 0xff
			binary.BigEndian.PutUint64(buf[pos+1:], uint64(x))
			pos += 9
		}
		for _, c := range value.NameV {
			pos += uint(c.EncodeInto(buf[pos:]))
		}
	}
	if value.MetaInfo != nil {
		buf[pos] = byte(20)
		pos += 1
		switch x := encoder.MetaInfo_encoder.length; {
		case x <= 0xfc:
			buf[pos] = byte(x)
			pos += 1
		case x <= 0xffff:
			buf[pos] = 0xfd
			binary.BigEndian.PutUint16(buf[pos+1:], uint16(x))
			pos += 3
		case x <= 0xffffffff:
			buf[pos] = 0xfe
			binary.BigEndian.PutUint32(buf[pos+1:], uint32(x))
			pos += 5
		default:
			buf[pos] = 0xff
			binary.BigEndian.PutUint64(buf[pos+1:], uint64(x))
			pos += 9
		}
		if encoder.MetaInfo_encoder.length > 0 {
			encoder.MetaInfo_encoder.EncodeInto(value.MetaInfo, buf[pos:])
			pos += encoder.MetaInfo_encoder.length
		}
	}
	if value.ContentV != nil {
		buf[pos] = byte(21)
		pos += 1
		switch x := encoder.ContentV_length; {
		case x <= 0xfc:
			buf[pos] = byte(x)
			pos += 1
		case x <= 0xffff:
			buf[pos] = 0xfd
			binary.BigEndian.PutUint16(buf[pos+1:], uint16(x))
			pos += 3
		case x <= 0xffffffff:
			buf[pos] = 0xfe
			binary.BigEndian.PutUint32(buf[pos+1:], uint32(x))
			pos += 5
		default:
			buf[pos] = 0xff
			binary.BigEndian.PutUint64(buf[pos+1:], uint64(x))
			pos += 9
		}
		wireIdx++
		pos = 0
		if wireIdx < len(wire) {
			buf = wire[wireIdx]
		} else {
			buf = nil
		}
		for _, w := range value.ContentV {
			wire[wireIdx] = w
			wireIdx++
			pos = 0
			if wireIdx < len(wire) {
				buf = wire[wireIdx]
			} else {
				buf = nil
			}
		}
	}
	if value.SignatureInfo != nil {
		buf[pos] = byte(22)
		pos += 1
		switch x := encoder.SignatureInfo_encoder.length; {
		case x <= 0xfc:
			buf[pos] = byte(x)
			pos += 1
		case x <= 0xffff:
			buf[pos] = 0xfd
			binary.BigEndian.PutUint16(buf[pos+1:], uint16(x))
			pos += 3
		case x <= 0xffffffff:
			buf[pos] = 0xfe
			binary.BigEndian.PutUint32(buf[pos+1:], uint32(x))
			pos += 5
		default:
			buf[pos] = 0xff
			binary.BigEndian.PutUint64(buf[pos+1:], uint64(x))
			pos += 9
		}
		if encoder.SignatureInfo_encoder.length > 0 {
			encoder.SignatureInfo_encoder.EncodeInto(value.SignatureInfo, buf[pos:])
			pos += encoder.SignatureInfo_encoder.length
		}
	}
	if encoder.SignatureValue_estLen > 0 {
		startPos := int(pos)
		buf[pos] = byte(23)
		pos += 1
		switch x := encoder.SignatureValue_estLen; {
		case x <= 0xfc:
			buf[pos] = byte(x)
			pos += 1
		case x <= 0xffff:
			buf[pos] = 0xfd
			binary.BigEndian.PutUint16(buf[pos+1:], uint16(x))
			pos += 3
		case x <= 0xffffffff:
			buf[pos] = 0xfe
			binary.BigEndian.PutUint32(buf[pos+1:], uint32(x))
			pos += 5
		default:
			buf[pos] = 0xff
			binary.BigEndian.PutUint64(buf[pos+1:], uint64(x))
			pos += 9
		}
		if encoder.sigCoverStart_wireIdx == int(wireIdx) {
			coveredPart := buf[encoder.sigCoverStart:startPos]
			encoder.sigCovered = append(encoder.sigCovered, coveredPart)
		} else {
			coverStart := wire[encoder.sigCoverStart_wireIdx][encoder.sigCoverStart:]
			encoder.sigCovered = append(encoder.sigCovered, coverStart)
			for i := encoder.sigCoverStart_wireIdx + 1; i < int(wireIdx); i++ {
				encoder.sigCovered = append(encoder.sigCovered, wire[i])
			}
			coverEnd := buf[:startPos]
			encoder.sigCovered = append(encoder.sigCovered, coverEnd)
		}
		wireIdx++
		pos = 0
		if wireIdx < len(wire) {
			buf = wire[wireIdx]
		} else {
			buf = nil
		}
		wireIdx++
		pos = 0
		if wireIdx < len(wire) {
			buf = wire[wireIdx]
		} else {
			buf = nil
		}
	}
}
func (encoder *DataEncoder) Encode(value *Data) enc.Wire {

	wire := make(enc.Wire, len(encoder.wirePlan))
	for i, l := range encoder.wirePlan {
		if l > 0 {
			wire[i] = make([]byte, l)
		}
	}
	encoder.EncodeInto(value, wire)

	return wire
}
"#


/-- the fields of `Data` before the marker of what is signed: an argument of the parser -/
def dataPre : List Field := [⟨t!"sigCovered", 0, .arg t!"enc.Wire"⟩]

/-- the marker, definitions.go:210 -/
def dataMark : Field := ⟨t!"sigCoverStart", 0, .offset true⟩

/-- the fields that are signed -/
def dataMid : List Field :=
  [⟨t!"NameV", 0x07, .name⟩, ⟨t!"MetaInfo", 0x14, .struct t!"MetaInfo" false⟩, ⟨t!"ContentV", 0x15, .wire true⟩,
    ⟨t!"SignatureInfo", 0x16, .struct t!"SignatureInfo" false⟩]

/-- the signature -/
def dataSig : Field := ⟨t!"SignatureValue", 0x17, .signature t!"sigCoverStart" t!"sigCovered" true⟩

/-- the schema of the signed part of a Data: Name, MetaInfo, Content and SignatureInfo of the NDN packet format -/
def dataSchema : Fields :=
  .cons 0x07 .opt .name (.cons 0x14 .opt (.struct Schema.metaInfo) (.cons 0x15 .opt .wire (.cons 0x16 .opt (.struct Schema.signatureInfo) .nil)))

/-- a decision procedure for `SignedModel` -/
def signedModelB (ms : List TModel) (fuel : Nat) (m : TModel) (pre : List Field) (mk : Field) (mid : List Field) (sg : Field) (post : List Field) (cov : Txt) : Bool :=
  decide (m.fields = pre ++ mk :: (mid ++ sg :: post)) && m.opts.noCopy && decide ((m.fields.map Field.name).Nodup) &&
    (match mk.cls with | .offset _ => true | .range _ _ _ => true | _ => false) &&
    (match sg.cls with | .signature a b _ => decide (a = mk.name ∧ b = cov) | _ => false) &&
    (pre ++ (mid ++ post)).all (fun f => f.cls.silent || (decide (f.cls = .wire true) || (!decide (f.cls = .wire false) && f.cls.plain (plainAt ms fuel)))) &&
    pre.all fun f => !decide (f.cls = .wire true)

theorem signedModelB_spec {ms : List TModel} {fuel : Nat} {m : TModel} {pre : List Field} {mk : Field} {mid : List Field} {sg : Field} {post : List Field}
    {cov : Txt} (h : signedModelB ms fuel m pre mk mid sg post cov = true) : SignedModel ms fuel m pre mk mid sg post cov := by
  simp only [signedModelB, Bool.and_eq_true, decide_eq_true_eq, List.all_eq_true, Bool.or_eq_true, Bool.not_eq_true', decide_eq_false_iff_not] at h
  obtain ⟨⟨⟨⟨⟨⟨h1, h2⟩, h3⟩, h4⟩, h5⟩, h6⟩, h7⟩ := h
  refine ⟨h1, h2, h3, ?_, ?_, h6, h7⟩
  · cases hc : mk.cls <;> simp only [hc, Bool.false_eq_true] at h4
    · exact .inl ⟨_, rfl⟩
    · exact .inr ⟨_, _, _, rfl⟩
  · cases hc : sg.cls <;> simp only [hc, Bool.false_eq_true, decide_eq_true_eq] at h5
    exact ⟨_, by rw [h5.1, h5.2]⟩

def dataChecked : Bool :=
  match processAll asWritten specSource with
  | .ok ms => match ms.find? fun m => m.name == t!"Data" with
    | some m => decide ((signedText m).map tight = goLines dataGo) && signedModelB ms ms.length m dataPre dataMark dataMid dataSig [] t!"sigCovered" &&
        decide (schemaOf (resolve ms ms.length) (dataMid.filter keep) = some dataSchema)
    | none => false
  | _ => false

theorem dataChecked_true : dataChecked = true := by decide +kernel

/-- **C95, the library**: the encoder of `Data` in the repository is what the generator writes, up to space; and running it gives, for every name, meta-info,
content and signature info, and every signature value that is not empty and of the length that was estimated: a wire which, once the signature is put at the
index that the encoder tells, is the encoding of the Data; and the covered part is the encoding of name, meta-info, content and signature info, no more and
no less.  If no signature is estimated, then the wire is the encoding of the four fields, and nothing is covered. -/
theorem C95_library_partial {ord : Nat → List (Txt × Kind)} (h : ∀ i, (ord i).Perm classTable) : ∃ ms, processAll ord specSource = .ok ms ∧
    SameSigned ms t!"Data" dataGo ∧ ∀ v : dataSchema.V, (∃ kvs, StandsAll ms dataSchema dataMid v kvs) ∧ ∀ kvs, StandsAll ms dataSchema dataMid v kvs →
      (∀ (sig : Bytes) (est : Txt → Nat), sig ≠ [] → est t!"SignatureValue" = sig.length → (dataSchema.enc v ++ tlv 0x17 sig).length < 2 ^ 63 →
        ∃ r, runSigned ms (ms.length + 1) t!"Data" (.ptr (.struct kvs)) est = .ok r ∧ 0 < r.idx t!"SignatureValue" ∧
          ((r.wire.set (r.idx t!"SignatureValue").toNat (.given sig)).map Piece.bytes).flatten = dataSchema.enc v ++ tlv 0x17 sig ∧
          givenOf r.wire = callerBuffers dataSchema v ∧ (r.covered t!"sigCovered").flatten = dataSchema.enc v ∧
          r.length = (dataSchema.enc v ++ tlv 0x17 sig).length) ∧
      (∀ est : Txt → Nat, est t!"SignatureValue" = 0 → (dataSchema.enc v).length < 2 ^ 61 → dataSchema.enc v ≠ [] →
        ∃ r, runSigned ms (ms.length + 1) t!"Data" (.ptr (.struct kvs)) est = .ok r ∧ (r.wire.map Piece.bytes).flatten = dataSchema.enc v ∧
          givenOf r.wire = callerBuffers dataSchema v ∧ r.idx t!"SignatureValue" = -1 ∧ r.covered t!"sigCovered" = [] ∧
          r.length = (dataSchema.enc v).length) := by
  have hb := dataChecked_true
  unfold dataChecked at hb
  split at hb
  · rename_i ms hms
    split at hb
    · rename_i m hm
      simp only [Bool.and_eq_true, decide_eq_true_eq] at hb
      obtain ⟨⟨ht, hs⟩, hf⟩ := hb
      have hs := signedModelB_spec hs
      have n1 : schemaOf (resolve ms ms.length) (dataPre.filter keep) = some .nil := rfl
      have n3 : schemaOf (resolve ms ms.length) (([] : List Field).filter keep) = some .nil := rfl
      have h1 : ∀ kvs, Holds ms ms.length dataPre .nil () kvs := fun kvs => ⟨n1, by simp [StandsAll, dataPre, keep]⟩
      have h3 : ∀ kvs, Holds ms ms.length [] .nil () kvs := fun kvs => ⟨n3, by simp [StandsAll]⟩
      have hz : Fields.nil.enc () = [] := rfl
      have hc : callerBuffers .nil () = [] := rfl
      have hn : dataSig.num = 0x17 := rfl
      have hk : dataMid.filter keep = dataMid := by decide +kernel
      refine ⟨ms, by rw [processAll_order h]; exact hms, ⟨m, hm, ht⟩, fun v => ⟨?_, fun kvs hv => ⟨fun sig est hne he hl => ?_, fun est he hl hne => ?_⟩⟩⟩
      · obtain ⟨kvs, _, h2, _⟩ := C95_represented hs n1 hf n3 () v ()
        exact ⟨kvs, by have := h2.stands; rwa [hk] at this⟩
      · have h2 : Holds ms ms.length dataMid dataSchema v kvs := ⟨hf, by rw [hk]; exact hv⟩
        obtain ⟨r, e1, e2, e3, e4, e5⟩ := C95_signed_partial hm hs (h1 kvs) h2 (h3 kvs) sig he hne (by simpa only [hz, hn, List.nil_append, List.append_nil] using hl)
        obtain ⟨r', _, _, e1', _, _, _, _, eg, _⟩ := C95_encode_partial hm hs (h1 kvs) h2 (h3 kvs) he (List.length_pos_iff.2 hne)
          (by simp only [tlv, List.length_append] at hl; simp only [hz, hn, List.nil_append, List.append_nil, List.length_append]; omega)
        have : r = r' := by rw [e1] at e1'; cases e1'; rfl
        subst this
        rw [show dataSig.name = t!"SignatureValue" from rfl] at e3
        exact ⟨r, e1, e2, by simpa only [hz, hn, List.nil_append, List.append_nil] using e3, by simpa only [hc, List.nil_append, List.append_nil] using eg, e4, by simpa only [hz, hn, List.nil_append, List.append_nil] using e5⟩
      · have h2 : Holds ms ms.length dataMid dataSchema v kvs := ⟨hf, by rw [hk]; exact hv⟩
        have t1 : (tlEnc dataSig.num).length = 1 := by decide
        obtain ⟨r, e1, e2, e3, e4, e5, e6⟩ := C95_unsigned_partial hm hs (h1 kvs) h2 (h3 kvs) he (by rw [t1]; simp only [hz, List.nil_append, List.append_nil]; omega)
          (by simpa only [hz, List.nil_append, List.append_nil] using hne)
        exact ⟨r, e1, by simpa only [hz, List.nil_append, List.append_nil] using e2, by simpa only [hc, List.nil_append, List.append_nil] using e3, e4, e5, by simpa only [hz, List.nil_append, List.append_nil] using e6⟩
    · cases hb
  · cases hb

/-! ## Examples -/

/-- what `runSigned` gave, for one signature -/
def Signed.of (n cov : Txt) (r : Res Signed) : Option (List Piece × Nat × Int × List Bytes) :=
  match r with
  | .ok s => some (s.wire, s.length, s.idx n, s.covered cov)
  | _ => none

/-- a Go value of type `Data` -/
def exampleData (name content : GV) : GV := .ptr (.struct [(t!"NameV", name), (t!"MetaInfo", .nil), (t!"ContentV", content), (t!"SignatureInfo", .nil)])

/-- a Data with a content of two buffers and a signature of 32 bytes -/
example : Signed.of t!"SignatureValue" t!"sigCovered"
    (runSigned (modelsOf specSource) 4 t!"Data" (exampleData (.name [⟨8, [65]⟩]) (.wire [[1, 2], [3]])) (fun _ => 32)) =
    some ([.own [7, 3, 8, 1, 65, 21, 3], .given [1, 2], .given [3], .own [23, 32], .own []], 44, 4, [[7, 3, 8, 1, 65, 21, 3], [1, 2], [3], []]) := by
  decide +kernel

/-- without a signature -/
example : Signed.of t!"SignatureValue" t!"sigCovered"
    (runSigned (modelsOf specSource) 4 t!"Data" (exampleData (.name [⟨8, [65]⟩]) .nil) (fun _ => 0)) =
    some ([.own [7, 3, 8, 1, 65]], 5, -1, []) := by
  decide +kernel

/-- an empty Data without a signature: a panic (`encoder.wirePlan` is empty, and the emitted `Encode` takes `wire[0]`) -/
example : Signed.of t!"SignatureValue" t!"sigCovered" (runSigned (modelsOf specSource) 4 t!"Data" (exampleData .nil .nil) (fun _ => 0)) = none := by
  decide +kernel

/-! ## A marker after a wire -/

/-- a model that the generator accepts: a wire, a marker, a number, and a signature of what is behind the marker -/
def afterWire : TModel :=
  ⟨t!"AfterWire", { noCopy := true },
    [⟨t!"cov", 0, .arg t!"enc.Wire"⟩, ⟨t!"A", 1, .wire true⟩, ⟨t!"start", 0, .offset true⟩, ⟨t!"B", 2, .natural false⟩,
      ⟨t!"S", 3, .signature t!"start" t!"cov" true⟩]⟩

/-- **C95 is violated by models with a wire before the marker**: the marker is the number of bytes since the beginning, but `EncodeInto` uses it as an
index into the buffer that is being filled, signature.go:74-90.  With an empty wire before the marker the covered part lacks the first two of the
three bytes of the number, `[2, 1, 9]`; -/
theorem C95_marker_violated : ∃ wire,
    Signed.of t!"S" t!"cov" (runSigned [afterWire] 2 t!"AfterWire" (.ptr (.struct [(t!"A", .wire []), (t!"B", .num 9)])) fun _ => 4) =
      some (wire, 11, 2, [[9]]) := by
  refine ⟨[.own [1, 0], .own [2, 1, 9, 3, 4], .own []], ?_⟩
  decide +kernel

/-- with a wire of two bytes, the slice has its bounds in the wrong order -/
theorem C95_marker_panics :
    runSigned [afterWire] 2 t!"AfterWire" (.ptr (.struct [(t!"A", .wire [[7, 7]]), (t!"B", .num 9)])) (fun _ => 4) = .panic := by
  have h : (match runSigned [afterWire] 2 t!"AfterWire" (.ptr (.struct [(t!"A", .wire [[7, 7]]), (t!"B", .num 9)])) (fun _ => 4) with
    | .panic => true | _ => false) = true := by decide +kernel
  revert h
  cases runSigned [afterWire] 2 t!"AfterWire" (.ptr (.struct [(t!"A", .wire [[7, 7]]), (t!"B", .num 9)])) (fun _ => 4) <;> simp

/-- all other conditions of `SignedModel` hold of the model -/
example : signedModelB [{ afterWire with fields := afterWire.fields.filter fun f => f.name ≠ t!"A" }] 1
    { afterWire with fields := afterWire.fields.filter fun f => f.name ≠ t!"A" } [⟨t!"cov", 0, .arg t!"enc.Wire"⟩] ⟨t!"start", 0, .offset true⟩
      [⟨t!"B", 2, .natural false⟩] ⟨t!"S", 3, .signature t!"start" t!"cov" true⟩ [] t!"cov" = true := by decide +kernel

end Ndn.Codec.Gen
