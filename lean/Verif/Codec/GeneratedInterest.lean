import Verif.Codec.GoText
import Verif.Codec.GeneratedSigned
import Verif.Codec.InterestProps

/-!
# The encoder of `Interest` in the repository

The Go below is copied from `/repo/pkg/ndn/spec_2022/zz_generated.go`.
-/

namespace Ndn.Codec.Gen

/-- the types and methods of the encoder of `Interest`, copied from `/repo/pkg/ndn/spec_2022/zz_generated.go` -/
def interestGo : Nat × Nat := go! r#"type InterestEncoder struct {
	length uint

	wirePlan []uint

	sigCovered       enc.Wire
	digestCovered    enc.Wire
	NameV_length     uint
	NameV_needDigest bool
	NameV_wireIdx    int
	NameV_pos        uint

	ForwardingHintV_encoder LinksEncoder

	sigCoverStart                int
	sigCoverStart_wireIdx        int
	sigCoverStart_pos            int
	digestCoverStart             int
	digestCoverStart_wireIdx     int
	digestCoverStart_pos         int
	ApplicationParameters_length uint
	SignatureInfo_encoder        SignatureInfoEncoder
	SignatureValue_wireIdx       int
	SignatureValue_estLen        uint
	digestCoverEnd               int
	digestCoverEnd_wireIdx       int
	digestCoverEnd_pos           int
}
func (encoder *InterestEncoder) Init(value *Interest) {

	encoder.NameV_wireIdx = -1
	encoder.NameV_length = 0
	if value.NameV != nil {
		if len(value.NameV) > 0 && value.NameV[len(value.NameV)-1].Typ == enc.TypeParametersSha256DigestComponent {
			value.NameV = value.NameV[:len(value.NameV)-1]
		}
		if encoder.NameV_needDigest {
			value.NameV = append(value.NameV, enc.Component{
				Typ: enc.TypeParametersSha256DigestComponent,
				Val: make([]byte, 32),
			})
		}
		for _, c := range value.NameV {
			encoder.NameV_length += uint(c.EncodingLength())
		}
	}

	if value.ForwardingHintV != nil {
		encoder.ForwardingHintV_encoder.Init(value.ForwardingHintV)
	}

	if value.ApplicationParameters != nil {
		encoder.ApplicationParameters_length = 0
		for _, c := range value.ApplicationParameters {
			encoder.ApplicationParameters_length += uint(len(c))
		}
	}
	if value.SignatureInfo != nil {
		encoder.SignatureInfo_encoder.Init(value.SignatureInfo)
	}
	encoder.SignatureValue_wireIdx = -1

	l := uint(0)

	if value.NameV != nil {
		l += 1
		switch x := encoder.NameV_length; {
		case x <= 0xfc:
			l += 1
		case x <= 0xffff:
			l += 3
		case x <= 0xffffffff:
			l += 5
		default:
			l += 9
		}
		l += encoder.NameV_length
	}
	if value.CanBePrefixV {
		l += 1
		l += 1
	}
	if value.MustBeFreshV {
		l += 1
		l += 1
	}
	if value.ForwardingHintV != nil {
		l += 1
		switch x := encoder.ForwardingHintV_encoder.length; {
		case x <= 0xfc:
			l += 1
		case x <= 0xffff:
			l += 3
		case x <= 0xffffffff:
			l += 5
		default:
			l += 9
		}
		l += encoder.ForwardingHintV_encoder.length
	}
	if value.NonceV != nil {
		l += 1
		l += 1 + 4
	}
	if value.InterestLifetimeV != nil {
		l += 1
		switch x := uint64(*value.InterestLifetimeV / time.Millisecond); {
		case x <= 0xff:
			l += 2
		case x <= 0xffff:
			l += 3
		case x <= 0xffffffff:
			l += 5
		default:
			l += 9
		}
	}
	if value.HopLimitV != nil {
		l += 1
		l += 1 + 1
	}
	encoder.sigCoverStart = int(l)
	encoder.digestCoverStart = int(l)
	if value.ApplicationParameters != nil {
		l += 1
		switch x := encoder.ApplicationParameters_length; {
		case x <= 0xfc:
			l += 1
		case x <= 0xffff:
			l += 3
		case x <= 0xffffffff:
			l += 5
		default:
			l += 9
		}
		l += encoder.ApplicationParameters_length
	}
	if value.SignatureInfo != nil {
		l += 1
		switch x := encoder.SignatureInfo_encoder.length; {
		case x <= 0xfc:
			l += 1
		case x <= 0xffff:
			l += 3
		case x <= 0xffffffff:
			l += 5
		default:
			l += 9
		}
		l += encoder.SignatureInfo_encoder.length
	}
	if encoder.SignatureValue_estLen > 0 {
		l += 1
		switch x := encoder.SignatureValue_estLen; {
		case x <= 0xfc:
			l += 1
		case x <= 0xffff:
			l += 3
		case x <= 0xffffffff:
			l += 5
		default:
			l += 9
		}
		l += encoder.SignatureValue_estLen
	}
	encoder.digestCoverEnd = int(l)
	encoder.length = l

	wirePlan := make([]uint, 0)
	l = uint(0)

	if value.NameV != nil {
		l += 1
		switch x := encoder.NameV_length; {
		case x <= 0xfc:
			l += 1
		case x <= 0xffff:
			l += 3
		case x <= 0xffffffff:
			l += 5
		default:
			l += 9
		}
		l += encoder.NameV_length
	}
	if value.CanBePrefixV {
		l += 1
		l += 1
	}
	if value.MustBeFreshV {
		l += 1
		l += 1
	}
	if value.ForwardingHintV != nil {
		l += 1
		switch x := encoder.ForwardingHintV_encoder.length; {
		case x <= 0xfc:
			l += 1
		case x <= 0xffff:
			l += 3
		case x <= 0xffffffff:
			l += 5
		default:
			l += 9
		}
		l += encoder.ForwardingHintV_encoder.length
	}
	if value.NonceV != nil {
		l += 1
		l += 1 + 4
	}
	if value.InterestLifetimeV != nil {
		l += 1
		switch x := uint64(*value.InterestLifetimeV / time.Millisecond); {
		case x <= 0xff:
			l += 2
		case x <= 0xffff:
			l += 3
		case x <= 0xffffffff:
			l += 5
		default:
			l += 9
		}
	}
	if value.HopLimitV != nil {
		l += 1
		l += 1 + 1
	}

	if value.ApplicationParameters != nil {
		l += 1
		switch x := encoder.ApplicationParameters_length; {
		case x <= 0xfc:
			l += 1
		case x <= 0xffff:
			l += 3
		case x <= 0xffffffff:
			l += 5
		default:
			l += 9
		}
		wirePlan = append(wirePlan, l)
		l = 0
		for range value.ApplicationParameters {
			wirePlan = append(wirePlan, l)
			l = 0
		}
	}
	if value.SignatureInfo != nil {
		l += 1
		switch x := encoder.SignatureInfo_encoder.length; {
		case x <= 0xfc:
			l += 1
		case x <= 0xffff:
			l += 3
		case x <= 0xffffffff:
			l += 5
		default:
			l += 9
		}
		l += encoder.SignatureInfo_encoder.length
	}
	if encoder.SignatureValue_estLen > 0 {
		l += 1
		switch x := encoder.SignatureValue_estLen; {
		case x <= 0xfc:
			l += 1
		case x <= 0xffff:
			l += 3
		case x <= 0xffffffff:
			l += 5
		default:
			l += 9
		}
		wirePlan = append(wirePlan, l)
		l = 0
		encoder.SignatureValue_wireIdx = len(wirePlan)
		wirePlan = append(wirePlan, l)
		l = 0
	}

	if l > 0 {
		wirePlan = append(wirePlan, l)
	}
	encoder.wirePlan = wirePlan
}
func (encoder *InterestEncoder) EncodeInto(value *Interest, wire enc.Wire) {

	wireIdx := 0
	buf := wire[wireIdx]

	pos := uint(0)

	if value.NameV != nil {
		buf[pos] = byte(7)
		pos += 1
		switch x := encoder.NameV_length; {
		case x <= 0xfc:
			buf[pos] = byte(x)
			pos += 1
		case x <= 0xffff:
			buf[pos] = 0xfd
			binary.BigEndian.PutUint16(buf[pos+1:], uint16(x))
			pos += 3
		case x <= 0xffffffff:
			buf[pos] = 0xfe
			binary.BigEndian.PutUint32(buf[pos+1:], uint32(x))
			pos += 5
		default:
			buf[pos] = 0xff
			binary.BigEndian.PutUint64(buf[pos+1:], uint64(x))
			pos += 9
		}
		sigCoverStart := pos

		i := 0
		for i = 0; i < len(value.NameV)-1; i++ {
			c := value.NameV[i]
			pos += uint(c.EncodeInto(buf[pos:]))
		}
		sigCoverEnd := pos
		encoder.NameV_wireIdx = int(wireIdx)
		if len(value.NameV) > 0 {
			encoder.NameV_pos = pos + 2
			c := value.NameV[i]
			pos += uint(c.EncodeInto(buf[pos:]))
			if !encoder.NameV_needDigest {
				sigCoverEnd = pos
			}
		}
		encoder.sigCovered = append(encoder.sigCovered, buf[sigCoverStart:sigCoverEnd])
	}
	if value.CanBePrefixV {
		buf[pos] = byte(33)
		pos += 1
		buf[pos] = byte(0)
		pos += 1
	}
	if value.MustBeFreshV {
		buf[pos] = byte(18)
		pos += 1
		buf[pos] = byte(0)
		pos += 1
	}
	if value.ForwardingHintV != nil {
		buf[pos] = byte(30)
		pos += 1
		switch x := encoder.ForwardingHintV_encoder.length; {
		case x <= 0xfc:
			buf[pos] = byte(x)
			pos += 1
		case x <= 0xffff:
			buf[pos] = 0xfd
			binary.BigEndian.PutUint16(buf[pos+1:], uint16(x))
			pos += 3
		case x <= 0xffffffff:
			buf[pos] = 0xfe
			binary.BigEndian.PutUint32(buf[pos+1:], uint32(x))
			pos += 5
		default:
			buf[pos] = 0xff
			binary.BigEndian.PutUint64(buf[pos+1:], uint64(x))
			pos += 9
		}
		if encoder.ForwardingHintV_encoder.length > 0 {
			encoder.ForwardingHintV_encoder.EncodeInto(value.ForwardingHintV, buf[pos:])
			pos += encoder.ForwardingHintV_encoder.length
		}
	}
	if value.NonceV != nil {
		buf[pos] = byte(10)
		pos += 1
		buf[pos] = 4
		binary.BigEndian.PutUint32(buf[pos+1:], uint32(*value.NonceV))
		pos += 5
	}
	if value.InterestLifetimeV != nil {
		buf[pos] = byte(12)
		pos += 1
		switch x := uint64(*value.InterestLifetimeV / time.Millisecond); {
		case x <= 0xff:
			buf[pos] = 1
			buf[pos+1] = byte(x)
			pos += 2
		case x <= 0xffff:
			buf[pos] = 2
			binary.BigEndian.PutUint16(buf[pos+1:], uint16(x))
			pos += 3
		case x <= 0xffffffff:
			buf[pos] = 4
			binary.BigEndian.PutUint32(buf[pos+1:], uint32(x))
			pos += 5
		default:
			buf[pos] = 8
			binary.BigEndian.PutUint64(buf[pos+1:], uint64(x))
			pos += 9
		}
	}
	if value.HopLimitV != nil {
		buf[pos] = byte(34)
		pos += 1
		buf[pos] = 1
		buf[pos+1] = byte(*value.HopLimitV)
		pos += 2
	}
	encoder.sigCoverStart_wireIdx = int(wireIdx)
	encoder.sigCoverStart_pos = int(pos)
	encoder.digestCoverStart_wireIdx = int(wireIdx)
	encoder.digestCoverStart_pos = int(pos)
	if value.ApplicationParameters != nil {
		buf[pos] = byte(36)
		pos += 1
		switch x := encoder.ApplicationParameters_length; {
		case x <= 0xfc:
			buf[pos] = byte(x)
			pos += 1
		case x <= 0xffff:
			buf[pos] = 0xfd
			binary.BigEndian.PutUint16(buf[pos+1:], uint16(x))
			pos += 3
		case x <= 0xffffffff:
			buf[pos] = 0xfe
			binary.BigEndian.PutUint32(buf[pos+1:], uint32(x))
			pos += 5
		default:
			buf[pos] = 0xff
			binary.BigEndian.PutUint64(buf[pos+1:], uint64(x))
			pos += 9
		}
		wireIdx++
		pos = 0
		if wireIdx < len(wire) {
			buf = wire[wireIdx]
		} else {
			buf = nil
		}
		for _, w := range value.ApplicationParameters {
			wire[wireIdx] = w
			wireIdx++
			pos = 0
			if wireIdx < len(wire) {
				buf = wire[wireIdx]
			} else {
				buf = nil
			}
		}
	}
	if value.SignatureInfo != nil {
		buf[pos] = byte(44)
		pos += 1
		switch x := encoder.SignatureInfo_encoder.length; {
		case x <= 0xfc:
			buf[pos] = byte(x)
			pos += 1
		case x <= 0xffff:
			buf[pos] = 0xfd
			binary.BigEndian.PutUint16(buf[pos+1:], uint16(x))
			pos += 3
		case x <= 0xffffffff:
			buf[pos] = 0xfe
			binary.BigEndian.PutUint32(buf[pos+1:], uint32(x))
			pos += 5
		default:
			buf[pos] = 0xff
			binary.BigEndian.PutUint64(buf[pos+1:], uint64(x))
			pos += 9
		}
		if encoder.SignatureInfo_encoder.length > 0 {
			encoder.SignatureInfo_encoder.EncodeInto(value.SignatureInfo, buf[pos:])
			pos += encoder.SignatureInfo_encoder.length
		}
	}
	if encoder.SignatureValue_estLen > 0 {
		startPos := int(pos)
		buf[pos] = byte(46)
		pos += 1
		switch x := encoder.SignatureValue_estLen; {
		case x <= 0xfc:
			buf[pos] = byte(x)
			pos += 1
		case x <= 0xffff:
			buf[pos] = 0xfd
			binary.BigEndian.PutUint16(buf[pos+1:], uint16(x))
			pos += 3
		case x <= 0xffffffff:
			buf[pos] = 0xfe
			binary.BigEndian.PutUint32(buf[pos+1:], uint32(x))
			pos += 5
		default:
			buf[pos] = 0xff
			binary.BigEndian.PutUint64(buf[pos+1:], uint64(x))
			pos += 9
		}
		if encoder.sigCoverStart_wireIdx == int(wireIdx) {
			coveredPart := buf[encoder.sigCoverStart:startPos]
			encoder.sigCovered = append(encoder.sigCovered, coveredPart)
		} else {
			coverStart := wire[encoder.sigCoverStart_wireIdx][encoder.sigCoverStart:]
			encoder.sigCovered = append(encoder.sigCovered, coverStart)
			for i := encoder.sigCoverStart_wireIdx + 1; i < int(wireIdx); i++ {
				encoder.sigCovered = append(encoder.sigCovered, wire[i])
			}
			coverEnd := buf[:startPos]
			encoder.sigCovered = append(encoder.sigCovered, coverEnd)
		}
		wireIdx++
		pos = 0
		if wireIdx < len(wire) {
			buf = wire[wireIdx]
		} else {
			buf = nil
		}
		wireIdx++
		pos = 0
		if wireIdx < len(wire) {
			buf = wire[wireIdx]
		} else {
			buf = nil
		}
	}
	encoder.digestCoverEnd_wireIdx = int(wireIdx)
	encoder.digestCoverEnd_pos = int(pos)
}
func (encoder *InterestEncoder) Encode(value *Interest) enc.Wire {

	wire := make(enc.Wire, len(encoder.wirePlan))
	for i, l := range encoder.wirePlan {
		if l > 0 {
			wire[i] = make([]byte, l)
		}
	}
	encoder.EncodeInto(value, wire)

	return wire
}
"#

/-- the arguments of the parser, definitions.go:119-122 -/
def interestArgs : List Field := [⟨t!"sigCovered", 0, .arg t!"enc.Wire"⟩, ⟨t!"digestCovered", 0, .arg t!"enc.Wire"⟩]

/-- the name -/
def interestName : Field := ⟨t!"NameV", 0x07, .interestName t!"sigCovered"⟩

/-- the fields that are not signed -/
def interestPre : List Field :=
  [⟨t!"CanBePrefixV", 0x21, .bool⟩, ⟨t!"MustBeFreshV", 0x12, .bool⟩, ⟨t!"ForwardingHintV", 0x1e, .struct t!"Links" false⟩, ⟨t!"NonceV", 0x0a, .fixedUint 4 true⟩,
    ⟨t!"InterestLifetimeV", 0x0c, .time true⟩, ⟨t!"HopLimitV", 0x22, .fixedUint 1 true⟩]

/-- the marker, definitions.go:140 -/
def interestMark : Field := ⟨t!"sigCoverStart", 0, .offset true⟩

/-- the fields that are signed, after a marker of what the digest is of -/
def interestMid : List Field :=
  [⟨t!"digestCoverStart", 0, .offset true⟩, ⟨t!"ApplicationParameters", 0x24, .wire true⟩, ⟨t!"SignatureInfo", 0x2c, .struct t!"SignatureInfo" false⟩]

/-- the signature -/
def interestSig : Field := ⟨t!"SignatureValue", 0x2e, .signature t!"sigCoverStart" t!"sigCovered" true⟩

/-- the other end of what the digest is of -/
def interestPost : List Field := [⟨t!"digestCoverEnd", 0, .range t!"digestCoverStart" t!"digestCovered" true⟩]

/-- the schema of what is between name and parameters: CanBePrefix, MustBeFresh, ForwardingHint, Nonce, InterestLifetime and HopLimit of the NDN packet format -/
def selectorSchema : Fields :=
  .flag 0x21 (.flag 0x12 (.cons 0x1e .opt (.struct Schema.links) (.cons 0x0a .opt (.fixed 4 false) (.cons 0x0c .opt .time (.cons 0x22 .opt (.fixed 1 true) .nil)))))

/-- the schema of ApplicationParameters and InterestSignatureInfo -/
def paramSchema : Fields := .cons 0x24 .opt .wire (.cons 0x2c .opt (.struct Schema.signatureInfo) .nil)

/-- a decision procedure for `InterestModel` -/
def interestModelB (ms : List TModel) (fuel : Nat) (m : TModel) (args : List Field) (nf : Field) (pre : List Field) (mk : Field) (mid : List Field) (sg : Field)
    (post : List Field) (cov : Txt) : Bool :=
  decide (m.fields = args ++ nf :: (pre ++ mk :: (mid ++ sg :: post))) && m.opts.noCopy && decide ((m.fields.map Field.name).Nodup) &&
    args.all (fun f => match f.cls with | .arg _ => true | _ => false) && decide (nf.cls = .interestName cov) &&
    (match mk.cls with | .offset _ => true | .range _ _ _ => true | _ => false) &&
    (match sg.cls with | .signature a b _ => decide (a = mk.name ∧ b = cov) | _ => false) &&
    (pre ++ (mid ++ post)).all (fun f => f.cls.silent || (decide (f.cls = .wire true) || (!decide (f.cls = .wire false) && f.cls.plain (plainAt ms fuel)))) &&
    pre.all fun f => !decide (f.cls = .wire true)

theorem interestModelB_spec {ms : List TModel} {fuel : Nat} {m : TModel} {args : List Field} {nf : Field} {pre : List Field} {mk : Field} {mid : List Field} {sg : Field}
    {post : List Field} {cov : Txt} (h : interestModelB ms fuel m args nf pre mk mid sg post cov = true) : InterestModel ms fuel m args nf pre mk mid sg post cov := by
  simp only [interestModelB, Bool.and_eq_true, decide_eq_true_eq, List.all_eq_true, Bool.or_eq_true, Bool.not_eq_true', decide_eq_false_iff_not] at h
  obtain ⟨⟨⟨⟨⟨⟨⟨⟨h1, h2⟩, h3⟩, h8⟩, h9⟩, h4⟩, h5⟩, h6⟩, h7⟩ := h
  refine ⟨h1, h2, h3, ?_, h9, ?_, ?_, h6, h7⟩
  · intro f hf
    have := h8 f hf
    cases hc : f.cls <;> simp only [hc, Bool.false_eq_true] at this
    exact ⟨_, rfl⟩
  · cases hc : mk.cls <;> simp only [hc, Bool.false_eq_true] at h4
    · exact .inl ⟨_, rfl⟩
    · exact .inr ⟨_, _, _, rfl⟩
  · cases hc : sg.cls <;> simp only [hc, Bool.false_eq_true, decide_eq_true_eq] at h5
    exact ⟨_, by rw [h5.1, h5.2]⟩

def interestChecked : Bool :=
  match processAll asWritten specSource with
  | .ok ms => match ms.find? fun m => m.name == t!"Interest" with
    | some m => decide ((signedText m).map tight = goLines interestGo) &&
        interestModelB ms ms.length m interestArgs interestName interestPre interestMark interestMid interestSig interestPost t!"sigCovered" &&
        decide (schemaOf (resolve ms ms.length) (interestPre.filter keep) = some selectorSchema) &&
        decide (schemaOf (resolve ms ms.length) (interestMid.filter keep) = some paramSchema)
    | none => false
  | _ => false

theorem interestChecked_true : interestChecked = true := by decide +kernel

theorem tlEnc_le (n : Nat) : (tlEnc n).length ≤ 9 := by
  unfold tlEnc
  split <;> [skip; split <;> [skip; split]] <;> simp

/-- the members of a Go struct stand for an Interest with the name `n`, the selectors `v1`, and the parameters and signature info `v2` -/
def StandsInterest (ms : List TModel) (n : Name) (v1 : selectorSchema.V) (v2 : paramSchema.V) (kvs : List (Txt × GV)) : Prop :=
  lookup t!"NameV" kvs = some (.name n) ∧ StandsAll ms selectorSchema interestPre v1 kvs ∧ StandsAll ms paramSchema (interestMid.filter keep) v2 kvs

/-- an Interest of the NDN packet format, without the outermost type and length -/
def interestBytes (n : Name) (v1 : selectorSchema.V) (v2 : paramSchema.V) (sig : Bytes) : Bytes :=
  tlv 0x07 (Name.encBody n) ++ selectorSchema.enc v1 ++ paramSchema.enc v2 ++ sig

/-- **C96, the library**: the encoder of `Interest` in the repository is what the generator writes, up to space; and running it gives, for every name, with or
without a digest at its end, all selectors, parameters and signature info: a wire which, once a signature of the estimated length is put at the index and a
digest at the index and position that the encoder tells, is the encoding of the Interest, with that digest in place of the one there was.  The covered part
is the components of the name without the digest, the parameters and the signature info, no more and no less. -/
theorem C96_library_partial {ord : Nat → List (Txt × Kind)} (h : ∀ i, (ord i).Perm classTable) : ∃ ms, processAll ord specSource = .ok ms ∧
    SameSigned ms t!"Interest" interestGo ∧ ∀ (n base : Name) (v1 : selectorSchema.V) (v2 : paramSchema.V), DigestFree n base →
      (∃ kvs, StandsInterest ms n v1 v2 kvs) ∧ ∀ kvs, StandsInterest ms n v1 v2 kvs → ∀ (est : Txt → Nat) (need : Txt → Bool) (E : Nat),
        est t!"SignatureValue" = E → (tlv 0x07 (Name.encBody base) ++ selectorSchema.enc v1 ++ paramSchema.enc v2).length + E < 2 ^ 61 →
        ∃ r, runSigned ms (ms.length + 1) t!"Interest" (.ptr (.struct kvs)) est need = .ok r ∧ r.idx t!"NameV" = 0 ∧
          givenOf r.wire = callerBuffers paramSchema v2 ∧
          (0 < E → 0 < r.idx t!"SignatureValue" ∧ (r.covered t!"sigCovered").flatten = Name.encBody base ++ paramSchema.enc v2 ∧ ∀ sig d : Bytes, sig.length = E → d.length = 32 →
            ((if need t!"NameV" then putDigest (r.wire.set (r.idx t!"SignatureValue").toNat (.given sig)) 0 (r.pos t!"NameV").toNat d
              else r.wire.set (r.idx t!"SignatureValue").toNat (.given sig)).map Piece.bytes).flatten =
                interestBytes (nameWith (need t!"NameV") base d) v1 v2 (tlv 0x2e sig) ∧
            r.length = (interestBytes (nameWith (need t!"NameV") base d) v1 v2 (tlv 0x2e sig)).length) ∧
          (E = 0 → (r.covered t!"sigCovered").flatten = Name.encBody base ∧ r.idx t!"SignatureValue" = -1 ∧ ∀ d : Bytes, d.length = 32 →
            ((if need t!"NameV" then putDigest r.wire 0 (r.pos t!"NameV").toNat d else r.wire).map Piece.bytes).flatten =
              interestBytes (nameWith (need t!"NameV") base d) v1 v2 [] ∧
            r.length = (interestBytes (nameWith (need t!"NameV") base d) v1 v2 []).length) := by
  have hb := interestChecked_true
  unfold interestChecked at hb
  split at hb
  · rename_i ms hms
    split at hb
    · rename_i m hm
      simp only [Bool.and_eq_true, decide_eq_true_eq] at hb
      obtain ⟨⟨⟨ht, hs⟩, hf1⟩, hf2⟩ := hb
      have hs := interestModelB_spec hs
      have n3 : schemaOf (resolve ms ms.length) (interestPost.filter keep) = some .nil := rfl
      have h3 : ∀ kvs, Holds ms ms.length interestPost .nil () kvs := fun kvs => ⟨n3, by simp [StandsAll, interestPost, keep]⟩
      have hz : Fields.nil.enc () = [] := rfl
      have hc : callerBuffers .nil () = [] := rfl
      have hk1 : interestPre.filter keep = interestPre := by decide +kernel
      have hsel : ∀ v1 : selectorSchema.V, callerBuffers selectorSchema v1 = [] := fun _ => rfl
      refine ⟨ms, by rw [processAll_order h]; exact hms, ⟨m, hm, ht⟩, fun n base v1 v2 hdf => ⟨?_, fun kvs hv est need E he hl => ?_⟩⟩
      · have n1 : schemaOf (resolve ms ms.length) ((interestArgs ++ plainName interestName :: interestPre).filter keep) = some (.cons 0x07 .opt .name selectorSchema) := by
          rw [show (interestArgs ++ plainName interestName :: interestPre).filter keep = plainName interestName :: interestPre.filter keep by decide +kernel]
          simp only [schemaOf, hf1]
          rfl
        obtain ⟨kvs, h1, h2, _⟩ := C95_represented hs.toSigned n1 hf2 n3 (some n, v1) v2 ()
        have h1 := h1.stands
        rw [show (interestArgs ++ plainName interestName :: interestPre).filter keep = plainName interestName :: interestPre by decide +kernel] at h1
        simp only [StandsAll] at h1
        obtain ⟨f, l, e, _, _, ⟨g, hg1, hg2⟩, hr⟩ := h1
        obtain ⟨rfl, rfl⟩ := List.cons.inj e
        refine ⟨kvs, ?_, hr, h2.stands⟩
        obtain ⟨_, rfl⟩ := hg2
        exact hg1
      · obtain ⟨hn, hv1, hv2⟩ := hv
        have h1 : Holds ms ms.length interestPre selectorSchema v1 kvs := ⟨hf1, by rw [hk1]; exact hv1⟩
        have h2 : Holds ms ms.length interestMid paramSchema v2 kvs := ⟨hf2, hv2⟩
        have hnl : (tlv interestName.num (Name.encBody (nameWith (need t!"NameV") base (List.replicate 32 0)))).length ≤
            (tlv 0x07 (Name.encBody base)).length + 44 := by
          have hle := tlEnc_le (Name.encBody (nameWith (need t!"NameV") base (List.replicate 32 0))).length
          have hlb : (Name.encBody (nameWith (need t!"NameV") base (List.replicate 32 0))).length ≤ (Name.encBody base).length + 34 := by
            cases need t!"NameV"
            · simp [nameWith]
            · simp only [nameWith, if_true, encBody_append, List.length_append, digest_comp _ (List.length_replicate ..), List.length_cons, List.length_replicate]
              omega
          have h7 : (tlEnc interestName.num).length = 1 := by decide
          have h7' : (tlEnc 0x07).length = 1 := by decide
          simp only [tlv, List.length_append, h7, h7', tlEnc_length]
          rw [tlEnc_length] at hle
          omega
        have hcap : callerBuffers selectorSchema v1 ++ callerBuffers paramSchema v2 ++ callerBuffers .nil () = callerBuffers paramSchema v2 := by
          rw [hsel, hc, List.nil_append, List.append_nil]
        have h2e : (tlEnc interestSig.num).length = 1 := by decide
        simp only [List.length_append] at hl
        rcases Nat.eq_zero_or_pos E with h0 | h0
        · obtain ⟨r, e1, e2, e3, e4, e5, e6⟩ := C96_unsigned_partial hm hs hn hdf h1 h2 (h3 kvs) (need := need) (he.trans h0)
            (by rw [h2e]; simp only [hz, List.append_nil, List.length_append]; rw [show interestName.name = t!"NameV" from rfl]; omega)
          rw [hcap] at e5
          refine ⟨r, e1, e2, e5, fun hp => by omega, fun _ => ⟨e4, e3, fun d hd => ?_⟩⟩
          have := e6 d hd
          rw [e2] at this
          simp only [hz, List.append_nil, Int.toNat_zero] at this
          simp only [interestBytes, List.append_nil]
          exact this
        · have hEl := tlEnc_le E
          obtain ⟨r, e1, e2, ei, e3, e4, e5⟩ := C96_signed_partial hm hs hn hdf h1 h2 (h3 kvs) (need := need) he h0
            (by simp only [hz, List.append_nil, List.length_append, h2e]; rw [show interestName.name = t!"NameV" from rfl]; omega)
          rw [hcap] at e4
          refine ⟨r, e1, e2, e4, fun _ => ⟨ei, e3, fun sig d hsig hd => ?_⟩, fun hp => by omega⟩
          have := e5 sig d hsig hd
          rw [e2] at this
          simp only [hz, List.append_nil, Int.toNat_zero] at this
          simp only [interestBytes]
          exact this
    · cases hb
  · cases hb

/-! ## Examples -/

/-- what the encoder of an Interest tells -/
structure Told where
  wire : List Piece
  length : Nat
  sigIdx : Int
  nameIdx : Int
  namePos : Int
  covered : List Bytes
  deriving DecidableEq

/-- what `runSigned` gave, for a signature and a name -/
def Signed.ofName (sg n cov : Txt) (r : Res Signed) : Option Told :=
  match r with
  | .ok s => some ⟨s.wire, s.length, s.idx sg, s.idx n, s.pos n, s.covered cov⟩
  | _ => none

/-- a Go value of type `Interest` -/
def exampleInterest (name params : GV) : GV :=
  .ptr (.struct [(t!"NameV", name), (t!"CanBePrefixV", .bool false), (t!"MustBeFreshV", .bool true), (t!"ForwardingHintV", .nil), (t!"NonceV", .nil),
    (t!"InterestLifetimeV", .nil), (t!"HopLimitV", .nil), (t!"ApplicationParameters", params), (t!"SignatureInfo", .nil)])

/-- a signed Interest with parameters of two buffers, and a signature of 4 bytes: the digest has its place at 7 of the first buffer -/
example : Signed.ofName t!"SignatureValue" t!"NameV" t!"sigCovered"
    (runSigned (modelsOf specSource) 4 t!"Interest" (exampleInterest (.name [⟨8, [65]⟩]) (.wire [[1, 2], [3]])) (fun _ => 4) fun _ => true) =
    some ⟨[.own ([7, 37, 8, 1, 65, 2, 32] ++ List.replicate 32 0 ++ [18, 0, 36, 3]), .given [1, 2], .given [3], .own [46, 4], .own []], 52, 4, 0, 7,
      [[8, 1, 65], [36, 3], [1, 2], [3], []]⟩ := by decide +kernel

/-- an Interest with parameters but no signature, and a name with an old digest -/
example : Signed.ofName t!"SignatureValue" t!"NameV" t!"sigCovered"
    (runSigned (modelsOf specSource) 4 t!"Interest" (exampleInterest (.name [⟨8, [65]⟩, ⟨2, [1, 2]⟩]) (.wire [[1, 2], [3]])) (fun _ => 0) fun _ => true) =
    some ⟨[.own ([7, 37, 8, 1, 65, 2, 32] ++ List.replicate 32 0 ++ [18, 0, 36, 3]), .given [1, 2], .given [3]], 46, -1, 0, 7, [[8, 1, 65]]⟩ := by decide +kernel

/-- an Interest that needs no digest: the old one is gone -/
example : Signed.ofName t!"SignatureValue" t!"NameV" t!"sigCovered"
    (runSigned (modelsOf specSource) 4 t!"Interest" (exampleInterest (.name [⟨8, [65]⟩, ⟨2, [1, 2]⟩]) .nil) (fun _ => 0) fun _ => false) =
    some ⟨[.own [7, 3, 8, 1, 65, 18, 0]], 7, -1, 0, 4, [[8, 1, 65]]⟩ := by decide +kernel

/-- the two cases of `DigestFree` -/
example : DigestFree [⟨8, [65]⟩] [⟨8, [65]⟩] ∧ DigestFree [⟨8, [65]⟩, ⟨2, [1, 2]⟩] [⟨8, [65]⟩] :=
  ⟨.inl ⟨rfl, fun c hc => by cases hc; decide⟩, .inr ⟨⟨2, [1, 2]⟩, rfl, rfl⟩⟩

/-- **C96 is violated by a nil name**: although it needs a digest, the wire has neither a name nor a place for the digest, and the index is -1; `MakeInterest`
takes `finalName[len(finalName)-1]` then, spec.go:497.  (An empty name that is not nil gets a digest.) -/
theorem C96_nil_violated : Signed.ofName t!"SignatureValue" t!"NameV" t!"sigCovered"
    (runSigned (modelsOf specSource) 4 t!"Interest" (exampleInterest .nil (.wire [])) (fun _ => 3) fun _ => true) =
    some ⟨[.own [18, 0, 36, 0], .own [46, 3], .own []], 9, 2, -1, 0, [[36, 0], []]⟩ ∧
  Signed.ofName t!"SignatureValue" t!"NameV" t!"sigCovered"
    (runSigned (modelsOf specSource) 4 t!"Interest" (exampleInterest (.name []) (.wire [])) (fun _ => 3) fun _ => true) =
    some ⟨[.own ([7, 34, 2, 32] ++ List.replicate 32 0 ++ [18, 0, 36, 0]), .own [46, 3], .own []], 45, 2, 0, 4, [[], [36, 0], []]⟩ := by
  constructor <;> decide +kernel

end Ndn.Codec.Gen
