import Verif.Codec.GoText
import Verif.Codec.NoCopyProps

/-!
# The encoders of models with `nocopy` in the repository

The Go below is copied from `/repo/pkg/ndn/spec_2022/zz_generated.go` and `/repo/pkg/schema/demosec/zz_generated.go`.
-/

namespace Ndn.Codec.Gen

/-- the encoder of the model called `n`, as the generator writes it, is the Go `g` up to space -/
def SameNoCopy (ms : List TModel) (n : Txt) (g : Nat × Nat) : Prop := ∃ m, (ms.find? fun m => m.name == n) = some m ∧ (noCopyText m).map tight = goLines g

def sameNoCopy (ms : List TModel) (n : Txt) (g : Nat × Nat) : Bool :=
  match ms.find? fun m => m.name == n with
  | some m => decide ((noCopyText m).map tight = goLines g)
  | none => false

theorem sameNoCopy_spec {ms : List TModel} {n : Txt} {g : Nat × Nat} (h : sameNoCopy ms n g = true) : SameNoCopy ms n g := by
  unfold sameNoCopy at h
  split at h
  · rename_i m hm; exact ⟨m, hm, of_decide_eq_true h⟩
  · cases h

/-- the types and methods of the encoder of `LpPacket`, copied from `/repo/pkg/ndn/spec_2022/zz_generated.go` -/
def lpPacketGo : Nat × Nat := go! r#"type LpPacketEncoder struct {
	length uint

	wirePlan []uint

	Nack_encoder NetworkNackEncoder

	CachePolicy_encoder CachePolicyEncoder

	PrefixAnnouncement_length uint
	Fragment_length           uint
}
func (encoder *LpPacketEncoder) Init(value *LpPacket) {

	if value.Nack != nil {
		encoder.Nack_encoder.Init(value.Nack)
	}

	if value.CachePolicy != nil {
		encoder.CachePolicy_encoder.Init(value.CachePolicy)
	}

	if value.PrefixAnnouncement != nil {
		encoder.PrefixAnnouncement_length = 0
		for _, c := range value.PrefixAnnouncement {
			encoder.PrefixAnnouncement_length += uint(len(c))
		}
	}
	if value.Fragment != nil {
		encoder.Fragment_length = 0
		for _, c := range value.Fragment {
			encoder.Fragment_length += uint(len(c))
		}
	}

	l := uint(0)
	if value.Sequence != nil {
		l += 1
		l += 1 + 8
	}
	if value.FragIndex != nil {
		l += 1
		switch x := *value.FragIndex; {
		case x <= 0xff:
			l += 2
		case x <= 0xffff:
			l += 3
		case x <= 0xffffffff:
			l += 5
		default:
			l += 9
		}
	}
	if value.FragCount != nil {
		l += 1
		switch x := *value.FragCount; {
		case x <= 0xff:
			l += 2
		case x <= 0xffff:
			l += 3
		case x <= 0xffffffff:
			l += 5
		default:
			l += 9
		}
	}
	if value.PitToken != nil {
		l += 1
		switch x := len(value.PitToken); {
		case x <= 0xfc:
			l += 1
		case x <= 0xffff:
			l += 3
		case x <= 0xffffffff:
			l += 5
		default:
			l += 9
		}
		l += uint(len(value.PitToken))
	}
	if value.Nack != nil {
		l += 3
		switch x := encoder.Nack_encoder.length; {
		case x <= 0xfc:
			l += 1
		case x <= 0xffff:
			l += 3
		case x <= 0xffffffff:
			l += 5
		default:
			l += 9
		}
		l += encoder.Nack_encoder.length
	}
	if value.IncomingFaceId != nil {
		l += 3
		switch x := *value.IncomingFaceId; {
		case x <= 0xff:
			l += 2
		case x <= 0xffff:
			l += 3
		case x <= 0xffffffff:
			l += 5
		default:
			l += 9
		}
	}
	if value.NextHopFaceId != nil {
		l += 3
		switch x := *value.NextHopFaceId; {
		case x <= 0xff:
			l += 2
		case x <= 0xffff:
			l += 3
		case x <= 0xffffffff:
			l += 5
		default:
			l += 9
		}
	}
	if value.CachePolicy != nil {
		l += 3
		switch x := encoder.CachePolicy_encoder.length; {
		case x <= 0xfc:
			l += 1
		case x <= 0xffff:
			l += 3
		case x <= 0xffffffff:
			l += 5
		default:
			l += 9
		}
		l += encoder.CachePolicy_encoder.length
	}
	if value.CongestionMark != nil {
		l += 3
		switch x := *value.CongestionMark; {
		case x <= 0xff:
			l += 2
		case x <= 0xffff:
			l += 3
		case x <= 0xffffffff:
			l += 5
		default:
			l += 9
		}
	}
	if value.Ack != nil {
		l += 3
		l += 1 + 8
	}
	if value.TxSequence != nil {
		l += 3
		l += 1 + 8
	}
	if value.NonDiscovery {
		l += 3
		l += 1
	}
	if value.PrefixAnnouncement != nil {
		l += 3
		switch x := encoder.PrefixAnnouncement_length; {
		case x <= 0xfc:
			l += 1
		case x <= 0xffff:
			l += 3
		case x <= 0xffffffff:
			l += 5
		default:
			l += 9
		}
		l += encoder.PrefixAnnouncement_length
	}
	if value.Fragment != nil {
		l += 1
		switch x := encoder.Fragment_length; {
		case x <= 0xfc:
			l += 1
		case x <= 0xffff:
			l += 3
		case x <= 0xffffffff:
			l += 5
		default:
			l += 9
		}
		l += encoder.Fragment_length
	}
	encoder.length = l

	wirePlan := make([]uint, 0)
	l = uint(0)
	if value.Sequence != nil {
		l += 1
		l += 1 + 8
	}
	if value.FragIndex != nil {
		l += 1
		switch x := *value.FragIndex; {
		case x <= 0xff:
			l += 2
		case x <= 0xffff:
			l += 3
		case x <= 0xffffffff:
			l += 5
		default:
			l += 9
		}
	}
	if value.FragCount != nil {
		l += 1
		switch x := *value.FragCount; {
		case x <= 0xff:
			l += 2
		case x <= 0xffff:
			l += 3
		case x <= 0xffffffff:
			l += 5
		default:
			l += 9
		}
	}
	if value.PitToken != nil {
		l += 1
		switch x := len(value.PitToken); {
		case x <= 0xfc:
			l += 1
		case x <= 0xffff:
			l += 3
		case x <= 0xffffffff:
			l += 5
		default:
			l += 9
		}
		l += uint(len(value.PitToken))
	}
	if value.Nack != nil {
		l += 3
		switch x := encoder.Nack_encoder.length; {
		case x <= 0xfc:
			l += 1
		case x <= 0xffff:
			l += 3
		case x <= 0xffffffff:
			l += 5
		default:
			l += 9
		}
		l += encoder.Nack_encoder.length
	}
	if value.IncomingFaceId != nil {
		l += 3
		switch x := *value.IncomingFaceId; {
		case x <= 0xff:
			l += 2
		case x <= 0xffff:
			l += 3
		case x <= 0xffffffff:
			l += 5
		default:
			l += 9
		}
	}
	if value.NextHopFaceId != nil {
		l += 3
		switch x := *value.NextHopFaceId; {
		case x <= 0xff:
			l += 2
		case x <= 0xffff:
			l += 3
		case x <= 0xffffffff:
			l += 5
		default:
			l += 9
		}
	}
	if value.CachePolicy != nil {
		l += 3
		switch x := encoder.CachePolicy_encoder.length; {
		case x <= 0xfc:
			l += 1
		case x <= 0xffff:
			l += 3
		case x <= 0xffffffff:
			l += 5
		default:
			l += 9
		}
		l += encoder.CachePolicy_encoder.length
	}
	if value.CongestionMark != nil {
		l += 3
		switch x := *value.CongestionMark; {
		case x <= 0xff:
			l += 2
		case x <= 0xffff:
			l += 3
		case x <= 0xffffffff:
			l += 5
		default:
			l += 9
		}
	}
	if value.Ack != nil {
		l += 3
		l += 1 + 8
	}
	if value.TxSequence != nil {
		l += 3
		l += 1 + 8
	}
	if value.NonDiscovery {
		l += 3
		l += 1
	}
	if value.PrefixAnnouncement != nil {
		l += 3
		switch x := encoder.PrefixAnnouncement_length; {
		case x <= 0xfc:
			l += 1
		case x <= 0xffff:
			l += 3
		case x <= 0xffffffff:
			l += 5
		default:
			l += 9
		}
		wirePlan = append(wirePlan, l)
		l = 0
		for range value.PrefixAnnouncement {
			wirePlan = append(wirePlan, l)
			l = 0
		}
	}
	if value.Fragment != nil {
		l += 1
		switch x := encoder.Fragment_length; {
		case x <= 0xfc:
			l += 1
		case x <= 0xffff:
			l += 3
		case x <= 0xffffffff:
			l += 5
		default:
			l += 9
		}
		wirePlan = append(wirePlan, l)
		l = 0
		for range value.Fragment {
			wirePlan = append(wirePlan, l)
			l = 0
		}
	}
	if l > 0 {
		wirePlan = append(wirePlan, l)
	}
	encoder.wirePlan = wirePlan
}
func (encoder *LpPacketEncoder) EncodeInto(value *LpPacket, wire enc.Wire) {

	wireIdx := 0
	buf := wire[wireIdx]

	pos := uint(0)

	if value.Sequence != nil {
		buf[pos] = byte(81)
		pos += 1
		buf[pos] = 8
		binary.BigEndian.PutUint64(buf[pos+1:], uint64(*value.Sequence))
		pos += 9
	}
	if value.FragIndex != nil {
		buf[pos] = byte(82)
		pos += 1
		switch x := *value.FragIndex; {
		case x <= 0xff:
			buf[pos] = 1
			buf[pos+1] = byte(x)
			pos += 2
		case x <= 0xffff:
			buf[pos] = 2
			binary.BigEndian.PutUint16(buf[pos+1:], uint16(x))
			pos += 3
		case x <= 0xffffffff:
			buf[pos] = 4
			binary.BigEndian.PutUint32(buf[pos+1:], uint32(x))
			pos += 5
		default:
			buf[pos] = 8
			binary.BigEndian.PutUint64(buf[pos+1:], uint64(x))
			pos += 9
		}
	}
	if value.FragCount != nil {
		buf[pos] = byte(83)
		pos += 1
		switch x := *value.FragCount; {
		case x <= 0xff:
			buf[pos] = 1
			buf[pos+1] = byte(x)
			pos += 2
		case x <= 0xffff:
			buf[pos] = 2
			binary.BigEndian.PutUint16(buf[pos+1:], uint16(x))
			pos += 3
		case x <= 0xffffffff:
			buf[pos] = 4
			binary.BigEndian.PutUint32(buf[pos+1:], uint32(x))
			pos += 5
		default:
			buf[pos] = 8
			binary.BigEndian.PutUint64(buf[pos+1:], uint64(x))
			pos += 9
		}
	}
	if value.PitToken != nil {
		buf[pos] = byte(98)
		pos += 1
		switch x := len(value.PitToken); {
		case x <= 0xfc:
			buf[pos] = byte(x)
			pos += 1
		case x <= 0xffff:
			buf[pos] = 0xfd
			binary.BigEndian.PutUint16(buf[pos+1:], uint16(x))
			pos += 3
		case x <= 0xffffffff:
			buf[pos] = 0xfe
			binary.BigEndian.PutUint32(buf[pos+1:], uint32(x))
			pos += 5
		default:
			buf[pos] = 0xff
			binary.BigEndian.PutUint64(buf[pos+1:], uint64(x))
			pos += 9
		}
		copy(buf[pos:], value.PitToken)
		pos += uint(len(value.PitToken))
	}
	if value.Nack != nil {
		buf[pos] = 253
		binary.BigEndian.PutUint16(buf[pos+1:], uint16(800))
		pos += 3
		switch x := encoder.Nack_encoder.length; {
		case x <= 0xfc:
			buf[pos] = byte(x)
			pos += 1
		case x <= 0xffff:
			buf[pos] = 0xfd
			binary.BigEndian.PutUint16(buf[pos+1:], uint16(x))
			pos += 3
		case x <= 0xffffffff:
			buf[pos] = 0xfe
			binary.BigEndian.PutUint32(buf[pos+1:], uint32(x))
			pos += 5
		default:
			buf[pos] = 0xff
			binary.BigEndian.PutUint64(buf[pos+1:], uint64(x))
			pos += 9
		}
		if encoder.Nack_encoder.length > 0 {
			encoder.Nack_encoder.EncodeInto(value.Nack, buf[pos:])
			pos += encoder.Nack_encoder.length
		}
	}
	if value.IncomingFaceId != nil {
		buf[pos] = 253
		binary.BigEndian.PutUint16(buf[pos+1:], uint16(812))
		pos += 3
		switch x := *value.IncomingFaceId; {
		case x <= 0xff:
			buf[pos] = 1
			buf[pos+1] = byte(x)
			pos += 2
		case x <= 0xffff:
			buf[pos] = 2
			binary.BigEndian.PutUint16(buf[pos+1:], uint16(x))
			pos += 3
		case x <= 0xffffffff:
			buf[pos] = 4
			binary.BigEndian.PutUint32(buf[pos+1:], uint32(x))
			pos += 5
		default:
			buf[pos] = 8
			binary.BigEndian.PutUint64(buf[pos+1:], uint64(x))
			pos += 9
		}
	}
	if value.NextHopFaceId != nil {
		buf[pos] = 253
		binary.BigEndian.PutUint16(buf[pos+1:], uint16(816))
		pos += 3
		switch x := *value.NextHopFaceId; {
		case x <= 0xff:
			buf[pos] = 1
			buf[pos+1] = byte(x)
			pos += 2
		case x <= 0xffff:
			buf[pos] = 2
			binary.BigEndian.PutUint16(buf[pos+1:], uint16(x))
			pos += 3
		case x <= 0xffffffff:
			buf[pos] = 4
			binary.BigEndian.PutUint32(buf[pos+1:], uint32(x))
			pos += 5
		default:
			buf[pos] = 8
			binary.BigEndian.PutUint64(buf[pos+1:], uint64(x))
			pos += 9
		}
	}
	if value.CachePolicy != nil {
		buf[pos] = 253
		binary.BigEndian.PutUint16(buf[pos+1:], uint16(820))
		pos += 3
		switch x := encoder.CachePolicy_encoder.length; {
		case x <= 0xfc:
			buf[pos] = byte(x)
			pos += 1
		case x <= 0xffff:
			buf[pos] = 0xfd
			binary.BigEndian.PutUint16(buf[pos+1:], uint16(x))
			pos += 3
		case x <= 0xffffffff:
			buf[pos] = 0xfe
			binary.BigEndian.PutUint32(buf[pos+1:], uint32(x))
			pos += 5
		default:
			buf[pos] = 0xff
			binary.BigEndian.PutUint64(buf[pos+1:], uint64(x))
			pos += 9
		}
		if encoder.CachePolicy_encoder.length > 0 {
			encoder.CachePolicy_encoder.EncodeInto(value.CachePolicy, buf[pos:])
			pos += encoder.CachePolicy_encoder.length
		}
	}
	if value.CongestionMark != nil {
		buf[pos] = 253
		binary.BigEndian.PutUint16(buf[pos+1:], uint16(832))
		pos += 3
		switch x := *value.CongestionMark; {
		case x <= 0xff:
			buf[pos] = 1
			buf[pos+1] = byte(x)
			pos += 2
		case x <= 0xffff:
			buf[pos] = 2
			binary.BigEndian.PutUint16(buf[pos+1:], uint16(x))
			pos += 3
		case x <= 0xffffffff:
			buf[pos] = 4
			binary.BigEndian.PutUint32(buf[pos+1:], uint32(x))
			pos += 5
		default:
			buf[pos] = 8
			binary.BigEndian.PutUint64(buf[pos+1:], uint64(x))
			pos += 9
		}
	}
	if value.Ack != nil {
		buf[pos] = 253
		binary.BigEndian.PutUint16(buf[pos+1:], uint16(836))
		pos += 3
		buf[pos] = 8
		binary.BigEndian.PutUint64(buf[pos+1:], uint64(*value.Ack))
		pos += 9
	}
	if value.TxSequence != nil {
		buf[pos] = 253
		binary.BigEndian.PutUint16(buf[pos+1:], uint16(840))
		pos += 3
		buf[pos] = 8
		binary.BigEndian.PutUint64(buf[pos+1:], uint64(*value.TxSequence))
		pos += 9
	}
	if value.NonDiscovery {
		buf[pos] = 253
		binary.BigEndian.PutUint16(buf[pos+1:], uint16(844))
		pos += 3
		buf[pos] = byte(0)
		pos += 1
	}
	if value.PrefixAnnouncement != nil {
		buf[pos] = 253
		binary.BigEndian.PutUint16(buf[pos+1:], uint16(848))
		pos += 3
		switch x := encoder.PrefixAnnouncement_length; {
		case x <= 0xfc:
			buf[pos] = byte(x)
			pos += 1
		case x <= 0xffff:
			buf[pos] = 0xfd
			binary.BigEndian.PutUint16(buf[pos+1:], uint16(x))
			pos += 3
		case x <= 0xffffffff:
			buf[pos] = 0xfe
			binary.BigEndian.PutUint32(buf[pos+1:], uint32(x))
			pos += 5
		default:
			buf[pos] = 0xff
			binary.BigEndian.PutUint64(buf[pos+1:], uint64(x))
			pos += 9
		}
		wireIdx++
		pos = 0
		if wireIdx < len(wire) {
			buf = wire[wireIdx]
		} else {
			buf = nil
		}
		for _, w := range value.PrefixAnnouncement {
			wire[wireIdx] = w
			wireIdx++
			pos = 0
			if wireIdx < len(wire) {
				buf = wire[wireIdx]
			} else {
				buf = nil
			}
		}
	}
	if value.Fragment != nil {
		buf[pos] = byte(80)
		pos += 1
		switch x := encoder.Fragment_length; {
		case x <= 0xfc:
			buf[pos] = byte(x)
			pos += 1
		case x <= 0xffff:
			buf[pos] = 0xfd
			binary.BigEndian.PutUint16(buf[pos+1:], uint16(x))
			pos += 3
		case x <= 0xffffffff:
			buf[pos] = 0xfe
			binary.BigEndian.PutUint32(buf[pos+1:], uint32(x))
			pos += 5
		default:
			buf[pos] = 0xff
			binary.BigEndian.PutUint64(buf[pos+1:], uint64(x))
			pos += 9
		}
		wireIdx++
		pos = 0
		if wireIdx < len(wire) {
			buf = wire[wireIdx]
		} else {
			buf = nil
		}
		for _, w := range value.Fragment {
			wire[wireIdx] = w
			wireIdx++
			pos = 0
			if wireIdx < len(wire) {
				buf = wire[wireIdx]
			} else {
				buf = nil
			}
		}
	}
}
func (encoder *LpPacketEncoder) Encode(value *LpPacket) enc.Wire {

	wire := make(enc.Wire, len(encoder.wirePlan))
	for i, l := range encoder.wirePlan {
		if l > 0 {
			wire[i] = make([]byte, l)
		}
	}
	encoder.EncodeInto(value, wire)

	return wire
}
"#

/-- the types and methods of the encoder of `EncryptedContent`, copied from `/repo/pkg/schema/demosec/zz_generated.go` -/
def encryptedContentGo : Nat × Nat := go! r#"type EncryptedContentEncoder struct {
	length uint

	wirePlan []uint

	CipherText_length uint
}
func (encoder *EncryptedContentEncoder) Init(value *EncryptedContent) {

	if value.CipherText != nil {
		encoder.CipherText_length = 0
		for _, c := range value.CipherText {
			encoder.CipherText_length += uint(len(c))
		}
	}

	l := uint(0)
	if value.KeyId != nil {
		l += 1
		switch x := len(value.KeyId); {
		case x <= 0xfc:
			l += 1
		case x <= 0xffff:
			l += 3
		case x <= 0xffffffff:
			l += 5
		default:
			l += 9
		}
		l += uint(len(value.KeyId))
	}
	if value.Iv != nil {
		l += 1
		switch x := len(value.Iv); {
		case x <= 0xfc:
			l += 1
		case x <= 0xffff:
			l += 3
		case x <= 0xffffffff:
			l += 5
		default:
			l += 9
		}
		l += uint(len(value.Iv))
	}
	l += 1
	switch x := value.ContentLength; {
	case x <= 0xff:
		l += 2
	case x <= 0xffff:
		l += 3
	case x <= 0xffffffff:
		l += 5
	default:
		l += 9
	}
	if value.CipherText != nil {
		l += 1
		switch x := encoder.CipherText_length; {
		case x <= 0xfc:
			l += 1
		case x <= 0xffff:
			l += 3
		case x <= 0xffffffff:
			l += 5
		default:
			l += 9
		}
		l += encoder.CipherText_length
	}
	encoder.length = l

	wirePlan := make([]uint, 0)
	l = uint(0)
	if value.KeyId != nil {
		l += 1
		switch x := len(value.KeyId); {
		case x <= 0xfc:
			l += 1
		case x <= 0xffff:
			l += 3
		case x <= 0xffffffff:
			l += 5
		default:
			l += 9
		}
		l += uint(len(value.KeyId))
	}
	if value.Iv != nil {
		l += 1
		switch x := len(value.Iv); {
		case x <= 0xfc:
			l += 1
		case x <= 0xffff:
			l += 3
		case x <= 0xffffffff:
			l += 5
		default:
			l += 9
		}
		l += uint(len(value.Iv))
	}
	l += 1
	switch x := value.ContentLength; {
	case x <= 0xff:
		l += 2
	case x <= 0xffff:
		l += 3
	case x <= 0xffffffff:
		l += 5
	default:
		l += 9
	}
	if value.CipherText != nil {
		l += 1
		switch x := encoder.CipherText_length; {
		case x <= 0xfc:
			l += 1
		case x <= 0xffff:
			l += 3
		case x <= 0xffffffff:
			l += 5
		default:
			l += 9
		}
		wirePlan = append(wirePlan, l)
		l = 0
		for range value.CipherText {
			wirePlan = append(wirePlan, l)
			l = 0
		}
	}
	if l > 0 {
		wirePlan = append(wirePlan, l)
	}
	encoder.wirePlan = wirePlan
}
func (encoder *EncryptedContentEncoder) EncodeInto(value *EncryptedContent, wire enc.Wire) {

	wireIdx := 0
	buf := wire[wireIdx]

	pos := uint(0)

	if value.KeyId != nil {
		buf[pos] = byte(130)
		pos += 1
		switch x := len(value.KeyId); {
		case x <= 0xfc:
			buf[pos] = byte(x)
			pos += 1
		case x <= 0xffff:
			buf[pos] = 0xfd
			binary.BigEndian.PutUint16(buf[pos+1:], uint16(x))
			pos += 3
		case x <= 0xffffffff:
			buf[pos] = 0xfe
			binary.BigEndian.PutUint32(buf[pos+1:], uint32(x))
			pos += 5
		default:
			buf[pos] = 0xff
			binary.BigEndian.PutUint64(buf[pos+1:], uint64(x))
			pos += 9
		}
		copy(buf[pos:], value.KeyId)
		pos += uint(len(value.KeyId))
	}
	if value.Iv != nil {
		buf[pos] = byte(132)
		pos += 1
		switch x := len(value.Iv); {
		case x <= 0xfc:
			buf[pos] = byte(x)
			pos += 1
		case x <= 0xffff:
			buf[pos] = 0xfd
			binary.BigEndian.PutUint16(buf[pos+1:], uint16(x))
			pos += 3
		case x <= 0xffffffff:
			buf[pos] = 0xfe
			binary.BigEndian.PutUint32(buf[pos+1:], uint32(x))
			pos += 5
		default:
			buf[pos] = 0xff
			binary.BigEndian.PutUint64(buf[pos+1:], uint64(x))
			pos += 9
		}
		copy(buf[pos:], value.Iv)
		pos += uint(len(value.Iv))
	}
	buf[pos] = byte(134)
	pos += 1
	switch x := value.ContentLength; {
	case x <= 0xff:
		buf[pos] = 1
		buf[pos+1] = byte(x)
		pos += 2
	case x <= 0xffff:
		buf[pos] = 2
		binary.BigEndian.PutUint16(buf[pos+1:], uint16(x))
		pos += 3
	case x <= 0xffffffff:
		buf[pos] = 4
		binary.BigEndian.PutUint32(buf[pos+1:], uint32(x))
		pos += 5
	default:
		buf[pos] = 8
		binary.BigEndian.PutUint64(buf[pos+1:], uint64(x))
		pos += 9
	}
	if value.CipherText != nil {
		buf[pos] = byte(136)
		pos += 1
		switch x := encoder.CipherText_length; {
		case x <= 0xfc:
			buf[pos] = byte(x)
			pos += 1
		case x <= 0xffff:
			buf[pos] = 0xfd
			binary.BigEndian.PutUint16(buf[pos+1:], uint16(x))
			pos += 3
		case x <= 0xffffffff:
			buf[pos] = 0xfe
			binary.BigEndian.PutUint32(buf[pos+1:], uint32(x))
			pos += 5
		default:
			buf[pos] = 0xff
			binary.BigEndian.PutUint64(buf[pos+1:], uint64(x))
			pos += 9
		}
		wireIdx++
		pos = 0
		if wireIdx < len(wire) {
			buf = wire[wireIdx]
		} else {
			buf = nil
		}
		for _, w := range value.CipherText {
			wire[wireIdx] = w
			wireIdx++
			pos = 0
			if wireIdx < len(wire) {
				buf = wire[wireIdx]
			} else {
				buf = nil
			}
		}
	}
}
func (encoder *EncryptedContentEncoder) Encode(value *EncryptedContent) enc.Wire {

	wire := make(enc.Wire, len(encoder.wirePlan))
	for i, l := range encoder.wirePlan {
		if l > 0 {
			wire[i] = make([]byte, l)
		}
	}
	encoder.EncodeInto(value, wire)

	return wire
}
func (value *EncryptedContent) Encode() enc.Wire {
	encoder := EncryptedContentEncoder{}
	encoder.Init(value)
	return encoder.Encode(value)
}
func (value *EncryptedContent) Bytes() []byte {
	return value.Encode().Join()
}
"#

/-- the types with `nocopy` that are covered, with the declarations they are from and the Go of their encoders -/
def noCopyCheckedIn : List (List DeclSrc × Txt × Nat × Nat) := [(specSource, t!"LpPacket", lpPacketGo), (demosecSource, t!"EncryptedContent", encryptedContentGo)]

def noCopyChecked (c : List DeclSrc × Txt × Nat × Nat) : Bool :=
  match processAll asWritten c.1 with
  | .ok ms => sameNoCopy ms c.2.1 c.2.2 && noCopyAt ms ms.length c.2.1 && (resolve ms ms.length c.2.1).isSome
  | _ => false

theorem noCopyCheckedIn_same : noCopyCheckedIn.all noCopyChecked = true := by decide +kernel

/-- **C94, the library**: for `LpPacket` and `EncryptedContent`, the encoder in the repository is what the generator writes, up to space; and running that
gives, for every message of the type's schema with at least one byte, a wire with the bytes of the message, in which the buffers of the caller are as given -/
theorem C94_library_partial {ord : Nat → List (Txt × Kind)} (h : ∀ i, (ord i).Perm classTable) : ∀ c ∈ noCopyCheckedIn, ∃ ms, processAll ord c.1 = .ok ms ∧
    SameNoCopy ms c.2.1 c.2.2 ∧ ∃ fs, resolve ms ms.length c.2.1 = some fs ∧ ∀ v : fs.V, (∃ g, StandsFor ms c.2.1 fs v g) ∧
      ∀ g, StandsFor ms c.2.1 fs v g → (fs.enc v).length < 2 ^ 64 → fs.enc v ≠ [] →
        ∃ wire, runNoCopy ms ms.length c.2.1 g = .ok (wire, (fs.enc v).length) ∧ (wire.map Piece.bytes).flatten = fs.enc v ∧
          givenOf wire = callerBuffers fs v := by
  intro c hc
  have hb := List.all_eq_true.1 noCopyCheckedIn_same c hc
  unfold noCopyChecked at hb
  split at hb
  · rename_i ms hms
    simp only [Bool.and_eq_true] at hb
    obtain ⟨fs, hfs⟩ := Option.isSome_iff_exists.1 hb.2
    refine ⟨ms, by rw [processAll_order h]; exact hms, sameNoCopy_spec hb.1.1, fs, hfs, fun v => ⟨C94_represented hb.1.2 hfs v, fun g hg hl hne => ?_⟩⟩
    obtain ⟨wire, h1, h2, h3, _⟩ := C94_encode_partial hb.1.2 hfs hg hl hne
    exact ⟨wire, h1, h2, h3⟩
  · cases hb

/-! ## Examples -/

/-- a Go value of type `LpPacket` -/
def exampleLp (token : GV) (nonDiscovery : Bool) (ann frag : GV) : GV :=
  .ptr (.struct [(t!"Sequence", .nil), (t!"FragIndex", .nil), (t!"FragCount", .nil), (t!"PitToken", token), (t!"Nack", .nil), (t!"IncomingFaceId", .nil),
    (t!"NextHopFaceId", .nil), (t!"CachePolicy", .nil), (t!"CongestionMark", .nil), (t!"Ack", .nil), (t!"TxSequence", .nil),
    (t!"NonDiscovery", .bool nonDiscovery), (t!"PrefixAnnouncement", ann), (t!"Fragment", frag)])

/-- two wire fields, one of them with an empty buffer -/
example : runNoCopy (modelsOf specSource) 3 t!"LpPacket" (exampleLp (.bytes [7]) true (.wire [[1, 2], [3]]) (.wire [[], [4]])) =
    .ok ([.own [98, 1, 7, 253, 3, 76, 0, 253, 3, 80, 3], .given [1, 2], .given [3], .own [80, 1], .given [], .given [4]], 17) := by decide +kernel

/-- `LpPacket` is covered -/
example : noCopyAt (modelsOf specSource) 3 t!"LpPacket" = true ∧ (resolve (modelsOf specSource) 3 t!"LpPacket").isSome = true := by decide +kernel

/-- an `LpPacket` without fields: a panic -/
example : runNoCopy (modelsOf specSource) 3 t!"LpPacket" (exampleLp .nil false .nil .nil) = .panic := by decide +kernel

/-- an empty wire is not the same as no wire -/
example : runNoCopy (modelsOf specSource) 3 t!"LpPacket" (exampleLp .nil false (.wire []) (.wire [])) = .ok ([.own [253, 3, 80, 0], .own [80, 0]], 6) := by
  decide +kernel

end Ndn.Codec.Gen
