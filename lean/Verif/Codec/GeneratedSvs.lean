import Verif.Codec.GoText

/-! # The encoders in `/repo/pkg/schema/svs/zz_generated.go`, as they are there -/

namespace Ndn.Codec.Gen

/-- the types and methods of the encoders, copied from `/repo/pkg/schema/svs/zz_generated.go` -/
def svsTexts : List (Txt × Nat × Nat) := [
  (t!"StateVecEntry", go! r#"type StateVecEntryEncoder struct {
	length uint
}
func (encoder *StateVecEntryEncoder) Init(value *StateVecEntry) {

	l := uint(0)
	if value.NodeId != nil {
		l += 1
		switch x := len(value.NodeId); {
		case x <= 0xfc:
			l += 1
		case x <= 0xffff:
			l += 3
		case x <= 0xffffffff:
			l += 5
		default:
			l += 9
		}
		l += uint(len(value.NodeId))
	}
	l += 1
	switch x := value.SeqNo; {
	case x <= 0xff:
		l += 2
	case x <= 0xffff:
		l += 3
	case x <= 0xffffffff:
		l += 5
	default:
		l += 9
	}
	encoder.length = l

}
func (encoder *StateVecEntryEncoder) EncodeInto(value *StateVecEntry, buf []byte) {

	pos := uint(0)

	if value.NodeId != nil {
		buf[pos] = byte(7)
		pos += 1
		switch x := len(value.NodeId); {
		case x <= 0xfc:
			buf[pos] = byte(x)
			pos += 1
		case x <= 0xffff:
			buf[pos] = 0xfd
			binary.BigEndian.PutUint16(buf[pos+1:], uint16(x))
			pos += 3
		case x <= 0xffffffff:
			buf[pos] = 0xfe
			binary.BigEndian.PutUint32(buf[pos+1:], uint32(x))
			pos += 5
		default:
			buf[pos] = 0xff
			binary.BigEndian.PutUint64(buf[pos+1:], uint64(x))
			pos += 9
		}
		copy(buf[pos:], value.NodeId)
		pos += uint(len(value.NodeId))
	}
	buf[pos] = byte(204)
	pos += 1
	switch x := value.SeqNo; {
	case x <= 0xff:
		buf[pos] = 1
		buf[pos+1] = byte(x)
		pos += 2
	case x <= 0xffff:
		buf[pos] = 2
		binary.BigEndian.PutUint16(buf[pos+1:], uint16(x))
		pos += 3
	case x <= 0xffffffff:
		buf[pos] = 4
		binary.BigEndian.PutUint32(buf[pos+1:], uint32(x))
		pos += 5
	default:
		buf[pos] = 8
		binary.BigEndian.PutUint64(buf[pos+1:], uint64(x))
		pos += 9
	}
}
func (encoder *StateVecEntryEncoder) Encode(value *StateVecEntry) enc.Wire {

	wire := make(enc.Wire, 1)
	wire[0] = make([]byte, encoder.length)
	buf := wire[0]
	encoder.EncodeInto(value, buf)

	return wire
}
func (value *StateVecEntry) Encode() enc.Wire {
	encoder := StateVecEntryEncoder{}
	encoder.Init(value)
	return encoder.Encode(value)
}
func (value *StateVecEntry) Bytes() []byte {
	return value.Encode().Join()
}
"#),
  (t!"StateVec", go! r#"type StateVecEncoder struct {
	length uint

	Entries_subencoder []struct {
		Entries_encoder StateVecEntryEncoder
	}
}
func (encoder *StateVecEncoder) Init(value *StateVec) {
	{
		Entries_l := len(value.Entries)
		encoder.Entries_subencoder = make([]struct {
			Entries_encoder StateVecEntryEncoder
		}, Entries_l)
		for i := 0; i < Entries_l; i++ {
			pseudoEncoder := &encoder.Entries_subencoder[i]
			pseudoValue := struct {
				Entries *StateVecEntry
			}{
				Entries: value.Entries[i],
			}
			{
				encoder := pseudoEncoder
				value := &pseudoValue
				if value.Entries != nil {
					encoder.Entries_encoder.Init(value.Entries)
				}
				_ = encoder
				_ = value
			}
		}
	}

	l := uint(0)
	if value.Entries != nil {
		for seq_i, seq_v := range value.Entries {
			pseudoEncoder := &encoder.Entries_subencoder[seq_i]
			pseudoValue := struct {
				Entries *StateVecEntry
			}{
				Entries: seq_v,
			}
			{
				encoder := pseudoEncoder
				value := &pseudoValue
				if value.Entries != nil {
					l += 1
					switch x := encoder.Entries_encoder.length; {
					case x <= 0xfc:
						l += 1
					case x <= 0xffff:
						l += 3
					case x <= 0xffffffff:
						l += 5
					default:
						l += 9
					}
					l += encoder.Entries_encoder.length
				}
				_ = encoder
				_ = value
			}
		}
	}
	encoder.length = l

}
func (encoder *StateVecEncoder) EncodeInto(value *StateVec, buf []byte) {

	pos := uint(0)

	if value.Entries != nil {
		for seq_i, seq_v := range value.Entries {
			pseudoEncoder := &encoder.Entries_subencoder[seq_i]
			pseudoValue := struct {
				Entries *StateVecEntry
			}{
				Entries: seq_v,
			}
			{
				encoder := pseudoEncoder
				value := &pseudoValue
				if value.Entries != nil {
					buf[pos] = byte(202)
					pos += 1
					switch x := encoder.Entries_encoder.length; {
					case x <= 0xfc:
						buf[pos] = byte(x)
						pos += 1
					case x <= 0xffff:
						buf[pos] = 0xfd
						binary.BigEndian.PutUint16(buf[pos+1:], uint16(x))
						pos += 3
					case x <= 0xffffffff:
						buf[pos] = 0xfe
						binary.BigEndian.PutUint32(buf[pos+1:], uint32(x))
						pos += 5
					default:
						buf[pos] = 0xff
						binary.BigEndian.PutUint64(buf[pos+1:], uint64(x))
						pos += 9
					}
					if encoder.Entries_encoder.length > 0 {
						encoder.Entries_encoder.EncodeInto(value.Entries, buf[pos:])
						pos += encoder.Entries_encoder.length
					}
				}
				_ = encoder
				_ = value
			}
		}
	}
}
func (encoder *StateVecEncoder) Encode(value *StateVec) enc.Wire {

	wire := make(enc.Wire, 1)
	wire[0] = make([]byte, encoder.length)
	buf := wire[0]
	encoder.EncodeInto(value, buf)

	return wire
}
func (value *StateVec) Encode() enc.Wire {
	encoder := StateVecEncoder{}
	encoder.Init(value)
	return encoder.Encode(value)
}
func (value *StateVec) Bytes() []byte {
	return value.Encode().Join()
}
"#),
  (t!"StateVecAppParam", go! r#"type StateVecAppParamEncoder struct {
	length uint

	Entries_encoder StateVecEncoder
}
func (encoder *StateVecAppParamEncoder) Init(value *StateVecAppParam) {
	if value.Entries != nil {
		encoder.Entries_encoder.Init(value.Entries)
	}

	l := uint(0)
	if value.Entries != nil {
		l += 1
		switch x := encoder.Entries_encoder.length; {
		case x <= 0xfc:
			l += 1
		case x <= 0xffff:
			l += 3
		case x <= 0xffffffff:
			l += 5
		default:
			l += 9
		}
		l += encoder.Entries_encoder.length
	}
	encoder.length = l

}
func (encoder *StateVecAppParamEncoder) EncodeInto(value *StateVecAppParam, buf []byte) {

	pos := uint(0)

	if value.Entries != nil {
		buf[pos] = byte(201)
		pos += 1
		switch x := encoder.Entries_encoder.length; {
		case x <= 0xfc:
			buf[pos] = byte(x)
			pos += 1
		case x <= 0xffff:
			buf[pos] = 0xfd
			binary.BigEndian.PutUint16(buf[pos+1:], uint16(x))
			pos += 3
		case x <= 0xffffffff:
			buf[pos] = 0xfe
			binary.BigEndian.PutUint32(buf[pos+1:], uint32(x))
			pos += 5
		default:
			buf[pos] = 0xff
			binary.BigEndian.PutUint64(buf[pos+1:], uint64(x))
			pos += 9
		}
		if encoder.Entries_encoder.length > 0 {
			encoder.Entries_encoder.EncodeInto(value.Entries, buf[pos:])
			pos += encoder.Entries_encoder.length
		}
	}
}
func (encoder *StateVecAppParamEncoder) Encode(value *StateVecAppParam) enc.Wire {

	wire := make(enc.Wire, 1)
	wire[0] = make([]byte, encoder.length)
	buf := wire[0]
	encoder.EncodeInto(value, buf)

	return wire
}
func (value *StateVecAppParam) Encode() enc.Wire {
	encoder := StateVecAppParamEncoder{}
	encoder.Init(value)
	return encoder.Encode(value)
}
func (value *StateVecAppParam) Bytes() []byte {
	return value.Encode().Join()
}
"#)]

theorem svs_same : allSame svsSource svsTexts = true := by decide +kernel

end Ndn.Codec.Gen
