import Verif.Codec.GoText

/-! # The encoders in `/repo/examples/schema-test/shared-doc/crdt/zz_generated.go`, as they are there -/

namespace Ndn.Codec.Gen

/-- the types and methods of the encoders, copied from `/repo/examples/schema-test/shared-doc/crdt/zz_generated.go` -/
def crdtTexts : List (Txt × Nat × Nat) := [
  (t!"IDType", go! r#"type IDTypeEncoder struct {
	length uint
}
func (encoder *IDTypeEncoder) Init(value *IDType) {

	l := uint(0)
	l += 1
	switch x := value.Producer; {
	case x <= 0xff:
		l += 2
	case x <= 0xffff:
		l += 3
	case x <= 0xffffffff:
		l += 5
	default:
		l += 9
	}
	l += 1
	switch x := value.Clock; {
	case x <= 0xff:
		l += 2
	case x <= 0xffff:
		l += 3
	case x <= 0xffffffff:
		l += 5
	default:
		l += 9
	}
	encoder.length = l

}
func (encoder *IDTypeEncoder) EncodeInto(value *IDType, buf []byte) {

	pos := uint(0)

	buf[pos] = byte(161)
	pos += 1
	switch x := value.Producer; {
	case x <= 0xff:
		buf[pos] = 1
		buf[pos+1] = byte(x)
		pos += 2
	case x <= 0xffff:
		buf[pos] = 2
		binary.BigEndian.PutUint16(buf[pos+1:], uint16(x))
		pos += 3
	case x <= 0xffffffff:
		buf[pos] = 4
		binary.BigEndian.PutUint32(buf[pos+1:], uint32(x))
		pos += 5
	default:
		buf[pos] = 8
		binary.BigEndian.PutUint64(buf[pos+1:], uint64(x))
		pos += 9
	}
	buf[pos] = byte(163)
	pos += 1
	switch x := value.Clock; {
	case x <= 0xff:
		buf[pos] = 1
		buf[pos+1] = byte(x)
		pos += 2
	case x <= 0xffff:
		buf[pos] = 2
		binary.BigEndian.PutUint16(buf[pos+1:], uint16(x))
		pos += 3
	case x <= 0xffffffff:
		buf[pos] = 4
		binary.BigEndian.PutUint32(buf[pos+1:], uint32(x))
		pos += 5
	default:
		buf[pos] = 8
		binary.BigEndian.PutUint64(buf[pos+1:], uint64(x))
		pos += 9
	}
}
func (encoder *IDTypeEncoder) Encode(value *IDType) enc.Wire {

	wire := make(enc.Wire, 1)
	wire[0] = make([]byte, encoder.length)
	buf := wire[0]
	encoder.EncodeInto(value, buf)

	return wire
}
func (value *IDType) Encode() enc.Wire {
	encoder := IDTypeEncoder{}
	encoder.Init(value)
	return encoder.Encode(value)
}
func (value *IDType) Bytes() []byte {
	return value.Encode().Join()
}
"#),
  (t!"Record", go! r#"type RecordEncoder struct {
	length uint

	ID_encoder          IDTypeEncoder
	Origin_encoder      IDTypeEncoder
	RightOrigin_encoder IDTypeEncoder
}
func (encoder *RecordEncoder) Init(value *Record) {

	if value.ID != nil {
		encoder.ID_encoder.Init(value.ID)
	}
	if value.Origin != nil {
		encoder.Origin_encoder.Init(value.Origin)
	}
	if value.RightOrigin != nil {
		encoder.RightOrigin_encoder.Init(value.RightOrigin)
	}

	l := uint(0)
	l += 1
	switch x := value.RecordType; {
	case x <= 0xff:
		l += 2
	case x <= 0xffff:
		l += 3
	case x <= 0xffffffff:
		l += 5
	default:
		l += 9
	}
	if value.ID != nil {
		l += 1
		switch x := encoder.ID_encoder.length; {
		case x <= 0xfc:
			l += 1
		case x <= 0xffff:
			l += 3
		case x <= 0xffffffff:
			l += 5
		default:
			l += 9
		}
		l += encoder.ID_encoder.length
	}
	if value.Origin != nil {
		l += 1
		switch x := encoder.Origin_encoder.length; {
		case x <= 0xfc:
			l += 1
		case x <= 0xffff:
			l += 3
		case x <= 0xffffffff:
			l += 5
		default:
			l += 9
		}
		l += encoder.Origin_encoder.length
	}
	if value.RightOrigin != nil {
		l += 1
		switch x := encoder.RightOrigin_encoder.length; {
		case x <= 0xfc:
			l += 1
		case x <= 0xffff:
			l += 3
		case x <= 0xffffffff:
			l += 5
		default:
			l += 9
		}
		l += encoder.RightOrigin_encoder.length
	}
	l += 1
	switch x := len(value.Content); {
	case x <= 0xfc:
		l += 1
	case x <= 0xffff:
		l += 3
	case x <= 0xffffffff:
		l += 5
	default:
		l += 9
	}
	l += uint(len(value.Content))
	encoder.length = l

}
func (encoder *RecordEncoder) EncodeInto(value *Record, buf []byte) {

	pos := uint(0)

	buf[pos] = byte(165)
	pos += 1
	switch x := value.RecordType; {
	case x <= 0xff:
		buf[pos] = 1
		buf[pos+1] = byte(x)
		pos += 2
	case x <= 0xffff:
		buf[pos] = 2
		binary.BigEndian.PutUint16(buf[pos+1:], uint16(x))
		pos += 3
	case x <= 0xffffffff:
		buf[pos] = 4
		binary.BigEndian.PutUint32(buf[pos+1:], uint32(x))
		pos += 5
	default:
		buf[pos] = 8
		binary.BigEndian.PutUint64(buf[pos+1:], uint64(x))
		pos += 9
	}
	if value.ID != nil {
		buf[pos] = byte(167)
		pos += 1
		switch x := encoder.ID_encoder.length; {
		case x <= 0xfc:
			buf[pos] = byte(x)
			pos += 1
		case x <= 0xffff:
			buf[pos] = 0xfd
			binary.BigEndian.PutUint16(buf[pos+1:], uint16(x))
			pos += 3
		case x <= 0xffffffff:
			buf[pos] = 0xfe
			binary.BigEndian.PutUint32(buf[pos+1:], uint32(x))
			pos += 5
		default:
			buf[pos] = 0xff
			binary.BigEndian.PutUint64(buf[pos+1:], uint64(x))
			pos += 9
		}
		if encoder.ID_encoder.length > 0 {
			encoder.ID_encoder.EncodeInto(value.ID, buf[pos:])
			pos += encoder.ID_encoder.length
		}
	}
	if value.Origin != nil {
		buf[pos] = byte(169)
		pos += 1
		switch x := encoder.Origin_encoder.length; {
		case x <= 0xfc:
			buf[pos] = byte(x)
			pos += 1
		case x <= 0xffff:
			buf[pos] = 0xfd
			binary.BigEndian.PutUint16(buf[pos+1:], uint16(x))
			pos += 3
		case x <= 0xffffffff:
			buf[pos] = 0xfe
			binary.BigEndian.PutUint32(buf[pos+1:], uint32(x))
			pos += 5
		default:
			buf[pos] = 0xff
			binary.BigEndian.PutUint64(buf[pos+1:], uint64(x))
			pos += 9
		}
		if encoder.Origin_encoder.length > 0 {
			encoder.Origin_encoder.EncodeInto(value.Origin, buf[pos:])
			pos += encoder.Origin_encoder.length
		}
	}
	if value.RightOrigin != nil {
		buf[pos] = byte(170)
		pos += 1
		switch x := encoder.RightOrigin_encoder.length; {
		case x <= 0xfc:
			buf[pos] = byte(x)
			pos += 1
		case x <= 0xffff:
			buf[pos] = 0xfd
			binary.BigEndian.PutUint16(buf[pos+1:], uint16(x))
			pos += 3
		case x <= 0xffffffff:
			buf[pos] = 0xfe
			binary.BigEndian.PutUint32(buf[pos+1:], uint32(x))
			pos += 5
		default:
			buf[pos] = 0xff
			binary.BigEndian.PutUint64(buf[pos+1:], uint64(x))
			pos += 9
		}
		if encoder.RightOrigin_encoder.length > 0 {
			encoder.RightOrigin_encoder.EncodeInto(value.RightOrigin, buf[pos:])
			pos += encoder.RightOrigin_encoder.length
		}
	}
	buf[pos] = byte(172)
	pos += 1
	switch x := len(value.Content); {
	case x <= 0xfc:
		buf[pos] = byte(x)
		pos += 1
	case x <= 0xffff:
		buf[pos] = 0xfd
		binary.BigEndian.PutUint16(buf[pos+1:], uint16(x))
		pos += 3
	case x <= 0xffffffff:
		buf[pos] = 0xfe
		binary.BigEndian.PutUint32(buf[pos+1:], uint32(x))
		pos += 5
	default:
		buf[pos] = 0xff
		binary.BigEndian.PutUint64(buf[pos+1:], uint64(x))
		pos += 9
	}
	copy(buf[pos:], value.Content)
	pos += uint(len(value.Content))
}
func (encoder *RecordEncoder) Encode(value *Record) enc.Wire {

	wire := make(enc.Wire, 1)
	wire[0] = make([]byte, encoder.length)
	buf := wire[0]
	encoder.EncodeInto(value, buf)

	return wire
}
func (value *Record) Encode() enc.Wire {
	encoder := RecordEncoder{}
	encoder.Init(value)
	return encoder.Encode(value)
}
func (value *Record) Bytes() []byte {
	return value.Encode().Join()
}
"#)]

theorem crdt_same : allSame crdtSource crdtTexts = true := by decide +kernel

end Ndn.Codec.Gen
