import Verif.Codec.GoText

/-! # The encoders in `/repo/pkg/ndn/mgmt_2022/zz_generated.go`, as they are there -/

namespace Ndn.Codec.Gen

/-- the types and methods of the encoders, copied from `/repo/pkg/ndn/mgmt_2022/zz_generated.go` -/
def mgmtBTexts : List (Txt × Nat × Nat) := [
  (t!"FaceQueryFilter", go! r#"type FaceQueryFilterEncoder struct {
	length uint

	Val_encoder FaceQueryFilterValueEncoder
}
func (encoder *FaceQueryFilterEncoder) Init(value *FaceQueryFilter) {
	if value.Val != nil {
		encoder.Val_encoder.Init(value.Val)
	}

	l := uint(0)
	if value.Val != nil {
		l += 1
		switch x := encoder.Val_encoder.length; {
		case x <= 0xfc:
			l += 1
		case x <= 0xffff:
			l += 3
		case x <= 0xffffffff:
			l += 5
		default:
			l += 9
		}
		l += encoder.Val_encoder.length
	}
	encoder.length = l

}
func (encoder *FaceQueryFilterEncoder) EncodeInto(value *FaceQueryFilter, buf []byte) {

	pos := uint(0)

	if value.Val != nil {
		buf[pos] = byte(150)
		pos += 1
		switch x := encoder.Val_encoder.length; {
		case x <= 0xfc:
			buf[pos] = byte(x)
			pos += 1
		case x <= 0xffff:
			buf[pos] = 0xfd
			binary.BigEndian.PutUint16(buf[pos+1:], uint16(x))
			pos += 3
		case x <= 0xffffffff:
			buf[pos] = 0xfe
			binary.BigEndian.PutUint32(buf[pos+1:], uint32(x))
			pos += 5
		default:
			buf[pos] = 0xff
			binary.BigEndian.PutUint64(buf[pos+1:], uint64(x))
			pos += 9
		}
		if encoder.Val_encoder.length > 0 {
			encoder.Val_encoder.EncodeInto(value.Val, buf[pos:])
			pos += encoder.Val_encoder.length
		}
	}
}
func (encoder *FaceQueryFilterEncoder) Encode(value *FaceQueryFilter) enc.Wire {

	wire := make(enc.Wire, 1)
	wire[0] = make([]byte, encoder.length)
	buf := wire[0]
	encoder.EncodeInto(value, buf)

	return wire
}
func (value *FaceQueryFilter) Encode() enc.Wire {
	encoder := FaceQueryFilterEncoder{}
	encoder.Init(value)
	return encoder.Encode(value)
}
func (value *FaceQueryFilter) Bytes() []byte {
	return value.Encode().Join()
}
"#),
  (t!"Route", go! r#"type RouteEncoder struct {
	length uint
}
func (encoder *RouteEncoder) Init(value *Route) {

	l := uint(0)
	l += 1
	switch x := value.FaceId; {
	case x <= 0xff:
		l += 2
	case x <= 0xffff:
		l += 3
	case x <= 0xffffffff:
		l += 5
	default:
		l += 9
	}
	l += 1
	switch x := value.Origin; {
	case x <= 0xff:
		l += 2
	case x <= 0xffff:
		l += 3
	case x <= 0xffffffff:
		l += 5
	default:
		l += 9
	}
	l += 1
	switch x := value.Cost; {
	case x <= 0xff:
		l += 2
	case x <= 0xffff:
		l += 3
	case x <= 0xffffffff:
		l += 5
	default:
		l += 9
	}
	l += 1
	switch x := value.Flags; {
	case x <= 0xff:
		l += 2
	case x <= 0xffff:
		l += 3
	case x <= 0xffffffff:
		l += 5
	default:
		l += 9
	}
	if value.ExpirationPeriod != nil {
		l += 1
		switch x := *value.ExpirationPeriod; {
		case x <= 0xff:
			l += 2
		case x <= 0xffff:
			l += 3
		case x <= 0xffffffff:
			l += 5
		default:
			l += 9
		}
	}
	encoder.length = l

}
func (encoder *RouteEncoder) EncodeInto(value *Route, buf []byte) {

	pos := uint(0)

	buf[pos] = byte(105)
	pos += 1
	switch x := value.FaceId; {
	case x <= 0xff:
		buf[pos] = 1
		buf[pos+1] = byte(x)
		pos += 2
	case x <= 0xffff:
		buf[pos] = 2
		binary.BigEndian.PutUint16(buf[pos+1:], uint16(x))
		pos += 3
	case x <= 0xffffffff:
		buf[pos] = 4
		binary.BigEndian.PutUint32(buf[pos+1:], uint32(x))
		pos += 5
	default:
		buf[pos] = 8
		binary.BigEndian.PutUint64(buf[pos+1:], uint64(x))
		pos += 9
	}
	buf[pos] = byte(111)
	pos += 1
	switch x := value.Origin; {
	case x <= 0xff:
		buf[pos] = 1
		buf[pos+1] = byte(x)
		pos += 2
	case x <= 0xffff:
		buf[pos] = 2
		binary.BigEndian.PutUint16(buf[pos+1:], uint16(x))
		pos += 3
	case x <= 0xffffffff:
		buf[pos] = 4
		binary.BigEndian.PutUint32(buf[pos+1:], uint32(x))
		pos += 5
	default:
		buf[pos] = 8
		binary.BigEndian.PutUint64(buf[pos+1:], uint64(x))
		pos += 9
	}
	buf[pos] = byte(106)
	pos += 1
	switch x := value.Cost; {
	case x <= 0xff:
		buf[pos] = 1
		buf[pos+1] = byte(x)
		pos += 2
	case x <= 0xffff:
		buf[pos] = 2
		binary.BigEndian.PutUint16(buf[pos+1:], uint16(x))
		pos += 3
	case x <= 0xffffffff:
		buf[pos] = 4
		binary.BigEndian.PutUint32(buf[pos+1:], uint32(x))
		pos += 5
	default:
		buf[pos] = 8
		binary.BigEndian.PutUint64(buf[pos+1:], uint64(x))
		pos += 9
	}
	buf[pos] = byte(108)
	pos += 1
	switch x := value.Flags; {
	case x <= 0xff:
		buf[pos] = 1
		buf[pos+1] = byte(x)
		pos += 2
	case x <= 0xffff:
		buf[pos] = 2
		binary.BigEndian.PutUint16(buf[pos+1:], uint16(x))
		pos += 3
	case x <= 0xffffffff:
		buf[pos] = 4
		binary.BigEndian.PutUint32(buf[pos+1:], uint32(x))
		pos += 5
	default:
		buf[pos] = 8
		binary.BigEndian.PutUint64(buf[pos+1:], uint64(x))
		pos += 9
	}
	if value.ExpirationPeriod != nil {
		buf[pos] = byte(109)
		pos += 1
		switch x := *value.ExpirationPeriod; {
		case x <= 0xff:
			buf[pos] = 1
			buf[pos+1] = byte(x)
			pos += 2
		case x <= 0xffff:
			buf[pos] = 2
			binary.BigEndian.PutUint16(buf[pos+1:], uint16(x))
			pos += 3
		case x <= 0xffffffff:
			buf[pos] = 4
			binary.BigEndian.PutUint32(buf[pos+1:], uint32(x))
			pos += 5
		default:
			buf[pos] = 8
			binary.BigEndian.PutUint64(buf[pos+1:], uint64(x))
			pos += 9
		}
	}
}
func (encoder *RouteEncoder) Encode(value *Route) enc.Wire {

	wire := make(enc.Wire, 1)
	wire[0] = make([]byte, encoder.length)
	buf := wire[0]
	encoder.EncodeInto(value, buf)

	return wire
}
func (value *Route) Encode() enc.Wire {
	encoder := RouteEncoder{}
	encoder.Init(value)
	return encoder.Encode(value)
}
func (value *Route) Bytes() []byte {
	return value.Encode().Join()
}
"#),
  (t!"RibEntry", go! r#"type RibEntryEncoder struct {
	length uint

	Name_length       uint
	Routes_subencoder []struct {
		Routes_encoder RouteEncoder
	}
}
func (encoder *RibEntryEncoder) Init(value *RibEntry) {
	if value.Name != nil {
		encoder.Name_length = 0
		for _, c := range value.Name {
			encoder.Name_length += uint(c.EncodingLength())
		}
	}
	{
		Routes_l := len(value.Routes)
		encoder.Routes_subencoder = make([]struct {
			Routes_encoder RouteEncoder
		}, Routes_l)
		for i := 0; i < Routes_l; i++ {
			pseudoEncoder := &encoder.Routes_subencoder[i]
			pseudoValue := struct {
				Routes *Route
			}{
				Routes: value.Routes[i],
			}
			{
				encoder := pseudoEncoder
				value := &pseudoValue
				if value.Routes != nil {
					encoder.Routes_encoder.Init(value.Routes)
				}
				_ = encoder
				_ = value
			}
		}
	}

	l := uint(0)
	if value.Name != nil {
		l += 1
		switch x := encoder.Name_length; {
		case x <= 0xfc:
			l += 1
		case x <= 0xffff:
			l += 3
		case x <= 0xffffffff:
			l += 5
		default:
			l += 9
		}
		l += encoder.Name_length
	}
	if value.Routes != nil {
		for seq_i, seq_v := range value.Routes {
			pseudoEncoder := &encoder.Routes_subencoder[seq_i]
			pseudoValue := struct {
				Routes *Route
			}{
				Routes: seq_v,
			}
			{
				encoder := pseudoEncoder
				value := &pseudoValue
				if value.Routes != nil {
					l += 1
					switch x := encoder.Routes_encoder.length; {
					case x <= 0xfc:
						l += 1
					case x <= 0xffff:
						l += 3
					case x <= 0xffffffff:
						l += 5
					default:
						l += 9
					}
					l += encoder.Routes_encoder.length
				}
				_ = encoder
				_ = value
			}
		}
	}
	encoder.length = l

}
func (encoder *RibEntryEncoder) EncodeInto(value *RibEntry, buf []byte) {

	pos := uint(0)

	if value.Name != nil {
		buf[pos] = byte(7)
		pos += 1
		switch x := encoder.Name_length; {
		case x <= 0xfc:
			buf[pos] = byte(x)
			pos += 1
		case x <= 0xffff:
			buf[pos] = 0xfd
			binary.BigEndian.PutUint16(buf[pos+1:], uint16(x))
			pos += 3
		case x <= 0xffffffff:
			buf[pos] = 0xfe
			binary.BigEndian.PutUint32(buf[pos+1:], uint32(x))
			pos += 5
		default:
			buf[pos] = 0xff
			binary.BigEndian.PutUint64(buf[pos+1:], uint64(x))
			pos += 9
		}
		for _, c := range value.Name {
			pos += uint(c.EncodeInto(buf[pos:]))
		}
	}
	if value.Routes != nil {
		for seq_i, seq_v := range value.Routes {
			pseudoEncoder := &encoder.Routes_subencoder[seq_i]
			pseudoValue := struct {
				Routes *Route
			}{
				Routes: seq_v,
			}
			{
				encoder := pseudoEncoder
				value := &pseudoValue
				if value.Routes != nil {
					buf[pos] = byte(129)
					pos += 1
					switch x := encoder.Routes_encoder.length; {
					case x <= 0xfc:
						buf[pos] = byte(x)
						pos += 1
					case x <= 0xffff:
						buf[pos] = 0xfd
						binary.BigEndian.PutUint16(buf[pos+1:], uint16(x))
						pos += 3
					case x <= 0xffffffff:
						buf[pos] = 0xfe
						binary.BigEndian.PutUint32(buf[pos+1:], uint32(x))
						pos += 5
					default:
						buf[pos] = 0xff
						binary.BigEndian.PutUint64(buf[pos+1:], uint64(x))
						pos += 9
					}
					if encoder.Routes_encoder.length > 0 {
						encoder.Routes_encoder.EncodeInto(value.Routes, buf[pos:])
						pos += encoder.Routes_encoder.length
					}
				}
				_ = encoder
				_ = value
			}
		}
	}
}
func (encoder *RibEntryEncoder) Encode(value *RibEntry) enc.Wire {

	wire := make(enc.Wire, 1)
	wire[0] = make([]byte, encoder.length)
	buf := wire[0]
	encoder.EncodeInto(value, buf)

	return wire
}
func (value *RibEntry) Encode() enc.Wire {
	encoder := RibEntryEncoder{}
	encoder.Init(value)
	return encoder.Encode(value)
}
func (value *RibEntry) Bytes() []byte {
	return value.Encode().Join()
}
"#),
  (t!"RibStatus", go! r#"type RibStatusEncoder struct {
	length uint

	Entries_subencoder []struct {
		Entries_encoder RibEntryEncoder
	}
}
func (encoder *RibStatusEncoder) Init(value *RibStatus) {
	{
		Entries_l := len(value.Entries)
		encoder.Entries_subencoder = make([]struct {
			Entries_encoder RibEntryEncoder
		}, Entries_l)
		for i := 0; i < Entries_l; i++ {
			pseudoEncoder := &encoder.Entries_subencoder[i]
			pseudoValue := struct {
				Entries *RibEntry
			}{
				Entries: value.Entries[i],
			}
			{
				encoder := pseudoEncoder
				value := &pseudoValue
				if value.Entries != nil {
					encoder.Entries_encoder.Init(value.Entries)
				}
				_ = encoder
				_ = value
			}
		}
	}

	l := uint(0)
	if value.Entries != nil {
		for seq_i, seq_v := range value.Entries {
			pseudoEncoder := &encoder.Entries_subencoder[seq_i]
			pseudoValue := struct {
				Entries *RibEntry
			}{
				Entries: seq_v,
			}
			{
				encoder := pseudoEncoder
				value := &pseudoValue
				if value.Entries != nil {
					l += 1
					switch x := encoder.Entries_encoder.length; {
					case x <= 0xfc:
						l += 1
					case x <= 0xffff:
						l += 3
					case x <= 0xffffffff:
						l += 5
					default:
						l += 9
					}
					l += encoder.Entries_encoder.length
				}
				_ = encoder
				_ = value
			}
		}
	}
	encoder.length = l

}
func (encoder *RibStatusEncoder) EncodeInto(value *RibStatus, buf []byte) {

	pos := uint(0)

	if value.Entries != nil {
		for seq_i, seq_v := range value.Entries {
			pseudoEncoder := &encoder.Entries_subencoder[seq_i]
			pseudoValue := struct {
				Entries *RibEntry
			}{
				Entries: seq_v,
			}
			{
				encoder := pseudoEncoder
				value := &pseudoValue
				if value.Entries != nil {
					buf[pos] = byte(128)
					pos += 1
					switch x := encoder.Entries_encoder.length; {
					case x <= 0xfc:
						buf[pos] = byte(x)
						pos += 1
					case x <= 0xffff:
						buf[pos] = 0xfd
						binary.BigEndian.PutUint16(buf[pos+1:], uint16(x))
						pos += 3
					case x <= 0xffffffff:
						buf[pos] = 0xfe
						binary.BigEndian.PutUint32(buf[pos+1:], uint32(x))
						pos += 5
					default:
						buf[pos] = 0xff
						binary.BigEndian.PutUint64(buf[pos+1:], uint64(x))
						pos += 9
					}
					if encoder.Entries_encoder.length > 0 {
						encoder.Entries_encoder.EncodeInto(value.Entries, buf[pos:])
						pos += encoder.Entries_encoder.length
					}
				}
				_ = encoder
				_ = value
			}
		}
	}
}
func (encoder *RibStatusEncoder) Encode(value *RibStatus) enc.Wire {

	wire := make(enc.Wire, 1)
	wire[0] = make([]byte, encoder.length)
	buf := wire[0]
	encoder.EncodeInto(value, buf)

	return wire
}
func (value *RibStatus) Encode() enc.Wire {
	encoder := RibStatusEncoder{}
	encoder.Init(value)
	return encoder.Encode(value)
}
func (value *RibStatus) Bytes() []byte {
	return value.Encode().Join()
}
"#),
  (t!"NextHopRecord", go! r#"type NextHopRecordEncoder struct {
	length uint
}
func (encoder *NextHopRecordEncoder) Init(value *NextHopRecord) {

	l := uint(0)
	l += 1
	switch x := value.FaceId; {
	case x <= 0xff:
		l += 2
	case x <= 0xffff:
		l += 3
	case x <= 0xffffffff:
		l += 5
	default:
		l += 9
	}
	l += 1
	switch x := value.Cost; {
	case x <= 0xff:
		l += 2
	case x <= 0xffff:
		l += 3
	case x <= 0xffffffff:
		l += 5
	default:
		l += 9
	}
	encoder.length = l

}
func (encoder *NextHopRecordEncoder) EncodeInto(value *NextHopRecord, buf []byte) {

	pos := uint(0)

	buf[pos] = byte(105)
	pos += 1
	switch x := value.FaceId; {
	case x <= 0xff:
		buf[pos] = 1
		buf[pos+1] = byte(x)
		pos += 2
	case x <= 0xffff:
		buf[pos] = 2
		binary.BigEndian.PutUint16(buf[pos+1:], uint16(x))
		pos += 3
	case x <= 0xffffffff:
		buf[pos] = 4
		binary.BigEndian.PutUint32(buf[pos+1:], uint32(x))
		pos += 5
	default:
		buf[pos] = 8
		binary.BigEndian.PutUint64(buf[pos+1:], uint64(x))
		pos += 9
	}
	buf[pos] = byte(106)
	pos += 1
	switch x := value.Cost; {
	case x <= 0xff:
		buf[pos] = 1
		buf[pos+1] = byte(x)
		pos += 2
	case x <= 0xffff:
		buf[pos] = 2
		binary.BigEndian.PutUint16(buf[pos+1:], uint16(x))
		pos += 3
	case x <= 0xffffffff:
		buf[pos] = 4
		binary.BigEndian.PutUint32(buf[pos+1:], uint32(x))
		pos += 5
	default:
		buf[pos] = 8
		binary.BigEndian.PutUint64(buf[pos+1:], uint64(x))
		pos += 9
	}
}
func (encoder *NextHopRecordEncoder) Encode(value *NextHopRecord) enc.Wire {

	wire := make(enc.Wire, 1)
	wire[0] = make([]byte, encoder.length)
	buf := wire[0]
	encoder.EncodeInto(value, buf)

	return wire
}
func (value *NextHopRecord) Encode() enc.Wire {
	encoder := NextHopRecordEncoder{}
	encoder.Init(value)
	return encoder.Encode(value)
}
func (value *NextHopRecord) Bytes() []byte {
	return value.Encode().Join()
}
"#),
  (t!"FibEntry", go! r#"type FibEntryEncoder struct {
	length uint

	Name_length               uint
	NextHopRecords_subencoder []struct {
		NextHopRecords_encoder NextHopRecordEncoder
	}
}
func (encoder *FibEntryEncoder) Init(value *FibEntry) {
	if value.Name != nil {
		encoder.Name_length = 0
		for _, c := range value.Name {
			encoder.Name_length += uint(c.EncodingLength())
		}
	}
	{
		NextHopRecords_l := len(value.NextHopRecords)
		encoder.NextHopRecords_subencoder = make([]struct {
			NextHopRecords_encoder NextHopRecordEncoder
		}, NextHopRecords_l)
		for i := 0; i < NextHopRecords_l; i++ {
			pseudoEncoder := &encoder.NextHopRecords_subencoder[i]
			pseudoValue := struct {
				NextHopRecords *NextHopRecord
			}{
				NextHopRecords: value.NextHopRecords[i],
			}
			{
				encoder := pseudoEncoder
				value := &pseudoValue
				if value.NextHopRecords != nil {
					encoder.NextHopRecords_encoder.Init(value.NextHopRecords)
				}
				_ = encoder
				_ = value
			}
		}
	}

	l := uint(0)
	if value.Name != nil {
		l += 1
		switch x := encoder.Name_length; {
		case x <= 0xfc:
			l += 1
		case x <= 0xffff:
			l += 3
		case x <= 0xffffffff:
			l += 5
		default:
			l += 9
		}
		l += encoder.Name_length
	}
	if value.NextHopRecords != nil {
		for seq_i, seq_v := range value.NextHopRecords {
			pseudoEncoder := &encoder.NextHopRecords_subencoder[seq_i]
			pseudoValue := struct {
				NextHopRecords *NextHopRecord
			}{
				NextHopRecords: seq_v,
			}
			{
				encoder := pseudoEncoder
				value := &pseudoValue
				if value.NextHopRecords != nil {
					l += 1
					switch x := encoder.NextHopRecords_encoder.length; {
					case x <= 0xfc:
						l += 1
					case x <= 0xffff:
						l += 3
					case x <= 0xffffffff:
						l += 5
					default:
						l += 9
					}
					l += encoder.NextHopRecords_encoder.length
				}
				_ = encoder
				_ = value
			}
		}
	}
	encoder.length = l

}
func (encoder *FibEntryEncoder) EncodeInto(value *FibEntry, buf []byte) {

	pos := uint(0)

	if value.Name != nil {
		buf[pos] = byte(7)
		pos += 1
		switch x := encoder.Name_length; {
		case x <= 0xfc:
			buf[pos] = byte(x)
			pos += 1
		case x <= 0xffff:
			buf[pos] = 0xfd
			binary.BigEndian.PutUint16(buf[pos+1:], uint16(x))
			pos += 3
		case x <= 0xffffffff:
			buf[pos] = 0xfe
			binary.BigEndian.PutUint32(buf[pos+1:], uint32(x))
			pos += 5
		default:
			buf[pos] = 0xff
			binary.BigEndian.PutUint64(buf[pos+1:], uint64(x))
			pos += 9
		}
		for _, c := range value.Name {
			pos += uint(c.EncodeInto(buf[pos:]))
		}
	}
	if value.NextHopRecords != nil {
		for seq_i, seq_v := range value.NextHopRecords {
			pseudoEncoder := &encoder.NextHopRecords_subencoder[seq_i]
			pseudoValue := struct {
				NextHopRecords *NextHopRecord
			}{
				NextHopRecords: seq_v,
			}
			{
				encoder := pseudoEncoder
				value := &pseudoValue
				if value.NextHopRecords != nil {
					buf[pos] = byte(129)
					pos += 1
					switch x := encoder.NextHopRecords_encoder.length; {
					case x <= 0xfc:
						buf[pos] = byte(x)
						pos += 1
					case x <= 0xffff:
						buf[pos] = 0xfd
						binary.BigEndian.PutUint16(buf[pos+1:], uint16(x))
						pos += 3
					case x <= 0xffffffff:
						buf[pos] = 0xfe
						binary.BigEndian.PutUint32(buf[pos+1:], uint32(x))
						pos += 5
					default:
						buf[pos] = 0xff
						binary.BigEndian.PutUint64(buf[pos+1:], uint64(x))
						pos += 9
					}
					if encoder.NextHopRecords_encoder.length > 0 {
						encoder.NextHopRecords_encoder.EncodeInto(value.NextHopRecords, buf[pos:])
						pos += encoder.NextHopRecords_encoder.length
					}
				}
				_ = encoder
				_ = value
			}
		}
	}
}
func (encoder *FibEntryEncoder) Encode(value *FibEntry) enc.Wire {

	wire := make(enc.Wire, 1)
	wire[0] = make([]byte, encoder.length)
	buf := wire[0]
	encoder.EncodeInto(value, buf)

	return wire
}
func (value *FibEntry) Encode() enc.Wire {
	encoder := FibEntryEncoder{}
	encoder.Init(value)
	return encoder.Encode(value)
}
func (value *FibEntry) Bytes() []byte {
	return value.Encode().Join()
}
"#),
  (t!"FibStatus", go! r#"type FibStatusEncoder struct {
	length uint

	Entries_subencoder []struct {
		Entries_encoder FibEntryEncoder
	}
}
func (encoder *FibStatusEncoder) Init(value *FibStatus) {
	{
		Entries_l := len(value.Entries)
		encoder.Entries_subencoder = make([]struct {
			Entries_encoder FibEntryEncoder
		}, Entries_l)
		for i := 0; i < Entries_l; i++ {
			pseudoEncoder := &encoder.Entries_subencoder[i]
			pseudoValue := struct {
				Entries *FibEntry
			}{
				Entries: value.Entries[i],
			}
			{
				encoder := pseudoEncoder
				value := &pseudoValue
				if value.Entries != nil {
					encoder.Entries_encoder.Init(value.Entries)
				}
				_ = encoder
				_ = value
			}
		}
	}

	l := uint(0)
	if value.Entries != nil {
		for seq_i, seq_v := range value.Entries {
			pseudoEncoder := &encoder.Entries_subencoder[seq_i]
			pseudoValue := struct {
				Entries *FibEntry
			}{
				Entries: seq_v,
			}
			{
				encoder := pseudoEncoder
				value := &pseudoValue
				if value.Entries != nil {
					l += 1
					switch x := encoder.Entries_encoder.length; {
					case x <= 0xfc:
						l += 1
					case x <= 0xffff:
						l += 3
					case x <= 0xffffffff:
						l += 5
					default:
						l += 9
					}
					l += encoder.Entries_encoder.length
				}
				_ = encoder
				_ = value
			}
		}
	}
	encoder.length = l

}
func (encoder *FibStatusEncoder) EncodeInto(value *FibStatus, buf []byte) {

	pos := uint(0)

	if value.Entries != nil {
		for seq_i, seq_v := range value.Entries {
			pseudoEncoder := &encoder.Entries_subencoder[seq_i]
			pseudoValue := struct {
				Entries *FibEntry
			}{
				Entries: seq_v,
			}
			{
				encoder := pseudoEncoder
				value := &pseudoValue
				if value.Entries != nil {
					buf[pos] = byte(128)
					pos += 1
					switch x := encoder.Entries_encoder.length; {
					case x <= 0xfc:
						buf[pos] = byte(x)
						pos += 1
					case x <= 0xffff:
						buf[pos] = 0xfd
						binary.BigEndian.PutUint16(buf[pos+1:], uint16(x))
						pos += 3
					case x <= 0xffffffff:
						buf[pos] = 0xfe
						binary.BigEndian.PutUint32(buf[pos+1:], uint32(x))
						pos += 5
					default:
						buf[pos] = 0xff
						binary.BigEndian.PutUint64(buf[pos+1:], uint64(x))
						pos += 9
					}
					if encoder.Entries_encoder.length > 0 {
						encoder.Entries_encoder.EncodeInto(value.Entries, buf[pos:])
						pos += encoder.Entries_encoder.length
					}
				}
				_ = encoder
				_ = value
			}
		}
	}
}
func (encoder *FibStatusEncoder) Encode(value *FibStatus) enc.Wire {

	wire := make(enc.Wire, 1)
	wire[0] = make([]byte, encoder.length)
	buf := wire[0]
	encoder.EncodeInto(value, buf)

	return wire
}
func (value *FibStatus) Encode() enc.Wire {
	encoder := FibStatusEncoder{}
	encoder.Init(value)
	return encoder.Encode(value)
}
func (value *FibStatus) Bytes() []byte {
	return value.Encode().Join()
}
"#),
  (t!"StrategyChoice", go! r#"type StrategyChoiceEncoder struct {
	length uint

	Name_length      uint
	Strategy_encoder StrategyEncoder
}
func (encoder *StrategyChoiceEncoder) Init(value *StrategyChoice) {
	if value.Name != nil {
		encoder.Name_length = 0
		for _, c := range value.Name {
			encoder.Name_length += uint(c.EncodingLength())
		}
	}
	if value.Strategy != nil {
		encoder.Strategy_encoder.Init(value.Strategy)
	}

	l := uint(0)
	if value.Name != nil {
		l += 1
		switch x := encoder.Name_length; {
		case x <= 0xfc:
			l += 1
		case x <= 0xffff:
			l += 3
		case x <= 0xffffffff:
			l += 5
		default:
			l += 9
		}
		l += encoder.Name_length
	}
	if value.Strategy != nil {
		l += 1
		switch x := encoder.Strategy_encoder.length; {
		case x <= 0xfc:
			l += 1
		case x <= 0xffff:
			l += 3
		case x <= 0xffffffff:
			l += 5
		default:
			l += 9
		}
		l += encoder.Strategy_encoder.length
	}
	encoder.length = l

}
func (encoder *StrategyChoiceEncoder) EncodeInto(value *StrategyChoice, buf []byte) {

	pos := uint(0)

	if value.Name != nil {
		buf[pos] = byte(7)
		pos += 1
		switch x := encoder.Name_length; {
		case x <= 0xfc:
			buf[pos] = byte(x)
			pos += 1
		case x <= 0xffff:
			buf[pos] = 0xfd
			binary.BigEndian.PutUint16(buf[pos+1:], uint16(x))
			pos += 3
		case x <= 0xffffffff:
			buf[pos] = 0xfe
			binary.BigEndian.PutUint32(buf[pos+1:], uint32(x))
			pos += 5
		default:
			buf[pos] = 0xff
			binary.BigEndian.PutUint64(buf[pos+1:], uint64(x))
			pos += 9
		}
		for _, c := range value.Name {
			pos += uint(c.EncodeInto(buf[pos:]))
		}
	}
	if value.Strategy != nil {
		buf[pos] = byte(107)
		pos += 1
		switch x := encoder.Strategy_encoder.length; {
		case x <= 0xfc:
			buf[pos] = byte(x)
			pos += 1
		case x <= 0xffff:
			buf[pos] = 0xfd
			binary.BigEndian.PutUint16(buf[pos+1:], uint16(x))
			pos += 3
		case x <= 0xffffffff:
			buf[pos] = 0xfe
			binary.BigEndian.PutUint32(buf[pos+1:], uint32(x))
			pos += 5
		default:
			buf[pos] = 0xff
			binary.BigEndian.PutUint64(buf[pos+1:], uint64(x))
			pos += 9
		}
		if encoder.Strategy_encoder.length > 0 {
			encoder.Strategy_encoder.EncodeInto(value.Strategy, buf[pos:])
			pos += encoder.Strategy_encoder.length
		}
	}
}
func (encoder *StrategyChoiceEncoder) Encode(value *StrategyChoice) enc.Wire {

	wire := make(enc.Wire, 1)
	wire[0] = make([]byte, encoder.length)
	buf := wire[0]
	encoder.EncodeInto(value, buf)

	return wire
}
func (value *StrategyChoice) Encode() enc.Wire {
	encoder := StrategyChoiceEncoder{}
	encoder.Init(value)
	return encoder.Encode(value)
}
func (value *StrategyChoice) Bytes() []byte {
	return value.Encode().Join()
}
"#),
  (t!"StrategyChoiceMsg", go! r#"type StrategyChoiceMsgEncoder struct {
	length uint

	StrategyChoices_subencoder []struct {
		StrategyChoices_encoder StrategyChoiceEncoder
	}
}
func (encoder *StrategyChoiceMsgEncoder) Init(value *StrategyChoiceMsg) {
	{
		StrategyChoices_l := len(value.StrategyChoices)
		encoder.StrategyChoices_subencoder = make([]struct {
			StrategyChoices_encoder StrategyChoiceEncoder
		}, StrategyChoices_l)
		for i := 0; i < StrategyChoices_l; i++ {
			pseudoEncoder := &encoder.StrategyChoices_subencoder[i]
			pseudoValue := struct {
				StrategyChoices *StrategyChoice
			}{
				StrategyChoices: value.StrategyChoices[i],
			}
			{
				encoder := pseudoEncoder
				value := &pseudoValue
				if value.StrategyChoices != nil {
					encoder.StrategyChoices_encoder.Init(value.StrategyChoices)
				}
				_ = encoder
				_ = value
			}
		}
	}

	l := uint(0)
	if value.StrategyChoices != nil {
		for seq_i, seq_v := range value.StrategyChoices {
			pseudoEncoder := &encoder.StrategyChoices_subencoder[seq_i]
			pseudoValue := struct {
				StrategyChoices *StrategyChoice
			}{
				StrategyChoices: seq_v,
			}
			{
				encoder := pseudoEncoder
				value := &pseudoValue
				if value.StrategyChoices != nil {
					l += 1
					switch x := encoder.StrategyChoices_encoder.length; {
					case x <= 0xfc:
						l += 1
					case x <= 0xffff:
						l += 3
					case x <= 0xffffffff:
						l += 5
					default:
						l += 9
					}
					l += encoder.StrategyChoices_encoder.length
				}
				_ = encoder
				_ = value
			}
		}
	}
	encoder.length = l

}
func (encoder *StrategyChoiceMsgEncoder) EncodeInto(value *StrategyChoiceMsg, buf []byte) {

	pos := uint(0)

	if value.StrategyChoices != nil {
		for seq_i, seq_v := range value.StrategyChoices {
			pseudoEncoder := &encoder.StrategyChoices_subencoder[seq_i]
			pseudoValue := struct {
				StrategyChoices *StrategyChoice
			}{
				StrategyChoices: seq_v,
			}
			{
				encoder := pseudoEncoder
				value := &pseudoValue
				if value.StrategyChoices != nil {
					buf[pos] = byte(128)
					pos += 1
					switch x := encoder.StrategyChoices_encoder.length; {
					case x <= 0xfc:
						buf[pos] = byte(x)
						pos += 1
					case x <= 0xffff:
						buf[pos] = 0xfd
						binary.BigEndian.PutUint16(buf[pos+1:], uint16(x))
						pos += 3
					case x <= 0xffffffff:
						buf[pos] = 0xfe
						binary.BigEndian.PutUint32(buf[pos+1:], uint32(x))
						pos += 5
					default:
						buf[pos] = 0xff
						binary.BigEndian.PutUint64(buf[pos+1:], uint64(x))
						pos += 9
					}
					if encoder.StrategyChoices_encoder.length > 0 {
						encoder.StrategyChoices_encoder.EncodeInto(value.StrategyChoices, buf[pos:])
						pos += encoder.StrategyChoices_encoder.length
					}
				}
				_ = encoder
				_ = value
			}
		}
	}
}
func (encoder *StrategyChoiceMsgEncoder) Encode(value *StrategyChoiceMsg) enc.Wire {

	wire := make(enc.Wire, 1)
	wire[0] = make([]byte, encoder.length)
	buf := wire[0]
	encoder.EncodeInto(value, buf)

	return wire
}
func (value *StrategyChoiceMsg) Encode() enc.Wire {
	encoder := StrategyChoiceMsgEncoder{}
	encoder.Init(value)
	return encoder.Encode(value)
}
func (value *StrategyChoiceMsg) Bytes() []byte {
	return value.Encode().Join()
}
"#),
  (t!"CsInfo", go! r#"type CsInfoEncoder struct {
	length uint
}
func (encoder *CsInfoEncoder) Init(value *CsInfo) {

	l := uint(0)
	l += 1
	switch x := value.Capacity; {
	case x <= 0xff:
		l += 2
	case x <= 0xffff:
		l += 3
	case x <= 0xffffffff:
		l += 5
	default:
		l += 9
	}
	l += 1
	switch x := value.Flags; {
	case x <= 0xff:
		l += 2
	case x <= 0xffff:
		l += 3
	case x <= 0xffffffff:
		l += 5
	default:
		l += 9
	}
	l += 1
	switch x := value.NCsEntries; {
	case x <= 0xff:
		l += 2
	case x <= 0xffff:
		l += 3
	case x <= 0xffffffff:
		l += 5
	default:
		l += 9
	}
	l += 1
	switch x := value.NHits; {
	case x <= 0xff:
		l += 2
	case x <= 0xffff:
		l += 3
	case x <= 0xffffffff:
		l += 5
	default:
		l += 9
	}
	l += 1
	switch x := value.NMisses; {
	case x <= 0xff:
		l += 2
	case x <= 0xffff:
		l += 3
	case x <= 0xffffffff:
		l += 5
	default:
		l += 9
	}
	encoder.length = l

}
func (encoder *CsInfoEncoder) EncodeInto(value *CsInfo, buf []byte) {

	pos := uint(0)

	buf[pos] = byte(131)
	pos += 1
	switch x := value.Capacity; {
	case x <= 0xff:
		buf[pos] = 1
		buf[pos+1] = byte(x)
		pos += 2
	case x <= 0xffff:
		buf[pos] = 2
		binary.BigEndian.PutUint16(buf[pos+1:], uint16(x))
		pos += 3
	case x <= 0xffffffff:
		buf[pos] = 4
		binary.BigEndian.PutUint32(buf[pos+1:], uint32(x))
		pos += 5
	default:
		buf[pos] = 8
		binary.BigEndian.PutUint64(buf[pos+1:], uint64(x))
		pos += 9
	}
	buf[pos] = byte(108)
	pos += 1
	switch x := value.Flags; {
	case x <= 0xff:
		buf[pos] = 1
		buf[pos+1] = byte(x)
		pos += 2
	case x <= 0xffff:
		buf[pos] = 2
		binary.BigEndian.PutUint16(buf[pos+1:], uint16(x))
		pos += 3
	case x <= 0xffffffff:
		buf[pos] = 4
		binary.BigEndian.PutUint32(buf[pos+1:], uint32(x))
		pos += 5
	default:
		buf[pos] = 8
		binary.BigEndian.PutUint64(buf[pos+1:], uint64(x))
		pos += 9
	}
	buf[pos] = byte(135)
	pos += 1
	switch x := value.NCsEntries; {
	case x <= 0xff:
		buf[pos] = 1
		buf[pos+1] = byte(x)
		pos += 2
	case x <= 0xffff:
		buf[pos] = 2
		binary.BigEndian.PutUint16(buf[pos+1:], uint16(x))
		pos += 3
	case x <= 0xffffffff:
		buf[pos] = 4
		binary.BigEndian.PutUint32(buf[pos+1:], uint32(x))
		pos += 5
	default:
		buf[pos] = 8
		binary.BigEndian.PutUint64(buf[pos+1:], uint64(x))
		pos += 9
	}
	buf[pos] = byte(129)
	pos += 1
	switch x := value.NHits; {
	case x <= 0xff:
		buf[pos] = 1
		buf[pos+1] = byte(x)
		pos += 2
	case x <= 0xffff:
		buf[pos] = 2
		binary.BigEndian.PutUint16(buf[pos+1:], uint16(x))
		pos += 3
	case x <= 0xffffffff:
		buf[pos] = 4
		binary.BigEndian.PutUint32(buf[pos+1:], uint32(x))
		pos += 5
	default:
		buf[pos] = 8
		binary.BigEndian.PutUint64(buf[pos+1:], uint64(x))
		pos += 9
	}
	buf[pos] = byte(130)
	pos += 1
	switch x := value.NMisses; {
	case x <= 0xff:
		buf[pos] = 1
		buf[pos+1] = byte(x)
		pos += 2
	case x <= 0xffff:
		buf[pos] = 2
		binary.BigEndian.PutUint16(buf[pos+1:], uint16(x))
		pos += 3
	case x <= 0xffffffff:
		buf[pos] = 4
		binary.BigEndian.PutUint32(buf[pos+1:], uint32(x))
		pos += 5
	default:
		buf[pos] = 8
		binary.BigEndian.PutUint64(buf[pos+1:], uint64(x))
		pos += 9
	}
}
func (encoder *CsInfoEncoder) Encode(value *CsInfo) enc.Wire {

	wire := make(enc.Wire, 1)
	wire[0] = make([]byte, encoder.length)
	buf := wire[0]
	encoder.EncodeInto(value, buf)

	return wire
}
func (value *CsInfo) Encode() enc.Wire {
	encoder := CsInfoEncoder{}
	encoder.Init(value)
	return encoder.Encode(value)
}
func (value *CsInfo) Bytes() []byte {
	return value.Encode().Join()
}
"#),
  (t!"CsInfoMsg", go! r#"type CsInfoMsgEncoder struct {
	length uint

	CsInfo_encoder CsInfoEncoder
}
func (encoder *CsInfoMsgEncoder) Init(value *CsInfoMsg) {
	if value.CsInfo != nil {
		encoder.CsInfo_encoder.Init(value.CsInfo)
	}

	l := uint(0)
	if value.CsInfo != nil {
		l += 1
		switch x := encoder.CsInfo_encoder.length; {
		case x <= 0xfc:
			l += 1
		case x <= 0xffff:
			l += 3
		case x <= 0xffffffff:
			l += 5
		default:
			l += 9
		}
		l += encoder.CsInfo_encoder.length
	}
	encoder.length = l

}
func (encoder *CsInfoMsgEncoder) EncodeInto(value *CsInfoMsg, buf []byte) {

	pos := uint(0)

	if value.CsInfo != nil {
		buf[pos] = byte(128)
		pos += 1
		switch x := encoder.CsInfo_encoder.length; {
		case x <= 0xfc:
			buf[pos] = byte(x)
			pos += 1
		case x <= 0xffff:
			buf[pos] = 0xfd
			binary.BigEndian.PutUint16(buf[pos+1:], uint16(x))
			pos += 3
		case x <= 0xffffffff:
			buf[pos] = 0xfe
			binary.BigEndian.PutUint32(buf[pos+1:], uint32(x))
			pos += 5
		default:
			buf[pos] = 0xff
			binary.BigEndian.PutUint64(buf[pos+1:], uint64(x))
			pos += 9
		}
		if encoder.CsInfo_encoder.length > 0 {
			encoder.CsInfo_encoder.EncodeInto(value.CsInfo, buf[pos:])
			pos += encoder.CsInfo_encoder.length
		}
	}
}
func (encoder *CsInfoMsgEncoder) Encode(value *CsInfoMsg) enc.Wire {

	wire := make(enc.Wire, 1)
	wire[0] = make([]byte, encoder.length)
	buf := wire[0]
	encoder.EncodeInto(value, buf)

	return wire
}
func (value *CsInfoMsg) Encode() enc.Wire {
	encoder := CsInfoMsgEncoder{}
	encoder.Init(value)
	return encoder.Encode(value)
}
func (value *CsInfoMsg) Bytes() []byte {
	return value.Encode().Join()
}
"#)]

theorem mgmtB_same : allSame mgmtSource mgmtBTexts = true := by decide +kernel

end Ndn.Codec.Gen
