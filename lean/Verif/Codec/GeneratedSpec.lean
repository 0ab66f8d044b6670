import Verif.Codec.GoText

/-! # The encoders in `/repo/pkg/ndn/spec_2022/zz_generated.go`, as they are there -/

namespace Ndn.Codec.Gen

/-- the types and methods of the encoders, copied from `/repo/pkg/ndn/spec_2022/zz_generated.go` -/
def specTexts : List (Txt × Nat × Nat) := [
  (t!"KeyLocator", go! r#"type KeyLocatorEncoder struct {
	length uint

	Name_length uint
}
func (encoder *KeyLocatorEncoder) Init(value *KeyLocator) {
	if value.Name != nil {
		encoder.Name_length = 0
		for _, c := range value.Name {
			encoder.Name_length += uint(c.EncodingLength())
		}
	}

	l := uint(0)
	if value.Name != nil {
		l += 1
		switch x := encoder.Name_length; {
		case x <= 0xfc:
			l += 1
		case x <= 0xffff:
			l += 3
		case x <= 0xffffffff:
			l += 5
		default:
			l += 9
		}
		l += encoder.Name_length
	}
	if value.KeyDigest != nil {
		l += 1
		switch x := len(value.KeyDigest); {
		case x <= 0xfc:
			l += 1
		case x <= 0xffff:
			l += 3
		case x <= 0xffffffff:
			l += 5
		default:
			l += 9
		}
		l += uint(len(value.KeyDigest))
	}
	encoder.length = l

}
func (encoder *KeyLocatorEncoder) EncodeInto(value *KeyLocator, buf []byte) {

	pos := uint(0)

	if value.Name != nil {
		buf[pos] = byte(7)
		pos += 1
		switch x := encoder.Name_length; {
		case x <= 0xfc:
			buf[pos] = byte(x)
			pos += 1
		case x <= 0xffff:
			buf[pos] = 0xfd
			binary.BigEndian.PutUint16(buf[pos+1:], uint16(x))
			pos += 3
		case x <= 0xffffffff:
			buf[pos] = 0xfe
			binary.BigEndian.PutUint32(buf[pos+1:], uint32(x))
			pos += 5
		default:
			buf[pos] = 0xff
			binary.BigEndian.PutUint64(buf[pos+1:], uint64(x))
			pos += 9
		}
		for _, c := range value.Name {
			pos += uint(c.EncodeInto(buf[pos:]))
		}
	}
	if value.KeyDigest != nil {
		buf[pos] = byte(29)
		pos += 1
		switch x := len(value.KeyDigest); {
		case x <= 0xfc:
			buf[pos] = byte(x)
			pos += 1
		case x <= 0xffff:
			buf[pos] = 0xfd
			binary.BigEndian.PutUint16(buf[pos+1:], uint16(x))
			pos += 3
		case x <= 0xffffffff:
			buf[pos] = 0xfe
			binary.BigEndian.PutUint32(buf[pos+1:], uint32(x))
			pos += 5
		default:
			buf[pos] = 0xff
			binary.BigEndian.PutUint64(buf[pos+1:], uint64(x))
			pos += 9
		}
		copy(buf[pos:], value.KeyDigest)
		pos += uint(len(value.KeyDigest))
	}
}
func (encoder *KeyLocatorEncoder) Encode(value *KeyLocator) enc.Wire {

	wire := make(enc.Wire, 1)
	wire[0] = make([]byte, encoder.length)
	buf := wire[0]
	encoder.EncodeInto(value, buf)

	return wire
}
func (value *KeyLocator) Encode() enc.Wire {
	encoder := KeyLocatorEncoder{}
	encoder.Init(value)
	return encoder.Encode(value)
}
func (value *KeyLocator) Bytes() []byte {
	return value.Encode().Join()
}
"#),
  (t!"Links", go! r#"type LinksEncoder struct {
	length uint

	Names_subencoder []struct {
		Names_length uint
	}
}
func (encoder *LinksEncoder) Init(value *Links) {
	{
		Names_l := len(value.Names)
		encoder.Names_subencoder = make([]struct {
			Names_length uint
		}, Names_l)
		for i := 0; i < Names_l; i++ {
			pseudoEncoder := &encoder.Names_subencoder[i]
			pseudoValue := struct {
				Names enc.Name
			}{
				Names: value.Names[i],
			}
			{
				encoder := pseudoEncoder
				value := &pseudoValue
				if value.Names != nil {
					encoder.Names_length = 0
					for _, c := range value.Names {
						encoder.Names_length += uint(c.EncodingLength())
					}
				}
				_ = encoder
				_ = value
			}
		}
	}

	l := uint(0)
	if value.Names != nil {
		for seq_i, seq_v := range value.Names {
			pseudoEncoder := &encoder.Names_subencoder[seq_i]
			pseudoValue := struct {
				Names enc.Name
			}{
				Names: seq_v,
			}
			{
				encoder := pseudoEncoder
				value := &pseudoValue
				if value.Names != nil {
					l += 1
					switch x := encoder.Names_length; {
					case x <= 0xfc:
						l += 1
					case x <= 0xffff:
						l += 3
					case x <= 0xffffffff:
						l += 5
					default:
						l += 9
					}
					l += encoder.Names_length
				}
				_ = encoder
				_ = value
			}
		}
	}
	encoder.length = l

}
func (encoder *LinksEncoder) EncodeInto(value *Links, buf []byte) {

	pos := uint(0)

	if value.Names != nil {
		for seq_i, seq_v := range value.Names {
			pseudoEncoder := &encoder.Names_subencoder[seq_i]
			pseudoValue := struct {
				Names enc.Name
			}{
				Names: seq_v,
			}
			{
				encoder := pseudoEncoder
				value := &pseudoValue
				if value.Names != nil {
					buf[pos] = byte(7)
					pos += 1
					switch x := encoder.Names_length; {
					case x <= 0xfc:
						buf[pos] = byte(x)
						pos += 1
					case x <= 0xffff:
						buf[pos] = 0xfd
						binary.BigEndian.PutUint16(buf[pos+1:], uint16(x))
						pos += 3
					case x <= 0xffffffff:
						buf[pos] = 0xfe
						binary.BigEndian.PutUint32(buf[pos+1:], uint32(x))
						pos += 5
					default:
						buf[pos] = 0xff
						binary.BigEndian.PutUint64(buf[pos+1:], uint64(x))
						pos += 9
					}
					for _, c := range value.Names {
						pos += uint(c.EncodeInto(buf[pos:]))
					}
				}
				_ = encoder
				_ = value
			}
		}
	}
}
func (encoder *LinksEncoder) Encode(value *Links) enc.Wire {

	wire := make(enc.Wire, 1)
	wire[0] = make([]byte, encoder.length)
	buf := wire[0]
	encoder.EncodeInto(value, buf)

	return wire
}
func (value *Links) Encode() enc.Wire {
	encoder := LinksEncoder{}
	encoder.Init(value)
	return encoder.Encode(value)
}
func (value *Links) Bytes() []byte {
	return value.Encode().Join()
}
"#),
  (t!"MetaInfo", go! r#"type MetaInfoEncoder struct {
	length uint
}
func (encoder *MetaInfoEncoder) Init(value *MetaInfo) {

	l := uint(0)
	if value.ContentType != nil {
		l += 1
		switch x := *value.ContentType; {
		case x <= 0xff:
			l += 2
		case x <= 0xffff:
			l += 3
		case x <= 0xffffffff:
			l += 5
		default:
			l += 9
		}
	}
	if value.FreshnessPeriod != nil {
		l += 1
		switch x := uint64(*value.FreshnessPeriod / time.Millisecond); {
		case x <= 0xff:
			l += 2
		case x <= 0xffff:
			l += 3
		case x <= 0xffffffff:
			l += 5
		default:
			l += 9
		}
	}
	if value.FinalBlockID != nil {
		l += 1
		switch x := len(value.FinalBlockID); {
		case x <= 0xfc:
			l += 1
		case x <= 0xffff:
			l += 3
		case x <= 0xffffffff:
			l += 5
		default:
			l += 9
		}
		l += uint(len(value.FinalBlockID))
	}
	encoder.length = l

}
func (encoder *MetaInfoEncoder) EncodeInto(value *MetaInfo, buf []byte) {

	pos := uint(0)

	if value.ContentType != nil {
		buf[pos] = byte(24)
		pos += 1
		switch x := *value.ContentType; {
		case x <= 0xff:
			buf[pos] = 1
			buf[pos+1] = byte(x)
			pos += 2
		case x <= 0xffff:
			buf[pos] = 2
			binary.BigEndian.PutUint16(buf[pos+1:], uint16(x))
			pos += 3
		case x <= 0xffffffff:
			buf[pos] = 4
			binary.BigEndian.PutUint32(buf[pos+1:], uint32(x))
			pos += 5
		default:
			buf[pos] = 8
			binary.BigEndian.PutUint64(buf[pos+1:], uint64(x))
			pos += 9
		}
	}
	if value.FreshnessPeriod != nil {
		buf[pos] = byte(25)
		pos += 1
		switch x := uint64(*value.FreshnessPeriod / time.Millisecond); {
		case x <= 0xff:
			buf[pos] = 1
			buf[pos+1] = byte(x)
			pos += 2
		case x <= 0xffff:
			buf[pos] = 2
			binary.BigEndian.PutUint16(buf[pos+1:], uint16(x))
			pos += 3
		case x <= 0xffffffff:
			buf[pos] = 4
			binary.BigEndian.PutUint32(buf[pos+1:], uint32(x))
			pos += 5
		default:
			buf[pos] = 8
			binary.BigEndian.PutUint64(buf[pos+1:], uint64(x))
			pos += 9
		}
	}
	if value.FinalBlockID != nil {
		buf[pos] = byte(26)
		pos += 1
		switch x := len(value.FinalBlockID); {
		case x <= 0xfc:
			buf[pos] = byte(x)
			pos += 1
		case x <= 0xffff:
			buf[pos] = 0xfd
			binary.BigEndian.PutUint16(buf[pos+1:], uint16(x))
			pos += 3
		case x <= 0xffffffff:
			buf[pos] = 0xfe
			binary.BigEndian.PutUint32(buf[pos+1:], uint32(x))
			pos += 5
		default:
			buf[pos] = 0xff
			binary.BigEndian.PutUint64(buf[pos+1:], uint64(x))
			pos += 9
		}
		copy(buf[pos:], value.FinalBlockID)
		pos += uint(len(value.FinalBlockID))
	}
}
func (encoder *MetaInfoEncoder) Encode(value *MetaInfo) enc.Wire {

	wire := make(enc.Wire, 1)
	wire[0] = make([]byte, encoder.length)
	buf := wire[0]
	encoder.EncodeInto(value, buf)

	return wire
}
func (value *MetaInfo) Encode() enc.Wire {
	encoder := MetaInfoEncoder{}
	encoder.Init(value)
	return encoder.Encode(value)
}
func (value *MetaInfo) Bytes() []byte {
	return value.Encode().Join()
}
"#),
  (t!"ValidityPeriod", go! r#"type ValidityPeriodEncoder struct {
	length uint
}
func (encoder *ValidityPeriodEncoder) Init(value *ValidityPeriod) {

	l := uint(0)
	l += 3
	switch x := len(value.NotBefore); {
	case x <= 0xfc:
		l += 1
	case x <= 0xffff:
		l += 3
	case x <= 0xffffffff:
		l += 5
	default:
		l += 9
	}
	l += uint(len(value.NotBefore))
	l += 3
	switch x := len(value.NotAfter); {
	case x <= 0xfc:
		l += 1
	case x <= 0xffff:
		l += 3
	case x <= 0xffffffff:
		l += 5
	default:
		l += 9
	}
	l += uint(len(value.NotAfter))
	encoder.length = l

}
func (encoder *ValidityPeriodEncoder) EncodeInto(value *ValidityPeriod, buf []byte) {

	pos := uint(0)

	buf[pos] = 253
	binary.BigEndian.PutUint16(buf[pos+1:], uint16(254))
	pos += 3
	switch x := len(value.NotBefore); {
	case x <= 0xfc:
		buf[pos] = byte(x)
		pos += 1
	case x <= 0xffff:
		buf[pos] = 0xfd
		binary.BigEndian.PutUint16(buf[pos+1:], uint16(x))
		pos += 3
	case x <= 0xffffffff:
		buf[pos] = 0xfe
		binary.BigEndian.PutUint32(buf[pos+1:], uint32(x))
		pos += 5
	default:
		buf[pos] = 0xff
		binary.BigEndian.PutUint64(buf[pos+1:], uint64(x))
		pos += 9
	}
	copy(buf[pos:], value.NotBefore)
	pos += uint(len(value.NotBefore))
	buf[pos] = 253
	binary.BigEndian.PutUint16(buf[pos+1:], uint16(255))
	pos += 3
	switch x := len(value.NotAfter); {
	case x <= 0xfc:
		buf[pos] = byte(x)
		pos += 1
	case x <= 0xffff:
		buf[pos] = 0xfd
		binary.BigEndian.PutUint16(buf[pos+1:], uint16(x))
		pos += 3
	case x <= 0xffffffff:
		buf[pos] = 0xfe
		binary.BigEndian.PutUint32(buf[pos+1:], uint32(x))
		pos += 5
	default:
		buf[pos] = 0xff
		binary.BigEndian.PutUint64(buf[pos+1:], uint64(x))
		pos += 9
	}
	copy(buf[pos:], value.NotAfter)
	pos += uint(len(value.NotAfter))
}
func (encoder *ValidityPeriodEncoder) Encode(value *ValidityPeriod) enc.Wire {

	wire := make(enc.Wire, 1)
	wire[0] = make([]byte, encoder.length)
	buf := wire[0]
	encoder.EncodeInto(value, buf)

	return wire
}
func (value *ValidityPeriod) Encode() enc.Wire {
	encoder := ValidityPeriodEncoder{}
	encoder.Init(value)
	return encoder.Encode(value)
}
func (value *ValidityPeriod) Bytes() []byte {
	return value.Encode().Join()
}
"#),
  (t!"CertDescriptionEntry", go! r#"type CertDescriptionEntryEncoder struct {
	length uint
}
func (encoder *CertDescriptionEntryEncoder) Init(value *CertDescriptionEntry) {

	l := uint(0)
	l += 3
	switch x := len(value.DescriptionKey); {
	case x <= 0xfc:
		l += 1
	case x <= 0xffff:
		l += 3
	case x <= 0xffffffff:
		l += 5
	default:
		l += 9
	}
	l += uint(len(value.DescriptionKey))
	l += 3
	switch x := len(value.DescriptionValue); {
	case x <= 0xfc:
		l += 1
	case x <= 0xffff:
		l += 3
	case x <= 0xffffffff:
		l += 5
	default:
		l += 9
	}
	l += uint(len(value.DescriptionValue))
	encoder.length = l

}
func (encoder *CertDescriptionEntryEncoder) EncodeInto(value *CertDescriptionEntry, buf []byte) {

	pos := uint(0)

	buf[pos] = 253
	binary.BigEndian.PutUint16(buf[pos+1:], uint16(513))
	pos += 3
	switch x := len(value.DescriptionKey); {
	case x <= 0xfc:
		buf[pos] = byte(x)
		pos += 1
	case x <= 0xffff:
		buf[pos] = 0xfd
		binary.BigEndian.PutUint16(buf[pos+1:], uint16(x))
		pos += 3
	case x <= 0xffffffff:
		buf[pos] = 0xfe
		binary.BigEndian.PutUint32(buf[pos+1:], uint32(x))
		pos += 5
	default:
		buf[pos] = 0xff
		binary.BigEndian.PutUint64(buf[pos+1:], uint64(x))
		pos += 9
	}
	copy(buf[pos:], value.DescriptionKey)
	pos += uint(len(value.DescriptionKey))
	buf[pos] = 253
	binary.BigEndian.PutUint16(buf[pos+1:], uint16(514))
	pos += 3
	switch x := len(value.DescriptionValue); {
	case x <= 0xfc:
		buf[pos] = byte(x)
		pos += 1
	case x <= 0xffff:
		buf[pos] = 0xfd
		binary.BigEndian.PutUint16(buf[pos+1:], uint16(x))
		pos += 3
	case x <= 0xffffffff:
		buf[pos] = 0xfe
		binary.BigEndian.PutUint32(buf[pos+1:], uint32(x))
		pos += 5
	default:
		buf[pos] = 0xff
		binary.BigEndian.PutUint64(buf[pos+1:], uint64(x))
		pos += 9
	}
	copy(buf[pos:], value.DescriptionValue)
	pos += uint(len(value.DescriptionValue))
}
func (encoder *CertDescriptionEntryEncoder) Encode(value *CertDescriptionEntry) enc.Wire {

	wire := make(enc.Wire, 1)
	wire[0] = make([]byte, encoder.length)
	buf := wire[0]
	encoder.EncodeInto(value, buf)

	return wire
}
func (value *CertDescriptionEntry) Encode() enc.Wire {
	encoder := CertDescriptionEntryEncoder{}
	encoder.Init(value)
	return encoder.Encode(value)
}
func (value *CertDescriptionEntry) Bytes() []byte {
	return value.Encode().Join()
}
"#),
  (t!"CertAdditionalDescription", go! r#"type CertAdditionalDescriptionEncoder struct {
	length uint

	DescriptionEntries_subencoder []struct {
		DescriptionEntries_encoder CertDescriptionEntryEncoder
	}
}
func (encoder *CertAdditionalDescriptionEncoder) Init(value *CertAdditionalDescription) {
	{
		DescriptionEntries_l := len(value.DescriptionEntries)
		encoder.DescriptionEntries_subencoder = make([]struct {
			DescriptionEntries_encoder CertDescriptionEntryEncoder
		}, DescriptionEntries_l)
		for i := 0; i < DescriptionEntries_l; i++ {
			pseudoEncoder := &encoder.DescriptionEntries_subencoder[i]
			pseudoValue := struct {
				DescriptionEntries *CertDescriptionEntry
			}{
				DescriptionEntries: value.DescriptionEntries[i],
			}
			{
				encoder := pseudoEncoder
				value := &pseudoValue
				if value.DescriptionEntries != nil {
					encoder.DescriptionEntries_encoder.Init(value.DescriptionEntries)
				}
				_ = encoder
				_ = value
			}
		}
	}

	l := uint(0)
	if value.DescriptionEntries != nil {
		for seq_i, seq_v := range value.DescriptionEntries {
			pseudoEncoder := &encoder.DescriptionEntries_subencoder[seq_i]
			pseudoValue := struct {
				DescriptionEntries *CertDescriptionEntry
			}{
				DescriptionEntries: seq_v,
			}
			{
				encoder := pseudoEncoder
				value := &pseudoValue
				if value.DescriptionEntries != nil {
					l += 3
					switch x := encoder.DescriptionEntries_encoder.length; {
					case x <= 0xfc:
						l += 1
					case x <= 0xffff:
						l += 3
					case x <= 0xffffffff:
						l += 5
					default:
						l += 9
					}
					l += encoder.DescriptionEntries_encoder.length
				}
				_ = encoder
				_ = value
			}
		}
	}
	encoder.length = l

}
func (encoder *CertAdditionalDescriptionEncoder) EncodeInto(value *CertAdditionalDescription, buf []byte) {

	pos := uint(0)

	if value.DescriptionEntries != nil {
		for seq_i, seq_v := range value.DescriptionEntries {
			pseudoEncoder := &encoder.DescriptionEntries_subencoder[seq_i]
			pseudoValue := struct {
				DescriptionEntries *CertDescriptionEntry
			}{
				DescriptionEntries: seq_v,
			}
			{
				encoder := pseudoEncoder
				value := &pseudoValue
				if value.DescriptionEntries != nil {
					buf[pos] = 253
					binary.BigEndian.PutUint16(buf[pos+1:], uint16(512))
					pos += 3
					switch x := encoder.DescriptionEntries_encoder.length; {
					case x <= 0xfc:
						buf[pos] = byte(x)
						pos += 1
					case x <= 0xffff:
						buf[pos] = 0xfd
						binary.BigEndian.PutUint16(buf[pos+1:], uint16(x))
						pos += 3
					case x <= 0xffffffff:
						buf[pos] = 0xfe
						binary.BigEndian.PutUint32(buf[pos+1:], uint32(x))
						pos += 5
					default:
						buf[pos] = 0xff
						binary.BigEndian.PutUint64(buf[pos+1:], uint64(x))
						pos += 9
					}
					if encoder.DescriptionEntries_encoder.length > 0 {
						encoder.DescriptionEntries_encoder.EncodeInto(value.DescriptionEntries, buf[pos:])
						pos += encoder.DescriptionEntries_encoder.length
					}
				}
				_ = encoder
				_ = value
			}
		}
	}
}
func (encoder *CertAdditionalDescriptionEncoder) Encode(value *CertAdditionalDescription) enc.Wire {

	wire := make(enc.Wire, 1)
	wire[0] = make([]byte, encoder.length)
	buf := wire[0]
	encoder.EncodeInto(value, buf)

	return wire
}
func (value *CertAdditionalDescription) Encode() enc.Wire {
	encoder := CertAdditionalDescriptionEncoder{}
	encoder.Init(value)
	return encoder.Encode(value)
}
func (value *CertAdditionalDescription) Bytes() []byte {
	return value.Encode().Join()
}
"#),
  (t!"SignatureInfo", go! r#"type SignatureInfoEncoder struct {
	length uint

	KeyLocator_encoder KeyLocatorEncoder

	ValidityPeriod_encoder        ValidityPeriodEncoder
	AdditionalDescription_encoder CertAdditionalDescriptionEncoder
}
func (encoder *SignatureInfoEncoder) Init(value *SignatureInfo) {

	if value.KeyLocator != nil {
		encoder.KeyLocator_encoder.Init(value.KeyLocator)
	}

	if value.ValidityPeriod != nil {
		encoder.ValidityPeriod_encoder.Init(value.ValidityPeriod)
	}
	if value.AdditionalDescription != nil {
		encoder.AdditionalDescription_encoder.Init(value.AdditionalDescription)
	}

	l := uint(0)
	l += 1
	switch x := value.SignatureType; {
	case x <= 0xff:
		l += 2
	case x <= 0xffff:
		l += 3
	case x <= 0xffffffff:
		l += 5
	default:
		l += 9
	}
	if value.KeyLocator != nil {
		l += 1
		switch x := encoder.KeyLocator_encoder.length; {
		case x <= 0xfc:
			l += 1
		case x <= 0xffff:
			l += 3
		case x <= 0xffffffff:
			l += 5
		default:
			l += 9
		}
		l += encoder.KeyLocator_encoder.length
	}
	if value.SignatureNonce != nil {
		l += 1
		switch x := len(value.SignatureNonce); {
		case x <= 0xfc:
			l += 1
		case x <= 0xffff:
			l += 3
		case x <= 0xffffffff:
			l += 5
		default:
			l += 9
		}
		l += uint(len(value.SignatureNonce))
	}
	if value.SignatureTime != nil {
		l += 1
		switch x := uint64(*value.SignatureTime / time.Millisecond); {
		case x <= 0xff:
			l += 2
		case x <= 0xffff:
			l += 3
		case x <= 0xffffffff:
			l += 5
		default:
			l += 9
		}
	}
	if value.SignatureSeqNum != nil {
		l += 1
		switch x := *value.SignatureSeqNum; {
		case x <= 0xff:
			l += 2
		case x <= 0xffff:
			l += 3
		case x <= 0xffffffff:
			l += 5
		default:
			l += 9
		}
	}
	if value.ValidityPeriod != nil {
		l += 3
		switch x := encoder.ValidityPeriod_encoder.length; {
		case x <= 0xfc:
			l += 1
		case x <= 0xffff:
			l += 3
		case x <= 0xffffffff:
			l += 5
		default:
			l += 9
		}
		l += encoder.ValidityPeriod_encoder.length
	}
	if value.AdditionalDescription != nil {
		l += 3
		switch x := encoder.AdditionalDescription_encoder.length; {
		case x <= 0xfc:
			l += 1
		case x <= 0xffff:
			l += 3
		case x <= 0xffffffff:
			l += 5
		default:
			l += 9
		}
		l += encoder.AdditionalDescription_encoder.length
	}
	encoder.length = l

}
func (encoder *SignatureInfoEncoder) EncodeInto(value *SignatureInfo, buf []byte) {

	pos := uint(0)

	buf[pos] = byte(27)
	pos += 1
	switch x := value.SignatureType; {
	case x <= 0xff:
		buf[pos] = 1
		buf[pos+1] = byte(x)
		pos += 2
	case x <= 0xffff:
		buf[pos] = 2
		binary.BigEndian.PutUint16(buf[pos+1:], uint16(x))
		pos += 3
	case x <= 0xffffffff:
		buf[pos] = 4
		binary.BigEndian.PutUint32(buf[pos+1:], uint32(x))
		pos += 5
	default:
		buf[pos] = 8
		binary.BigEndian.PutUint64(buf[pos+1:], uint64(x))
		pos += 9
	}
	if value.KeyLocator != nil {
		buf[pos] = byte(28)
		pos += 1
		switch x := encoder.KeyLocator_encoder.length; {
		case x <= 0xfc:
			buf[pos] = byte(x)
			pos += 1
		case x <= 0xffff:
			buf[pos] = 0xfd
			binary.BigEndian.PutUint16(buf[pos+1:], uint16(x))
			pos += 3
		case x <= 0xffffffff:
			buf[pos] = 0xfe
			binary.BigEndian.PutUint32(buf[pos+1:], uint32(x))
			pos += 5
		default:
			buf[pos] = 0xff
			binary.BigEndian.PutUint64(buf[pos+1:], uint64(x))
			pos += 9
		}
		if encoder.KeyLocator_encoder.length > 0 {
			encoder.KeyLocator_encoder.EncodeInto(value.KeyLocator, buf[pos:])
			pos += encoder.KeyLocator_encoder.length
		}
	}
	if value.SignatureNonce != nil {
		buf[pos] = byte(38)
		pos += 1
		switch x := len(value.SignatureNonce); {
		case x <= 0xfc:
			buf[pos] = byte(x)
			pos += 1
		case x <= 0xffff:
			buf[pos] = 0xfd
			binary.BigEndian.PutUint16(buf[pos+1:], uint16(x))
			pos += 3
		case x <= 0xffffffff:
			buf[pos] = 0xfe
			binary.BigEndian.PutUint32(buf[pos+1:], uint32(x))
			pos += 5
		default:
			buf[pos] = 0xff
			binary.BigEndian.PutUint64(buf[pos+1:], uint64(x))
			pos += 9
		}
		copy(buf[pos:], value.SignatureNonce)
		pos += uint(len(value.SignatureNonce))
	}
	if value.SignatureTime != nil {
		buf[pos] = byte(40)
		pos += 1
		switch x := uint64(*value.SignatureTime / time.Millisecond); {
		case x <= 0xff:
			buf[pos] = 1
			buf[pos+1] = byte(x)
			pos += 2
		case x <= 0xffff:
			buf[pos] = 2
			binary.BigEndian.PutUint16(buf[pos+1:], uint16(x))
			pos += 3
		case x <= 0xffffffff:
			buf[pos] = 4
			binary.BigEndian.PutUint32(buf[pos+1:], uint32(x))
			pos += 5
		default:
			buf[pos] = 8
			binary.BigEndian.PutUint64(buf[pos+1:], uint64(x))
			pos += 9
		}
	}
	if value.SignatureSeqNum != nil {
		buf[pos] = byte(42)
		pos += 1
		switch x := *value.SignatureSeqNum; {
		case x <= 0xff:
			buf[pos] = 1
			buf[pos+1] = byte(x)
			pos += 2
		case x <= 0xffff:
			buf[pos] = 2
			binary.BigEndian.PutUint16(buf[pos+1:], uint16(x))
			pos += 3
		case x <= 0xffffffff:
			buf[pos] = 4
			binary.BigEndian.PutUint32(buf[pos+1:], uint32(x))
			pos += 5
		default:
			buf[pos] = 8
			binary.BigEndian.PutUint64(buf[pos+1:], uint64(x))
			pos += 9
		}
	}
	if value.ValidityPeriod != nil {
		buf[pos] = 253
		binary.BigEndian.PutUint16(buf[pos+1:], uint16(253))
		pos += 3
		switch x := encoder.ValidityPeriod_encoder.length; {
		case x <= 0xfc:
			buf[pos] = byte(x)
			pos += 1
		case x <= 0xffff:
			buf[pos] = 0xfd
			binary.BigEndian.PutUint16(buf[pos+1:], uint16(x))
			pos += 3
		case x <= 0xffffffff:
			buf[pos] = 0xfe
			binary.BigEndian.PutUint32(buf[pos+1:], uint32(x))
			pos += 5
		default:
			buf[pos] = 0xff
			binary.BigEndian.PutUint64(buf[pos+1:], uint64(x))
			pos += 9
		}
		if encoder.ValidityPeriod_encoder.length > 0 {
			encoder.ValidityPeriod_encoder.EncodeInto(value.ValidityPeriod, buf[pos:])
			pos += encoder.ValidityPeriod_encoder.length
		}
	}
	if value.AdditionalDescription != nil {
		buf[pos] = 253
		binary.BigEndian.PutUint16(buf[pos+1:], uint16(258))
		pos += 3
		switch x := encoder.AdditionalDescription_encoder.length; {
		case x <= 0xfc:
			buf[pos] = byte(x)
			pos += 1
		case x <= 0xffff:
			buf[pos] = 0xfd
			binary.BigEndian.PutUint16(buf[pos+1:], uint16(x))
			pos += 3
		case x <= 0xffffffff:
			buf[pos] = 0xfe
			binary.BigEndian.PutUint32(buf[pos+1:], uint32(x))
			pos += 5
		default:
			buf[pos] = 0xff
			binary.BigEndian.PutUint64(buf[pos+1:], uint64(x))
			pos += 9
		}
		if encoder.AdditionalDescription_encoder.length > 0 {
			encoder.AdditionalDescription_encoder.EncodeInto(value.AdditionalDescription, buf[pos:])
			pos += encoder.AdditionalDescription_encoder.length
		}
	}
}
func (encoder *SignatureInfoEncoder) Encode(value *SignatureInfo) enc.Wire {

	wire := make(enc.Wire, 1)
	wire[0] = make([]byte, encoder.length)
	buf := wire[0]
	encoder.EncodeInto(value, buf)

	return wire
}
func (value *SignatureInfo) Encode() enc.Wire {
	encoder := SignatureInfoEncoder{}
	encoder.Init(value)
	return encoder.Encode(value)
}
func (value *SignatureInfo) Bytes() []byte {
	return value.Encode().Join()
}
"#),
  (t!"NetworkNack", go! r#"type NetworkNackEncoder struct {
	length uint
}
func (encoder *NetworkNackEncoder) Init(value *NetworkNack) {

	l := uint(0)
	l += 3
	switch x := value.Reason; {
	case x <= 0xff:
		l += 2
	case x <= 0xffff:
		l += 3
	case x <= 0xffffffff:
		l += 5
	default:
		l += 9
	}
	encoder.length = l

}
func (encoder *NetworkNackEncoder) EncodeInto(value *NetworkNack, buf []byte) {

	pos := uint(0)

	buf[pos] = 253
	binary.BigEndian.PutUint16(buf[pos+1:], uint16(801))
	pos += 3
	switch x := value.Reason; {
	case x <= 0xff:
		buf[pos] = 1
		buf[pos+1] = byte(x)
		pos += 2
	case x <= 0xffff:
		buf[pos] = 2
		binary.BigEndian.PutUint16(buf[pos+1:], uint16(x))
		pos += 3
	case x <= 0xffffffff:
		buf[pos] = 4
		binary.BigEndian.PutUint32(buf[pos+1:], uint32(x))
		pos += 5
	default:
		buf[pos] = 8
		binary.BigEndian.PutUint64(buf[pos+1:], uint64(x))
		pos += 9
	}
}
func (encoder *NetworkNackEncoder) Encode(value *NetworkNack) enc.Wire {

	wire := make(enc.Wire, 1)
	wire[0] = make([]byte, encoder.length)
	buf := wire[0]
	encoder.EncodeInto(value, buf)

	return wire
}
func (value *NetworkNack) Encode() enc.Wire {
	encoder := NetworkNackEncoder{}
	encoder.Init(value)
	return encoder.Encode(value)
}
func (value *NetworkNack) Bytes() []byte {
	return value.Encode().Join()
}
"#),
  (t!"CachePolicy", go! r#"type CachePolicyEncoder struct {
	length uint
}
func (encoder *CachePolicyEncoder) Init(value *CachePolicy) {

	l := uint(0)
	l += 3
	switch x := value.CachePolicyType; {
	case x <= 0xff:
		l += 2
	case x <= 0xffff:
		l += 3
	case x <= 0xffffffff:
		l += 5
	default:
		l += 9
	}
	encoder.length = l

}
func (encoder *CachePolicyEncoder) EncodeInto(value *CachePolicy, buf []byte) {

	pos := uint(0)

	buf[pos] = 253
	binary.BigEndian.PutUint16(buf[pos+1:], uint16(821))
	pos += 3
	switch x := value.CachePolicyType; {
	case x <= 0xff:
		buf[pos] = 1
		buf[pos+1] = byte(x)
		pos += 2
	case x <= 0xffff:
		buf[pos] = 2
		binary.BigEndian.PutUint16(buf[pos+1:], uint16(x))
		pos += 3
	case x <= 0xffffffff:
		buf[pos] = 4
		binary.BigEndian.PutUint32(buf[pos+1:], uint32(x))
		pos += 5
	default:
		buf[pos] = 8
		binary.BigEndian.PutUint64(buf[pos+1:], uint64(x))
		pos += 9
	}
}
func (encoder *CachePolicyEncoder) Encode(value *CachePolicy) enc.Wire {

	wire := make(enc.Wire, 1)
	wire[0] = make([]byte, encoder.length)
	buf := wire[0]
	encoder.EncodeInto(value, buf)

	return wire
}
func (value *CachePolicy) Encode() enc.Wire {
	encoder := CachePolicyEncoder{}
	encoder.Init(value)
	return encoder.Encode(value)
}
func (value *CachePolicy) Bytes() []byte {
	return value.Encode().Join()
}
"#)]

theorem spec_same : allSame specSource specTexts = true := by decide +kernel

end Ndn.Codec.Gen
