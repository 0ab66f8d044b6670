import Verif.Codec.GoText

/-! # The encoders in `/repo/pkg/security/ndncert_0_3/zz_generated.go`, as they are there -/

namespace Ndn.Codec.Gen

/-- the types and methods of the encoders, copied from `/repo/pkg/security/ndncert_0_3/zz_generated.go` -/
def certTexts : List (Txt × Nat × Nat) := [
  (t!"CaProfile", go! r#"type CaProfileEncoder struct {
	length uint

	CaPrefix_length uint

	ParamKey_subencoder []struct {
	}

	CaCert_length uint
}
func (encoder *CaProfileEncoder) Init(value *CaProfile) {
	if value.CaPrefix != nil {
		encoder.CaPrefix_length = 0
		for _, c := range value.CaPrefix {
			encoder.CaPrefix_length += uint(c.EncodingLength())
		}
	}

	{
		ParamKey_l := len(value.ParamKey)
		encoder.ParamKey_subencoder = make([]struct {
		}, ParamKey_l)
		for i := 0; i < ParamKey_l; i++ {
			pseudoEncoder := &encoder.ParamKey_subencoder[i]
			pseudoValue := struct {
				ParamKey string
			}{
				ParamKey: value.ParamKey[i],
			}
			{
				encoder := pseudoEncoder
				value := &pseudoValue

				_ = encoder
				_ = value
			}
		}
	}

	if value.CaCert != nil {
		encoder.CaCert_length = 0
		for _, c := range value.CaCert {
			encoder.CaCert_length += uint(len(c))
		}
	}

	l := uint(0)
	if value.CaPrefix != nil {
		l += 1
		switch x := encoder.CaPrefix_length; {
		case x <= 0xfc:
			l += 1
		case x <= 0xffff:
			l += 3
		case x <= 0xffffffff:
			l += 5
		default:
			l += 9
		}
		l += encoder.CaPrefix_length
	}
	l += 1
	switch x := len(value.CaInfo); {
	case x <= 0xfc:
		l += 1
	case x <= 0xffff:
		l += 3
	case x <= 0xffffffff:
		l += 5
	default:
		l += 9
	}
	l += uint(len(value.CaInfo))
	if value.ParamKey != nil {
		for seq_i, seq_v := range value.ParamKey {
			pseudoEncoder := &encoder.ParamKey_subencoder[seq_i]
			pseudoValue := struct {
				ParamKey string
			}{
				ParamKey: seq_v,
			}
			{
				encoder := pseudoEncoder
				value := &pseudoValue
				l += 1
				switch x := len(value.ParamKey); {
				case x <= 0xfc:
					l += 1
				case x <= 0xffff:
					l += 3
				case x <= 0xffffffff:
					l += 5
				default:
					l += 9
				}
				l += uint(len(value.ParamKey))
				_ = encoder
				_ = value
			}
		}
	}
	l += 1
	switch x := value.MaxValidPeriod; {
	case x <= 0xff:
		l += 2
	case x <= 0xffff:
		l += 3
	case x <= 0xffffffff:
		l += 5
	default:
		l += 9
	}
	if value.CaCert != nil {
		l += 1
		switch x := encoder.CaCert_length; {
		case x <= 0xfc:
			l += 1
		case x <= 0xffff:
			l += 3
		case x <= 0xffffffff:
			l += 5
		default:
			l += 9
		}
		l += encoder.CaCert_length
	}
	encoder.length = l

}
func (encoder *CaProfileEncoder) EncodeInto(value *CaProfile, buf []byte) {

	pos := uint(0)

	if value.CaPrefix != nil {
		buf[pos] = byte(129)
		pos += 1
		switch x := encoder.CaPrefix_length; {
		case x <= 0xfc:
			buf[pos] = byte(x)
			pos += 1
		case x <= 0xffff:
			buf[pos] = 0xfd
			binary.BigEndian.PutUint16(buf[pos+1:], uint16(x))
			pos += 3
		case x <= 0xffffffff:
			buf[pos] = 0xfe
			binary.BigEndian.PutUint32(buf[pos+1:], uint32(x))
			pos += 5
		default:
			buf[pos] = 0xff
			binary.BigEndian.PutUint64(buf[pos+1:], uint64(x))
			pos += 9
		}
		for _, c := range value.CaPrefix {
			pos += uint(c.EncodeInto(buf[pos:]))
		}
	}
	buf[pos] = byte(131)
	pos += 1
	switch x := len(value.CaInfo); {
	case x <= 0xfc:
		buf[pos] = byte(x)
		pos += 1
	case x <= 0xffff:
		buf[pos] = 0xfd
		binary.BigEndian.PutUint16(buf[pos+1:], uint16(x))
		pos += 3
	case x <= 0xffffffff:
		buf[pos] = 0xfe
		binary.BigEndian.PutUint32(buf[pos+1:], uint32(x))
		pos += 5
	default:
		buf[pos] = 0xff
		binary.BigEndian.PutUint64(buf[pos+1:], uint64(x))
		pos += 9
	}
	copy(buf[pos:], value.CaInfo)
	pos += uint(len(value.CaInfo))
	if value.ParamKey != nil {
		for seq_i, seq_v := range value.ParamKey {
			pseudoEncoder := &encoder.ParamKey_subencoder[seq_i]
			pseudoValue := struct {
				ParamKey string
			}{
				ParamKey: seq_v,
			}
			{
				encoder := pseudoEncoder
				value := &pseudoValue
				buf[pos] = byte(133)
				pos += 1
				switch x := len(value.ParamKey); {
				case x <= 0xfc:
					buf[pos] = byte(x)
					pos += 1
				case x <= 0xffff:
					buf[pos] = 0xfd
					binary.BigEndian.PutUint16(buf[pos+1:], uint16(x))
					pos += 3
				case x <= 0xffffffff:
					buf[pos] = 0xfe
					binary.BigEndian.PutUint32(buf[pos+1:], uint32(x))
					pos += 5
				default:
					buf[pos] = 0xff
					binary.BigEndian.PutUint64(buf[pos+1:], uint64(x))
					pos += 9
				}
				copy(buf[pos:], value.ParamKey)
				pos += uint(len(value.ParamKey))
				_ = encoder
				_ = value
			}
		}
	}
	buf[pos] = byte(139)
	pos += 1
	switch x := value.MaxValidPeriod; {
	case x <= 0xff:
		buf[pos] = 1
		buf[pos+1] = byte(x)
		pos += 2
	case x <= 0xffff:
		buf[pos] = 2
		binary.BigEndian.PutUint16(buf[pos+1:], uint16(x))
		pos += 3
	case x <= 0xffffffff:
		buf[pos] = 4
		binary.BigEndian.PutUint32(buf[pos+1:], uint32(x))
		pos += 5
	default:
		buf[pos] = 8
		binary.BigEndian.PutUint64(buf[pos+1:], uint64(x))
		pos += 9
	}
	if value.CaCert != nil {
		buf[pos] = byte(137)
		pos += 1
		switch x := encoder.CaCert_length; {
		case x <= 0xfc:
			buf[pos] = byte(x)
			pos += 1
		case x <= 0xffff:
			buf[pos] = 0xfd
			binary.BigEndian.PutUint16(buf[pos+1:], uint16(x))
			pos += 3
		case x <= 0xffffffff:
			buf[pos] = 0xfe
			binary.BigEndian.PutUint32(buf[pos+1:], uint32(x))
			pos += 5
		default:
			buf[pos] = 0xff
			binary.BigEndian.PutUint64(buf[pos+1:], uint64(x))
			pos += 9
		}
		for _, w := range value.CaCert {
			copy(buf[pos:], w)
			pos += uint(len(w))
		}
	}
}
func (encoder *CaProfileEncoder) Encode(value *CaProfile) enc.Wire {

	wire := make(enc.Wire, 1)
	wire[0] = make([]byte, encoder.length)
	buf := wire[0]
	encoder.EncodeInto(value, buf)

	return wire
}
func (value *CaProfile) Encode() enc.Wire {
	encoder := CaProfileEncoder{}
	encoder.Init(value)
	return encoder.Encode(value)
}
func (value *CaProfile) Bytes() []byte {
	return value.Encode().Join()
}
"#),
  (t!"ProbeRes", go! r#"type ProbeResEncoder struct {
	length uint

	Response_length uint
}
func (encoder *ProbeResEncoder) Init(value *ProbeRes) {
	if value.Response != nil {
		encoder.Response_length = 0
		for _, c := range value.Response {
			encoder.Response_length += uint(c.EncodingLength())
		}
	}

	l := uint(0)
	if value.Response != nil {
		l += 1
		switch x := encoder.Response_length; {
		case x <= 0xfc:
			l += 1
		case x <= 0xffff:
			l += 3
		case x <= 0xffffffff:
			l += 5
		default:
			l += 9
		}
		l += encoder.Response_length
	}
	if value.MaxSuffixLength != nil {
		l += 1
		switch x := *value.MaxSuffixLength; {
		case x <= 0xff:
			l += 2
		case x <= 0xffff:
			l += 3
		case x <= 0xffffffff:
			l += 5
		default:
			l += 9
		}
	}
	encoder.length = l

}
func (encoder *ProbeResEncoder) EncodeInto(value *ProbeRes, buf []byte) {

	pos := uint(0)

	if value.Response != nil {
		buf[pos] = byte(7)
		pos += 1
		switch x := encoder.Response_length; {
		case x <= 0xfc:
			buf[pos] = byte(x)
			pos += 1
		case x <= 0xffff:
			buf[pos] = 0xfd
			binary.BigEndian.PutUint16(buf[pos+1:], uint16(x))
			pos += 3
		case x <= 0xffffffff:
			buf[pos] = 0xfe
			binary.BigEndian.PutUint32(buf[pos+1:], uint32(x))
			pos += 5
		default:
			buf[pos] = 0xff
			binary.BigEndian.PutUint64(buf[pos+1:], uint64(x))
			pos += 9
		}
		for _, c := range value.Response {
			pos += uint(c.EncodeInto(buf[pos:]))
		}
	}
	if value.MaxSuffixLength != nil {
		buf[pos] = byte(0)
		pos += 1
		switch x := *value.MaxSuffixLength; {
		case x <= 0xff:
			buf[pos] = 1
			buf[pos+1] = byte(x)
			pos += 2
		case x <= 0xffff:
			buf[pos] = 2
			binary.BigEndian.PutUint16(buf[pos+1:], uint16(x))
			pos += 3
		case x <= 0xffffffff:
			buf[pos] = 4
			binary.BigEndian.PutUint32(buf[pos+1:], uint32(x))
			pos += 5
		default:
			buf[pos] = 8
			binary.BigEndian.PutUint64(buf[pos+1:], uint64(x))
			pos += 9
		}
	}
}
func (encoder *ProbeResEncoder) Encode(value *ProbeRes) enc.Wire {

	wire := make(enc.Wire, 1)
	wire[0] = make([]byte, encoder.length)
	buf := wire[0]
	encoder.EncodeInto(value, buf)

	return wire
}
func (value *ProbeRes) Encode() enc.Wire {
	encoder := ProbeResEncoder{}
	encoder.Init(value)
	return encoder.Encode(value)
}
func (value *ProbeRes) Bytes() []byte {
	return value.Encode().Join()
}
"#),
  (t!"ProbeResContent", go! r#"type ProbeResContentEncoder struct {
	length uint

	Vals_subencoder []struct {
		Vals_encoder ProbeResEncoder
	}
}
func (encoder *ProbeResContentEncoder) Init(value *ProbeResContent) {
	{
		Vals_l := len(value.Vals)
		encoder.Vals_subencoder = make([]struct {
			Vals_encoder ProbeResEncoder
		}, Vals_l)
		for i := 0; i < Vals_l; i++ {
			pseudoEncoder := &encoder.Vals_subencoder[i]
			pseudoValue := struct {
				Vals *ProbeRes
			}{
				Vals: value.Vals[i],
			}
			{
				encoder := pseudoEncoder
				value := &pseudoValue
				if value.Vals != nil {
					encoder.Vals_encoder.Init(value.Vals)
				}
				_ = encoder
				_ = value
			}
		}
	}

	l := uint(0)
	if value.Vals != nil {
		for seq_i, seq_v := range value.Vals {
			pseudoEncoder := &encoder.Vals_subencoder[seq_i]
			pseudoValue := struct {
				Vals *ProbeRes
			}{
				Vals: seq_v,
			}
			{
				encoder := pseudoEncoder
				value := &pseudoValue
				if value.Vals != nil {
					l += 1
					switch x := encoder.Vals_encoder.length; {
					case x <= 0xfc:
						l += 1
					case x <= 0xffff:
						l += 3
					case x <= 0xffffffff:
						l += 5
					default:
						l += 9
					}
					l += encoder.Vals_encoder.length
				}
				_ = encoder
				_ = value
			}
		}
	}
	encoder.length = l

}
func (encoder *ProbeResContentEncoder) EncodeInto(value *ProbeResContent, buf []byte) {

	pos := uint(0)

	if value.Vals != nil {
		for seq_i, seq_v := range value.Vals {
			pseudoEncoder := &encoder.Vals_subencoder[seq_i]
			pseudoValue := struct {
				Vals *ProbeRes
			}{
				Vals: seq_v,
			}
			{
				encoder := pseudoEncoder
				value := &pseudoValue
				if value.Vals != nil {
					buf[pos] = byte(141)
					pos += 1
					switch x := encoder.Vals_encoder.length; {
					case x <= 0xfc:
						buf[pos] = byte(x)
						pos += 1
					case x <= 0xffff:
						buf[pos] = 0xfd
						binary.BigEndian.PutUint16(buf[pos+1:], uint16(x))
						pos += 3
					case x <= 0xffffffff:
						buf[pos] = 0xfe
						binary.BigEndian.PutUint32(buf[pos+1:], uint32(x))
						pos += 5
					default:
						buf[pos] = 0xff
						binary.BigEndian.PutUint64(buf[pos+1:], uint64(x))
						pos += 9
					}
					if encoder.Vals_encoder.length > 0 {
						encoder.Vals_encoder.EncodeInto(value.Vals, buf[pos:])
						pos += encoder.Vals_encoder.length
					}
				}
				_ = encoder
				_ = value
			}
		}
	}
}
func (encoder *ProbeResContentEncoder) Encode(value *ProbeResContent) enc.Wire {

	wire := make(enc.Wire, 1)
	wire[0] = make([]byte, encoder.length)
	buf := wire[0]
	encoder.EncodeInto(value, buf)

	return wire
}
func (value *ProbeResContent) Encode() enc.Wire {
	encoder := ProbeResContentEncoder{}
	encoder.Init(value)
	return encoder.Encode(value)
}
func (value *ProbeResContent) Bytes() []byte {
	return value.Encode().Join()
}
"#),
  (t!"CmdNewInt", go! r#"type CmdNewIntEncoder struct {
	length uint
}
func (encoder *CmdNewIntEncoder) Init(value *CmdNewInt) {

	l := uint(0)
	if value.EcdhPub != nil {
		l += 1
		switch x := len(value.EcdhPub); {
		case x <= 0xfc:
			l += 1
		case x <= 0xffff:
			l += 3
		case x <= 0xffffffff:
			l += 5
		default:
			l += 9
		}
		l += uint(len(value.EcdhPub))
	}
	if value.CertReq != nil {
		l += 1
		switch x := len(value.CertReq); {
		case x <= 0xfc:
			l += 1
		case x <= 0xffff:
			l += 3
		case x <= 0xffffffff:
			l += 5
		default:
			l += 9
		}
		l += uint(len(value.CertReq))
	}
	encoder.length = l

}
func (encoder *CmdNewIntEncoder) EncodeInto(value *CmdNewInt, buf []byte) {

	pos := uint(0)

	if value.EcdhPub != nil {
		buf[pos] = byte(145)
		pos += 1
		switch x := len(value.EcdhPub); {
		case x <= 0xfc:
			buf[pos] = byte(x)
			pos += 1
		case x <= 0xffff:
			buf[pos] = 0xfd
			binary.BigEndian.PutUint16(buf[pos+1:], uint16(x))
			pos += 3
		case x <= 0xffffffff:
			buf[pos] = 0xfe
			binary.BigEndian.PutUint32(buf[pos+1:], uint32(x))
			pos += 5
		default:
			buf[pos] = 0xff
			binary.BigEndian.PutUint64(buf[pos+1:], uint64(x))
			pos += 9
		}
		copy(buf[pos:], value.EcdhPub)
		pos += uint(len(value.EcdhPub))
	}
	if value.CertReq != nil {
		buf[pos] = byte(147)
		pos += 1
		switch x := len(value.CertReq); {
		case x <= 0xfc:
			buf[pos] = byte(x)
			pos += 1
		case x <= 0xffff:
			buf[pos] = 0xfd
			binary.BigEndian.PutUint16(buf[pos+1:], uint16(x))
			pos += 3
		case x <= 0xffffffff:
			buf[pos] = 0xfe
			binary.BigEndian.PutUint32(buf[pos+1:], uint32(x))
			pos += 5
		default:
			buf[pos] = 0xff
			binary.BigEndian.PutUint64(buf[pos+1:], uint64(x))
			pos += 9
		}
		copy(buf[pos:], value.CertReq)
		pos += uint(len(value.CertReq))
	}
}
func (encoder *CmdNewIntEncoder) Encode(value *CmdNewInt) enc.Wire {

	wire := make(enc.Wire, 1)
	wire[0] = make([]byte, encoder.length)
	buf := wire[0]
	encoder.EncodeInto(value, buf)

	return wire
}
func (value *CmdNewInt) Encode() enc.Wire {
	encoder := CmdNewIntEncoder{}
	encoder.Init(value)
	return encoder.Encode(value)
}
func (value *CmdNewInt) Bytes() []byte {
	return value.Encode().Join()
}
"#),
  (t!"CmdNewData", go! r#"type CmdNewDataEncoder struct {
	length uint

	Challenge_subencoder []struct {
	}
}
func (encoder *CmdNewDataEncoder) Init(value *CmdNewData) {

	{
		Challenge_l := len(value.Challenge)
		encoder.Challenge_subencoder = make([]struct {
		}, Challenge_l)
		for i := 0; i < Challenge_l; i++ {
			pseudoEncoder := &encoder.Challenge_subencoder[i]
			pseudoValue := struct {
				Challenge string
			}{
				Challenge: value.Challenge[i],
			}
			{
				encoder := pseudoEncoder
				value := &pseudoValue

				_ = encoder
				_ = value
			}
		}
	}

	l := uint(0)
	if value.EcdhPub != nil {
		l += 1
		switch x := len(value.EcdhPub); {
		case x <= 0xfc:
			l += 1
		case x <= 0xffff:
			l += 3
		case x <= 0xffffffff:
			l += 5
		default:
			l += 9
		}
		l += uint(len(value.EcdhPub))
	}
	if value.Salt != nil {
		l += 1
		switch x := len(value.Salt); {
		case x <= 0xfc:
			l += 1
		case x <= 0xffff:
			l += 3
		case x <= 0xffffffff:
			l += 5
		default:
			l += 9
		}
		l += uint(len(value.Salt))
	}
	if value.ReqId != nil {
		l += 1
		switch x := len(value.ReqId); {
		case x <= 0xfc:
			l += 1
		case x <= 0xffff:
			l += 3
		case x <= 0xffffffff:
			l += 5
		default:
			l += 9
		}
		l += uint(len(value.ReqId))
	}
	if value.Challenge != nil {
		for seq_i, seq_v := range value.Challenge {
			pseudoEncoder := &encoder.Challenge_subencoder[seq_i]
			pseudoValue := struct {
				Challenge string
			}{
				Challenge: seq_v,
			}
			{
				encoder := pseudoEncoder
				value := &pseudoValue
				l += 1
				switch x := len(value.Challenge); {
				case x <= 0xfc:
					l += 1
				case x <= 0xffff:
					l += 3
				case x <= 0xffffffff:
					l += 5
				default:
					l += 9
				}
				l += uint(len(value.Challenge))
				_ = encoder
				_ = value
			}
		}
	}
	encoder.length = l

}
func (encoder *CmdNewDataEncoder) EncodeInto(value *CmdNewData, buf []byte) {

	pos := uint(0)

	if value.EcdhPub != nil {
		buf[pos] = byte(145)
		pos += 1
		switch x := len(value.EcdhPub); {
		case x <= 0xfc:
			buf[pos] = byte(x)
			pos += 1
		case x <= 0xffff:
			buf[pos] = 0xfd
			binary.BigEndian.PutUint16(buf[pos+1:], uint16(x))
			pos += 3
		case x <= 0xffffffff:
			buf[pos] = 0xfe
			binary.BigEndian.PutUint32(buf[pos+1:], uint32(x))
			pos += 5
		default:
			buf[pos] = 0xff
			binary.BigEndian.PutUint64(buf[pos+1:], uint64(x))
			pos += 9
		}
		copy(buf[pos:], value.EcdhPub)
		pos += uint(len(value.EcdhPub))
	}
	if value.Salt != nil {
		buf[pos] = byte(149)
		pos += 1
		switch x := len(value.Salt); {
		case x <= 0xfc:
			buf[pos] = byte(x)
			pos += 1
		case x <= 0xffff:
			buf[pos] = 0xfd
			binary.BigEndian.PutUint16(buf[pos+1:], uint16(x))
			pos += 3
		case x <= 0xffffffff:
			buf[pos] = 0xfe
			binary.BigEndian.PutUint32(buf[pos+1:], uint32(x))
			pos += 5
		default:
			buf[pos] = 0xff
			binary.BigEndian.PutUint64(buf[pos+1:], uint64(x))
			pos += 9
		}
		copy(buf[pos:], value.Salt)
		pos += uint(len(value.Salt))
	}
	if value.ReqId != nil {
		buf[pos] = byte(151)
		pos += 1
		switch x := len(value.ReqId); {
		case x <= 0xfc:
			buf[pos] = byte(x)
			pos += 1
		case x <= 0xffff:
			buf[pos] = 0xfd
			binary.BigEndian.PutUint16(buf[pos+1:], uint16(x))
			pos += 3
		case x <= 0xffffffff:
			buf[pos] = 0xfe
			binary.BigEndian.PutUint32(buf[pos+1:], uint32(x))
			pos += 5
		default:
			buf[pos] = 0xff
			binary.BigEndian.PutUint64(buf[pos+1:], uint64(x))
			pos += 9
		}
		copy(buf[pos:], value.ReqId)
		pos += uint(len(value.ReqId))
	}
	if value.Challenge != nil {
		for seq_i, seq_v := range value.Challenge {
			pseudoEncoder := &encoder.Challenge_subencoder[seq_i]
			pseudoValue := struct {
				Challenge string
			}{
				Challenge: seq_v,
			}
			{
				encoder := pseudoEncoder
				value := &pseudoValue
				buf[pos] = byte(153)
				pos += 1
				switch x := len(value.Challenge); {
				case x <= 0xfc:
					buf[pos] = byte(x)
					pos += 1
				case x <= 0xffff:
					buf[pos] = 0xfd
					binary.BigEndian.PutUint16(buf[pos+1:], uint16(x))
					pos += 3
				case x <= 0xffffffff:
					buf[pos] = 0xfe
					binary.BigEndian.PutUint32(buf[pos+1:], uint32(x))
					pos += 5
				default:
					buf[pos] = 0xff
					binary.BigEndian.PutUint64(buf[pos+1:], uint64(x))
					pos += 9
				}
				copy(buf[pos:], value.Challenge)
				pos += uint(len(value.Challenge))
				_ = encoder
				_ = value
			}
		}
	}
}
func (encoder *CmdNewDataEncoder) Encode(value *CmdNewData) enc.Wire {

	wire := make(enc.Wire, 1)
	wire[0] = make([]byte, encoder.length)
	buf := wire[0]
	encoder.EncodeInto(value, buf)

	return wire
}
func (value *CmdNewData) Encode() enc.Wire {
	encoder := CmdNewDataEncoder{}
	encoder.Init(value)
	return encoder.Encode(value)
}
func (value *CmdNewData) Bytes() []byte {
	return value.Encode().Join()
}
"#),
  (t!"CipherMsg", go! r#"type CipherMsgEncoder struct {
	length uint
}
func (encoder *CipherMsgEncoder) Init(value *CipherMsg) {

	l := uint(0)
	if value.InitVec != nil {
		l += 1
		switch x := len(value.InitVec); {
		case x <= 0xfc:
			l += 1
		case x <= 0xffff:
			l += 3
		case x <= 0xffffffff:
			l += 5
		default:
			l += 9
		}
		l += uint(len(value.InitVec))
	}
	if value.AuthNTag != nil {
		l += 1
		switch x := len(value.AuthNTag); {
		case x <= 0xfc:
			l += 1
		case x <= 0xffff:
			l += 3
		case x <= 0xffffffff:
			l += 5
		default:
			l += 9
		}
		l += uint(len(value.AuthNTag))
	}
	if value.Payload != nil {
		l += 1
		switch x := len(value.Payload); {
		case x <= 0xfc:
			l += 1
		case x <= 0xffff:
			l += 3
		case x <= 0xffffffff:
			l += 5
		default:
			l += 9
		}
		l += uint(len(value.Payload))
	}
	encoder.length = l

}
func (encoder *CipherMsgEncoder) EncodeInto(value *CipherMsg, buf []byte) {

	pos := uint(0)

	if value.InitVec != nil {
		buf[pos] = byte(157)
		pos += 1
		switch x := len(value.InitVec); {
		case x <= 0xfc:
			buf[pos] = byte(x)
			pos += 1
		case x <= 0xffff:
			buf[pos] = 0xfd
			binary.BigEndian.PutUint16(buf[pos+1:], uint16(x))
			pos += 3
		case x <= 0xffffffff:
			buf[pos] = 0xfe
			binary.BigEndian.PutUint32(buf[pos+1:], uint32(x))
			pos += 5
		default:
			buf[pos] = 0xff
			binary.BigEndian.PutUint64(buf[pos+1:], uint64(x))
			pos += 9
		}
		copy(buf[pos:], value.InitVec)
		pos += uint(len(value.InitVec))
	}
	if value.AuthNTag != nil {
		buf[pos] = byte(175)
		pos += 1
		switch x := len(value.AuthNTag); {
		case x <= 0xfc:
			buf[pos] = byte(x)
			pos += 1
		case x <= 0xffff:
			buf[pos] = 0xfd
			binary.BigEndian.PutUint16(buf[pos+1:], uint16(x))
			pos += 3
		case x <= 0xffffffff:
			buf[pos] = 0xfe
			binary.BigEndian.PutUint32(buf[pos+1:], uint32(x))
			pos += 5
		default:
			buf[pos] = 0xff
			binary.BigEndian.PutUint64(buf[pos+1:], uint64(x))
			pos += 9
		}
		copy(buf[pos:], value.AuthNTag)
		pos += uint(len(value.AuthNTag))
	}
	if value.Payload != nil {
		buf[pos] = byte(159)
		pos += 1
		switch x := len(value.Payload); {
		case x <= 0xfc:
			buf[pos] = byte(x)
			pos += 1
		case x <= 0xffff:
			buf[pos] = 0xfd
			binary.BigEndian.PutUint16(buf[pos+1:], uint16(x))
			pos += 3
		case x <= 0xffffffff:
			buf[pos] = 0xfe
			binary.BigEndian.PutUint32(buf[pos+1:], uint32(x))
			pos += 5
		default:
			buf[pos] = 0xff
			binary.BigEndian.PutUint64(buf[pos+1:], uint64(x))
			pos += 9
		}
		copy(buf[pos:], value.Payload)
		pos += uint(len(value.Payload))
	}
}
func (encoder *CipherMsgEncoder) Encode(value *CipherMsg) enc.Wire {

	wire := make(enc.Wire, 1)
	wire[0] = make([]byte, encoder.length)
	buf := wire[0]
	encoder.EncodeInto(value, buf)

	return wire
}
func (value *CipherMsg) Encode() enc.Wire {
	encoder := CipherMsgEncoder{}
	encoder.Init(value)
	return encoder.Encode(value)
}
func (value *CipherMsg) Bytes() []byte {
	return value.Encode().Join()
}
"#),
  (t!"ErrorMsgData", go! r#"type ErrorMsgDataEncoder struct {
	length uint
}
func (encoder *ErrorMsgDataEncoder) Init(value *ErrorMsgData) {

	l := uint(0)
	l += 1
	switch x := value.ErrCode; {
	case x <= 0xff:
		l += 2
	case x <= 0xffff:
		l += 3
	case x <= 0xffffffff:
		l += 5
	default:
		l += 9
	}
	l += 1
	switch x := len(value.ErrInfo); {
	case x <= 0xfc:
		l += 1
	case x <= 0xffff:
		l += 3
	case x <= 0xffffffff:
		l += 5
	default:
		l += 9
	}
	l += uint(len(value.ErrInfo))
	encoder.length = l

}
func (encoder *ErrorMsgDataEncoder) EncodeInto(value *ErrorMsgData, buf []byte) {

	pos := uint(0)

	buf[pos] = byte(171)
	pos += 1
	switch x := value.ErrCode; {
	case x <= 0xff:
		buf[pos] = 1
		buf[pos+1] = byte(x)
		pos += 2
	case x <= 0xffff:
		buf[pos] = 2
		binary.BigEndian.PutUint16(buf[pos+1:], uint16(x))
		pos += 3
	case x <= 0xffffffff:
		buf[pos] = 4
		binary.BigEndian.PutUint32(buf[pos+1:], uint32(x))
		pos += 5
	default:
		buf[pos] = 8
		binary.BigEndian.PutUint64(buf[pos+1:], uint64(x))
		pos += 9
	}
	buf[pos] = byte(173)
	pos += 1
	switch x := len(value.ErrInfo); {
	case x <= 0xfc:
		buf[pos] = byte(x)
		pos += 1
	case x <= 0xffff:
		buf[pos] = 0xfd
		binary.BigEndian.PutUint16(buf[pos+1:], uint16(x))
		pos += 3
	case x <= 0xffffffff:
		buf[pos] = 0xfe
		binary.BigEndian.PutUint32(buf[pos+1:], uint32(x))
		pos += 5
	default:
		buf[pos] = 0xff
		binary.BigEndian.PutUint64(buf[pos+1:], uint64(x))
		pos += 9
	}
	copy(buf[pos:], value.ErrInfo)
	pos += uint(len(value.ErrInfo))
}
func (encoder *ErrorMsgDataEncoder) Encode(value *ErrorMsgData) enc.Wire {

	wire := make(enc.Wire, 1)
	wire[0] = make([]byte, encoder.length)
	buf := wire[0]
	encoder.EncodeInto(value, buf)

	return wire
}
func (value *ErrorMsgData) Encode() enc.Wire {
	encoder := ErrorMsgDataEncoder{}
	encoder.Init(value)
	return encoder.Encode(value)
}
func (value *ErrorMsgData) Bytes() []byte {
	return value.Encode().Join()
}
"#)]

theorem cert_same : allSame certSource certTexts = true := by decide +kernel

end Ndn.Codec.Gen
