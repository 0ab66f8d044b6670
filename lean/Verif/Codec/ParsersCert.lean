import Verif.Codec.GoTextParse

/-! # The parsers in `/repo/pkg/security/ndncert_0_3/zz_generated.go`, as they are there -/

namespace Ndn.Codec.Gen

/-- the types and methods of the parsers, copied from `/repo/pkg/security/ndncert_0_3/zz_generated.go` -/
def certParsers : List (Txt × Nat × Nat) := [
  (t!"CaProfile", go! r#"type CaProfileParsingContext struct {
}
func (context *CaProfileParsingContext) Init() {

}
func (context *CaProfileParsingContext) Parse(reader enc.ParseReader, ignoreCritical bool) (*CaProfile, error) {
	if reader == nil {
		return nil, enc.ErrBufferOverflow
	}

	var handled_CaPrefix bool = false
	var handled_CaInfo bool = false
	var handled_ParamKey bool = false
	var handled_MaxValidPeriod bool = false
	var handled_CaCert bool = false

	progress := -1
	_ = progress

	value := &CaProfile{}
	var err error
	var startPos int
	for {
		startPos = reader.Pos()
		if startPos >= reader.Length() {
			break
		}
		typ := enc.TLNum(0)
		l := enc.TLNum(0)
		typ, err = enc.ReadTLNum(reader)
		if err != nil {
			return nil, enc.ErrFailToParse{TypeNum: 0, Err: err}
		}
		l, err = enc.ReadTLNum(reader)
		if err != nil {
			return nil, enc.ErrFailToParse{TypeNum: 0, Err: err}
		}

		err = nil
		if handled := false; true {
			switch typ {
			case 129:
				if true {
					handled = true
					handled_CaPrefix = true
					value.CaPrefix = make(enc.Name, l/2+1)
					startName := reader.Pos()
					endName := startName + int(l)
					for j := range value.CaPrefix {
						if reader.Pos() >= endName {
							value.CaPrefix = value.CaPrefix[:j]
							break
						}
						var err1, err3 error
						value.CaPrefix[j].Typ, err1 = enc.ReadTLNum(reader)
						l, err2 := enc.ReadTLNum(reader)
						value.CaPrefix[j].Val, err3 = reader.ReadBuf(int(l))
						if err1 != nil || err2 != nil || err3 != nil {
							err = io.ErrUnexpectedEOF
							break
						}
					}
					if err == nil && reader.Pos() != endName {
						err = enc.ErrBufferOverflow
					}
				}
			case 131:
				if true {
					handled = true
					handled_CaInfo = true
					{
						var builder strings.Builder
						_, err = io.CopyN(&builder, reader, int64(l))
						if err == nil {
							value.CaInfo = builder.String()
						}
					}
				}
			case 133:
				if true {
					handled = true
					handled_ParamKey = true
					if value.ParamKey == nil {
						value.ParamKey = make([]string, 0)
					}
					{
						pseudoValue := struct {
							ParamKey string
						}{}
						{
							value := &pseudoValue
							{
								var builder strings.Builder
								_, err = io.CopyN(&builder, reader, int64(l))
								if err == nil {
									value.ParamKey = builder.String()
								}
							}
							_ = value
						}
						value.ParamKey = append(value.ParamKey, pseudoValue.ParamKey)
					}
					progress--
				}
			case 139:
				if true {
					handled = true
					handled_MaxValidPeriod = true
					value.MaxValidPeriod = uint64(0)
					{
						for i := 0; i < int(l); i++ {
							x := byte(0)
							x, err = reader.ReadByte()
							if err != nil {
								if err == io.EOF {
									err = io.ErrUnexpectedEOF
								}
								break
							}
							value.MaxValidPeriod = uint64(value.MaxValidPeriod<<8) | uint64(x)
						}
					}
				}
			case 137:
				if true {
					handled = true
					handled_CaCert = true
					value.CaCert, err = reader.ReadWire(int(l))
				}
			default:
				if !ignoreCritical && ((typ <= 31) || ((typ & 1) == 1)) {
					return nil, enc.ErrUnrecognizedField{TypeNum: typ}
				}
				handled = true
				err = reader.Skip(int(l))
			}
			if err == nil && !handled {
			}
			if err != nil {
				return nil, enc.ErrFailToParse{TypeNum: typ, Err: err}
			}
		}
	}

	startPos = reader.Pos()
	err = nil

	if !handled_CaPrefix && err == nil {
		value.CaPrefix = nil
	}
	if !handled_CaInfo && err == nil {
		err = enc.ErrSkipRequired{Name: "CaInfo", TypeNum: 131}
	}
	if !handled_ParamKey && err == nil {
		// sequence - skip
	}
	if !handled_MaxValidPeriod && err == nil {
		err = enc.ErrSkipRequired{Name: "MaxValidPeriod", TypeNum: 139}
	}
	if !handled_CaCert && err == nil {
		value.CaCert = nil
	}

	if err != nil {
		return nil, err
	}

	return value, nil
}
func ParseCaProfile(reader enc.ParseReader, ignoreCritical bool) (*CaProfile, error) {
	context := CaProfileParsingContext{}
	context.Init()
	return context.Parse(reader, ignoreCritical)
}
"#),
  (t!"ProbeRes", go! r#"type ProbeResParsingContext struct {
}
func (context *ProbeResParsingContext) Init() {

}
func (context *ProbeResParsingContext) Parse(reader enc.ParseReader, ignoreCritical bool) (*ProbeRes, error) {
	if reader == nil {
		return nil, enc.ErrBufferOverflow
	}

	var handled_Response bool = false
	var handled_MaxSuffixLength bool = false

	progress := -1
	_ = progress

	value := &ProbeRes{}
	var err error
	var startPos int
	for {
		startPos = reader.Pos()
		if startPos >= reader.Length() {
			break
		}
		typ := enc.TLNum(0)
		l := enc.TLNum(0)
		typ, err = enc.ReadTLNum(reader)
		if err != nil {
			return nil, enc.ErrFailToParse{TypeNum: 0, Err: err}
		}
		l, err = enc.ReadTLNum(reader)
		if err != nil {
			return nil, enc.ErrFailToParse{TypeNum: 0, Err: err}
		}

		err = nil
		if handled := false; true {
			switch typ {
			case 7:
				if true {
					handled = true
					handled_Response = true
					value.Response = make(enc.Name, l/2+1)
					startName := reader.Pos()
					endName := startName + int(l)
					for j := range value.Response {
						if reader.Pos() >= endName {
							value.Response = value.Response[:j]
							break
						}
						var err1, err3 error
						value.Response[j].Typ, err1 = enc.ReadTLNum(reader)
						l, err2 := enc.ReadTLNum(reader)
						value.Response[j].Val, err3 = reader.ReadBuf(int(l))
						if err1 != nil || err2 != nil || err3 != nil {
							err = io.ErrUnexpectedEOF
							break
						}
					}
					if err == nil && reader.Pos() != endName {
						err = enc.ErrBufferOverflow
					}
				}
			default:
				if !ignoreCritical && ((typ <= 31) || ((typ & 1) == 1)) {
					return nil, enc.ErrUnrecognizedField{TypeNum: typ}
				}
				handled = true
				err = reader.Skip(int(l))
			}
			if err == nil && !handled {
			}
			if err != nil {
				return nil, enc.ErrFailToParse{TypeNum: typ, Err: err}
			}
		}
	}

	startPos = reader.Pos()
	err = nil

	if !handled_Response && err == nil {
		value.Response = nil
	}
	if !handled_MaxSuffixLength && err == nil {
		value.MaxSuffixLength = nil
	}

	if err != nil {
		return nil, err
	}

	return value, nil
}
func ParseProbeRes(reader enc.ParseReader, ignoreCritical bool) (*ProbeRes, error) {
	context := ProbeResParsingContext{}
	context.Init()
	return context.Parse(reader, ignoreCritical)
}
"#),
  (t!"ProbeResContent", go! r#"type ProbeResContentParsingContext struct {
	Vals_context ProbeResParsingContext
}
func (context *ProbeResContentParsingContext) Init() {
	context.Vals_context.Init()
}
func (context *ProbeResContentParsingContext) Parse(reader enc.ParseReader, ignoreCritical bool) (*ProbeResContent, error) {
	if reader == nil {
		return nil, enc.ErrBufferOverflow
	}

	var handled_Vals bool = false

	progress := -1
	_ = progress

	value := &ProbeResContent{}
	var err error
	var startPos int
	for {
		startPos = reader.Pos()
		if startPos >= reader.Length() {
			break
		}
		typ := enc.TLNum(0)
		l := enc.TLNum(0)
		typ, err = enc.ReadTLNum(reader)
		if err != nil {
			return nil, enc.ErrFailToParse{TypeNum: 0, Err: err}
		}
		l, err = enc.ReadTLNum(reader)
		if err != nil {
			return nil, enc.ErrFailToParse{TypeNum: 0, Err: err}
		}

		err = nil
		if handled := false; true {
			switch typ {
			case 141:
				if true {
					handled = true
					handled_Vals = true
					if value.Vals == nil {
						value.Vals = make([]*ProbeRes, 0)
					}
					{
						pseudoValue := struct {
							Vals *ProbeRes
						}{}
						{
							value := &pseudoValue
							value.Vals, err = context.Vals_context.Parse(reader.Delegate(int(l)), ignoreCritical)
							_ = value
						}
						value.Vals = append(value.Vals, pseudoValue.Vals)
					}
					progress--
				}
			default:
				if !ignoreCritical && ((typ <= 31) || ((typ & 1) == 1)) {
					return nil, enc.ErrUnrecognizedField{TypeNum: typ}
				}
				handled = true
				err = reader.Skip(int(l))
			}
			if err == nil && !handled {
			}
			if err != nil {
				return nil, enc.ErrFailToParse{TypeNum: typ, Err: err}
			}
		}
	}

	startPos = reader.Pos()
	err = nil

	if !handled_Vals && err == nil {
		// sequence - skip
	}

	if err != nil {
		return nil, err
	}

	return value, nil
}
func ParseProbeResContent(reader enc.ParseReader, ignoreCritical bool) (*ProbeResContent, error) {
	context := ProbeResContentParsingContext{}
	context.Init()
	return context.Parse(reader, ignoreCritical)
}
"#),
  (t!"CmdNewInt", go! r#"type CmdNewIntParsingContext struct {
}
func (context *CmdNewIntParsingContext) Init() {

}
func (context *CmdNewIntParsingContext) Parse(reader enc.ParseReader, ignoreCritical bool) (*CmdNewInt, error) {
	if reader == nil {
		return nil, enc.ErrBufferOverflow
	}

	var handled_EcdhPub bool = false
	var handled_CertReq bool = false

	progress := -1
	_ = progress

	value := &CmdNewInt{}
	var err error
	var startPos int
	for {
		startPos = reader.Pos()
		if startPos >= reader.Length() {
			break
		}
		typ := enc.TLNum(0)
		l := enc.TLNum(0)
		typ, err = enc.ReadTLNum(reader)
		if err != nil {
			return nil, enc.ErrFailToParse{TypeNum: 0, Err: err}
		}
		l, err = enc.ReadTLNum(reader)
		if err != nil {
			return nil, enc.ErrFailToParse{TypeNum: 0, Err: err}
		}

		err = nil
		if handled := false; true {
			switch typ {
			case 145:
				if true {
					handled = true
					handled_EcdhPub = true
					value.EcdhPub = make([]byte, l)
					_, err = io.ReadFull(reader, value.EcdhPub)
				}
			case 147:
				if true {
					handled = true
					handled_CertReq = true
					value.CertReq = make([]byte, l)
					_, err = io.ReadFull(reader, value.CertReq)
				}
			default:
				if !ignoreCritical && ((typ <= 31) || ((typ & 1) == 1)) {
					return nil, enc.ErrUnrecognizedField{TypeNum: typ}
				}
				handled = true
				err = reader.Skip(int(l))
			}
			if err == nil && !handled {
			}
			if err != nil {
				return nil, enc.ErrFailToParse{TypeNum: typ, Err: err}
			}
		}
	}

	startPos = reader.Pos()
	err = nil

	if !handled_EcdhPub && err == nil {
		value.EcdhPub = nil
	}
	if !handled_CertReq && err == nil {
		value.CertReq = nil
	}

	if err != nil {
		return nil, err
	}

	return value, nil
}
func ParseCmdNewInt(reader enc.ParseReader, ignoreCritical bool) (*CmdNewInt, error) {
	context := CmdNewIntParsingContext{}
	context.Init()
	return context.Parse(reader, ignoreCritical)
}
"#),
  (t!"CmdNewData", go! r#"type CmdNewDataParsingContext struct {
}
func (context *CmdNewDataParsingContext) Init() {

}
func (context *CmdNewDataParsingContext) Parse(reader enc.ParseReader, ignoreCritical bool) (*CmdNewData, error) {
	if reader == nil {
		return nil, enc.ErrBufferOverflow
	}

	var handled_EcdhPub bool = false
	var handled_Salt bool = false
	var handled_ReqId bool = false
	var handled_Challenge bool = false

	progress := -1
	_ = progress

	value := &CmdNewData{}
	var err error
	var startPos int
	for {
		startPos = reader.Pos()
		if startPos >= reader.Length() {
			break
		}
		typ := enc.TLNum(0)
		l := enc.TLNum(0)
		typ, err = enc.ReadTLNum(reader)
		if err != nil {
			return nil, enc.ErrFailToParse{TypeNum: 0, Err: err}
		}
		l, err = enc.ReadTLNum(reader)
		if err != nil {
			return nil, enc.ErrFailToParse{TypeNum: 0, Err: err}
		}

		err = nil
		if handled := false; true {
			switch typ {
			case 145:
				if true {
					handled = true
					handled_EcdhPub = true
					value.EcdhPub = make([]byte, l)
					_, err = io.ReadFull(reader, value.EcdhPub)
				}
			case 149:
				if true {
					handled = true
					handled_Salt = true
					value.Salt = make([]byte, l)
					_, err = io.ReadFull(reader, value.Salt)
				}
			case 151:
				if true {
					handled = true
					handled_ReqId = true
					value.ReqId = make([]byte, l)
					_, err = io.ReadFull(reader, value.ReqId)
				}
			case 153:
				if true {
					handled = true
					handled_Challenge = true
					if value.Challenge == nil {
						value.Challenge = make([]string, 0)
					}
					{
						pseudoValue := struct {
							Challenge string
						}{}
						{
							value := &pseudoValue
							{
								var builder strings.Builder
								_, err = io.CopyN(&builder, reader, int64(l))
								if err == nil {
									value.Challenge = builder.String()
								}
							}
							_ = value
						}
						value.Challenge = append(value.Challenge, pseudoValue.Challenge)
					}
					progress--
				}
			default:
				if !ignoreCritical && ((typ <= 31) || ((typ & 1) == 1)) {
					return nil, enc.ErrUnrecognizedField{TypeNum: typ}
				}
				handled = true
				err = reader.Skip(int(l))
			}
			if err == nil && !handled {
			}
			if err != nil {
				return nil, enc.ErrFailToParse{TypeNum: typ, Err: err}
			}
		}
	}

	startPos = reader.Pos()
	err = nil

	if !handled_EcdhPub && err == nil {
		value.EcdhPub = nil
	}
	if !handled_Salt && err == nil {
		value.Salt = nil
	}
	if !handled_ReqId && err == nil {
		value.ReqId = nil
	}
	if !handled_Challenge && err == nil {
		// sequence - skip
	}

	if err != nil {
		return nil, err
	}

	return value, nil
}
func ParseCmdNewData(reader enc.ParseReader, ignoreCritical bool) (*CmdNewData, error) {
	context := CmdNewDataParsingContext{}
	context.Init()
	return context.Parse(reader, ignoreCritical)
}
"#),
  (t!"CipherMsg", go! r#"type CipherMsgParsingContext struct {
}
func (context *CipherMsgParsingContext) Init() {

}
func (context *CipherMsgParsingContext) Parse(reader enc.ParseReader, ignoreCritical bool) (*CipherMsg, error) {
	if reader == nil {
		return nil, enc.ErrBufferOverflow
	}

	var handled_InitVec bool = false
	var handled_AuthNTag bool = false
	var handled_Payload bool = false

	progress := -1
	_ = progress

	value := &CipherMsg{}
	var err error
	var startPos int
	for {
		startPos = reader.Pos()
		if startPos >= reader.Length() {
			break
		}
		typ := enc.TLNum(0)
		l := enc.TLNum(0)
		typ, err = enc.ReadTLNum(reader)
		if err != nil {
			return nil, enc.ErrFailToParse{TypeNum: 0, Err: err}
		}
		l, err = enc.ReadTLNum(reader)
		if err != nil {
			return nil, enc.ErrFailToParse{TypeNum: 0, Err: err}
		}

		err = nil
		if handled := false; true {
			switch typ {
			case 157:
				if true {
					handled = true
					handled_InitVec = true
					value.InitVec = make([]byte, l)
					_, err = io.ReadFull(reader, value.InitVec)
				}
			case 175:
				if true {
					handled = true
					handled_AuthNTag = true
					value.AuthNTag = make([]byte, l)
					_, err = io.ReadFull(reader, value.AuthNTag)
				}
			case 159:
				if true {
					handled = true
					handled_Payload = true
					value.Payload = make([]byte, l)
					_, err = io.ReadFull(reader, value.Payload)
				}
			default:
				if !ignoreCritical && ((typ <= 31) || ((typ & 1) == 1)) {
					return nil, enc.ErrUnrecognizedField{TypeNum: typ}
				}
				handled = true
				err = reader.Skip(int(l))
			}
			if err == nil && !handled {
			}
			if err != nil {
				return nil, enc.ErrFailToParse{TypeNum: typ, Err: err}
			}
		}
	}

	startPos = reader.Pos()
	err = nil

	if !handled_InitVec && err == nil {
		value.InitVec = nil
	}
	if !handled_AuthNTag && err == nil {
		value.AuthNTag = nil
	}
	if !handled_Payload && err == nil {
		value.Payload = nil
	}

	if err != nil {
		return nil, err
	}

	return value, nil
}
func ParseCipherMsg(reader enc.ParseReader, ignoreCritical bool) (*CipherMsg, error) {
	context := CipherMsgParsingContext{}
	context.Init()
	return context.Parse(reader, ignoreCritical)
}
"#),
  (t!"ErrorMsgData", go! r#"type ErrorMsgDataParsingContext struct {
}
func (context *ErrorMsgDataParsingContext) Init() {

}
func (context *ErrorMsgDataParsingContext) Parse(reader enc.ParseReader, ignoreCritical bool) (*ErrorMsgData, error) {
	if reader == nil {
		return nil, enc.ErrBufferOverflow
	}

	var handled_ErrCode bool = false
	var handled_ErrInfo bool = false

	progress := -1
	_ = progress

	value := &ErrorMsgData{}
	var err error
	var startPos int
	for {
		startPos = reader.Pos()
		if startPos >= reader.Length() {
			break
		}
		typ := enc.TLNum(0)
		l := enc.TLNum(0)
		typ, err = enc.ReadTLNum(reader)
		if err != nil {
			return nil, enc.ErrFailToParse{TypeNum: 0, Err: err}
		}
		l, err = enc.ReadTLNum(reader)
		if err != nil {
			return nil, enc.ErrFailToParse{TypeNum: 0, Err: err}
		}

		err = nil
		if handled := false; true {
			switch typ {
			case 171:
				if true {
					handled = true
					handled_ErrCode = true
					value.ErrCode = uint64(0)
					{
						for i := 0; i < int(l); i++ {
							x := byte(0)
							x, err = reader.ReadByte()
							if err != nil {
								if err == io.EOF {
									err = io.ErrUnexpectedEOF
								}
								break
							}
							value.ErrCode = uint64(value.ErrCode<<8) | uint64(x)
						}
					}
				}
			case 173:
				if true {
					handled = true
					handled_ErrInfo = true
					{
						var builder strings.Builder
						_, err = io.CopyN(&builder, reader, int64(l))
						if err == nil {
							value.ErrInfo = builder.String()
						}
					}
				}
			default:
				if !ignoreCritical && ((typ <= 31) || ((typ & 1) == 1)) {
					return nil, enc.ErrUnrecognizedField{TypeNum: typ}
				}
				handled = true
				err = reader.Skip(int(l))
			}
			if err == nil && !handled {
			}
			if err != nil {
				return nil, enc.ErrFailToParse{TypeNum: typ, Err: err}
			}
		}
	}

	startPos = reader.Pos()
	err = nil

	if !handled_ErrCode && err == nil {
		err = enc.ErrSkipRequired{Name: "ErrCode", TypeNum: 171}
	}
	if !handled_ErrInfo && err == nil {
		err = enc.ErrSkipRequired{Name: "ErrInfo", TypeNum: 173}
	}

	if err != nil {
		return nil, err
	}

	return value, nil
}
func ParseErrorMsgData(reader enc.ParseReader, ignoreCritical bool) (*ErrorMsgData, error) {
	context := ErrorMsgDataParsingContext{}
	context.Init()
	return context.Parse(reader, ignoreCritical)
}
"#)]

theorem cert_sameParsers : allSameParser certSource certParsers = true := by decide +kernel

end Ndn.Codec.Gen
