import Verif.Codec.GoTextParse

/-! # The parsers in `/repo/pkg/ndn/mgmt_2022/zz_generated.go`, as they are there -/

namespace Ndn.Codec.Gen

/-- the types and methods of the parsers, copied from `/repo/pkg/ndn/mgmt_2022/zz_generated.go` -/
def mgmtAParsers : List (Txt × Nat × Nat) := [
  (t!"Strategy", go! r#"type StrategyParsingContext struct {
}
func (context *StrategyParsingContext) Init() {

}
func (context *StrategyParsingContext) Parse(reader enc.ParseReader, ignoreCritical bool) (*Strategy, error) {
	if reader == nil {
		return nil, enc.ErrBufferOverflow
	}

	var handled_Name bool = false

	progress := -1
	_ = progress

	value := &Strategy{}
	var err error
	var startPos int
	for {
		startPos = reader.Pos()
		if startPos >= reader.Length() {
			break
		}
		typ := enc.TLNum(0)
		l := enc.TLNum(0)
		typ, err = enc.ReadTLNum(reader)
		if err != nil {
			return nil, enc.ErrFailToParse{TypeNum: 0, Err: err}
		}
		l, err = enc.ReadTLNum(reader)
		if err != nil {
			return nil, enc.ErrFailToParse{TypeNum: 0, Err: err}
		}

		err = nil
		if handled := false; true {
			switch typ {
			case 7:
				if true {
					handled = true
					handled_Name = true
					value.Name = make(enc.Name, l/2+1)
					startName := reader.Pos()
					endName := startName + int(l)
					for j := range value.Name {
						if reader.Pos() >= endName {
							value.Name = value.Name[:j]
							break
						}
						var err1, err3 error
						value.Name[j].Typ, err1 = enc.ReadTLNum(reader)
						l, err2 := enc.ReadTLNum(reader)
						value.Name[j].Val, err3 = reader.ReadBuf(int(l))
						if err1 != nil || err2 != nil || err3 != nil {
							err = io.ErrUnexpectedEOF
							break
						}
					}
					if err == nil && reader.Pos() != endName {
						err = enc.ErrBufferOverflow
					}
				}
			default:
				if !ignoreCritical && ((typ <= 31) || ((typ & 1) == 1)) {
					return nil, enc.ErrUnrecognizedField{TypeNum: typ}
				}
				handled = true
				err = reader.Skip(int(l))
			}
			if err == nil && !handled {
			}
			if err != nil {
				return nil, enc.ErrFailToParse{TypeNum: typ, Err: err}
			}
		}
	}

	startPos = reader.Pos()
	err = nil

	if !handled_Name && err == nil {
		value.Name = nil
	}

	if err != nil {
		return nil, err
	}

	return value, nil
}
func ParseStrategy(reader enc.ParseReader, ignoreCritical bool) (*Strategy, error) {
	context := StrategyParsingContext{}
	context.Init()
	return context.Parse(reader, ignoreCritical)
}
"#),
  (t!"ControlArgs", go! r#"type ControlArgsParsingContext struct {
	Strategy_context StrategyParsingContext
}
func (context *ControlArgsParsingContext) Init() {

	context.Strategy_context.Init()

}
func (context *ControlArgsParsingContext) Parse(reader enc.ParseReader, ignoreCritical bool) (*ControlArgs, error) {
	if reader == nil {
		return nil, enc.ErrBufferOverflow
	}

	var handled_Name bool = false
	var handled_FaceId bool = false
	var handled_Uri bool = false
	var handled_LocalUri bool = false
	var handled_Origin bool = false
	var handled_Cost bool = false
	var handled_Capacity bool = false
	var handled_Count bool = false
	var handled_Flags bool = false
	var handled_Mask bool = false
	var handled_Strategy bool = false
	var handled_ExpirationPeriod bool = false
	var handled_FacePersistency bool = false
	var handled_BaseCongestionMarkInterval bool = false
	var handled_DefaultCongestionThreshold bool = false
	var handled_Mtu bool = false

	progress := -1
	_ = progress

	value := &ControlArgs{}
	var err error
	var startPos int
	for {
		startPos = reader.Pos()
		if startPos >= reader.Length() {
			break
		}
		typ := enc.TLNum(0)
		l := enc.TLNum(0)
		typ, err = enc.ReadTLNum(reader)
		if err != nil {
			return nil, enc.ErrFailToParse{TypeNum: 0, Err: err}
		}
		l, err = enc.ReadTLNum(reader)
		if err != nil {
			return nil, enc.ErrFailToParse{TypeNum: 0, Err: err}
		}

		err = nil
		if handled := false; true {
			switch typ {
			case 7:
				if true {
					handled = true
					handled_Name = true
					value.Name = make(enc.Name, l/2+1)
					startName := reader.Pos()
					endName := startName + int(l)
					for j := range value.Name {
						if reader.Pos() >= endName {
							value.Name = value.Name[:j]
							break
						}
						var err1, err3 error
						value.Name[j].Typ, err1 = enc.ReadTLNum(reader)
						l, err2 := enc.ReadTLNum(reader)
						value.Name[j].Val, err3 = reader.ReadBuf(int(l))
						if err1 != nil || err2 != nil || err3 != nil {
							err = io.ErrUnexpectedEOF
							break
						}
					}
					if err == nil && reader.Pos() != endName {
						err = enc.ErrBufferOverflow
					}
				}
			case 105:
				if true {
					handled = true
					handled_FaceId = true
					{
						tempVal := uint64(0)
						tempVal = uint64(0)
						{
							for i := 0; i < int(l); i++ {
								x := byte(0)
								x, err = reader.ReadByte()
								if err != nil {
									if err == io.EOF {
										err = io.ErrUnexpectedEOF
									}
									break
								}
								tempVal = uint64(tempVal<<8) | uint64(x)
							}
						}
						value.FaceId = &tempVal
					}
				}
			case 114:
				if true {
					handled = true
					handled_Uri = true
					{
						var builder strings.Builder
						_, err = io.CopyN(&builder, reader, int64(l))
						if err == nil {
							tempStr := builder.String()
							value.Uri = &tempStr
						}
					}
				}
			case 129:
				if true {
					handled = true
					handled_LocalUri = true
					{
						var builder strings.Builder
						_, err = io.CopyN(&builder, reader, int64(l))
						if err == nil {
							tempStr := builder.String()
							value.LocalUri = &tempStr
						}
					}
				}
			case 111:
				if true {
					handled = true
					handled_Origin = true
					{
						tempVal := uint64(0)
						tempVal = uint64(0)
						{
							for i := 0; i < int(l); i++ {
								x := byte(0)
								x, err = reader.ReadByte()
								if err != nil {
									if err == io.EOF {
										err = io.ErrUnexpectedEOF
									}
									break
								}
								tempVal = uint64(tempVal<<8) | uint64(x)
							}
						}
						value.Origin = &tempVal
					}
				}
			case 106:
				if true {
					handled = true
					handled_Cost = true
					{
						tempVal := uint64(0)
						tempVal = uint64(0)
						{
							for i := 0; i < int(l); i++ {
								x := byte(0)
								x, err = reader.ReadByte()
								if err != nil {
									if err == io.EOF {
										err = io.ErrUnexpectedEOF
									}
									break
								}
								tempVal = uint64(tempVal<<8) | uint64(x)
							}
						}
						value.Cost = &tempVal
					}
				}
			case 131:
				if true {
					handled = true
					handled_Capacity = true
					{
						tempVal := uint64(0)
						tempVal = uint64(0)
						{
							for i := 0; i < int(l); i++ {
								x := byte(0)
								x, err = reader.ReadByte()
								if err != nil {
									if err == io.EOF {
										err = io.ErrUnexpectedEOF
									}
									break
								}
								tempVal = uint64(tempVal<<8) | uint64(x)
							}
						}
						value.Capacity = &tempVal
					}
				}
			case 132:
				if true {
					handled = true
					handled_Count = true
					{
						tempVal := uint64(0)
						tempVal = uint64(0)
						{
							for i := 0; i < int(l); i++ {
								x := byte(0)
								x, err = reader.ReadByte()
								if err != nil {
									if err == io.EOF {
										err = io.ErrUnexpectedEOF
									}
									break
								}
								tempVal = uint64(tempVal<<8) | uint64(x)
							}
						}
						value.Count = &tempVal
					}
				}
			case 108:
				if true {
					handled = true
					handled_Flags = true
					{
						tempVal := uint64(0)
						tempVal = uint64(0)
						{
							for i := 0; i < int(l); i++ {
								x := byte(0)
								x, err = reader.ReadByte()
								if err != nil {
									if err == io.EOF {
										err = io.ErrUnexpectedEOF
									}
									break
								}
								tempVal = uint64(tempVal<<8) | uint64(x)
							}
						}
						value.Flags = &tempVal
					}
				}
			case 112:
				if true {
					handled = true
					handled_Mask = true
					{
						tempVal := uint64(0)
						tempVal = uint64(0)
						{
							for i := 0; i < int(l); i++ {
								x := byte(0)
								x, err = reader.ReadByte()
								if err != nil {
									if err == io.EOF {
										err = io.ErrUnexpectedEOF
									}
									break
								}
								tempVal = uint64(tempVal<<8) | uint64(x)
							}
						}
						value.Mask = &tempVal
					}
				}
			case 107:
				if true {
					handled = true
					handled_Strategy = true
					value.Strategy, err = context.Strategy_context.Parse(reader.Delegate(int(l)), ignoreCritical)
				}
			case 109:
				if true {
					handled = true
					handled_ExpirationPeriod = true
					{
						tempVal := uint64(0)
						tempVal = uint64(0)
						{
							for i := 0; i < int(l); i++ {
								x := byte(0)
								x, err = reader.ReadByte()
								if err != nil {
									if err == io.EOF {
										err = io.ErrUnexpectedEOF
									}
									break
								}
								tempVal = uint64(tempVal<<8) | uint64(x)
							}
						}
						value.ExpirationPeriod = &tempVal
					}
				}
			case 133:
				if true {
					handled = true
					handled_FacePersistency = true
					{
						tempVal := uint64(0)
						tempVal = uint64(0)
						{
							for i := 0; i < int(l); i++ {
								x := byte(0)
								x, err = reader.ReadByte()
								if err != nil {
									if err == io.EOF {
										err = io.ErrUnexpectedEOF
									}
									break
								}
								tempVal = uint64(tempVal<<8) | uint64(x)
							}
						}
						value.FacePersistency = &tempVal
					}
				}
			case 135:
				if true {
					handled = true
					handled_BaseCongestionMarkInterval = true
					{
						tempVal := uint64(0)
						tempVal = uint64(0)
						{
							for i := 0; i < int(l); i++ {
								x := byte(0)
								x, err = reader.ReadByte()
								if err != nil {
									if err == io.EOF {
										err = io.ErrUnexpectedEOF
									}
									break
								}
								tempVal = uint64(tempVal<<8) | uint64(x)
							}
						}
						value.BaseCongestionMarkInterval = &tempVal
					}
				}
			case 136:
				if true {
					handled = true
					handled_DefaultCongestionThreshold = true
					{
						tempVal := uint64(0)
						tempVal = uint64(0)
						{
							for i := 0; i < int(l); i++ {
								x := byte(0)
								x, err = reader.ReadByte()
								if err != nil {
									if err == io.EOF {
										err = io.ErrUnexpectedEOF
									}
									break
								}
								tempVal = uint64(tempVal<<8) | uint64(x)
							}
						}
						value.DefaultCongestionThreshold = &tempVal
					}
				}
			case 137:
				if true {
					handled = true
					handled_Mtu = true
					{
						tempVal := uint64(0)
						tempVal = uint64(0)
						{
							for i := 0; i < int(l); i++ {
								x := byte(0)
								x, err = reader.ReadByte()
								if err != nil {
									if err == io.EOF {
										err = io.ErrUnexpectedEOF
									}
									break
								}
								tempVal = uint64(tempVal<<8) | uint64(x)
							}
						}
						value.Mtu = &tempVal
					}
				}
			default:
				if !ignoreCritical && ((typ <= 31) || ((typ & 1) == 1)) {
					return nil, enc.ErrUnrecognizedField{TypeNum: typ}
				}
				handled = true
				err = reader.Skip(int(l))
			}
			if err == nil && !handled {
			}
			if err != nil {
				return nil, enc.ErrFailToParse{TypeNum: typ, Err: err}
			}
		}
	}

	startPos = reader.Pos()
	err = nil

	if !handled_Name && err == nil {
		value.Name = nil
	}
	if !handled_FaceId && err == nil {
		value.FaceId = nil
	}
	if !handled_Uri && err == nil {
		value.Uri = nil
	}
	if !handled_LocalUri && err == nil {
		value.LocalUri = nil
	}
	if !handled_Origin && err == nil {
		value.Origin = nil
	}
	if !handled_Cost && err == nil {
		value.Cost = nil
	}
	if !handled_Capacity && err == nil {
		value.Capacity = nil
	}
	if !handled_Count && err == nil {
		value.Count = nil
	}
	if !handled_Flags && err == nil {
		value.Flags = nil
	}
	if !handled_Mask && err == nil {
		value.Mask = nil
	}
	if !handled_Strategy && err == nil {
		value.Strategy = nil
	}
	if !handled_ExpirationPeriod && err == nil {
		value.ExpirationPeriod = nil
	}
	if !handled_FacePersistency && err == nil {
		value.FacePersistency = nil
	}
	if !handled_BaseCongestionMarkInterval && err == nil {
		value.BaseCongestionMarkInterval = nil
	}
	if !handled_DefaultCongestionThreshold && err == nil {
		value.DefaultCongestionThreshold = nil
	}
	if !handled_Mtu && err == nil {
		value.Mtu = nil
	}

	if err != nil {
		return nil, err
	}

	return value, nil
}
func ParseControlArgs(reader enc.ParseReader, ignoreCritical bool) (*ControlArgs, error) {
	context := ControlArgsParsingContext{}
	context.Init()
	return context.Parse(reader, ignoreCritical)
}
"#),
  (t!"ControlResponseVal", go! r#"type ControlResponseValParsingContext struct {
	Params_context ControlArgsParsingContext
}
func (context *ControlResponseValParsingContext) Init() {

	context.Params_context.Init()
}
func (context *ControlResponseValParsingContext) Parse(reader enc.ParseReader, ignoreCritical bool) (*ControlResponseVal, error) {
	if reader == nil {
		return nil, enc.ErrBufferOverflow
	}

	var handled_StatusCode bool = false
	var handled_StatusText bool = false
	var handled_Params bool = false

	progress := -1
	_ = progress

	value := &ControlResponseVal{}
	var err error
	var startPos int
	for {
		startPos = reader.Pos()
		if startPos >= reader.Length() {
			break
		}
		typ := enc.TLNum(0)
		l := enc.TLNum(0)
		typ, err = enc.ReadTLNum(reader)
		if err != nil {
			return nil, enc.ErrFailToParse{TypeNum: 0, Err: err}
		}
		l, err = enc.ReadTLNum(reader)
		if err != nil {
			return nil, enc.ErrFailToParse{TypeNum: 0, Err: err}
		}

		err = nil
		if handled := false; true {
			switch typ {
			case 102:
				if true {
					handled = true
					handled_StatusCode = true
					value.StatusCode = uint64(0)
					{
						for i := 0; i < int(l); i++ {
							x := byte(0)
							x, err = reader.ReadByte()
							if err != nil {
								if err == io.EOF {
									err = io.ErrUnexpectedEOF
								}
								break
							}
							value.StatusCode = uint64(value.StatusCode<<8) | uint64(x)
						}
					}
				}
			case 103:
				if true {
					handled = true
					handled_StatusText = true
					{
						var builder strings.Builder
						_, err = io.CopyN(&builder, reader, int64(l))
						if err == nil {
							value.StatusText = builder.String()
						}
					}
				}
			case 104:
				if true {
					handled = true
					handled_Params = true
					value.Params, err = context.Params_context.Parse(reader.Delegate(int(l)), ignoreCritical)
				}
			default:
				if !ignoreCritical && ((typ <= 31) || ((typ & 1) == 1)) {
					return nil, enc.ErrUnrecognizedField{TypeNum: typ}
				}
				handled = true
				err = reader.Skip(int(l))
			}
			if err == nil && !handled {
			}
			if err != nil {
				return nil, enc.ErrFailToParse{TypeNum: typ, Err: err}
			}
		}
	}

	startPos = reader.Pos()
	err = nil

	if !handled_StatusCode && err == nil {
		err = enc.ErrSkipRequired{Name: "StatusCode", TypeNum: 102}
	}
	if !handled_StatusText && err == nil {
		err = enc.ErrSkipRequired{Name: "StatusText", TypeNum: 103}
	}
	if !handled_Params && err == nil {
		value.Params = nil
	}

	if err != nil {
		return nil, err
	}

	return value, nil
}
func ParseControlResponseVal(reader enc.ParseReader, ignoreCritical bool) (*ControlResponseVal, error) {
	context := ControlResponseValParsingContext{}
	context.Init()
	return context.Parse(reader, ignoreCritical)
}
"#),
  (t!"ControlParameters", go! r#"type ControlParametersParsingContext struct {
	Val_context ControlArgsParsingContext
}
func (context *ControlParametersParsingContext) Init() {
	context.Val_context.Init()
}
func (context *ControlParametersParsingContext) Parse(reader enc.ParseReader, ignoreCritical bool) (*ControlParameters, error) {
	if reader == nil {
		return nil, enc.ErrBufferOverflow
	}

	var handled_Val bool = false

	progress := -1
	_ = progress

	value := &ControlParameters{}
	var err error
	var startPos int
	for {
		startPos = reader.Pos()
		if startPos >= reader.Length() {
			break
		}
		typ := enc.TLNum(0)
		l := enc.TLNum(0)
		typ, err = enc.ReadTLNum(reader)
		if err != nil {
			return nil, enc.ErrFailToParse{TypeNum: 0, Err: err}
		}
		l, err = enc.ReadTLNum(reader)
		if err != nil {
			return nil, enc.ErrFailToParse{TypeNum: 0, Err: err}
		}

		err = nil
		if handled := false; true {
			switch typ {
			case 104:
				if true {
					handled = true
					handled_Val = true
					value.Val, err = context.Val_context.Parse(reader.Delegate(int(l)), ignoreCritical)
				}
			default:
				if !ignoreCritical && ((typ <= 31) || ((typ & 1) == 1)) {
					return nil, enc.ErrUnrecognizedField{TypeNum: typ}
				}
				handled = true
				err = reader.Skip(int(l))
			}
			if err == nil && !handled {
			}
			if err != nil {
				return nil, enc.ErrFailToParse{TypeNum: typ, Err: err}
			}
		}
	}

	startPos = reader.Pos()
	err = nil

	if !handled_Val && err == nil {
		value.Val = nil
	}

	if err != nil {
		return nil, err
	}

	return value, nil
}
func ParseControlParameters(reader enc.ParseReader, ignoreCritical bool) (*ControlParameters, error) {
	context := ControlParametersParsingContext{}
	context.Init()
	return context.Parse(reader, ignoreCritical)
}
"#),
  (t!"ControlResponse", go! r#"type ControlResponseParsingContext struct {
	Val_context ControlResponseValParsingContext
}
func (context *ControlResponseParsingContext) Init() {
	context.Val_context.Init()
}
func (context *ControlResponseParsingContext) Parse(reader enc.ParseReader, ignoreCritical bool) (*ControlResponse, error) {
	if reader == nil {
		return nil, enc.ErrBufferOverflow
	}

	var handled_Val bool = false

	progress := -1
	_ = progress

	value := &ControlResponse{}
	var err error
	var startPos int
	for {
		startPos = reader.Pos()
		if startPos >= reader.Length() {
			break
		}
		typ := enc.TLNum(0)
		l := enc.TLNum(0)
		typ, err = enc.ReadTLNum(reader)
		if err != nil {
			return nil, enc.ErrFailToParse{TypeNum: 0, Err: err}
		}
		l, err = enc.ReadTLNum(reader)
		if err != nil {
			return nil, enc.ErrFailToParse{TypeNum: 0, Err: err}
		}

		err = nil
		if handled := false; true {
			switch typ {
			case 101:
				if true {
					handled = true
					handled_Val = true
					value.Val, err = context.Val_context.Parse(reader.Delegate(int(l)), ignoreCritical)
				}
			default:
				if !ignoreCritical && ((typ <= 31) || ((typ & 1) == 1)) {
					return nil, enc.ErrUnrecognizedField{TypeNum: typ}
				}
				handled = true
				err = reader.Skip(int(l))
			}
			if err == nil && !handled {
			}
			if err != nil {
				return nil, enc.ErrFailToParse{TypeNum: typ, Err: err}
			}
		}
	}

	startPos = reader.Pos()
	err = nil

	if !handled_Val && err == nil {
		value.Val = nil
	}

	if err != nil {
		return nil, err
	}

	return value, nil
}
func ParseControlResponse(reader enc.ParseReader, ignoreCritical bool) (*ControlResponse, error) {
	context := ControlResponseParsingContext{}
	context.Init()
	return context.Parse(reader, ignoreCritical)
}
"#),
  (t!"FaceEventNotificationValue", go! r#"type FaceEventNotificationValueParsingContext struct {
}
func (context *FaceEventNotificationValueParsingContext) Init() {

}
func (context *FaceEventNotificationValueParsingContext) Parse(reader enc.ParseReader, ignoreCritical bool) (*FaceEventNotificationValue, error) {
	if reader == nil {
		return nil, enc.ErrBufferOverflow
	}

	var handled_FaceEventKind bool = false
	var handled_FaceId bool = false
	var handled_Uri bool = false
	var handled_LocalUri bool = false
	var handled_FaceScope bool = false
	var handled_FacePersistency bool = false
	var handled_LinkType bool = false
	var handled_Flags bool = false

	progress := -1
	_ = progress

	value := &FaceEventNotificationValue{}
	var err error
	var startPos int
	for {
		startPos = reader.Pos()
		if startPos >= reader.Length() {
			break
		}
		typ := enc.TLNum(0)
		l := enc.TLNum(0)
		typ, err = enc.ReadTLNum(reader)
		if err != nil {
			return nil, enc.ErrFailToParse{TypeNum: 0, Err: err}
		}
		l, err = enc.ReadTLNum(reader)
		if err != nil {
			return nil, enc.ErrFailToParse{TypeNum: 0, Err: err}
		}

		err = nil
		if handled := false; true {
			switch typ {
			case 193:
				if true {
					handled = true
					handled_FaceEventKind = true
					value.FaceEventKind = uint64(0)
					{
						for i := 0; i < int(l); i++ {
							x := byte(0)
							x, err = reader.ReadByte()
							if err != nil {
								if err == io.EOF {
									err = io.ErrUnexpectedEOF
								}
								break
							}
							value.FaceEventKind = uint64(value.FaceEventKind<<8) | uint64(x)
						}
					}
				}
			case 105:
				if true {
					handled = true
					handled_FaceId = true
					value.FaceId = uint64(0)
					{
						for i := 0; i < int(l); i++ {
							x := byte(0)
							x, err = reader.ReadByte()
							if err != nil {
								if err == io.EOF {
									err = io.ErrUnexpectedEOF
								}
								break
							}
							value.FaceId = uint64(value.FaceId<<8) | uint64(x)
						}
					}
				}
			case 114:
				if true {
					handled = true
					handled_Uri = true
					{
						var builder strings.Builder
						_, err = io.CopyN(&builder, reader, int64(l))
						if err == nil {
							value.Uri = builder.String()
						}
					}
				}
			case 129:
				if true {
					handled = true
					handled_LocalUri = true
					{
						var builder strings.Builder
						_, err = io.CopyN(&builder, reader, int64(l))
						if err == nil {
							value.LocalUri = builder.String()
						}
					}
				}
			case 132:
				if true {
					handled = true
					handled_FaceScope = true
					value.FaceScope = uint64(0)
					{
						for i := 0; i < int(l); i++ {
							x := byte(0)
							x, err = reader.ReadByte()
							if err != nil {
								if err == io.EOF {
									err = io.ErrUnexpectedEOF
								}
								break
							}
							value.FaceScope = uint64(value.FaceScope<<8) | uint64(x)
						}
					}
				}
			case 133:
				if true {
					handled = true
					handled_FacePersistency = true
					value.FacePersistency = uint64(0)
					{
						for i := 0; i < int(l); i++ {
							x := byte(0)
							x, err = reader.ReadByte()
							if err != nil {
								if err == io.EOF {
									err = io.ErrUnexpectedEOF
								}
								break
							}
							value.FacePersistency = uint64(value.FacePersistency<<8) | uint64(x)
						}
					}
				}
			case 134:
				if true {
					handled = true
					handled_LinkType = true
					value.LinkType = uint64(0)
					{
						for i := 0; i < int(l); i++ {
							x := byte(0)
							x, err = reader.ReadByte()
							if err != nil {
								if err == io.EOF {
									err = io.ErrUnexpectedEOF
								}
								break
							}
							value.LinkType = uint64(value.LinkType<<8) | uint64(x)
						}
					}
				}
			case 108:
				if true {
					handled = true
					handled_Flags = true
					value.Flags = uint64(0)
					{
						for i := 0; i < int(l); i++ {
							x := byte(0)
							x, err = reader.ReadByte()
							if err != nil {
								if err == io.EOF {
									err = io.ErrUnexpectedEOF
								}
								break
							}
							value.Flags = uint64(value.Flags<<8) | uint64(x)
						}
					}
				}
			default:
				if !ignoreCritical && ((typ <= 31) || ((typ & 1) == 1)) {
					return nil, enc.ErrUnrecognizedField{TypeNum: typ}
				}
				handled = true
				err = reader.Skip(int(l))
			}
			if err == nil && !handled {
			}
			if err != nil {
				return nil, enc.ErrFailToParse{TypeNum: typ, Err: err}
			}
		}
	}

	startPos = reader.Pos()
	err = nil

	if !handled_FaceEventKind && err == nil {
		err = enc.ErrSkipRequired{Name: "FaceEventKind", TypeNum: 193}
	}
	if !handled_FaceId && err == nil {
		err = enc.ErrSkipRequired{Name: "FaceId", TypeNum: 105}
	}
	if !handled_Uri && err == nil {
		err = enc.ErrSkipRequired{Name: "Uri", TypeNum: 114}
	}
	if !handled_LocalUri && err == nil {
		err = enc.ErrSkipRequired{Name: "LocalUri", TypeNum: 129}
	}
	if !handled_FaceScope && err == nil {
		err = enc.ErrSkipRequired{Name: "FaceScope", TypeNum: 132}
	}
	if !handled_FacePersistency && err == nil {
		err = enc.ErrSkipRequired{Name: "FacePersistency", TypeNum: 133}
	}
	if !handled_LinkType && err == nil {
		err = enc.ErrSkipRequired{Name: "LinkType", TypeNum: 134}
	}
	if !handled_Flags && err == nil {
		err = enc.ErrSkipRequired{Name: "Flags", TypeNum: 108}
	}

	if err != nil {
		return nil, err
	}

	return value, nil
}
func ParseFaceEventNotificationValue(reader enc.ParseReader, ignoreCritical bool) (*FaceEventNotificationValue, error) {
	context := FaceEventNotificationValueParsingContext{}
	context.Init()
	return context.Parse(reader, ignoreCritical)
}
"#),
  (t!"FaceEventNotification", go! r#"type FaceEventNotificationParsingContext struct {
	Val_context FaceEventNotificationValueParsingContext
}
func (context *FaceEventNotificationParsingContext) Init() {
	context.Val_context.Init()
}
func (context *FaceEventNotificationParsingContext) Parse(reader enc.ParseReader, ignoreCritical bool) (*FaceEventNotification, error) {
	if reader == nil {
		return nil, enc.ErrBufferOverflow
	}

	var handled_Val bool = false

	progress := -1
	_ = progress

	value := &FaceEventNotification{}
	var err error
	var startPos int
	for {
		startPos = reader.Pos()
		if startPos >= reader.Length() {
			break
		}
		typ := enc.TLNum(0)
		l := enc.TLNum(0)
		typ, err = enc.ReadTLNum(reader)
		if err != nil {
			return nil, enc.ErrFailToParse{TypeNum: 0, Err: err}
		}
		l, err = enc.ReadTLNum(reader)
		if err != nil {
			return nil, enc.ErrFailToParse{TypeNum: 0, Err: err}
		}

		err = nil
		if handled := false; true {
			switch typ {
			case 192:
				if true {
					handled = true
					handled_Val = true
					value.Val, err = context.Val_context.Parse(reader.Delegate(int(l)), ignoreCritical)
				}
			default:
				if !ignoreCritical && ((typ <= 31) || ((typ & 1) == 1)) {
					return nil, enc.ErrUnrecognizedField{TypeNum: typ}
				}
				handled = true
				err = reader.Skip(int(l))
			}
			if err == nil && !handled {
			}
			if err != nil {
				return nil, enc.ErrFailToParse{TypeNum: typ, Err: err}
			}
		}
	}

	startPos = reader.Pos()
	err = nil

	if !handled_Val && err == nil {
		value.Val = nil
	}

	if err != nil {
		return nil, err
	}

	return value, nil
}
func ParseFaceEventNotification(reader enc.ParseReader, ignoreCritical bool) (*FaceEventNotification, error) {
	context := FaceEventNotificationParsingContext{}
	context.Init()
	return context.Parse(reader, ignoreCritical)
}
"#),
  (t!"GeneralStatus", go! r#"type GeneralStatusParsingContext struct {
}
func (context *GeneralStatusParsingContext) Init() {

}
func (context *GeneralStatusParsingContext) Parse(reader enc.ParseReader, ignoreCritical bool) (*GeneralStatus, error) {
	if reader == nil {
		return nil, enc.ErrBufferOverflow
	}

	var handled_NfdVersion bool = false
	var handled_StartTimestamp bool = false
	var handled_CurrentTimestamp bool = false
	var handled_NNameTreeEntries bool = false
	var handled_NFibEntries bool = false
	var handled_NPitEntries bool = false
	var handled_NMeasurementsEntries bool = false
	var handled_NCsEntries bool = false
	var handled_NInInterests bool = false
	var handled_NInData bool = false
	var handled_NInNacks bool = false
	var handled_NOutInterests bool = false
	var handled_NOutData bool = false
	var handled_NOutNacks bool = false
	var handled_NSatisfiedInterests bool = false
	var handled_NUnsatisfiedInterests bool = false
	var handled_NFragmentationError bool = false
	var handled_NOutOverMtu bool = false
	var handled_NInLpInvalid bool = false
	var handled_NReassemblyTimeouts bool = false
	var handled_NInNetInvalid bool = false
	var handled_NAcknowledged bool = false
	var handled_NRetransmitted bool = false
	var handled_NRetxExhausted bool = false
	var handled_NConngestionMarked bool = false

	progress := -1
	_ = progress

	value := &GeneralStatus{}
	var err error
	var startPos int
	for {
		startPos = reader.Pos()
		if startPos >= reader.Length() {
			break
		}
		typ := enc.TLNum(0)
		l := enc.TLNum(0)
		typ, err = enc.ReadTLNum(reader)
		if err != nil {
			return nil, enc.ErrFailToParse{TypeNum: 0, Err: err}
		}
		l, err = enc.ReadTLNum(reader)
		if err != nil {
			return nil, enc.ErrFailToParse{TypeNum: 0, Err: err}
		}

		err = nil
		if handled := false; true {
			switch typ {
			case 128:
				if true {
					handled = true
					handled_NfdVersion = true
					{
						var builder strings.Builder
						_, err = io.CopyN(&builder, reader, int64(l))
						if err == nil {
							value.NfdVersion = builder.String()
						}
					}
				}
			case 129:
				if true {
					handled = true
					handled_StartTimestamp = true
					value.StartTimestamp = uint64(0)
					{
						for i := 0; i < int(l); i++ {
							x := byte(0)
							x, err = reader.ReadByte()
							if err != nil {
								if err == io.EOF {
									err = io.ErrUnexpectedEOF
								}
								break
							}
							value.StartTimestamp = uint64(value.StartTimestamp<<8) | uint64(x)
						}
					}
				}
			case 130:
				if true {
					handled = true
					handled_CurrentTimestamp = true
					value.CurrentTimestamp = uint64(0)
					{
						for i := 0; i < int(l); i++ {
							x := byte(0)
							x, err = reader.ReadByte()
							if err != nil {
								if err == io.EOF {
									err = io.ErrUnexpectedEOF
								}
								break
							}
							value.CurrentTimestamp = uint64(value.CurrentTimestamp<<8) | uint64(x)
						}
					}
				}
			case 131:
				if true {
					handled = true
					handled_NNameTreeEntries = true
					value.NNameTreeEntries = uint64(0)
					{
						for i := 0; i < int(l); i++ {
							x := byte(0)
							x, err = reader.ReadByte()
							if err != nil {
								if err == io.EOF {
									err = io.ErrUnexpectedEOF
								}
								break
							}
							value.NNameTreeEntries = uint64(value.NNameTreeEntries<<8) | uint64(x)
						}
					}
				}
			case 132:
				if true {
					handled = true
					handled_NFibEntries = true
					value.NFibEntries = uint64(0)
					{
						for i := 0; i < int(l); i++ {
							x := byte(0)
							x, err = reader.ReadByte()
							if err != nil {
								if err == io.EOF {
									err = io.ErrUnexpectedEOF
								}
								break
							}
							value.NFibEntries = uint64(value.NFibEntries<<8) | uint64(x)
						}
					}
				}
			case 133:
				if true {
					handled = true
					handled_NPitEntries = true
					value.NPitEntries = uint64(0)
					{
						for i := 0; i < int(l); i++ {
							x := byte(0)
							x, err = reader.ReadByte()
							if err != nil {
								if err == io.EOF {
									err = io.ErrUnexpectedEOF
								}
								break
							}
							value.NPitEntries = uint64(value.NPitEntries<<8) | uint64(x)
						}
					}
				}
			case 134:
				if true {
					handled = true
					handled_NMeasurementsEntries = true
					value.NMeasurementsEntries = uint64(0)
					{
						for i := 0; i < int(l); i++ {
							x := byte(0)
							x, err = reader.ReadByte()
							if err != nil {
								if err == io.EOF {
									err = io.ErrUnexpectedEOF
								}
								break
							}
							value.NMeasurementsEntries = uint64(value.NMeasurementsEntries<<8) | uint64(x)
						}
					}
				}
			case 135:
				if true {
					handled = true
					handled_NCsEntries = true
					value.NCsEntries = uint64(0)
					{
						for i := 0; i < int(l); i++ {
							x := byte(0)
							x, err = reader.ReadByte()
							if err != nil {
								if err == io.EOF {
									err = io.ErrUnexpectedEOF
								}
								break
							}
							value.NCsEntries = uint64(value.NCsEntries<<8) | uint64(x)
						}
					}
				}
			case 144:
				if true {
					handled = true
					handled_NInInterests = true
					value.NInInterests = uint64(0)
					{
						for i := 0; i < int(l); i++ {
							x := byte(0)
							x, err = reader.ReadByte()
							if err != nil {
								if err == io.EOF {
									err = io.ErrUnexpectedEOF
								}
								break
							}
							value.NInInterests = uint64(value.NInInterests<<8) | uint64(x)
						}
					}
				}
			case 145:
				if true {
					handled = true
					handled_NInData = true
					value.NInData = uint64(0)
					{
						for i := 0; i < int(l); i++ {
							x := byte(0)
							x, err = reader.ReadByte()
							if err != nil {
								if err == io.EOF {
									err = io.ErrUnexpectedEOF
								}
								break
							}
							value.NInData = uint64(value.NInData<<8) | uint64(x)
						}
					}
				}
			case 151:
				if true {
					handled = true
					handled_NInNacks = true
					value.NInNacks = uint64(0)
					{
						for i := 0; i < int(l); i++ {
							x := byte(0)
							x, err = reader.ReadByte()
							if err != nil {
								if err == io.EOF {
									err = io.ErrUnexpectedEOF
								}
								break
							}
							value.NInNacks = uint64(value.NInNacks<<8) | uint64(x)
						}
					}
				}
			case 146:
				if true {
					handled = true
					handled_NOutInterests = true
					value.NOutInterests = uint64(0)
					{
						for i := 0; i < int(l); i++ {
							x := byte(0)
							x, err = reader.ReadByte()
							if err != nil {
								if err == io.EOF {
									err = io.ErrUnexpectedEOF
								}
								break
							}
							value.NOutInterests = uint64(value.NOutInterests<<8) | uint64(x)
						}
					}
				}
			case 147:
				if true {
					handled = true
					handled_NOutData = true
					value.NOutData = uint64(0)
					{
						for i := 0; i < int(l); i++ {
							x := byte(0)
							x, err = reader.ReadByte()
							if err != nil {
								if err == io.EOF {
									err = io.ErrUnexpectedEOF
								}
								break
							}
							value.NOutData = uint64(value.NOutData<<8) | uint64(x)
						}
					}
				}
			case 152:
				if true {
					handled = true
					handled_NOutNacks = true
					value.NOutNacks = uint64(0)
					{
						for i := 0; i < int(l); i++ {
							x := byte(0)
							x, err = reader.ReadByte()
							if err != nil {
								if err == io.EOF {
									err = io.ErrUnexpectedEOF
								}
								break
							}
							value.NOutNacks = uint64(value.NOutNacks<<8) | uint64(x)
						}
					}
				}
			case 153:
				if true {
					handled = true
					handled_NSatisfiedInterests = true
					value.NSatisfiedInterests = uint64(0)
					{
						for i := 0; i < int(l); i++ {
							x := byte(0)
							x, err = reader.ReadByte()
							if err != nil {
								if err == io.EOF {
									err = io.ErrUnexpectedEOF
								}
								break
							}
							value.NSatisfiedInterests = uint64(value.NSatisfiedInterests<<8) | uint64(x)
						}
					}
				}
			case 154:
				if true {
					handled = true
					handled_NUnsatisfiedInterests = true
					value.NUnsatisfiedInterests = uint64(0)
					{
						for i := 0; i < int(l); i++ {
							x := byte(0)
							x, err = reader.ReadByte()
							if err != nil {
								if err == io.EOF {
									err = io.ErrUnexpectedEOF
								}
								break
							}
							value.NUnsatisfiedInterests = uint64(value.NUnsatisfiedInterests<<8) | uint64(x)
						}
					}
				}
			case 200:
				if true {
					handled = true
					handled_NFragmentationError = true
					{
						tempVal := uint64(0)
						tempVal = uint64(0)
						{
							for i := 0; i < int(l); i++ {
								x := byte(0)
								x, err = reader.ReadByte()
								if err != nil {
									if err == io.EOF {
										err = io.ErrUnexpectedEOF
									}
									break
								}
								tempVal = uint64(tempVal<<8) | uint64(x)
							}
						}
						value.NFragmentationError = &tempVal
					}
				}
			case 201:
				if true {
					handled = true
					handled_NOutOverMtu = true
					{
						tempVal := uint64(0)
						tempVal = uint64(0)
						{
							for i := 0; i < int(l); i++ {
								x := byte(0)
								x, err = reader.ReadByte()
								if err != nil {
									if err == io.EOF {
										err = io.ErrUnexpectedEOF
									}
									break
								}
								tempVal = uint64(tempVal<<8) | uint64(x)
							}
						}
						value.NOutOverMtu = &tempVal
					}
				}
			case 202:
				if true {
					handled = true
					handled_NInLpInvalid = true
					{
						tempVal := uint64(0)
						tempVal = uint64(0)
						{
							for i := 0; i < int(l); i++ {
								x := byte(0)
								x, err = reader.ReadByte()
								if err != nil {
									if err == io.EOF {
										err = io.ErrUnexpectedEOF
									}
									break
								}
								tempVal = uint64(tempVal<<8) | uint64(x)
							}
						}
						value.NInLpInvalid = &tempVal
					}
				}
			case 203:
				if true {
					handled = true
					handled_NReassemblyTimeouts = true
					{
						tempVal := uint64(0)
						tempVal = uint64(0)
						{
							for i := 0; i < int(l); i++ {
								x := byte(0)
								x, err = reader.ReadByte()
								if err != nil {
									if err == io.EOF {
										err = io.ErrUnexpectedEOF
									}
									break
								}
								tempVal = uint64(tempVal<<8) | uint64(x)
							}
						}
						value.NReassemblyTimeouts = &tempVal
					}
				}
			case 204:
				if true {
					handled = true
					handled_NInNetInvalid = true
					{
						tempVal := uint64(0)
						tempVal = uint64(0)
						{
							for i := 0; i < int(l); i++ {
								x := byte(0)
								x, err = reader.ReadByte()
								if err != nil {
									if err == io.EOF {
										err = io.ErrUnexpectedEOF
									}
									break
								}
								tempVal = uint64(tempVal<<8) | uint64(x)
							}
						}
						value.NInNetInvalid = &tempVal
					}
				}
			case 205:
				if true {
					handled = true
					handled_NAcknowledged = true
					{
						tempVal := uint64(0)
						tempVal = uint64(0)
						{
							for i := 0; i < int(l); i++ {
								x := byte(0)
								x, err = reader.ReadByte()
								if err != nil {
									if err == io.EOF {
										err = io.ErrUnexpectedEOF
									}
									break
								}
								tempVal = uint64(tempVal<<8) | uint64(x)
							}
						}
						value.NAcknowledged = &tempVal
					}
				}
			case 206:
				if true {
					handled = true
					handled_NRetransmitted = true
					{
						tempVal := uint64(0)
						tempVal = uint64(0)
						{
							for i := 0; i < int(l); i++ {
								x := byte(0)
								x, err = reader.ReadByte()
								if err != nil {
									if err == io.EOF {
										err = io.ErrUnexpectedEOF
									}
									break
								}
								tempVal = uint64(tempVal<<8) | uint64(x)
							}
						}
						value.NRetransmitted = &tempVal
					}
				}
			case 207:
				if true {
					handled = true
					handled_NRetxExhausted = true
					{
						tempVal := uint64(0)
						tempVal = uint64(0)
						{
							for i := 0; i < int(l); i++ {
								x := byte(0)
								x, err = reader.ReadByte()
								if err != nil {
									if err == io.EOF {
										err = io.ErrUnexpectedEOF
									}
									break
								}
								tempVal = uint64(tempVal<<8) | uint64(x)
							}
						}
						value.NRetxExhausted = &tempVal
					}
				}
			case 208:
				if true {
					handled = true
					handled_NConngestionMarked = true
					{
						tempVal := uint64(0)
						tempVal = uint64(0)
						{
							for i := 0; i < int(l); i++ {
								x := byte(0)
								x, err = reader.ReadByte()
								if err != nil {
									if err == io.EOF {
										err = io.ErrUnexpectedEOF
									}
									break
								}
								tempVal = uint64(tempVal<<8) | uint64(x)
							}
						}
						value.NConngestionMarked = &tempVal
					}
				}
			default:
				if !ignoreCritical && ((typ <= 31) || ((typ & 1) == 1)) {
					return nil, enc.ErrUnrecognizedField{TypeNum: typ}
				}
				handled = true
				err = reader.Skip(int(l))
			}
			if err == nil && !handled {
			}
			if err != nil {
				return nil, enc.ErrFailToParse{TypeNum: typ, Err: err}
			}
		}
	}

	startPos = reader.Pos()
	err = nil

	if !handled_NfdVersion && err == nil {
		err = enc.ErrSkipRequired{Name: "NfdVersion", TypeNum: 128}
	}
	if !handled_StartTimestamp && err == nil {
		err = enc.ErrSkipRequired{Name: "StartTimestamp", TypeNum: 129}
	}
	if !handled_CurrentTimestamp && err == nil {
		err = enc.ErrSkipRequired{Name: "CurrentTimestamp", TypeNum: 130}
	}
	if !handled_NNameTreeEntries && err == nil {
		err = enc.ErrSkipRequired{Name: "NNameTreeEntries", TypeNum: 131}
	}
	if !handled_NFibEntries && err == nil {
		err = enc.ErrSkipRequired{Name: "NFibEntries", TypeNum: 132}
	}
	if !handled_NPitEntries && err == nil {
		err = enc.ErrSkipRequired{Name: "NPitEntries", TypeNum: 133}
	}
	if !handled_NMeasurementsEntries && err == nil {
		err = enc.ErrSkipRequired{Name: "NMeasurementsEntries", TypeNum: 134}
	}
	if !handled_NCsEntries && err == nil {
		err = enc.ErrSkipRequired{Name: "NCsEntries", TypeNum: 135}
	}
	if !handled_NInInterests && err == nil {
		err = enc.ErrSkipRequired{Name: "NInInterests", TypeNum: 144}
	}
	if !handled_NInData && err == nil {
		err = enc.ErrSkipRequired{Name: "NInData", TypeNum: 145}
	}
	if !handled_NInNacks && err == nil {
		err = enc.ErrSkipRequired{Name: "NInNacks", TypeNum: 151}
	}
	if !handled_NOutInterests && err == nil {
		err = enc.ErrSkipRequired{Name: "NOutInterests", TypeNum: 146}
	}
	if !handled_NOutData && err == nil {
		err = enc.ErrSkipRequired{Name: "NOutData", TypeNum: 147}
	}
	if !handled_NOutNacks && err == nil {
		err = enc.ErrSkipRequired{Name: "NOutNacks", TypeNum: 152}
	}
	if !handled_NSatisfiedInterests && err == nil {
		err = enc.ErrSkipRequired{Name: "NSatisfiedInterests", TypeNum: 153}
	}
	if !handled_NUnsatisfiedInterests && err == nil {
		err = enc.ErrSkipRequired{Name: "NUnsatisfiedInterests", TypeNum: 154}
	}
	if !handled_NFragmentationError && err == nil {
		value.NFragmentationError = nil
	}
	if !handled_NOutOverMtu && err == nil {
		value.NOutOverMtu = nil
	}
	if !handled_NInLpInvalid && err == nil {
		value.NInLpInvalid = nil
	}
	if !handled_NReassemblyTimeouts && err == nil {
		value.NReassemblyTimeouts = nil
	}
	if !handled_NInNetInvalid && err == nil {
		value.NInNetInvalid = nil
	}
	if !handled_NAcknowledged && err == nil {
		value.NAcknowledged = nil
	}
	if !handled_NRetransmitted && err == nil {
		value.NRetransmitted = nil
	}
	if !handled_NRetxExhausted && err == nil {
		value.NRetxExhausted = nil
	}
	if !handled_NConngestionMarked && err == nil {
		value.NConngestionMarked = nil
	}

	if err != nil {
		return nil, err
	}

	return value, nil
}
func ParseGeneralStatus(reader enc.ParseReader, ignoreCritical bool) (*GeneralStatus, error) {
	context := GeneralStatusParsingContext{}
	context.Init()
	return context.Parse(reader, ignoreCritical)
}
"#),
  (t!"FaceStatus", go! r#"type FaceStatusParsingContext struct {
}
func (context *FaceStatusParsingContext) Init() {

}
func (context *FaceStatusParsingContext) Parse(reader enc.ParseReader, ignoreCritical bool) (*FaceStatus, error) {
	if reader == nil {
		return nil, enc.ErrBufferOverflow
	}

	var handled_FaceId bool = false
	var handled_Uri bool = false
	var handled_LocalUri bool = false
	var handled_ExpirationPeriod bool = false
	var handled_FaceScope bool = false
	var handled_FacePersistency bool = false
	var handled_LinkType bool = false
	var handled_BaseCongestionMarkInterval bool = false
	var handled_DefaultCongestionThreshold bool = false
	var handled_Mtu bool = false
	var handled_NInInterests bool = false
	var handled_NInData bool = false
	var handled_NInNacks bool = false
	var handled_NOutInterests bool = false
	var handled_NOutData bool = false
	var handled_NOutNacks bool = false
	var handled_NInBytes bool = false
	var handled_NOutBytes bool = false
	var handled_Flags bool = false

	progress := -1
	_ = progress

	value := &FaceStatus{}
	var err error
	var startPos int
	for {
		startPos = reader.Pos()
		if startPos >= reader.Length() {
			break
		}
		typ := enc.TLNum(0)
		l := enc.TLNum(0)
		typ, err = enc.ReadTLNum(reader)
		if err != nil {
			return nil, enc.ErrFailToParse{TypeNum: 0, Err: err}
		}
		l, err = enc.ReadTLNum(reader)
		if err != nil {
			return nil, enc.ErrFailToParse{TypeNum: 0, Err: err}
		}

		err = nil
		if handled := false; true {
			switch typ {
			case 105:
				if true {
					handled = true
					handled_FaceId = true
					value.FaceId = uint64(0)
					{
						for i := 0; i < int(l); i++ {
							x := byte(0)
							x, err = reader.ReadByte()
							if err != nil {
								if err == io.EOF {
									err = io.ErrUnexpectedEOF
								}
								break
							}
							value.FaceId = uint64(value.FaceId<<8) | uint64(x)
						}
					}
				}
			case 114:
				if true {
					handled = true
					handled_Uri = true
					{
						var builder strings.Builder
						_, err = io.CopyN(&builder, reader, int64(l))
						if err == nil {
							value.Uri = builder.String()
						}
					}
				}
			case 129:
				if true {
					handled = true
					handled_LocalUri = true
					{
						var builder strings.Builder
						_, err = io.CopyN(&builder, reader, int64(l))
						if err == nil {
							value.LocalUri = builder.String()
						}
					}
				}
			case 109:
				if true {
					handled = true
					handled_ExpirationPeriod = true
					{
						tempVal := uint64(0)
						tempVal = uint64(0)
						{
							for i := 0; i < int(l); i++ {
								x := byte(0)
								x, err = reader.ReadByte()
								if err != nil {
									if err == io.EOF {
										err = io.ErrUnexpectedEOF
									}
									break
								}
								tempVal = uint64(tempVal<<8) | uint64(x)
							}
						}
						value.ExpirationPeriod = &tempVal
					}
				}
			case 132:
				if true {
					handled = true
					handled_FaceScope = true
					value.FaceScope = uint64(0)
					{
						for i := 0; i < int(l); i++ {
							x := byte(0)
							x, err = reader.ReadByte()
							if err != nil {
								if err == io.EOF {
									err = io.ErrUnexpectedEOF
								}
								break
							}
							value.FaceScope = uint64(value.FaceScope<<8) | uint64(x)
						}
					}
				}
			case 133:
				if true {
					handled = true
					handled_FacePersistency = true
					value.FacePersistency = uint64(0)
					{
						for i := 0; i < int(l); i++ {
							x := byte(0)
							x, err = reader.ReadByte()
							if err != nil {
								if err == io.EOF {
									err = io.ErrUnexpectedEOF
								}
								break
							}
							value.FacePersistency = uint64(value.FacePersistency<<8) | uint64(x)
						}
					}
				}
			case 134:
				if true {
					handled = true
					handled_LinkType = true
					value.LinkType = uint64(0)
					{
						for i := 0; i < int(l); i++ {
							x := byte(0)
							x, err = reader.ReadByte()
							if err != nil {
								if err == io.EOF {
									err = io.ErrUnexpectedEOF
								}
								break
							}
							value.LinkType = uint64(value.LinkType<<8) | uint64(x)
						}
					}
				}
			case 135:
				if true {
					handled = true
					handled_BaseCongestionMarkInterval = true
					{
						tempVal := uint64(0)
						tempVal = uint64(0)
						{
							for i := 0; i < int(l); i++ {
								x := byte(0)
								x, err = reader.ReadByte()
								if err != nil {
									if err == io.EOF {
										err = io.ErrUnexpectedEOF
									}
									break
								}
								tempVal = uint64(tempVal<<8) | uint64(x)
							}
						}
						value.BaseCongestionMarkInterval = &tempVal
					}
				}
			case 136:
				if true {
					handled = true
					handled_DefaultCongestionThreshold = true
					{
						tempVal := uint64(0)
						tempVal = uint64(0)
						{
							for i := 0; i < int(l); i++ {
								x := byte(0)
								x, err = reader.ReadByte()
								if err != nil {
									if err == io.EOF {
										err = io.ErrUnexpectedEOF
									}
									break
								}
								tempVal = uint64(tempVal<<8) | uint64(x)
							}
						}
						value.DefaultCongestionThreshold = &tempVal
					}
				}
			case 137:
				if true {
					handled = true
					handled_Mtu = true
					{
						tempVal := uint64(0)
						tempVal = uint64(0)
						{
							for i := 0; i < int(l); i++ {
								x := byte(0)
								x, err = reader.ReadByte()
								if err != nil {
									if err == io.EOF {
										err = io.ErrUnexpectedEOF
									}
									break
								}
								tempVal = uint64(tempVal<<8) | uint64(x)
							}
						}
						value.Mtu = &tempVal
					}
				}
			case 144:
				if true {
					handled = true
					handled_NInInterests = true
					value.NInInterests = uint64(0)
					{
						for i := 0; i < int(l); i++ {
							x := byte(0)
							x, err = reader.ReadByte()
							if err != nil {
								if err == io.EOF {
									err = io.ErrUnexpectedEOF
								}
								break
							}
							value.NInInterests = uint64(value.NInInterests<<8) | uint64(x)
						}
					}
				}
			case 145:
				if true {
					handled = true
					handled_NInData = true
					value.NInData = uint64(0)
					{
						for i := 0; i < int(l); i++ {
							x := byte(0)
							x, err = reader.ReadByte()
							if err != nil {
								if err == io.EOF {
									err = io.ErrUnexpectedEOF
								}
								break
							}
							value.NInData = uint64(value.NInData<<8) | uint64(x)
						}
					}
				}
			case 151:
				if true {
					handled = true
					handled_NInNacks = true
					value.NInNacks = uint64(0)
					{
						for i := 0; i < int(l); i++ {
							x := byte(0)
							x, err = reader.ReadByte()
							if err != nil {
								if err == io.EOF {
									err = io.ErrUnexpectedEOF
								}
								break
							}
							value.NInNacks = uint64(value.NInNacks<<8) | uint64(x)
						}
					}
				}
			case 146:
				if true {
					handled = true
					handled_NOutInterests = true
					value.NOutInterests = uint64(0)
					{
						for i := 0; i < int(l); i++ {
							x := byte(0)
							x, err = reader.ReadByte()
							if err != nil {
								if err == io.EOF {
									err = io.ErrUnexpectedEOF
								}
								break
							}
							value.NOutInterests = uint64(value.NOutInterests<<8) | uint64(x)
						}
					}
				}
			case 147:
				if true {
					handled = true
					handled_NOutData = true
					value.NOutData = uint64(0)
					{
						for i := 0; i < int(l); i++ {
							x := byte(0)
							x, err = reader.ReadByte()
							if err != nil {
								if err == io.EOF {
									err = io.ErrUnexpectedEOF
								}
								break
							}
							value.NOutData = uint64(value.NOutData<<8) | uint64(x)
						}
					}
				}
			case 152:
				if true {
					handled = true
					handled_NOutNacks = true
					value.NOutNacks = uint64(0)
					{
						for i := 0; i < int(l); i++ {
							x := byte(0)
							x, err = reader.ReadByte()
							if err != nil {
								if err == io.EOF {
									err = io.ErrUnexpectedEOF
								}
								break
							}
							value.NOutNacks = uint64(value.NOutNacks<<8) | uint64(x)
						}
					}
				}
			case 148:
				if true {
					handled = true
					handled_NInBytes = true
					value.NInBytes = uint64(0)
					{
						for i := 0; i < int(l); i++ {
							x := byte(0)
							x, err = reader.ReadByte()
							if err != nil {
								if err == io.EOF {
									err = io.ErrUnexpectedEOF
								}
								break
							}
							value.NInBytes = uint64(value.NInBytes<<8) | uint64(x)
						}
					}
				}
			case 149:
				if true {
					handled = true
					handled_NOutBytes = true
					value.NOutBytes = uint64(0)
					{
						for i := 0; i < int(l); i++ {
							x := byte(0)
							x, err = reader.ReadByte()
							if err != nil {
								if err == io.EOF {
									err = io.ErrUnexpectedEOF
								}
								break
							}
							value.NOutBytes = uint64(value.NOutBytes<<8) | uint64(x)
						}
					}
				}
			case 108:
				if true {
					handled = true
					handled_Flags = true
					value.Flags = uint64(0)
					{
						for i := 0; i < int(l); i++ {
							x := byte(0)
							x, err = reader.ReadByte()
							if err != nil {
								if err == io.EOF {
									err = io.ErrUnexpectedEOF
								}
								break
							}
							value.Flags = uint64(value.Flags<<8) | uint64(x)
						}
					}
				}
			default:
				if !ignoreCritical && ((typ <= 31) || ((typ & 1) == 1)) {
					return nil, enc.ErrUnrecognizedField{TypeNum: typ}
				}
				handled = true
				err = reader.Skip(int(l))
			}
			if err == nil && !handled {
			}
			if err != nil {
				return nil, enc.ErrFailToParse{TypeNum: typ, Err: err}
			}
		}
	}

	startPos = reader.Pos()
	err = nil

	if !handled_FaceId && err == nil {
		err = enc.ErrSkipRequired{Name: "FaceId", TypeNum: 105}
	}
	if !handled_Uri && err == nil {
		err = enc.ErrSkipRequired{Name: "Uri", TypeNum: 114}
	}
	if !handled_LocalUri && err == nil {
		err = enc.ErrSkipRequired{Name: "LocalUri", TypeNum: 129}
	}
	if !handled_ExpirationPeriod && err == nil {
		value.ExpirationPeriod = nil
	}
	if !handled_FaceScope && err == nil {
		err = enc.ErrSkipRequired{Name: "FaceScope", TypeNum: 132}
	}
	if !handled_FacePersistency && err == nil {
		err = enc.ErrSkipRequired{Name: "FacePersistency", TypeNum: 133}
	}
	if !handled_LinkType && err == nil {
		err = enc.ErrSkipRequired{Name: "LinkType", TypeNum: 134}
	}
	if !handled_BaseCongestionMarkInterval && err == nil {
		value.BaseCongestionMarkInterval = nil
	}
	if !handled_DefaultCongestionThreshold && err == nil {
		value.DefaultCongestionThreshold = nil
	}
	if !handled_Mtu && err == nil {
		value.Mtu = nil
	}
	if !handled_NInInterests && err == nil {
		err = enc.ErrSkipRequired{Name: "NInInterests", TypeNum: 144}
	}
	if !handled_NInData && err == nil {
		err = enc.ErrSkipRequired{Name: "NInData", TypeNum: 145}
	}
	if !handled_NInNacks && err == nil {
		err = enc.ErrSkipRequired{Name: "NInNacks", TypeNum: 151}
	}
	if !handled_NOutInterests && err == nil {
		err = enc.ErrSkipRequired{Name: "NOutInterests", TypeNum: 146}
	}
	if !handled_NOutData && err == nil {
		err = enc.ErrSkipRequired{Name: "NOutData", TypeNum: 147}
	}
	if !handled_NOutNacks && err == nil {
		err = enc.ErrSkipRequired{Name: "NOutNacks", TypeNum: 152}
	}
	if !handled_NInBytes && err == nil {
		err = enc.ErrSkipRequired{Name: "NInBytes", TypeNum: 148}
	}
	if !handled_NOutBytes && err == nil {
		err = enc.ErrSkipRequired{Name: "NOutBytes", TypeNum: 149}
	}
	if !handled_Flags && err == nil {
		err = enc.ErrSkipRequired{Name: "Flags", TypeNum: 108}
	}

	if err != nil {
		return nil, err
	}

	return value, nil
}
func ParseFaceStatus(reader enc.ParseReader, ignoreCritical bool) (*FaceStatus, error) {
	context := FaceStatusParsingContext{}
	context.Init()
	return context.Parse(reader, ignoreCritical)
}
"#),
  (t!"FaceStatusMsg", go! r#"type FaceStatusMsgParsingContext struct {
	Vals_context FaceStatusParsingContext
}
func (context *FaceStatusMsgParsingContext) Init() {
	context.Vals_context.Init()
}
func (context *FaceStatusMsgParsingContext) Parse(reader enc.ParseReader, ignoreCritical bool) (*FaceStatusMsg, error) {
	if reader == nil {
		return nil, enc.ErrBufferOverflow
	}

	var handled_Vals bool = false

	progress := -1
	_ = progress

	value := &FaceStatusMsg{}
	var err error
	var startPos int
	for {
		startPos = reader.Pos()
		if startPos >= reader.Length() {
			break
		}
		typ := enc.TLNum(0)
		l := enc.TLNum(0)
		typ, err = enc.ReadTLNum(reader)
		if err != nil {
			return nil, enc.ErrFailToParse{TypeNum: 0, Err: err}
		}
		l, err = enc.ReadTLNum(reader)
		if err != nil {
			return nil, enc.ErrFailToParse{TypeNum: 0, Err: err}
		}

		err = nil
		if handled := false; true {
			switch typ {
			case 128:
				if true {
					handled = true
					handled_Vals = true
					if value.Vals == nil {
						value.Vals = make([]*FaceStatus, 0)
					}
					{
						pseudoValue := struct {
							Vals *FaceStatus
						}{}
						{
							value := &pseudoValue
							value.Vals, err = context.Vals_context.Parse(reader.Delegate(int(l)), ignoreCritical)
							_ = value
						}
						value.Vals = append(value.Vals, pseudoValue.Vals)
					}
					progress--
				}
			default:
				if !ignoreCritical && ((typ <= 31) || ((typ & 1) == 1)) {
					return nil, enc.ErrUnrecognizedField{TypeNum: typ}
				}
				handled = true
				err = reader.Skip(int(l))
			}
			if err == nil && !handled {
			}
			if err != nil {
				return nil, enc.ErrFailToParse{TypeNum: typ, Err: err}
			}
		}
	}

	startPos = reader.Pos()
	err = nil

	if !handled_Vals && err == nil {
		// sequence - skip
	}

	if err != nil {
		return nil, err
	}

	return value, nil
}
func ParseFaceStatusMsg(reader enc.ParseReader, ignoreCritical bool) (*FaceStatusMsg, error) {
	context := FaceStatusMsgParsingContext{}
	context.Init()
	return context.Parse(reader, ignoreCritical)
}
"#),
  (t!"FaceQueryFilterValue", go! r#"type FaceQueryFilterValueParsingContext struct {
}
func (context *FaceQueryFilterValueParsingContext) Init() {

}
func (context *FaceQueryFilterValueParsingContext) Parse(reader enc.ParseReader, ignoreCritical bool) (*FaceQueryFilterValue, error) {
	if reader == nil {
		return nil, enc.ErrBufferOverflow
	}

	var handled_FaceId bool = false
	var handled_UriScheme bool = false
	var handled_Uri bool = false
	var handled_LocalUri bool = false
	var handled_FaceScope bool = false
	var handled_FacePersistency bool = false
	var handled_LinkType bool = false

	progress := -1
	_ = progress

	value := &FaceQueryFilterValue{}
	var err error
	var startPos int
	for {
		startPos = reader.Pos()
		if startPos >= reader.Length() {
			break
		}
		typ := enc.TLNum(0)
		l := enc.TLNum(0)
		typ, err = enc.ReadTLNum(reader)
		if err != nil {
			return nil, enc.ErrFailToParse{TypeNum: 0, Err: err}
		}
		l, err = enc.ReadTLNum(reader)
		if err != nil {
			return nil, enc.ErrFailToParse{TypeNum: 0, Err: err}
		}

		err = nil
		if handled := false; true {
			switch typ {
			case 105:
				if true {
					handled = true
					handled_FaceId = true
					{
						tempVal := uint64(0)
						tempVal = uint64(0)
						{
							for i := 0; i < int(l); i++ {
								x := byte(0)
								x, err = reader.ReadByte()
								if err != nil {
									if err == io.EOF {
										err = io.ErrUnexpectedEOF
									}
									break
								}
								tempVal = uint64(tempVal<<8) | uint64(x)
							}
						}
						value.FaceId = &tempVal
					}
				}
			case 131:
				if true {
					handled = true
					handled_UriScheme = true
					{
						var builder strings.Builder
						_, err = io.CopyN(&builder, reader, int64(l))
						if err == nil {
							tempStr := builder.String()
							value.UriScheme = &tempStr
						}
					}
				}
			case 114:
				if true {
					handled = true
					handled_Uri = true
					{
						var builder strings.Builder
						_, err = io.CopyN(&builder, reader, int64(l))
						if err == nil {
							tempStr := builder.String()
							value.Uri = &tempStr
						}
					}
				}
			case 129:
				if true {
					handled = true
					handled_LocalUri = true
					{
						var builder strings.Builder
						_, err = io.CopyN(&builder, reader, int64(l))
						if err == nil {
							tempStr := builder.String()
							value.LocalUri = &tempStr
						}
					}
				}
			case 132:
				if true {
					handled = true
					handled_FaceScope = true
					{
						tempVal := uint64(0)
						tempVal = uint64(0)
						{
							for i := 0; i < int(l); i++ {
								x := byte(0)
								x, err = reader.ReadByte()
								if err != nil {
									if err == io.EOF {
										err = io.ErrUnexpectedEOF
									}
									break
								}
								tempVal = uint64(tempVal<<8) | uint64(x)
							}
						}
						value.FaceScope = &tempVal
					}
				}
			case 133:
				if true {
					handled = true
					handled_FacePersistency = true
					{
						tempVal := uint64(0)
						tempVal = uint64(0)
						{
							for i := 0; i < int(l); i++ {
								x := byte(0)
								x, err = reader.ReadByte()
								if err != nil {
									if err == io.EOF {
										err = io.ErrUnexpectedEOF
									}
									break
								}
								tempVal = uint64(tempVal<<8) | uint64(x)
							}
						}
						value.FacePersistency = &tempVal
					}
				}
			case 134:
				if true {
					handled = true
					handled_LinkType = true
					{
						tempVal := uint64(0)
						tempVal = uint64(0)
						{
							for i := 0; i < int(l); i++ {
								x := byte(0)
								x, err = reader.ReadByte()
								if err != nil {
									if err == io.EOF {
										err = io.ErrUnexpectedEOF
									}
									break
								}
								tempVal = uint64(tempVal<<8) | uint64(x)
							}
						}
						value.LinkType = &tempVal
					}
				}
			default:
				if !ignoreCritical && ((typ <= 31) || ((typ & 1) == 1)) {
					return nil, enc.ErrUnrecognizedField{TypeNum: typ}
				}
				handled = true
				err = reader.Skip(int(l))
			}
			if err == nil && !handled {
			}
			if err != nil {
				return nil, enc.ErrFailToParse{TypeNum: typ, Err: err}
			}
		}
	}

	startPos = reader.Pos()
	err = nil

	if !handled_FaceId && err == nil {
		value.FaceId = nil
	}
	if !handled_UriScheme && err == nil {
		value.UriScheme = nil
	}
	if !handled_Uri && err == nil {
		value.Uri = nil
	}
	if !handled_LocalUri && err == nil {
		value.LocalUri = nil
	}
	if !handled_FaceScope && err == nil {
		value.FaceScope = nil
	}
	if !handled_FacePersistency && err == nil {
		value.FacePersistency = nil
	}
	if !handled_LinkType && err == nil {
		value.LinkType = nil
	}

	if err != nil {
		return nil, err
	}

	return value, nil
}
func ParseFaceQueryFilterValue(reader enc.ParseReader, ignoreCritical bool) (*FaceQueryFilterValue, error) {
	context := FaceQueryFilterValueParsingContext{}
	context.Init()
	return context.Parse(reader, ignoreCritical)
}
"#)]

theorem mgmtA_sameParsers : allSameParser mgmtSource mgmtAParsers = true := by decide +kernel

end Ndn.Codec.Gen
