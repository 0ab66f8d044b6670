import Verif.Codec.GoTextParse

/-! # The parsers in `/repo/pkg/ndn/mgmt_2022/zz_generated.go`, as they are there -/

namespace Ndn.Codec.Gen

/-- the types and methods of the parsers, copied from `/repo/pkg/ndn/mgmt_2022/zz_generated.go` -/
def mgmtBParsers : List (Txt × Nat × Nat) := [
  (t!"FaceQueryFilter", go! r#"type FaceQueryFilterParsingContext struct {
	Val_context FaceQueryFilterValueParsingContext
}
func (context *FaceQueryFilterParsingContext) Init() {
	context.Val_context.Init()
}
func (context *FaceQueryFilterParsingContext) Parse(reader enc.ParseReader, ignoreCritical bool) (*FaceQueryFilter, error) {
	if reader == nil {
		return nil, enc.ErrBufferOverflow
	}

	var handled_Val bool = false

	progress := -1
	_ = progress

	value := &FaceQueryFilter{}
	var err error
	var startPos int
	for {
		startPos = reader.Pos()
		if startPos >= reader.Length() {
			break
		}
		typ := enc.TLNum(0)
		l := enc.TLNum(0)
		typ, err = enc.ReadTLNum(reader)
		if err != nil {
			return nil, enc.ErrFailToParse{TypeNum: 0, Err: err}
		}
		l, err = enc.ReadTLNum(reader)
		if err != nil {
			return nil, enc.ErrFailToParse{TypeNum: 0, Err: err}
		}

		err = nil
		if handled := false; true {
			switch typ {
			case 150:
				if true {
					handled = true
					handled_Val = true
					value.Val, err = context.Val_context.Parse(reader.Delegate(int(l)), ignoreCritical)
				}
			default:
				if !ignoreCritical && ((typ <= 31) || ((typ & 1) == 1)) {
					return nil, enc.ErrUnrecognizedField{TypeNum: typ}
				}
				handled = true
				err = reader.Skip(int(l))
			}
			if err == nil && !handled {
			}
			if err != nil {
				return nil, enc.ErrFailToParse{TypeNum: typ, Err: err}
			}
		}
	}

	startPos = reader.Pos()
	err = nil

	if !handled_Val && err == nil {
		value.Val = nil
	}

	if err != nil {
		return nil, err
	}

	return value, nil
}
func ParseFaceQueryFilter(reader enc.ParseReader, ignoreCritical bool) (*FaceQueryFilter, error) {
	context := FaceQueryFilterParsingContext{}
	context.Init()
	return context.Parse(reader, ignoreCritical)
}
"#),
  (t!"Route", go! r#"type RouteParsingContext struct {
}
func (context *RouteParsingContext) Init() {

}
func (context *RouteParsingContext) Parse(reader enc.ParseReader, ignoreCritical bool) (*Route, error) {
	if reader == nil {
		return nil, enc.ErrBufferOverflow
	}

	var handled_FaceId bool = false
	var handled_Origin bool = false
	var handled_Cost bool = false
	var handled_Flags bool = false
	var handled_ExpirationPeriod bool = false

	progress := -1
	_ = progress

	value := &Route{}
	var err error
	var startPos int
	for {
		startPos = reader.Pos()
		if startPos >= reader.Length() {
			break
		}
		typ := enc.TLNum(0)
		l := enc.TLNum(0)
		typ, err = enc.ReadTLNum(reader)
		if err != nil {
			return nil, enc.ErrFailToParse{TypeNum: 0, Err: err}
		}
		l, err = enc.ReadTLNum(reader)
		if err != nil {
			return nil, enc.ErrFailToParse{TypeNum: 0, Err: err}
		}

		err = nil
		if handled := false; true {
			switch typ {
			case 105:
				if true {
					handled = true
					handled_FaceId = true
					value.FaceId = uint64(0)
					{
						for i := 0; i < int(l); i++ {
							x := byte(0)
							x, err = reader.ReadByte()
							if err != nil {
								if err == io.EOF {
									err = io.ErrUnexpectedEOF
								}
								break
							}
							value.FaceId = uint64(value.FaceId<<8) | uint64(x)
						}
					}
				}
			case 111:
				if true {
					handled = true
					handled_Origin = true
					value.Origin = uint64(0)
					{
						for i := 0; i < int(l); i++ {
							x := byte(0)
							x, err = reader.ReadByte()
							if err != nil {
								if err == io.EOF {
									err = io.ErrUnexpectedEOF
								}
								break
							}
							value.Origin = uint64(value.Origin<<8) | uint64(x)
						}
					}
				}
			case 106:
				if true {
					handled = true
					handled_Cost = true
					value.Cost = uint64(0)
					{
						for i := 0; i < int(l); i++ {
							x := byte(0)
							x, err = reader.ReadByte()
							if err != nil {
								if err == io.EOF {
									err = io.ErrUnexpectedEOF
								}
								break
							}
							value.Cost = uint64(value.Cost<<8) | uint64(x)
						}
					}
				}
			case 108:
				if true {
					handled = true
					handled_Flags = true
					value.Flags = uint64(0)
					{
						for i := 0; i < int(l); i++ {
							x := byte(0)
							x, err = reader.ReadByte()
							if err != nil {
								if err == io.EOF {
									err = io.ErrUnexpectedEOF
								}
								break
							}
							value.Flags = uint64(value.Flags<<8) | uint64(x)
						}
					}
				}
			case 109:
				if true {
					handled = true
					handled_ExpirationPeriod = true
					{
						tempVal := uint64(0)
						tempVal = uint64(0)
						{
							for i := 0; i < int(l); i++ {
								x := byte(0)
								x, err = reader.ReadByte()
								if err != nil {
									if err == io.EOF {
										err = io.ErrUnexpectedEOF
									}
									break
								}
								tempVal = uint64(tempVal<<8) | uint64(x)
							}
						}
						value.ExpirationPeriod = &tempVal
					}
				}
			default:
				if !ignoreCritical && ((typ <= 31) || ((typ & 1) == 1)) {
					return nil, enc.ErrUnrecognizedField{TypeNum: typ}
				}
				handled = true
				err = reader.Skip(int(l))
			}
			if err == nil && !handled {
			}
			if err != nil {
				return nil, enc.ErrFailToParse{TypeNum: typ, Err: err}
			}
		}
	}

	startPos = reader.Pos()
	err = nil

	if !handled_FaceId && err == nil {
		err = enc.ErrSkipRequired{Name: "FaceId", TypeNum: 105}
	}
	if !handled_Origin && err == nil {
		err = enc.ErrSkipRequired{Name: "Origin", TypeNum: 111}
	}
	if !handled_Cost && err == nil {
		err = enc.ErrSkipRequired{Name: "Cost", TypeNum: 106}
	}
	if !handled_Flags && err == nil {
		err = enc.ErrSkipRequired{Name: "Flags", TypeNum: 108}
	}
	if !handled_ExpirationPeriod && err == nil {
		value.ExpirationPeriod = nil
	}

	if err != nil {
		return nil, err
	}

	return value, nil
}
func ParseRoute(reader enc.ParseReader, ignoreCritical bool) (*Route, error) {
	context := RouteParsingContext{}
	context.Init()
	return context.Parse(reader, ignoreCritical)
}
"#),
  (t!"RibEntry", go! r#"type RibEntryParsingContext struct {
	Routes_context RouteParsingContext
}
func (context *RibEntryParsingContext) Init() {

	context.Routes_context.Init()
}
func (context *RibEntryParsingContext) Parse(reader enc.ParseReader, ignoreCritical bool) (*RibEntry, error) {
	if reader == nil {
		return nil, enc.ErrBufferOverflow
	}

	var handled_Name bool = false
	var handled_Routes bool = false

	progress := -1
	_ = progress

	value := &RibEntry{}
	var err error
	var startPos int
	for {
		startPos = reader.Pos()
		if startPos >= reader.Length() {
			break
		}
		typ := enc.TLNum(0)
		l := enc.TLNum(0)
		typ, err = enc.ReadTLNum(reader)
		if err != nil {
			return nil, enc.ErrFailToParse{TypeNum: 0, Err: err}
		}
		l, err = enc.ReadTLNum(reader)
		if err != nil {
			return nil, enc.ErrFailToParse{TypeNum: 0, Err: err}
		}

		err = nil
		if handled := false; true {
			switch typ {
			case 7:
				if true {
					handled = true
					handled_Name = true
					value.Name = make(enc.Name, l/2+1)
					startName := reader.Pos()
					endName := startName + int(l)
					for j := range value.Name {
						if reader.Pos() >= endName {
							value.Name = value.Name[:j]
							break
						}
						var err1, err3 error
						value.Name[j].Typ, err1 = enc.ReadTLNum(reader)
						l, err2 := enc.ReadTLNum(reader)
						value.Name[j].Val, err3 = reader.ReadBuf(int(l))
						if err1 != nil || err2 != nil || err3 != nil {
							err = io.ErrUnexpectedEOF
							break
						}
					}
					if err == nil && reader.Pos() != endName {
						err = enc.ErrBufferOverflow
					}
				}
			case 129:
				if true {
					handled = true
					handled_Routes = true
					if value.Routes == nil {
						value.Routes = make([]*Route, 0)
					}
					{
						pseudoValue := struct {
							Routes *Route
						}{}
						{
							value := &pseudoValue
							value.Routes, err = context.Routes_context.Parse(reader.Delegate(int(l)), ignoreCritical)
							_ = value
						}
						value.Routes = append(value.Routes, pseudoValue.Routes)
					}
					progress--
				}
			default:
				if !ignoreCritical && ((typ <= 31) || ((typ & 1) == 1)) {
					return nil, enc.ErrUnrecognizedField{TypeNum: typ}
				}
				handled = true
				err = reader.Skip(int(l))
			}
			if err == nil && !handled {
			}
			if err != nil {
				return nil, enc.ErrFailToParse{TypeNum: typ, Err: err}
			}
		}
	}

	startPos = reader.Pos()
	err = nil

	if !handled_Name && err == nil {
		value.Name = nil
	}
	if !handled_Routes && err == nil {
		// sequence - skip
	}

	if err != nil {
		return nil, err
	}

	return value, nil
}
func ParseRibEntry(reader enc.ParseReader, ignoreCritical bool) (*RibEntry, error) {
	context := RibEntryParsingContext{}
	context.Init()
	return context.Parse(reader, ignoreCritical)
}
"#),
  (t!"RibStatus", go! r#"type RibStatusParsingContext struct {
	Entries_context RibEntryParsingContext
}
func (context *RibStatusParsingContext) Init() {
	context.Entries_context.Init()
}
func (context *RibStatusParsingContext) Parse(reader enc.ParseReader, ignoreCritical bool) (*RibStatus, error) {
	if reader == nil {
		return nil, enc.ErrBufferOverflow
	}

	var handled_Entries bool = false

	progress := -1
	_ = progress

	value := &RibStatus{}
	var err error
	var startPos int
	for {
		startPos = reader.Pos()
		if startPos >= reader.Length() {
			break
		}
		typ := enc.TLNum(0)
		l := enc.TLNum(0)
		typ, err = enc.ReadTLNum(reader)
		if err != nil {
			return nil, enc.ErrFailToParse{TypeNum: 0, Err: err}
		}
		l, err = enc.ReadTLNum(reader)
		if err != nil {
			return nil, enc.ErrFailToParse{TypeNum: 0, Err: err}
		}

		err = nil
		if handled := false; true {
			switch typ {
			case 128:
				if true {
					handled = true
					handled_Entries = true
					if value.Entries == nil {
						value.Entries = make([]*RibEntry, 0)
					}
					{
						pseudoValue := struct {
							Entries *RibEntry
						}{}
						{
							value := &pseudoValue
							value.Entries, err = context.Entries_context.Parse(reader.Delegate(int(l)), ignoreCritical)
							_ = value
						}
						value.Entries = append(value.Entries, pseudoValue.Entries)
					}
					progress--
				}
			default:
				if !ignoreCritical && ((typ <= 31) || ((typ & 1) == 1)) {
					return nil, enc.ErrUnrecognizedField{TypeNum: typ}
				}
				handled = true
				err = reader.Skip(int(l))
			}
			if err == nil && !handled {
			}
			if err != nil {
				return nil, enc.ErrFailToParse{TypeNum: typ, Err: err}
			}
		}
	}

	startPos = reader.Pos()
	err = nil

	if !handled_Entries && err == nil {
		// sequence - skip
	}

	if err != nil {
		return nil, err
	}

	return value, nil
}
func ParseRibStatus(reader enc.ParseReader, ignoreCritical bool) (*RibStatus, error) {
	context := RibStatusParsingContext{}
	context.Init()
	return context.Parse(reader, ignoreCritical)
}
"#),
  (t!"NextHopRecord", go! r#"type NextHopRecordParsingContext struct {
}
func (context *NextHopRecordParsingContext) Init() {

}
func (context *NextHopRecordParsingContext) Parse(reader enc.ParseReader, ignoreCritical bool) (*NextHopRecord, error) {
	if reader == nil {
		return nil, enc.ErrBufferOverflow
	}

	var handled_FaceId bool = false
	var handled_Cost bool = false

	progress := -1
	_ = progress

	value := &NextHopRecord{}
	var err error
	var startPos int
	for {
		startPos = reader.Pos()
		if startPos >= reader.Length() {
			break
		}
		typ := enc.TLNum(0)
		l := enc.TLNum(0)
		typ, err = enc.ReadTLNum(reader)
		if err != nil {
			return nil, enc.ErrFailToParse{TypeNum: 0, Err: err}
		}
		l, err = enc.ReadTLNum(reader)
		if err != nil {
			return nil, enc.ErrFailToParse{TypeNum: 0, Err: err}
		}

		err = nil
		if handled := false; true {
			switch typ {
			case 105:
				if true {
					handled = true
					handled_FaceId = true
					value.FaceId = uint64(0)
					{
						for i := 0; i < int(l); i++ {
							x := byte(0)
							x, err = reader.ReadByte()
							if err != nil {
								if err == io.EOF {
									err = io.ErrUnexpectedEOF
								}
								break
							}
							value.FaceId = uint64(value.FaceId<<8) | uint64(x)
						}
					}
				}
			case 106:
				if true {
					handled = true
					handled_Cost = true
					value.Cost = uint64(0)
					{
						for i := 0; i < int(l); i++ {
							x := byte(0)
							x, err = reader.ReadByte()
							if err != nil {
								if err == io.EOF {
									err = io.ErrUnexpectedEOF
								}
								break
							}
							value.Cost = uint64(value.Cost<<8) | uint64(x)
						}
					}
				}
			default:
				if !ignoreCritical && ((typ <= 31) || ((typ & 1) == 1)) {
					return nil, enc.ErrUnrecognizedField{TypeNum: typ}
				}
				handled = true
				err = reader.Skip(int(l))
			}
			if err == nil && !handled {
			}
			if err != nil {
				return nil, enc.ErrFailToParse{TypeNum: typ, Err: err}
			}
		}
	}

	startPos = reader.Pos()
	err = nil

	if !handled_FaceId && err == nil {
		err = enc.ErrSkipRequired{Name: "FaceId", TypeNum: 105}
	}
	if !handled_Cost && err == nil {
		err = enc.ErrSkipRequired{Name: "Cost", TypeNum: 106}
	}

	if err != nil {
		return nil, err
	}

	return value, nil
}
func ParseNextHopRecord(reader enc.ParseReader, ignoreCritical bool) (*NextHopRecord, error) {
	context := NextHopRecordParsingContext{}
	context.Init()
	return context.Parse(reader, ignoreCritical)
}
"#),
  (t!"FibEntry", go! r#"type FibEntryParsingContext struct {
	NextHopRecords_context NextHopRecordParsingContext
}
func (context *FibEntryParsingContext) Init() {

	context.NextHopRecords_context.Init()
}
func (context *FibEntryParsingContext) Parse(reader enc.ParseReader, ignoreCritical bool) (*FibEntry, error) {
	if reader == nil {
		return nil, enc.ErrBufferOverflow
	}

	var handled_Name bool = false
	var handled_NextHopRecords bool = false

	progress := -1
	_ = progress

	value := &FibEntry{}
	var err error
	var startPos int
	for {
		startPos = reader.Pos()
		if startPos >= reader.Length() {
			break
		}
		typ := enc.TLNum(0)
		l := enc.TLNum(0)
		typ, err = enc.ReadTLNum(reader)
		if err != nil {
			return nil, enc.ErrFailToParse{TypeNum: 0, Err: err}
		}
		l, err = enc.ReadTLNum(reader)
		if err != nil {
			return nil, enc.ErrFailToParse{TypeNum: 0, Err: err}
		}

		err = nil
		if handled := false; true {
			switch typ {
			case 7:
				if true {
					handled = true
					handled_Name = true
					value.Name = make(enc.Name, l/2+1)
					startName := reader.Pos()
					endName := startName + int(l)
					for j := range value.Name {
						if reader.Pos() >= endName {
							value.Name = value.Name[:j]
							break
						}
						var err1, err3 error
						value.Name[j].Typ, err1 = enc.ReadTLNum(reader)
						l, err2 := enc.ReadTLNum(reader)
						value.Name[j].Val, err3 = reader.ReadBuf(int(l))
						if err1 != nil || err2 != nil || err3 != nil {
							err = io.ErrUnexpectedEOF
							break
						}
					}
					if err == nil && reader.Pos() != endName {
						err = enc.ErrBufferOverflow
					}
				}
			case 129:
				if true {
					handled = true
					handled_NextHopRecords = true
					if value.NextHopRecords == nil {
						value.NextHopRecords = make([]*NextHopRecord, 0)
					}
					{
						pseudoValue := struct {
							NextHopRecords *NextHopRecord
						}{}
						{
							value := &pseudoValue
							value.NextHopRecords, err = context.NextHopRecords_context.Parse(reader.Delegate(int(l)), ignoreCritical)
							_ = value
						}
						value.NextHopRecords = append(value.NextHopRecords, pseudoValue.NextHopRecords)
					}
					progress--
				}
			default:
				if !ignoreCritical && ((typ <= 31) || ((typ & 1) == 1)) {
					return nil, enc.ErrUnrecognizedField{TypeNum: typ}
				}
				handled = true
				err = reader.Skip(int(l))
			}
			if err == nil && !handled {
			}
			if err != nil {
				return nil, enc.ErrFailToParse{TypeNum: typ, Err: err}
			}
		}
	}

	startPos = reader.Pos()
	err = nil

	if !handled_Name && err == nil {
		value.Name = nil
	}
	if !handled_NextHopRecords && err == nil {
		// sequence - skip
	}

	if err != nil {
		return nil, err
	}

	return value, nil
}
func ParseFibEntry(reader enc.ParseReader, ignoreCritical bool) (*FibEntry, error) {
	context := FibEntryParsingContext{}
	context.Init()
	return context.Parse(reader, ignoreCritical)
}
"#),
  (t!"FibStatus", go! r#"type FibStatusParsingContext struct {
	Entries_context FibEntryParsingContext
}
func (context *FibStatusParsingContext) Init() {
	context.Entries_context.Init()
}
func (context *FibStatusParsingContext) Parse(reader enc.ParseReader, ignoreCritical bool) (*FibStatus, error) {
	if reader == nil {
		return nil, enc.ErrBufferOverflow
	}

	var handled_Entries bool = false

	progress := -1
	_ = progress

	value := &FibStatus{}
	var err error
	var startPos int
	for {
		startPos = reader.Pos()
		if startPos >= reader.Length() {
			break
		}
		typ := enc.TLNum(0)
		l := enc.TLNum(0)
		typ, err = enc.ReadTLNum(reader)
		if err != nil {
			return nil, enc.ErrFailToParse{TypeNum: 0, Err: err}
		}
		l, err = enc.ReadTLNum(reader)
		if err != nil {
			return nil, enc.ErrFailToParse{TypeNum: 0, Err: err}
		}

		err = nil
		if handled := false; true {
			switch typ {
			case 128:
				if true {
					handled = true
					handled_Entries = true
					if value.Entries == nil {
						value.Entries = make([]*FibEntry, 0)
					}
					{
						pseudoValue := struct {
							Entries *FibEntry
						}{}
						{
							value := &pseudoValue
							value.Entries, err = context.Entries_context.Parse(reader.Delegate(int(l)), ignoreCritical)
							_ = value
						}
						value.Entries = append(value.Entries, pseudoValue.Entries)
					}
					progress--
				}
			default:
				if !ignoreCritical && ((typ <= 31) || ((typ & 1) == 1)) {
					return nil, enc.ErrUnrecognizedField{TypeNum: typ}
				}
				handled = true
				err = reader.Skip(int(l))
			}
			if err == nil && !handled {
			}
			if err != nil {
				return nil, enc.ErrFailToParse{TypeNum: typ, Err: err}
			}
		}
	}

	startPos = reader.Pos()
	err = nil

	if !handled_Entries && err == nil {
		// sequence - skip
	}

	if err != nil {
		return nil, err
	}

	return value, nil
}
func ParseFibStatus(reader enc.ParseReader, ignoreCritical bool) (*FibStatus, error) {
	context := FibStatusParsingContext{}
	context.Init()
	return context.Parse(reader, ignoreCritical)
}
"#),
  (t!"StrategyChoice", go! r#"type StrategyChoiceParsingContext struct {
	Strategy_context StrategyParsingContext
}
func (context *StrategyChoiceParsingContext) Init() {

	context.Strategy_context.Init()
}
func (context *StrategyChoiceParsingContext) Parse(reader enc.ParseReader, ignoreCritical bool) (*StrategyChoice, error) {
	if reader == nil {
		return nil, enc.ErrBufferOverflow
	}

	var handled_Name bool = false
	var handled_Strategy bool = false

	progress := -1
	_ = progress

	value := &StrategyChoice{}
	var err error
	var startPos int
	for {
		startPos = reader.Pos()
		if startPos >= reader.Length() {
			break
		}
		typ := enc.TLNum(0)
		l := enc.TLNum(0)
		typ, err = enc.ReadTLNum(reader)
		if err != nil {
			return nil, enc.ErrFailToParse{TypeNum: 0, Err: err}
		}
		l, err = enc.ReadTLNum(reader)
		if err != nil {
			return nil, enc.ErrFailToParse{TypeNum: 0, Err: err}
		}

		err = nil
		if handled := false; true {
			switch typ {
			case 7:
				if true {
					handled = true
					handled_Name = true
					value.Name = make(enc.Name, l/2+1)
					startName := reader.Pos()
					endName := startName + int(l)
					for j := range value.Name {
						if reader.Pos() >= endName {
							value.Name = value.Name[:j]
							break
						}
						var err1, err3 error
						value.Name[j].Typ, err1 = enc.ReadTLNum(reader)
						l, err2 := enc.ReadTLNum(reader)
						value.Name[j].Val, err3 = reader.ReadBuf(int(l))
						if err1 != nil || err2 != nil || err3 != nil {
							err = io.ErrUnexpectedEOF
							break
						}
					}
					if err == nil && reader.Pos() != endName {
						err = enc.ErrBufferOverflow
					}
				}
			case 107:
				if true {
					handled = true
					handled_Strategy = true
					value.Strategy, err = context.Strategy_context.Parse(reader.Delegate(int(l)), ignoreCritical)
				}
			default:
				if !ignoreCritical && ((typ <= 31) || ((typ & 1) == 1)) {
					return nil, enc.ErrUnrecognizedField{TypeNum: typ}
				}
				handled = true
				err = reader.Skip(int(l))
			}
			if err == nil && !handled {
			}
			if err != nil {
				return nil, enc.ErrFailToParse{TypeNum: typ, Err: err}
			}
		}
	}

	startPos = reader.Pos()
	err = nil

	if !handled_Name && err == nil {
		value.Name = nil
	}
	if !handled_Strategy && err == nil {
		value.Strategy = nil
	}

	if err != nil {
		return nil, err
	}

	return value, nil
}
func ParseStrategyChoice(reader enc.ParseReader, ignoreCritical bool) (*StrategyChoice, error) {
	context := StrategyChoiceParsingContext{}
	context.Init()
	return context.Parse(reader, ignoreCritical)
}
"#),
  (t!"StrategyChoiceMsg", go! r#"type StrategyChoiceMsgParsingContext struct {
	StrategyChoices_context StrategyChoiceParsingContext
}
func (context *StrategyChoiceMsgParsingContext) Init() {
	context.StrategyChoices_context.Init()
}
func (context *StrategyChoiceMsgParsingContext) Parse(reader enc.ParseReader, ignoreCritical bool) (*StrategyChoiceMsg, error) {
	if reader == nil {
		return nil, enc.ErrBufferOverflow
	}

	var handled_StrategyChoices bool = false

	progress := -1
	_ = progress

	value := &StrategyChoiceMsg{}
	var err error
	var startPos int
	for {
		startPos = reader.Pos()
		if startPos >= reader.Length() {
			break
		}
		typ := enc.TLNum(0)
		l := enc.TLNum(0)
		typ, err = enc.ReadTLNum(reader)
		if err != nil {
			return nil, enc.ErrFailToParse{TypeNum: 0, Err: err}
		}
		l, err = enc.ReadTLNum(reader)
		if err != nil {
			return nil, enc.ErrFailToParse{TypeNum: 0, Err: err}
		}

		err = nil
		if handled := false; true {
			switch typ {
			case 128:
				if true {
					handled = true
					handled_StrategyChoices = true
					if value.StrategyChoices == nil {
						value.StrategyChoices = make([]*StrategyChoice, 0)
					}
					{
						pseudoValue := struct {
							StrategyChoices *StrategyChoice
						}{}
						{
							value := &pseudoValue
							value.StrategyChoices, err = context.StrategyChoices_context.Parse(reader.Delegate(int(l)), ignoreCritical)
							_ = value
						}
						value.StrategyChoices = append(value.StrategyChoices, pseudoValue.StrategyChoices)
					}
					progress--
				}
			default:
				if !ignoreCritical && ((typ <= 31) || ((typ & 1) == 1)) {
					return nil, enc.ErrUnrecognizedField{TypeNum: typ}
				}
				handled = true
				err = reader.Skip(int(l))
			}
			if err == nil && !handled {
			}
			if err != nil {
				return nil, enc.ErrFailToParse{TypeNum: typ, Err: err}
			}
		}
	}

	startPos = reader.Pos()
	err = nil

	if !handled_StrategyChoices && err == nil {
		// sequence - skip
	}

	if err != nil {
		return nil, err
	}

	return value, nil
}
func ParseStrategyChoiceMsg(reader enc.ParseReader, ignoreCritical bool) (*StrategyChoiceMsg, error) {
	context := StrategyChoiceMsgParsingContext{}
	context.Init()
	return context.Parse(reader, ignoreCritical)
}
"#),
  (t!"CsInfo", go! r#"type CsInfoParsingContext struct {
}
func (context *CsInfoParsingContext) Init() {

}
func (context *CsInfoParsingContext) Parse(reader enc.ParseReader, ignoreCritical bool) (*CsInfo, error) {
	if reader == nil {
		return nil, enc.ErrBufferOverflow
	}

	var handled_Capacity bool = false
	var handled_Flags bool = false
	var handled_NCsEntries bool = false
	var handled_NHits bool = false
	var handled_NMisses bool = false

	progress := -1
	_ = progress

	value := &CsInfo{}
	var err error
	var startPos int
	for {
		startPos = reader.Pos()
		if startPos >= reader.Length() {
			break
		}
		typ := enc.TLNum(0)
		l := enc.TLNum(0)
		typ, err = enc.ReadTLNum(reader)
		if err != nil {
			return nil, enc.ErrFailToParse{TypeNum: 0, Err: err}
		}
		l, err = enc.ReadTLNum(reader)
		if err != nil {
			return nil, enc.ErrFailToParse{TypeNum: 0, Err: err}
		}

		err = nil
		if handled := false; true {
			switch typ {
			case 131:
				if true {
					handled = true
					handled_Capacity = true
					value.Capacity = uint64(0)
					{
						for i := 0; i < int(l); i++ {
							x := byte(0)
							x, err = reader.ReadByte()
							if err != nil {
								if err == io.EOF {
									err = io.ErrUnexpectedEOF
								}
								break
							}
							value.Capacity = uint64(value.Capacity<<8) | uint64(x)
						}
					}
				}
			case 108:
				if true {
					handled = true
					handled_Flags = true
					value.Flags = uint64(0)
					{
						for i := 0; i < int(l); i++ {
							x := byte(0)
							x, err = reader.ReadByte()
							if err != nil {
								if err == io.EOF {
									err = io.ErrUnexpectedEOF
								}
								break
							}
							value.Flags = uint64(value.Flags<<8) | uint64(x)
						}
					}
				}
			case 135:
				if true {
					handled = true
					handled_NCsEntries = true
					value.NCsEntries = uint64(0)
					{
						for i := 0; i < int(l); i++ {
							x := byte(0)
							x, err = reader.ReadByte()
							if err != nil {
								if err == io.EOF {
									err = io.ErrUnexpectedEOF
								}
								break
							}
							value.NCsEntries = uint64(value.NCsEntries<<8) | uint64(x)
						}
					}
				}
			case 129:
				if true {
					handled = true
					handled_NHits = true
					value.NHits = uint64(0)
					{
						for i := 0; i < int(l); i++ {
							x := byte(0)
							x, err = reader.ReadByte()
							if err != nil {
								if err == io.EOF {
									err = io.ErrUnexpectedEOF
								}
								break
							}
							value.NHits = uint64(value.NHits<<8) | uint64(x)
						}
					}
				}
			case 130:
				if true {
					handled = true
					handled_NMisses = true
					value.NMisses = uint64(0)
					{
						for i := 0; i < int(l); i++ {
							x := byte(0)
							x, err = reader.ReadByte()
							if err != nil {
								if err == io.EOF {
									err = io.ErrUnexpectedEOF
								}
								break
							}
							value.NMisses = uint64(value.NMisses<<8) | uint64(x)
						}
					}
				}
			default:
				if !ignoreCritical && ((typ <= 31) || ((typ & 1) == 1)) {
					return nil, enc.ErrUnrecognizedField{TypeNum: typ}
				}
				handled = true
				err = reader.Skip(int(l))
			}
			if err == nil && !handled {
			}
			if err != nil {
				return nil, enc.ErrFailToParse{TypeNum: typ, Err: err}
			}
		}
	}

	startPos = reader.Pos()
	err = nil

	if !handled_Capacity && err == nil {
		err = enc.ErrSkipRequired{Name: "Capacity", TypeNum: 131}
	}
	if !handled_Flags && err == nil {
		err = enc.ErrSkipRequired{Name: "Flags", TypeNum: 108}
	}
	if !handled_NCsEntries && err == nil {
		err = enc.ErrSkipRequired{Name: "NCsEntries", TypeNum: 135}
	}
	if !handled_NHits && err == nil {
		err = enc.ErrSkipRequired{Name: "NHits", TypeNum: 129}
	}
	if !handled_NMisses && err == nil {
		err = enc.ErrSkipRequired{Name: "NMisses", TypeNum: 130}
	}

	if err != nil {
		return nil, err
	}

	return value, nil
}
func ParseCsInfo(reader enc.ParseReader, ignoreCritical bool) (*CsInfo, error) {
	context := CsInfoParsingContext{}
	context.Init()
	return context.Parse(reader, ignoreCritical)
}
"#),
  (t!"CsInfoMsg", go! r#"type CsInfoMsgParsingContext struct {
	CsInfo_context CsInfoParsingContext
}
func (context *CsInfoMsgParsingContext) Init() {
	context.CsInfo_context.Init()
}
func (context *CsInfoMsgParsingContext) Parse(reader enc.ParseReader, ignoreCritical bool) (*CsInfoMsg, error) {
	if reader == nil {
		return nil, enc.ErrBufferOverflow
	}

	var handled_CsInfo bool = false

	progress := -1
	_ = progress

	value := &CsInfoMsg{}
	var err error
	var startPos int
	for {
		startPos = reader.Pos()
		if startPos >= reader.Length() {
			break
		}
		typ := enc.TLNum(0)
		l := enc.TLNum(0)
		typ, err = enc.ReadTLNum(reader)
		if err != nil {
			return nil, enc.ErrFailToParse{TypeNum: 0, Err: err}
		}
		l, err = enc.ReadTLNum(reader)
		if err != nil {
			return nil, enc.ErrFailToParse{TypeNum: 0, Err: err}
		}

		err = nil
		if handled := false; true {
			switch typ {
			case 128:
				if true {
					handled = true
					handled_CsInfo = true
					value.CsInfo, err = context.CsInfo_context.Parse(reader.Delegate(int(l)), ignoreCritical)
				}
			default:
				if !ignoreCritical && ((typ <= 31) || ((typ & 1) == 1)) {
					return nil, enc.ErrUnrecognizedField{TypeNum: typ}
				}
				handled = true
				err = reader.Skip(int(l))
			}
			if err == nil && !handled {
			}
			if err != nil {
				return nil, enc.ErrFailToParse{TypeNum: typ, Err: err}
			}
		}
	}

	startPos = reader.Pos()
	err = nil

	if !handled_CsInfo && err == nil {
		value.CsInfo = nil
	}

	if err != nil {
		return nil, err
	}

	return value, nil
}
func ParseCsInfoMsg(reader enc.ParseReader, ignoreCritical bool) (*CsInfoMsg, error) {
	context := CsInfoMsgParsingContext{}
	context.Init()
	return context.Parse(reader, ignoreCritical)
}
"#)]

theorem mgmtB_sameParsers : allSameParser mgmtSource mgmtBParsers = true := by decide +kernel

end Ndn.Codec.Gen
