import Verif.Codec.GoTextParse

/-! # The parsers in `/repo/pkg/ndn/spec_2022/zz_generated.go`, as they are there -/

namespace Ndn.Codec.Gen

/-- the types and methods of the parsers, copied from `/repo/pkg/ndn/spec_2022/zz_generated.go` -/
def specParsers : List (Txt × Nat × Nat) := [
  (t!"KeyLocator", go! r#"type KeyLocatorParsingContext struct {
}
func (context *KeyLocatorParsingContext) Init() {

}
func (context *KeyLocatorParsingContext) Parse(reader enc.ParseReader, ignoreCritical bool) (*KeyLocator, error) {
	if reader == nil {
		return nil, enc.ErrBufferOverflow
	}

	var handled_Name bool = false
	var handled_KeyDigest bool = false

	progress := -1
	_ = progress

	value := &KeyLocator{}
	var err error
	var startPos int
	for {
		startPos = reader.Pos()
		if startPos >= reader.Length() {
			break
		}
		typ := enc.TLNum(0)
		l := enc.TLNum(0)
		typ, err = enc.ReadTLNum(reader)
		if err != nil {
			return nil, enc.ErrFailToParse{TypeNum: 0, Err: err}
		}
		l, err = enc.ReadTLNum(reader)
		if err != nil {
			return nil, enc.ErrFailToParse{TypeNum: 0, Err: err}
		}

		err = nil
		if handled := false; true {
			switch typ {
			case 7:
				if true {
					handled = true
					handled_Name = true
					value.Name = make(enc.Name, l/2+1)
					startName := reader.Pos()
					endName := startName + int(l)
					for j := range value.Name {
						if reader.Pos() >= endName {
							value.Name = value.Name[:j]
							break
						}
						var err1, err3 error
						value.Name[j].Typ, err1 = enc.ReadTLNum(reader)
						l, err2 := enc.ReadTLNum(reader)
						value.Name[j].Val, err3 = reader.ReadBuf(int(l))
						if err1 != nil || err2 != nil || err3 != nil {
							err = io.ErrUnexpectedEOF
							break
						}
					}
					if err == nil && reader.Pos() != endName {
						err = enc.ErrBufferOverflow
					}
				}
			case 29:
				if true {
					handled = true
					handled_KeyDigest = true
					value.KeyDigest = make([]byte, l)
					_, err = io.ReadFull(reader, value.KeyDigest)
				}
			default:
				if !ignoreCritical && ((typ <= 31) || ((typ & 1) == 1)) {
					return nil, enc.ErrUnrecognizedField{TypeNum: typ}
				}
				handled = true
				err = reader.Skip(int(l))
			}
			if err == nil && !handled {
			}
			if err != nil {
				return nil, enc.ErrFailToParse{TypeNum: typ, Err: err}
			}
		}
	}

	startPos = reader.Pos()
	err = nil

	if !handled_Name && err == nil {
		value.Name = nil
	}
	if !handled_KeyDigest && err == nil {
		value.KeyDigest = nil
	}

	if err != nil {
		return nil, err
	}

	return value, nil
}
func ParseKeyLocator(reader enc.ParseReader, ignoreCritical bool) (*KeyLocator, error) {
	context := KeyLocatorParsingContext{}
	context.Init()
	return context.Parse(reader, ignoreCritical)
}
"#),
  (t!"Links", go! r#"type LinksParsingContext struct {
}
func (context *LinksParsingContext) Init() {

}
func (context *LinksParsingContext) Parse(reader enc.ParseReader, ignoreCritical bool) (*Links, error) {
	if reader == nil {
		return nil, enc.ErrBufferOverflow
	}

	var handled_Names bool = false

	progress := -1
	_ = progress

	value := &Links{}
	var err error
	var startPos int
	for {
		startPos = reader.Pos()
		if startPos >= reader.Length() {
			break
		}
		typ := enc.TLNum(0)
		l := enc.TLNum(0)
		typ, err = enc.ReadTLNum(reader)
		if err != nil {
			return nil, enc.ErrFailToParse{TypeNum: 0, Err: err}
		}
		l, err = enc.ReadTLNum(reader)
		if err != nil {
			return nil, enc.ErrFailToParse{TypeNum: 0, Err: err}
		}

		err = nil
		if handled := false; true {
			switch typ {
			case 7:
				if true {
					handled = true
					handled_Names = true
					if value.Names == nil {
						value.Names = make([]enc.Name, 0)
					}
					{
						pseudoValue := struct {
							Names enc.Name
						}{}
						{
							value := &pseudoValue
							value.Names = make(enc.Name, l/2+1)
							startName := reader.Pos()
							endName := startName + int(l)
							for j := range value.Names {
								if reader.Pos() >= endName {
									value.Names = value.Names[:j]
									break
								}
								var err1, err3 error
								value.Names[j].Typ, err1 = enc.ReadTLNum(reader)
								l, err2 := enc.ReadTLNum(reader)
								value.Names[j].Val, err3 = reader.ReadBuf(int(l))
								if err1 != nil || err2 != nil || err3 != nil {
									err = io.ErrUnexpectedEOF
									break
								}
							}
							if err == nil && reader.Pos() != endName {
								err = enc.ErrBufferOverflow
							}
							_ = value
						}
						value.Names = append(value.Names, pseudoValue.Names)
					}
					progress--
				}
			default:
				if !ignoreCritical && ((typ <= 31) || ((typ & 1) == 1)) {
					return nil, enc.ErrUnrecognizedField{TypeNum: typ}
				}
				handled = true
				err = reader.Skip(int(l))
			}
			if err == nil && !handled {
			}
			if err != nil {
				return nil, enc.ErrFailToParse{TypeNum: typ, Err: err}
			}
		}
	}

	startPos = reader.Pos()
	err = nil

	if !handled_Names && err == nil {
		// sequence - skip
	}

	if err != nil {
		return nil, err
	}

	return value, nil
}
func ParseLinks(reader enc.ParseReader, ignoreCritical bool) (*Links, error) {
	context := LinksParsingContext{}
	context.Init()
	return context.Parse(reader, ignoreCritical)
}
"#),
  (t!"MetaInfo", go! r#"type MetaInfoParsingContext struct {
}
func (context *MetaInfoParsingContext) Init() {

}
func (context *MetaInfoParsingContext) Parse(reader enc.ParseReader, ignoreCritical bool) (*MetaInfo, error) {
	if reader == nil {
		return nil, enc.ErrBufferOverflow
	}

	var handled_ContentType bool = false
	var handled_FreshnessPeriod bool = false
	var handled_FinalBlockID bool = false

	progress := -1
	_ = progress

	value := &MetaInfo{}
	var err error
	var startPos int
	for {
		startPos = reader.Pos()
		if startPos >= reader.Length() {
			break
		}
		typ := enc.TLNum(0)
		l := enc.TLNum(0)
		typ, err = enc.ReadTLNum(reader)
		if err != nil {
			return nil, enc.ErrFailToParse{TypeNum: 0, Err: err}
		}
		l, err = enc.ReadTLNum(reader)
		if err != nil {
			return nil, enc.ErrFailToParse{TypeNum: 0, Err: err}
		}

		err = nil
		if handled := false; true {
			switch typ {
			case 24:
				if true {
					handled = true
					handled_ContentType = true
					{
						tempVal := uint64(0)
						tempVal = uint64(0)
						{
							for i := 0; i < int(l); i++ {
								x := byte(0)
								x, err = reader.ReadByte()
								if err != nil {
									if err == io.EOF {
										err = io.ErrUnexpectedEOF
									}
									break
								}
								tempVal = uint64(tempVal<<8) | uint64(x)
							}
						}
						value.ContentType = &tempVal
					}
				}
			case 25:
				if true {
					handled = true
					handled_FreshnessPeriod = true
					{
						timeInt := uint64(0)
						timeInt = uint64(0)
						{
							for i := 0; i < int(l); i++ {
								x := byte(0)
								x, err = reader.ReadByte()
								if err != nil {
									if err == io.EOF {
										err = io.ErrUnexpectedEOF
									}
									break
								}
								timeInt = uint64(timeInt<<8) | uint64(x)
							}
						}
						tempVal := time.Duration(timeInt) * time.Millisecond
						value.FreshnessPeriod = &tempVal
					}
				}
			case 26:
				if true {
					handled = true
					handled_FinalBlockID = true
					value.FinalBlockID = make([]byte, l)
					_, err = io.ReadFull(reader, value.FinalBlockID)
				}
			default:
				if !ignoreCritical && ((typ <= 31) || ((typ & 1) == 1)) {
					return nil, enc.ErrUnrecognizedField{TypeNum: typ}
				}
				handled = true
				err = reader.Skip(int(l))
			}
			if err == nil && !handled {
			}
			if err != nil {
				return nil, enc.ErrFailToParse{TypeNum: typ, Err: err}
			}
		}
	}

	startPos = reader.Pos()
	err = nil

	if !handled_ContentType && err == nil {
		value.ContentType = nil
	}
	if !handled_FreshnessPeriod && err == nil {
		value.FreshnessPeriod = nil
	}
	if !handled_FinalBlockID && err == nil {
		value.FinalBlockID = nil
	}

	if err != nil {
		return nil, err
	}

	return value, nil
}
func ParseMetaInfo(reader enc.ParseReader, ignoreCritical bool) (*MetaInfo, error) {
	context := MetaInfoParsingContext{}
	context.Init()
	return context.Parse(reader, ignoreCritical)
}
"#),
  (t!"ValidityPeriod", go! r#"type ValidityPeriodParsingContext struct {
}
func (context *ValidityPeriodParsingContext) Init() {

}
func (context *ValidityPeriodParsingContext) Parse(reader enc.ParseReader, ignoreCritical bool) (*ValidityPeriod, error) {
	if reader == nil {
		return nil, enc.ErrBufferOverflow
	}

	var handled_NotBefore bool = false
	var handled_NotAfter bool = false

	progress := -1
	_ = progress

	value := &ValidityPeriod{}
	var err error
	var startPos int
	for {
		startPos = reader.Pos()
		if startPos >= reader.Length() {
			break
		}
		typ := enc.TLNum(0)
		l := enc.TLNum(0)
		typ, err = enc.ReadTLNum(reader)
		if err != nil {
			return nil, enc.ErrFailToParse{TypeNum: 0, Err: err}
		}
		l, err = enc.ReadTLNum(reader)
		if err != nil {
			return nil, enc.ErrFailToParse{TypeNum: 0, Err: err}
		}

		err = nil
		if handled := false; true {
			switch typ {
			case 254:
				if true {
					handled = true
					handled_NotBefore = true
					{
						var builder strings.Builder
						_, err = io.CopyN(&builder, reader, int64(l))
						if err == nil {
							value.NotBefore = builder.String()
						}
					}
				}
			case 255:
				if true {
					handled = true
					handled_NotAfter = true
					{
						var builder strings.Builder
						_, err = io.CopyN(&builder, reader, int64(l))
						if err == nil {
							value.NotAfter = builder.String()
						}
					}
				}
			default:
				if !ignoreCritical && ((typ <= 31) || ((typ & 1) == 1)) {
					return nil, enc.ErrUnrecognizedField{TypeNum: typ}
				}
				handled = true
				err = reader.Skip(int(l))
			}
			if err == nil && !handled {
			}
			if err != nil {
				return nil, enc.ErrFailToParse{TypeNum: typ, Err: err}
			}
		}
	}

	startPos = reader.Pos()
	err = nil

	if !handled_NotBefore && err == nil {
		err = enc.ErrSkipRequired{Name: "NotBefore", TypeNum: 254}
	}
	if !handled_NotAfter && err == nil {
		err = enc.ErrSkipRequired{Name: "NotAfter", TypeNum: 255}
	}

	if err != nil {
		return nil, err
	}

	return value, nil
}
func ParseValidityPeriod(reader enc.ParseReader, ignoreCritical bool) (*ValidityPeriod, error) {
	context := ValidityPeriodParsingContext{}
	context.Init()
	return context.Parse(reader, ignoreCritical)
}
"#),
  (t!"CertDescriptionEntry", go! r#"type CertDescriptionEntryParsingContext struct {
}
func (context *CertDescriptionEntryParsingContext) Init() {

}
func (context *CertDescriptionEntryParsingContext) Parse(reader enc.ParseReader, ignoreCritical bool) (*CertDescriptionEntry, error) {
	if reader == nil {
		return nil, enc.ErrBufferOverflow
	}

	var handled_DescriptionKey bool = false
	var handled_DescriptionValue bool = false

	progress := -1
	_ = progress

	value := &CertDescriptionEntry{}
	var err error
	var startPos int
	for {
		startPos = reader.Pos()
		if startPos >= reader.Length() {
			break
		}
		typ := enc.TLNum(0)
		l := enc.TLNum(0)
		typ, err = enc.ReadTLNum(reader)
		if err != nil {
			return nil, enc.ErrFailToParse{TypeNum: 0, Err: err}
		}
		l, err = enc.ReadTLNum(reader)
		if err != nil {
			return nil, enc.ErrFailToParse{TypeNum: 0, Err: err}
		}

		err = nil
		if handled := false; true {
			switch typ {
			case 513:
				if true {
					handled = true
					handled_DescriptionKey = true
					{
						var builder strings.Builder
						_, err = io.CopyN(&builder, reader, int64(l))
						if err == nil {
							value.DescriptionKey = builder.String()
						}
					}
				}
			case 514:
				if true {
					handled = true
					handled_DescriptionValue = true
					{
						var builder strings.Builder
						_, err = io.CopyN(&builder, reader, int64(l))
						if err == nil {
							value.DescriptionValue = builder.String()
						}
					}
				}
			default:
				if !ignoreCritical && ((typ <= 31) || ((typ & 1) == 1)) {
					return nil, enc.ErrUnrecognizedField{TypeNum: typ}
				}
				handled = true
				err = reader.Skip(int(l))
			}
			if err == nil && !handled {
			}
			if err != nil {
				return nil, enc.ErrFailToParse{TypeNum: typ, Err: err}
			}
		}
	}

	startPos = reader.Pos()
	err = nil

	if !handled_DescriptionKey && err == nil {
		err = enc.ErrSkipRequired{Name: "DescriptionKey", TypeNum: 513}
	}
	if !handled_DescriptionValue && err == nil {
		err = enc.ErrSkipRequired{Name: "DescriptionValue", TypeNum: 514}
	}

	if err != nil {
		return nil, err
	}

	return value, nil
}
func ParseCertDescriptionEntry(reader enc.ParseReader, ignoreCritical bool) (*CertDescriptionEntry, error) {
	context := CertDescriptionEntryParsingContext{}
	context.Init()
	return context.Parse(reader, ignoreCritical)
}
"#),
  (t!"CertAdditionalDescription", go! r#"type CertAdditionalDescriptionParsingContext struct {
	DescriptionEntries_context CertDescriptionEntryParsingContext
}
func (context *CertAdditionalDescriptionParsingContext) Init() {
	context.DescriptionEntries_context.Init()
}
func (context *CertAdditionalDescriptionParsingContext) Parse(reader enc.ParseReader, ignoreCritical bool) (*CertAdditionalDescription, error) {
	if reader == nil {
		return nil, enc.ErrBufferOverflow
	}

	var handled_DescriptionEntries bool = false

	progress := -1
	_ = progress

	value := &CertAdditionalDescription{}
	var err error
	var startPos int
	for {
		startPos = reader.Pos()
		if startPos >= reader.Length() {
			break
		}
		typ := enc.TLNum(0)
		l := enc.TLNum(0)
		typ, err = enc.ReadTLNum(reader)
		if err != nil {
			return nil, enc.ErrFailToParse{TypeNum: 0, Err: err}
		}
		l, err = enc.ReadTLNum(reader)
		if err != nil {
			return nil, enc.ErrFailToParse{TypeNum: 0, Err: err}
		}

		err = nil
		if handled := false; true {
			switch typ {
			case 512:
				if true {
					handled = true
					handled_DescriptionEntries = true
					if value.DescriptionEntries == nil {
						value.DescriptionEntries = make([]*CertDescriptionEntry, 0)
					}
					{
						pseudoValue := struct {
							DescriptionEntries *CertDescriptionEntry
						}{}
						{
							value := &pseudoValue
							value.DescriptionEntries, err = context.DescriptionEntries_context.Parse(reader.Delegate(int(l)), ignoreCritical)
							_ = value
						}
						value.DescriptionEntries = append(value.DescriptionEntries, pseudoValue.DescriptionEntries)
					}
					progress--
				}
			default:
				if !ignoreCritical && ((typ <= 31) || ((typ & 1) == 1)) {
					return nil, enc.ErrUnrecognizedField{TypeNum: typ}
				}
				handled = true
				err = reader.Skip(int(l))
			}
			if err == nil && !handled {
			}
			if err != nil {
				return nil, enc.ErrFailToParse{TypeNum: typ, Err: err}
			}
		}
	}

	startPos = reader.Pos()
	err = nil

	if !handled_DescriptionEntries && err == nil {
		// sequence - skip
	}

	if err != nil {
		return nil, err
	}

	return value, nil
}
func ParseCertAdditionalDescription(reader enc.ParseReader, ignoreCritical bool) (*CertAdditionalDescription, error) {
	context := CertAdditionalDescriptionParsingContext{}
	context.Init()
	return context.Parse(reader, ignoreCritical)
}
"#),
  (t!"SignatureInfo", go! r#"type SignatureInfoParsingContext struct {
	KeyLocator_context KeyLocatorParsingContext

	ValidityPeriod_context        ValidityPeriodParsingContext
	AdditionalDescription_context CertAdditionalDescriptionParsingContext
}
func (context *SignatureInfoParsingContext) Init() {

	context.KeyLocator_context.Init()

	context.ValidityPeriod_context.Init()
	context.AdditionalDescription_context.Init()
}
func (context *SignatureInfoParsingContext) Parse(reader enc.ParseReader, ignoreCritical bool) (*SignatureInfo, error) {
	if reader == nil {
		return nil, enc.ErrBufferOverflow
	}

	var handled_SignatureType bool = false
	var handled_KeyLocator bool = false
	var handled_SignatureNonce bool = false
	var handled_SignatureTime bool = false
	var handled_SignatureSeqNum bool = false
	var handled_ValidityPeriod bool = false
	var handled_AdditionalDescription bool = false

	progress := -1
	_ = progress

	value := &SignatureInfo{}
	var err error
	var startPos int
	for {
		startPos = reader.Pos()
		if startPos >= reader.Length() {
			break
		}
		typ := enc.TLNum(0)
		l := enc.TLNum(0)
		typ, err = enc.ReadTLNum(reader)
		if err != nil {
			return nil, enc.ErrFailToParse{TypeNum: 0, Err: err}
		}
		l, err = enc.ReadTLNum(reader)
		if err != nil {
			return nil, enc.ErrFailToParse{TypeNum: 0, Err: err}
		}

		err = nil
		if handled := false; true {
			switch typ {
			case 27:
				if true {
					handled = true
					handled_SignatureType = true
					value.SignatureType = uint64(0)
					{
						for i := 0; i < int(l); i++ {
							x := byte(0)
							x, err = reader.ReadByte()
							if err != nil {
								if err == io.EOF {
									err = io.ErrUnexpectedEOF
								}
								break
							}
							value.SignatureType = uint64(value.SignatureType<<8) | uint64(x)
						}
					}
				}
			case 28:
				if true {
					handled = true
					handled_KeyLocator = true
					value.KeyLocator, err = context.KeyLocator_context.Parse(reader.Delegate(int(l)), ignoreCritical)
				}
			case 38:
				if true {
					handled = true
					handled_SignatureNonce = true
					value.SignatureNonce = make([]byte, l)
					_, err = io.ReadFull(reader, value.SignatureNonce)
				}
			case 40:
				if true {
					handled = true
					handled_SignatureTime = true
					{
						timeInt := uint64(0)
						timeInt = uint64(0)
						{
							for i := 0; i < int(l); i++ {
								x := byte(0)
								x, err = reader.ReadByte()
								if err != nil {
									if err == io.EOF {
										err = io.ErrUnexpectedEOF
									}
									break
								}
								timeInt = uint64(timeInt<<8) | uint64(x)
							}
						}
						tempVal := time.Duration(timeInt) * time.Millisecond
						value.SignatureTime = &tempVal
					}
				}
			case 42:
				if true {
					handled = true
					handled_SignatureSeqNum = true
					{
						tempVal := uint64(0)
						tempVal = uint64(0)
						{
							for i := 0; i < int(l); i++ {
								x := byte(0)
								x, err = reader.ReadByte()
								if err != nil {
									if err == io.EOF {
										err = io.ErrUnexpectedEOF
									}
									break
								}
								tempVal = uint64(tempVal<<8) | uint64(x)
							}
						}
						value.SignatureSeqNum = &tempVal
					}
				}
			case 253:
				if true {
					handled = true
					handled_ValidityPeriod = true
					value.ValidityPeriod, err = context.ValidityPeriod_context.Parse(reader.Delegate(int(l)), ignoreCritical)
				}
			case 258:
				if true {
					handled = true
					handled_AdditionalDescription = true
					value.AdditionalDescription, err = context.AdditionalDescription_context.Parse(reader.Delegate(int(l)), ignoreCritical)
				}
			default:
				if !ignoreCritical && ((typ <= 31) || ((typ & 1) == 1)) {
					return nil, enc.ErrUnrecognizedField{TypeNum: typ}
				}
				handled = true
				err = reader.Skip(int(l))
			}
			if err == nil && !handled {
			}
			if err != nil {
				return nil, enc.ErrFailToParse{TypeNum: typ, Err: err}
			}
		}
	}

	startPos = reader.Pos()
	err = nil

	if !handled_SignatureType && err == nil {
		err = enc.ErrSkipRequired{Name: "SignatureType", TypeNum: 27}
	}
	if !handled_KeyLocator && err == nil {
		value.KeyLocator = nil
	}
	if !handled_SignatureNonce && err == nil {
		value.SignatureNonce = nil
	}
	if !handled_SignatureTime && err == nil {
		value.SignatureTime = nil
	}
	if !handled_SignatureSeqNum && err == nil {
		value.SignatureSeqNum = nil
	}
	if !handled_ValidityPeriod && err == nil {
		value.ValidityPeriod = nil
	}
	if !handled_AdditionalDescription && err == nil {
		value.AdditionalDescription = nil
	}

	if err != nil {
		return nil, err
	}

	return value, nil
}
func ParseSignatureInfo(reader enc.ParseReader, ignoreCritical bool) (*SignatureInfo, error) {
	context := SignatureInfoParsingContext{}
	context.Init()
	return context.Parse(reader, ignoreCritical)
}
"#),
  (t!"NetworkNack", go! r#"type NetworkNackParsingContext struct {
}
func (context *NetworkNackParsingContext) Init() {

}
func (context *NetworkNackParsingContext) Parse(reader enc.ParseReader, ignoreCritical bool) (*NetworkNack, error) {
	if reader == nil {
		return nil, enc.ErrBufferOverflow
	}

	var handled_Reason bool = false

	progress := -1
	_ = progress

	value := &NetworkNack{}
	var err error
	var startPos int
	for {
		startPos = reader.Pos()
		if startPos >= reader.Length() {
			break
		}
		typ := enc.TLNum(0)
		l := enc.TLNum(0)
		typ, err = enc.ReadTLNum(reader)
		if err != nil {
			return nil, enc.ErrFailToParse{TypeNum: 0, Err: err}
		}
		l, err = enc.ReadTLNum(reader)
		if err != nil {
			return nil, enc.ErrFailToParse{TypeNum: 0, Err: err}
		}

		err = nil
		if handled := false; true {
			switch typ {
			case 801:
				if true {
					handled = true
					handled_Reason = true
					value.Reason = uint64(0)
					{
						for i := 0; i < int(l); i++ {
							x := byte(0)
							x, err = reader.ReadByte()
							if err != nil {
								if err == io.EOF {
									err = io.ErrUnexpectedEOF
								}
								break
							}
							value.Reason = uint64(value.Reason<<8) | uint64(x)
						}
					}
				}
			default:
				if !ignoreCritical && ((typ <= 31) || ((typ & 1) == 1)) {
					return nil, enc.ErrUnrecognizedField{TypeNum: typ}
				}
				handled = true
				err = reader.Skip(int(l))
			}
			if err == nil && !handled {
			}
			if err != nil {
				return nil, enc.ErrFailToParse{TypeNum: typ, Err: err}
			}
		}
	}

	startPos = reader.Pos()
	err = nil

	if !handled_Reason && err == nil {
		err = enc.ErrSkipRequired{Name: "Reason", TypeNum: 801}
	}

	if err != nil {
		return nil, err
	}

	return value, nil
}
func ParseNetworkNack(reader enc.ParseReader, ignoreCritical bool) (*NetworkNack, error) {
	context := NetworkNackParsingContext{}
	context.Init()
	return context.Parse(reader, ignoreCritical)
}
"#),
  (t!"CachePolicy", go! r#"type CachePolicyParsingContext struct {
}
func (context *CachePolicyParsingContext) Init() {

}
func (context *CachePolicyParsingContext) Parse(reader enc.ParseReader, ignoreCritical bool) (*CachePolicy, error) {
	if reader == nil {
		return nil, enc.ErrBufferOverflow
	}

	var handled_CachePolicyType bool = false

	progress := -1
	_ = progress

	value := &CachePolicy{}
	var err error
	var startPos int
	for {
		startPos = reader.Pos()
		if startPos >= reader.Length() {
			break
		}
		typ := enc.TLNum(0)
		l := enc.TLNum(0)
		typ, err = enc.ReadTLNum(reader)
		if err != nil {
			return nil, enc.ErrFailToParse{TypeNum: 0, Err: err}
		}
		l, err = enc.ReadTLNum(reader)
		if err != nil {
			return nil, enc.ErrFailToParse{TypeNum: 0, Err: err}
		}

		err = nil
		if handled := false; true {
			switch typ {
			case 821:
				if true {
					handled = true
					handled_CachePolicyType = true
					value.CachePolicyType = uint64(0)
					{
						for i := 0; i < int(l); i++ {
							x := byte(0)
							x, err = reader.ReadByte()
							if err != nil {
								if err == io.EOF {
									err = io.ErrUnexpectedEOF
								}
								break
							}
							value.CachePolicyType = uint64(value.CachePolicyType<<8) | uint64(x)
						}
					}
				}
			default:
				if !ignoreCritical && ((typ <= 31) || ((typ & 1) == 1)) {
					return nil, enc.ErrUnrecognizedField{TypeNum: typ}
				}
				handled = true
				err = reader.Skip(int(l))
			}
			if err == nil && !handled {
			}
			if err != nil {
				return nil, enc.ErrFailToParse{TypeNum: typ, Err: err}
			}
		}
	}

	startPos = reader.Pos()
	err = nil

	if !handled_CachePolicyType && err == nil {
		err = enc.ErrSkipRequired{Name: "CachePolicyType", TypeNum: 821}
	}

	if err != nil {
		return nil, err
	}

	return value, nil
}
func ParseCachePolicy(reader enc.ParseReader, ignoreCritical bool) (*CachePolicy, error) {
	context := CachePolicyParsingContext{}
	context.Init()
	return context.Parse(reader, ignoreCritical)
}
"#)]

theorem spec_sameParsers : allSameParser specSource specParsers = true := by decide +kernel

end Ndn.Codec.Gen
