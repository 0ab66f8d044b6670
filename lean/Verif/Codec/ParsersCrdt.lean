import Verif.Codec.GoTextParse

/-! # The parsers in `/repo/examples/schema-test/shared-doc/crdt/zz_generated.go`, as they are there -/

namespace Ndn.Codec.Gen

/-- the types and methods of the parsers, copied from `/repo/examples/schema-test/shared-doc/crdt/zz_generated.go` -/
def crdtParsers : List (Txt × Nat × Nat) := [
  (t!"IDType", go! r#"type IDTypeParsingContext struct {
}
func (context *IDTypeParsingContext) Init() {

}
func (context *IDTypeParsingContext) Parse(reader enc.ParseReader, ignoreCritical bool) (*IDType, error) {
	if reader == nil {
		return nil, enc.ErrBufferOverflow
	}

	var handled_Producer bool = false
	var handled_Clock bool = false

	progress := -1
	_ = progress

	value := &IDType{}
	var err error
	var startPos int
	for {
		startPos = reader.Pos()
		if startPos >= reader.Length() {
			break
		}
		typ := enc.TLNum(0)
		l := enc.TLNum(0)
		typ, err = enc.ReadTLNum(reader)
		if err != nil {
			return nil, enc.ErrFailToParse{TypeNum: 0, Err: err}
		}
		l, err = enc.ReadTLNum(reader)
		if err != nil {
			return nil, enc.ErrFailToParse{TypeNum: 0, Err: err}
		}

		err = nil
		if handled := false; true {
			switch typ {
			case 161:
				if true {
					handled = true
					handled_Producer = true
					value.Producer = uint64(0)
					{
						for i := 0; i < int(l); i++ {
							x := byte(0)
							x, err = reader.ReadByte()
							if err != nil {
								if err == io.EOF {
									err = io.ErrUnexpectedEOF
								}
								break
							}
							value.Producer = uint64(value.Producer<<8) | uint64(x)
						}
					}
				}
			case 163:
				if true {
					handled = true
					handled_Clock = true
					value.Clock = uint64(0)
					{
						for i := 0; i < int(l); i++ {
							x := byte(0)
							x, err = reader.ReadByte()
							if err != nil {
								if err == io.EOF {
									err = io.ErrUnexpectedEOF
								}
								break
							}
							value.Clock = uint64(value.Clock<<8) | uint64(x)
						}
					}
				}
			default:
				if !ignoreCritical && ((typ <= 31) || ((typ & 1) == 1)) {
					return nil, enc.ErrUnrecognizedField{TypeNum: typ}
				}
				handled = true
				err = reader.Skip(int(l))
			}
			if err == nil && !handled {
			}
			if err != nil {
				return nil, enc.ErrFailToParse{TypeNum: typ, Err: err}
			}
		}
	}

	startPos = reader.Pos()
	err = nil

	if !handled_Producer && err == nil {
		err = enc.ErrSkipRequired{Name: "Producer", TypeNum: 161}
	}
	if !handled_Clock && err == nil {
		err = enc.ErrSkipRequired{Name: "Clock", TypeNum: 163}
	}

	if err != nil {
		return nil, err
	}

	return value, nil
}
func ParseIDType(reader enc.ParseReader, ignoreCritical bool) (*IDType, error) {
	context := IDTypeParsingContext{}
	context.Init()
	return context.Parse(reader, ignoreCritical)
}
"#),
  (t!"Record", go! r#"type RecordParsingContext struct {
	ID_context          IDTypeParsingContext
	Origin_context      IDTypeParsingContext
	RightOrigin_context IDTypeParsingContext
}
func (context *RecordParsingContext) Init() {

	context.ID_context.Init()
	context.Origin_context.Init()
	context.RightOrigin_context.Init()

}
func (context *RecordParsingContext) Parse(reader enc.ParseReader, ignoreCritical bool) (*Record, error) {
	if reader == nil {
		return nil, enc.ErrBufferOverflow
	}

	var handled_RecordType bool = false
	var handled_ID bool = false
	var handled_Origin bool = false
	var handled_RightOrigin bool = false
	var handled_Content bool = false

	progress := -1
	_ = progress

	value := &Record{}
	var err error
	var startPos int
	for {
		startPos = reader.Pos()
		if startPos >= reader.Length() {
			break
		}
		typ := enc.TLNum(0)
		l := enc.TLNum(0)
		typ, err = enc.ReadTLNum(reader)
		if err != nil {
			return nil, enc.ErrFailToParse{TypeNum: 0, Err: err}
		}
		l, err = enc.ReadTLNum(reader)
		if err != nil {
			return nil, enc.ErrFailToParse{TypeNum: 0, Err: err}
		}

		err = nil
		if handled := false; true {
			switch typ {
			case 165:
				if true {
					handled = true
					handled_RecordType = true
					value.RecordType = uint64(0)
					{
						for i := 0; i < int(l); i++ {
							x := byte(0)
							x, err = reader.ReadByte()
							if err != nil {
								if err == io.EOF {
									err = io.ErrUnexpectedEOF
								}
								break
							}
							value.RecordType = uint64(value.RecordType<<8) | uint64(x)
						}
					}
				}
			case 167:
				if true {
					handled = true
					handled_ID = true
					value.ID, err = context.ID_context.Parse(reader.Delegate(int(l)), ignoreCritical)
				}
			case 169:
				if true {
					handled = true
					handled_Origin = true
					value.Origin, err = context.Origin_context.Parse(reader.Delegate(int(l)), ignoreCritical)
				}
			case 170:
				if true {
					handled = true
					handled_RightOrigin = true
					value.RightOrigin, err = context.RightOrigin_context.Parse(reader.Delegate(int(l)), ignoreCritical)
				}
			case 172:
				if true {
					handled = true
					handled_Content = true
					{
						var builder strings.Builder
						_, err = io.CopyN(&builder, reader, int64(l))
						if err == nil {
							value.Content = builder.String()
						}
					}
				}
			default:
				if !ignoreCritical && ((typ <= 31) || ((typ & 1) == 1)) {
					return nil, enc.ErrUnrecognizedField{TypeNum: typ}
				}
				handled = true
				err = reader.Skip(int(l))
			}
			if err == nil && !handled {
			}
			if err != nil {
				return nil, enc.ErrFailToParse{TypeNum: typ, Err: err}
			}
		}
	}

	startPos = reader.Pos()
	err = nil

	if !handled_RecordType && err == nil {
		err = enc.ErrSkipRequired{Name: "RecordType", TypeNum: 165}
	}
	if !handled_ID && err == nil {
		value.ID = nil
	}
	if !handled_Origin && err == nil {
		value.Origin = nil
	}
	if !handled_RightOrigin && err == nil {
		value.RightOrigin = nil
	}
	if !handled_Content && err == nil {
		err = enc.ErrSkipRequired{Name: "Content", TypeNum: 172}
	}

	if err != nil {
		return nil, err
	}

	return value, nil
}
func ParseRecord(reader enc.ParseReader, ignoreCritical bool) (*Record, error) {
	context := RecordParsingContext{}
	context.Init()
	return context.Parse(reader, ignoreCritical)
}
"#)]

theorem crdt_sameParsers : allSameParser crdtSource crdtParsers = true := by decide +kernel

end Ndn.Codec.Gen
