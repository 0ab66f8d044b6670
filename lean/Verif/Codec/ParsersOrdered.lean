import Verif.Codec.GoTextParse
import Verif.Codec.EmitOrdered

/-! # The parsers of Interest and Data in `/repo/pkg/ndn/spec_2022/zz_generated.go`, as they are there -/

namespace Ndn.Codec.Gen

/-- the types and methods of the parsers with `ordered`, copied from `/repo/pkg/ndn/spec_2022/zz_generated.go` -/
def orderedParsers : List (Txt × Nat × Nat) := [
  (t!"Interest", go! r#"type InterestParsingContext struct {
	sigCovered    enc.Wire
	digestCovered enc.Wire
	NameV_wireIdx int
	NameV_pos     uint

	ForwardingHintV_context LinksParsingContext

	sigCoverStart    int
	digestCoverStart int

	SignatureInfo_context SignatureInfoParsingContext

	digestCoverEnd int
}
func (context *InterestParsingContext) Init() {

	context.ForwardingHintV_context.Init()

	context.SignatureInfo_context.Init()
	context.sigCovered = make(enc.Wire, 0)

}
func (context *InterestParsingContext) Parse(reader enc.ParseReader, ignoreCritical bool) (*Interest, error) {
	if reader == nil {
		return nil, enc.ErrBufferOverflow
	}

	var handled_sigCovered bool = false
	var handled_digestCovered bool = false
	var handled_NameV bool = false
	var handled_CanBePrefixV bool = false
	var handled_MustBeFreshV bool = false
	var handled_ForwardingHintV bool = false
	var handled_NonceV bool = false
	var handled_InterestLifetimeV bool = false
	var handled_HopLimitV bool = false
	var handled_sigCoverStart bool = false
	var handled_digestCoverStart bool = false
	var handled_ApplicationParameters bool = false
	var handled_SignatureInfo bool = false
	var handled_SignatureValue bool = false
	var handled_digestCoverEnd bool = false

	progress := -1
	_ = progress

	value := &Interest{}
	var err error
	var startPos int
	for {
		startPos = reader.Pos()
		if startPos >= reader.Length() {
			break
		}
		typ := enc.TLNum(0)
		l := enc.TLNum(0)
		typ, err = enc.ReadTLNum(reader)
		if err != nil {
			return nil, enc.ErrFailToParse{TypeNum: 0, Err: err}
		}
		l, err = enc.ReadTLNum(reader)
		if err != nil {
			return nil, enc.ErrFailToParse{TypeNum: 0, Err: err}
		}

		err = nil
		for handled := false; !handled && progress < 15; progress++ {
			switch typ {
			case 7:
				if progress+1 == 2 {
					handled = true
					handled_NameV = true
					{

						value.NameV = make(enc.Name, l/2+1)
						startName := reader.Pos()
						endName := startName + int(l)
						sigCoverEnd := endName
						for j := range value.NameV {
							var err1, err3 error
							startComponent := reader.Pos()
							if startComponent >= endName {
								value.NameV = value.NameV[:j]
								break
							}
							value.NameV[j].Typ, err1 = enc.ReadTLNum(reader)
							l, err2 := enc.ReadTLNum(reader)
							value.NameV[j].Val, err3 = reader.ReadBuf(int(l))
							if err1 != nil || err2 != nil || err3 != nil {
								err = io.ErrUnexpectedEOF
								break
							}
							if value.NameV[j].Typ == enc.TypeParametersSha256DigestComponent {
								sigCoverEnd = startComponent
							}
						}
						if err == nil && reader.Pos() != endName {
							err = enc.ErrBufferOverflow
						}
						if err == nil {
							coveredPart := reader.Range(startName, sigCoverEnd)
							context.sigCovered = append(context.sigCovered, coveredPart...)
						}
					}
				}
			case 33:
				if progress+1 == 3 {
					handled = true
					handled_CanBePrefixV = true
					value.CanBePrefixV = true
				}
			case 18:
				if progress+1 == 4 {
					handled = true
					handled_MustBeFreshV = true
					value.MustBeFreshV = true
				}
			case 30:
				if progress+1 == 5 {
					handled = true
					handled_ForwardingHintV = true
					value.ForwardingHintV, err = context.ForwardingHintV_context.Parse(reader.Delegate(int(l)), ignoreCritical)
				}
			case 10:
				if progress+1 == 6 {
					handled = true
					handled_NonceV = true
					{
						tempVal := uint32(0)
						tempVal = uint32(0)
						{
							for i := 0; i < int(l); i++ {
								x := byte(0)
								x, err = reader.ReadByte()
								if err != nil {
									if err == io.EOF {
										err = io.ErrUnexpectedEOF
									}
									break
								}
								tempVal = uint32(tempVal<<8) | uint32(x)
							}
						}
						value.NonceV = &tempVal
					}
				}
			case 12:
				if progress+1 == 7 {
					handled = true
					handled_InterestLifetimeV = true
					{
						timeInt := uint64(0)
						timeInt = uint64(0)
						{
							for i := 0; i < int(l); i++ {
								x := byte(0)
								x, err = reader.ReadByte()
								if err != nil {
									if err == io.EOF {
										err = io.ErrUnexpectedEOF
									}
									break
								}
								timeInt = uint64(timeInt<<8) | uint64(x)
							}
						}
						tempVal := time.Duration(timeInt) * time.Millisecond
						value.InterestLifetimeV = &tempVal
					}
				}
			case 34:
				if progress+1 == 8 {
					handled = true
					handled_HopLimitV = true
					{
						err = reader.Skip(1)
						if err == io.EOF {
							err = io.ErrUnexpectedEOF
						}
						value.HopLimitV = &reader.Range(reader.Pos()-1, reader.Pos())[0][0]
					}
				}
			case 36:
				if progress+1 == 11 {
					handled = true
					handled_ApplicationParameters = true
					value.ApplicationParameters, err = reader.ReadWire(int(l))
				}
			case 44:
				if progress+1 == 12 {
					handled = true
					handled_SignatureInfo = true
					value.SignatureInfo, err = context.SignatureInfo_context.Parse(reader.Delegate(int(l)), ignoreCritical)
				}
			case 46:
				if progress+1 == 13 {
					handled = true
					handled_SignatureValue = true
					value.SignatureValue, err = reader.ReadWire(int(l))
					if err == nil {
						coveredPart := reader.Range(context.sigCoverStart, startPos)
						context.sigCovered = append(context.sigCovered, coveredPart...)
					}
				}
			default:
				if !ignoreCritical && ((typ <= 31) || ((typ & 1) == 1)) {
					return nil, enc.ErrUnrecognizedField{TypeNum: typ}
				}
				handled = true
				err = reader.Skip(int(l))
			}
			if err == nil && !handled {
				switch progress {
				case 0 - 1:
					handled_sigCovered = true
					// base - skip
				case 1 - 1:
					handled_digestCovered = true
					// base - skip
				case 2 - 1:
					handled_NameV = true
					value.NameV = nil
				case 3 - 1:
					handled_CanBePrefixV = true
					value.CanBePrefixV = false
				case 4 - 1:
					handled_MustBeFreshV = true
					value.MustBeFreshV = false
				case 5 - 1:
					handled_ForwardingHintV = true
					value.ForwardingHintV = nil
				case 6 - 1:
					handled_NonceV = true
					value.NonceV = nil
				case 7 - 1:
					handled_InterestLifetimeV = true
					value.InterestLifetimeV = nil
				case 8 - 1:
					handled_HopLimitV = true
					value.HopLimitV = nil
				case 9 - 1:
					handled_sigCoverStart = true
					context.sigCoverStart = int(startPos)
				case 10 - 1:
					handled_digestCoverStart = true
					context.digestCoverStart = int(startPos)
				case 11 - 1:
					handled_ApplicationParameters = true
					value.ApplicationParameters = nil
				case 12 - 1:
					handled_SignatureInfo = true
					value.SignatureInfo = nil
				case 13 - 1:
					handled_SignatureValue = true
					value.SignatureValue = nil
				case 14 - 1:
					handled_digestCoverEnd = true
					context.digestCoverEnd = int(startPos)
					context.digestCovered = reader.Range(context.digestCoverStart, startPos)
				}
			}
			if err != nil {
				return nil, enc.ErrFailToParse{TypeNum: typ, Err: err}
			}
		}
	}

	startPos = reader.Pos()
	err = nil

	if !handled_sigCovered && err == nil {
		// base - skip
	}
	if !handled_digestCovered && err == nil {
		// base - skip
	}
	if !handled_NameV && err == nil {
		value.NameV = nil
	}
	if !handled_CanBePrefixV && err == nil {
		value.CanBePrefixV = false
	}
	if !handled_MustBeFreshV && err == nil {
		value.MustBeFreshV = false
	}
	if !handled_ForwardingHintV && err == nil {
		value.ForwardingHintV = nil
	}
	if !handled_NonceV && err == nil {
		value.NonceV = nil
	}
	if !handled_InterestLifetimeV && err == nil {
		value.InterestLifetimeV = nil
	}
	if !handled_HopLimitV && err == nil {
		value.HopLimitV = nil
	}
	if !handled_sigCoverStart && err == nil {
		context.sigCoverStart = int(startPos)
	}
	if !handled_digestCoverStart && err == nil {
		context.digestCoverStart = int(startPos)
	}
	if !handled_ApplicationParameters && err == nil {
		value.ApplicationParameters = nil
	}
	if !handled_SignatureInfo && err == nil {
		value.SignatureInfo = nil
	}
	if !handled_SignatureValue && err == nil {
		value.SignatureValue = nil
	}
	if !handled_digestCoverEnd && err == nil {
		context.digestCoverEnd = int(startPos)
		context.digestCovered = reader.Range(context.digestCoverStart, startPos)
	}

	if err != nil {
		return nil, err
	}

	return value, nil
}
"#),
  (t!"Data", go! r#"type DataParsingContext struct {
	sigCovered    enc.Wire
	sigCoverStart int

	MetaInfo_context MetaInfoParsingContext

	SignatureInfo_context SignatureInfoParsingContext
}
func (context *DataParsingContext) Init() {

	context.MetaInfo_context.Init()

	context.SignatureInfo_context.Init()
	context.sigCovered = make(enc.Wire, 0)
}
func (context *DataParsingContext) Parse(reader enc.ParseReader, ignoreCritical bool) (*Data, error) {
	if reader == nil {
		return nil, enc.ErrBufferOverflow
	}

	var handled_sigCovered bool = false
	var handled_sigCoverStart bool = false
	var handled_NameV bool = false
	var handled_MetaInfo bool = false
	var handled_ContentV bool = false
	var handled_SignatureInfo bool = false
	var handled_SignatureValue bool = false

	progress := -1
	_ = progress

	value := &Data{}
	var err error
	var startPos int
	for {
		startPos = reader.Pos()
		if startPos >= reader.Length() {
			break
		}
		typ := enc.TLNum(0)
		l := enc.TLNum(0)
		typ, err = enc.ReadTLNum(reader)
		if err != nil {
			return nil, enc.ErrFailToParse{TypeNum: 0, Err: err}
		}
		l, err = enc.ReadTLNum(reader)
		if err != nil {
			return nil, enc.ErrFailToParse{TypeNum: 0, Err: err}
		}

		err = nil
		for handled := false; !handled && progress < 7; progress++ {
			switch typ {
			case 7:
				if progress+1 == 2 {
					handled = true
					handled_NameV = true
					value.NameV = make(enc.Name, l/2+1)
					startName := reader.Pos()
					endName := startName + int(l)
					for j := range value.NameV {
						if reader.Pos() >= endName {
							value.NameV = value.NameV[:j]
							break
						}
						var err1, err3 error
						value.NameV[j].Typ, err1 = enc.ReadTLNum(reader)
						l, err2 := enc.ReadTLNum(reader)
						value.NameV[j].Val, err3 = reader.ReadBuf(int(l))
						if err1 != nil || err2 != nil || err3 != nil {
							err = io.ErrUnexpectedEOF
							break
						}
					}
					if err == nil && reader.Pos() != endName {
						err = enc.ErrBufferOverflow
					}
				}
			case 20:
				if progress+1 == 3 {
					handled = true
					handled_MetaInfo = true
					value.MetaInfo, err = context.MetaInfo_context.Parse(reader.Delegate(int(l)), ignoreCritical)
				}
			case 21:
				if progress+1 == 4 {
					handled = true
					handled_ContentV = true
					value.ContentV, err = reader.ReadWire(int(l))
				}
			case 22:
				if progress+1 == 5 {
					handled = true
					handled_SignatureInfo = true
					value.SignatureInfo, err = context.SignatureInfo_context.Parse(reader.Delegate(int(l)), ignoreCritical)
				}
			case 23:
				if progress+1 == 6 {
					handled = true
					handled_SignatureValue = true
					value.SignatureValue, err = reader.ReadWire(int(l))
					if err == nil {
						coveredPart := reader.Range(context.sigCoverStart, startPos)
						context.sigCovered = append(context.sigCovered, coveredPart...)
					}
				}
			default:
				if !ignoreCritical && ((typ <= 31) || ((typ & 1) == 1)) {
					return nil, enc.ErrUnrecognizedField{TypeNum: typ}
				}
				handled = true
				err = reader.Skip(int(l))
			}
			if err == nil && !handled {
				switch progress {
				case 0 - 1:
					handled_sigCovered = true
					// base - skip
				case 1 - 1:
					handled_sigCoverStart = true
					context.sigCoverStart = int(startPos)
				case 2 - 1:
					handled_NameV = true
					value.NameV = nil
				case 3 - 1:
					handled_MetaInfo = true
					value.MetaInfo = nil
				case 4 - 1:
					handled_ContentV = true
					value.ContentV = nil
				case 5 - 1:
					handled_SignatureInfo = true
					value.SignatureInfo = nil
				case 6 - 1:
					handled_SignatureValue = true
					value.SignatureValue = nil
				}
			}
			if err != nil {
				return nil, enc.ErrFailToParse{TypeNum: typ, Err: err}
			}
		}
	}

	startPos = reader.Pos()
	err = nil

	if !handled_sigCovered && err == nil {
		// base - skip
	}
	if !handled_sigCoverStart && err == nil {
		context.sigCoverStart = int(startPos)
	}
	if !handled_NameV && err == nil {
		value.NameV = nil
	}
	if !handled_MetaInfo && err == nil {
		value.MetaInfo = nil
	}
	if !handled_ContentV && err == nil {
		value.ContentV = nil
	}
	if !handled_SignatureInfo && err == nil {
		value.SignatureInfo = nil
	}
	if !handled_SignatureValue && err == nil {
		value.SignatureValue = nil
	}

	if err != nil {
		return nil, err
	}

	return value, nil
}
"#)]

/-- the parser of the model called `n`, as the generator writes it, is the Go `g` up to space -/
def SameOrdered (ms : List TModel) (n : Txt) (g : Nat × Nat) : Prop :=
  ∃ m, (ms.find? fun m => m.name == n) = some m ∧ m.opts.ordered = true ∧ m.opts.priv = true ∧ (orderedText m).map tight = goLines g

def sameOrdered (ms : List TModel) (n : Txt) (g : Nat × Nat) : Bool :=
  match ms.find? fun m => m.name == n with
  | some m => m.opts.ordered && m.opts.priv && decide ((orderedText m).map tight = goLines g)
  | none => false

theorem sameOrdered_spec {ms : List TModel} {n : Txt} {g : Nat × Nat} (h : sameOrdered ms n g = true) : SameOrdered ms n g := by
  unfold sameOrdered at h
  split at h
  · rename_i m hm
    simp only [Bool.and_eq_true, decide_eq_true_eq] at h
    exact ⟨m, hm, h.1.1, h.1.2, h.2⟩
  · cases h

/-- all the parsers in the list -/
def allSameOrdered (src : List DeclSrc) (l : List (Txt × Nat × Nat)) : Bool :=
  match processAll asWritten src with
  | .ok ms => l.all fun p => sameOrdered ms p.1 p.2
  | _ => false

theorem spec_sameOrdered : allSameOrdered specSource orderedParsers = true := by decide +kernel

end Ndn.Codec.Gen
