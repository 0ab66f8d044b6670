import Verif.Codec.GoTextParse

/-! # The parser of `Packet` in `/repo/pkg/ndn/spec_2022/zz_generated.go`, as it is there -/

namespace Ndn.Codec.Gen

/-- the type and methods of the parser, copied from zz_generated.go:4713-4717, 4858-4862 and 5036-5121 -/
def packetParsers : List (Txt × Nat × Nat) := [
  (t!"Packet", go! r#"type PacketParsingContext struct {
	Interest_context InterestParsingContext
	Data_context     DataParsingContext
	LpPacket_context LpPacketParsingContext
}
func (context *PacketParsingContext) Init() {
	context.Interest_context.Init()
	context.Data_context.Init()
	context.LpPacket_context.Init()
}
func (context *PacketParsingContext) Parse(reader enc.ParseReader, ignoreCritical bool) (*Packet, error) {
	if reader == nil {
		return nil, enc.ErrBufferOverflow
	}

	var handled_Interest bool = false
	var handled_Data bool = false
	var handled_LpPacket bool = false

	progress := -1
	_ = progress

	value := &Packet{}
	var err error
	var startPos int
	for {
		startPos = reader.Pos()
		if startPos >= reader.Length() {
			break
		}
		typ := enc.TLNum(0)
		l := enc.TLNum(0)
		typ, err = enc.ReadTLNum(reader)
		if err != nil {
			return nil, enc.ErrFailToParse{TypeNum: 0, Err: err}
		}
		l, err = enc.ReadTLNum(reader)
		if err != nil {
			return nil, enc.ErrFailToParse{TypeNum: 0, Err: err}
		}

		err = nil
		if handled := false; true {
			switch typ {
			case 5:
				if true {
					handled = true
					handled_Interest = true
					value.Interest, err = context.Interest_context.Parse(reader.Delegate(int(l)), ignoreCritical)
				}
			case 6:
				if true {
					handled = true
					handled_Data = true
					value.Data, err = context.Data_context.Parse(reader.Delegate(int(l)), ignoreCritical)
				}
			case 100:
				if true {
					handled = true
					handled_LpPacket = true
					value.LpPacket, err = context.LpPacket_context.Parse(reader.Delegate(int(l)), ignoreCritical)
				}
			default:
				if !ignoreCritical && ((typ <= 31) || ((typ & 1) == 1)) {
					return nil, enc.ErrUnrecognizedField{TypeNum: typ}
				}
				handled = true
				err = reader.Skip(int(l))
			}
			if err == nil && !handled {
			}
			if err != nil {
				return nil, enc.ErrFailToParse{TypeNum: typ, Err: err}
			}
		}
	}

	startPos = reader.Pos()
	err = nil

	if !handled_Interest && err == nil {
		value.Interest = nil
	}
	if !handled_Data && err == nil {
		value.Data = nil
	}
	if !handled_LpPacket && err == nil {
		value.LpPacket = nil
	}

	if err != nil {
		return nil, err
	}

	return value, nil
}
"#)]

theorem packet_sameParsers : allSameParser specSource packetParsers = true := by decide +kernel

end Ndn.Codec.Gen
