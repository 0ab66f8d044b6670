import Verif.Codec.Front

/-!
# The declarations from which the library's TLV code is generated

Names, tags and comments of the struct types, copied from the files; the Go types of the fields are left out, since the front end does not look at them.
-/

namespace Ndn.Codec.Gen

/-- the type declarations of /repo/pkg/ndn/spec_2022/definitions.go -/
def specSource : List DeclSrc := [
  -- lines 10-15
  ⟨[], [⟨t!"KeyLocator", some [
    ⟨[t!"Name"], some t!"`tlv:\"0x07\"`", [t!"//+field:name"]⟩,
    ⟨[t!"KeyDigest"], some t!"`tlv:\"0x1d\"`", [t!"//+field:binary"]⟩]⟩]⟩,
  -- lines 17-20
  ⟨[], [⟨t!"Links", some [
    ⟨[t!"Names"], some t!"`tlv:\"0x07\"`", [t!"//+field:sequence:enc.Name:name"]⟩]⟩]⟩,
  -- lines 22-29
  ⟨[], [⟨t!"MetaInfo", some [
    ⟨[t!"ContentType"], some t!"`tlv:\"0x18\"`", [t!"//+field:natural:optional"]⟩,
    ⟨[t!"FreshnessPeriod"], some t!"`tlv:\"0x19\"`", [t!"//+field:time:optional"]⟩,
    ⟨[t!"FinalBlockID"], some t!"`tlv:\"0x1a\"`", [t!"//+field:binary"]⟩]⟩]⟩,
  -- lines 31-36
  ⟨[], [⟨t!"ValidityPeriod", some [
    ⟨[t!"NotBefore"], some t!"`tlv:\"0xfe\"`", [t!"//+field:string"]⟩,
    ⟨[t!"NotAfter"], some t!"`tlv:\"0xff\"`", [t!"//+field:string"]⟩]⟩]⟩,
  -- lines 38-43
  ⟨[], [⟨t!"CertDescriptionEntry", some [
    ⟨[t!"DescriptionKey"], some t!"`tlv:\"0x0201\"`", [t!"//+field:string"]⟩,
    ⟨[t!"DescriptionValue"], some t!"`tlv:\"0x0202\"`", [t!"//+field:string"]⟩]⟩]⟩,
  -- lines 45-48
  ⟨[], [⟨t!"CertAdditionalDescription", some [
    ⟨[t!"DescriptionEntries"], some t!"`tlv:\"0x0200\"`", [t!"//+field:sequence:*CertDescriptionEntry:struct:CertDescriptionEntry"]⟩]⟩]⟩,
  -- lines 50-65
  ⟨[], [⟨t!"SignatureInfo", some [
    ⟨[t!"SignatureType"], some t!"`tlv:\"0x1b\"`", [t!"//+field:natural"]⟩,
    ⟨[t!"KeyLocator"], some t!"`tlv:\"0x1c\"`", [t!"//+field:struct:KeyLocator"]⟩,
    ⟨[t!"SignatureNonce"], some t!"`tlv:\"0x26\"`", [t!"//+field:binary"]⟩,
    ⟨[t!"SignatureTime"], some t!"`tlv:\"0x28\"`", [t!"//+field:time:optional"]⟩,
    ⟨[t!"SignatureSeqNum"], some t!"`tlv:\"0x2a\"`", [t!"//+field:natural:optional"]⟩,
    ⟨[t!"ValidityPeriod"], some t!"`tlv:\"0xfd\"`", [t!"//+field:struct:ValidityPeriod"]⟩,
    ⟨[t!"AdditionalDescription"], some t!"`tlv:\"0x0102\"`", [t!"//+field:struct:CertAdditionalDescription"]⟩]⟩]⟩,
  -- lines 74-77
  ⟨[], [⟨t!"NetworkNack", some [
    ⟨[t!"Reason"], some t!"`tlv:\"0x0321\"`", [t!"//+field:natural"]⟩]⟩]⟩,
  -- lines 79-82
  ⟨[], [⟨t!"CachePolicy", some [
    ⟨[t!"CachePolicyType"], some t!"`tlv:\"0x0335\"`", [t!"//+field:natural"]⟩]⟩]⟩,
  -- lines 85-115
  ⟨[t!"// +tlv-model:nocopy,private"], [⟨t!"LpPacket", some [
    ⟨[t!"Sequence"], some t!"`tlv:\"0x51\"`", [t!"//+field:fixedUint:uint64:optional"]⟩,
    ⟨[t!"FragIndex"], some t!"`tlv:\"0x52\"`", [t!"//+field:natural:optional"]⟩,
    ⟨[t!"FragCount"], some t!"`tlv:\"0x53\"`", [t!"//+field:natural:optional"]⟩,
    ⟨[t!"PitToken"], some t!"`tlv:\"0x62\"`", [t!"//+field:binary"]⟩,
    ⟨[t!"Nack"], some t!"`tlv:\"0x0320\"`", [t!"//+field:struct:NetworkNack"]⟩,
    ⟨[t!"IncomingFaceId"], some t!"`tlv:\"0x032C\"`", [t!"//+field:natural:optional"]⟩,
    ⟨[t!"NextHopFaceId"], some t!"`tlv:\"0x0330\"`", [t!"//+field:natural:optional"]⟩,
    ⟨[t!"CachePolicy"], some t!"`tlv:\"0x0334\"`", [t!"//+field:struct:CachePolicy"]⟩,
    ⟨[t!"CongestionMark"], some t!"`tlv:\"0x0340\"`", [t!"//+field:natural:optional"]⟩,
    ⟨[t!"Ack"], some t!"`tlv:\"0x0344\"`", [t!"//+field:fixedUint:uint64:optional"]⟩,
    ⟨[t!"TxSequence"], some t!"`tlv:\"0x0348\"`", [t!"//+field:fixedUint:uint64:optional"]⟩,
    ⟨[t!"NonDiscovery"], some t!"`tlv:\"0x034C\"`", [t!"//+field:bool"]⟩,
    ⟨[t!"PrefixAnnouncement"], some t!"`tlv:\"0x0350\"`", [t!"//+field:wire"]⟩,
    ⟨[t!"Fragment"], some t!"`tlv:\"0x50\"`", [t!"//+field:wire"]⟩]⟩]⟩,
  -- lines 118-153
  ⟨[t!"// +tlv-model:nocopy,private,ordered"], [⟨t!"Interest", some [
    ⟨[t!"sigCovered"], none, [t!"//+field:procedureArgument:enc.Wire"]⟩,
    ⟨[t!"digestCovered"], none, [t!"//+field:procedureArgument:enc.Wire"]⟩,
    ⟨[t!"NameV"], some t!"`tlv:\"0x07\"`", [t!"//+field:interestName:sigCovered"]⟩,
    ⟨[t!"CanBePrefixV"], some t!"`tlv:\"0x21\"`", [t!"//+field:bool"]⟩,
    ⟨[t!"MustBeFreshV"], some t!"`tlv:\"0x12\"`", [t!"//+field:bool"]⟩,
    ⟨[t!"ForwardingHintV"], some t!"`tlv:\"0x1e\"`", [t!"//+field:struct:Links"]⟩,
    ⟨[t!"NonceV"], some t!"`tlv:\"0x0a\"`", [t!"//+field:fixedUint:uint32:optional"]⟩,
    ⟨[t!"InterestLifetimeV"], some t!"`tlv:\"0x0c\"`", [t!"//+field:time:optional"]⟩,
    ⟨[t!"HopLimitV"], some t!"`tlv:\"0x22\"`", [t!"//+field:fixedUint:byte:optional"]⟩,
    ⟨[t!"sigCoverStart"], none, [t!"//+field:offsetMarker"]⟩,
    ⟨[t!"digestCoverStart"], none, [t!"//+field:offsetMarker"]⟩,
    ⟨[t!"ApplicationParameters"], some t!"`tlv:\"0x24\"`", [t!"//+field:wire"]⟩,
    ⟨[t!"SignatureInfo"], some t!"`tlv:\"0x2c\"`", [t!"//+field:struct:SignatureInfo"]⟩,
    ⟨[t!"SignatureValue"], some t!"`tlv:\"0x2e\"`", [t!"//+field:signature:sigCoverStart:sigCovered"]⟩,
    ⟨[t!"digestCoverEnd"], none, [t!"//+field:rangeMarker:digestCoverStart:digestCovered"]⟩]⟩]⟩,
  -- lines 156-172
  ⟨[t!"// +tlv-model:nocopy,private,ordered"], [⟨t!"Data", some [
    ⟨[t!"sigCovered"], none, [t!"//+field:procedureArgument:enc.Wire"]⟩,
    ⟨[t!"sigCoverStart"], none, [t!"//+field:offsetMarker"]⟩,
    ⟨[t!"NameV"], some t!"`tlv:\"0x07\"`", [t!"//+field:name"]⟩,
    ⟨[t!"MetaInfo"], some t!"`tlv:\"0x14\"`", [t!"//+field:struct:MetaInfo"]⟩,
    ⟨[t!"ContentV"], some t!"`tlv:\"0x15\"`", [t!"//+field:wire"]⟩,
    ⟨[t!"SignatureInfo"], some t!"`tlv:\"0x16\"`", [t!"//+field:struct:SignatureInfo"]⟩,
    ⟨[t!"SignatureValue"], some t!"`tlv:\"0x17\"`", [t!"//+field:signature:sigCoverStart:sigCovered"]⟩]⟩]⟩,
  -- lines 175-182
  ⟨[t!"// +tlv-model:nocopy,private"], [⟨t!"Packet", some [
    ⟨[t!"Interest"], some t!"`tlv:\"0x05\"`", [t!"//+field:struct:Interest:nocopy"]⟩,
    ⟨[t!"Data"], some t!"`tlv:\"0x06\"`", [t!"//+field:struct:Data:nocopy"]⟩,
    ⟨[t!"LpPacket"], some t!"`tlv:\"0x64\"`", [t!"//+field:struct:LpPacket:nocopy"]⟩]⟩]⟩]

/-- the type declarations of /repo/pkg/ndn/mgmt_2022/definitions.go -/
def mgmtSource : List DeclSrc := [
  -- lines 52-55
  ⟨[t!"// +tlv-model:dict"], [⟨t!"Strategy", some [
    ⟨[t!"Name"], some t!"`tlv:\"0x07\"`", [t!"//+field:name"]⟩]⟩]⟩,
  -- lines 58-93
  ⟨[t!"// +tlv-model:dict"], [⟨t!"ControlArgs", some [
    ⟨[t!"Name"], some t!"`tlv:\"0x07\"`", [t!"//+field:name"]⟩,
    ⟨[t!"FaceId"], some t!"`tlv:\"0x69\"`", [t!"//+field:natural:optional"]⟩,
    ⟨[t!"Uri"], some t!"`tlv:\"0x72\"`", [t!"//+field:string:optional"]⟩,
    ⟨[t!"LocalUri"], some t!"`tlv:\"0x81\"`", [t!"//+field:string:optional"]⟩,
    ⟨[t!"Origin"], some t!"`tlv:\"0x6f\"`", [t!"//+field:natural:optional"]⟩,
    ⟨[t!"Cost"], some t!"`tlv:\"0x6a\"`", [t!"//+field:natural:optional"]⟩,
    ⟨[t!"Capacity"], some t!"`tlv:\"0x83\"`", [t!"//+field:natural:optional"]⟩,
    ⟨[t!"Count"], some t!"`tlv:\"0x84\"`", [t!"//+field:natural:optional"]⟩,
    ⟨[t!"Flags"], some t!"`tlv:\"0x6c\"`", [t!"//+field:natural:optional"]⟩,
    ⟨[t!"Mask"], some t!"`tlv:\"0x70\"`", [t!"//+field:natural:optional"]⟩,
    ⟨[t!"Strategy"], some t!"`tlv:\"0x6b\"`", [t!"//+field:struct:Strategy"]⟩,
    ⟨[t!"ExpirationPeriod"], some t!"`tlv:\"0x6d\"`", [t!"//+field:natural:optional"]⟩,
    ⟨[t!"FacePersistency"], some t!"`tlv:\"0x85\"`", [t!"//+field:natural:optional"]⟩,
    ⟨[t!"BaseCongestionMarkInterval"], some t!"`tlv:\"0x87\"`", [t!"//+field:natural:optional"]⟩,
    ⟨[t!"DefaultCongestionThreshold"], some t!"`tlv:\"0x88\"`", [t!"//+field:natural:optional"]⟩,
    ⟨[t!"Mtu"], some t!"`tlv:\"0x89\"`", [t!"//+field:natural:optional"]⟩]⟩]⟩,
  -- lines 96-103
  ⟨[t!"// +tlv-model:dict"], [⟨t!"ControlResponseVal", some [
    ⟨[t!"StatusCode"], some t!"`tlv:\"0x66\"`", [t!"//+field:natural"]⟩,
    ⟨[t!"StatusText"], some t!"`tlv:\"0x67\"`", [t!"//+field:string"]⟩,
    ⟨[t!"Params"], some t!"`tlv:\"0x68\"`", [t!"//+field:struct:ControlArgs"]⟩]⟩]⟩,
  -- lines 105-108
  ⟨[], [⟨t!"ControlParameters", some [
    ⟨[t!"Val"], some t!"`tlv:\"0x68\"`", [t!"//+field:struct:ControlArgs"]⟩]⟩]⟩,
  -- lines 110-113
  ⟨[], [⟨t!"ControlResponse", some [
    ⟨[t!"Val"], some t!"`tlv:\"0x65\"`", [t!"//+field:struct:ControlResponseVal"]⟩]⟩]⟩,
  -- lines 115-132
  ⟨[], [⟨t!"FaceEventNotificationValue", some [
    ⟨[t!"FaceEventKind"], some t!"`tlv:\"0xc1\"`", [t!"//+field:natural"]⟩,
    ⟨[t!"FaceId"], some t!"`tlv:\"0x69\"`", [t!"//+field:natural"]⟩,
    ⟨[t!"Uri"], some t!"`tlv:\"0x72\"`", [t!"//+field:string"]⟩,
    ⟨[t!"LocalUri"], some t!"`tlv:\"0x81\"`", [t!"//+field:string"]⟩,
    ⟨[t!"FaceScope"], some t!"`tlv:\"0x84\"`", [t!"//+field:natural"]⟩,
    ⟨[t!"FacePersistency"], some t!"`tlv:\"0x85\"`", [t!"//+field:natural"]⟩,
    ⟨[t!"LinkType"], some t!"`tlv:\"0x86\"`", [t!"//+field:natural"]⟩,
    ⟨[t!"Flags"], some t!"`tlv:\"0x6c\"`", [t!"//+field:natural"]⟩]⟩]⟩,
  -- lines 134-137
  ⟨[], [⟨t!"FaceEventNotification", some [
    ⟨[t!"Val"], some t!"`tlv:\"0xc0\"`", [t!"//+field:struct:FaceEventNotificationValue"]⟩]⟩]⟩,
  -- lines 139-191
  ⟨[], [⟨t!"GeneralStatus", some [
    ⟨[t!"NfdVersion"], some t!"`tlv:\"0x80\"`", [t!"//+field:string"]⟩,
    ⟨[t!"StartTimestamp"], some t!"`tlv:\"0x81\"`", [t!"//+field:natural"]⟩,
    ⟨[t!"CurrentTimestamp"], some t!"`tlv:\"0x82\"`", [t!"//+field:natural"]⟩,
    ⟨[t!"NNameTreeEntries"], some t!"`tlv:\"0x83\"`", [t!"//+field:natural"]⟩,
    ⟨[t!"NFibEntries"], some t!"`tlv:\"0x84\"`", [t!"//+field:natural"]⟩,
    ⟨[t!"NPitEntries"], some t!"`tlv:\"0x85\"`", [t!"//+field:natural"]⟩,
    ⟨[t!"NMeasurementsEntries"], some t!"`tlv:\"0x86\"`", [t!"//+field:natural"]⟩,
    ⟨[t!"NCsEntries"], some t!"`tlv:\"0x87\"`", [t!"//+field:natural"]⟩,
    ⟨[t!"NInInterests"], some t!"`tlv:\"0x90\"`", [t!"//+field:natural"]⟩,
    ⟨[t!"NInData"], some t!"`tlv:\"0x91\"`", [t!"//+field:natural"]⟩,
    ⟨[t!"NInNacks"], some t!"`tlv:\"0x97\"`", [t!"//+field:natural"]⟩,
    ⟨[t!"NOutInterests"], some t!"`tlv:\"0x92\"`", [t!"//+field:natural"]⟩,
    ⟨[t!"NOutData"], some t!"`tlv:\"0x93\"`", [t!"//+field:natural"]⟩,
    ⟨[t!"NOutNacks"], some t!"`tlv:\"0x98\"`", [t!"//+field:natural"]⟩,
    ⟨[t!"NSatisfiedInterests"], some t!"`tlv:\"0x99\"`", [t!"//+field:natural"]⟩,
    ⟨[t!"NUnsatisfiedInterests"], some t!"`tlv:\"0x9a\"`", [t!"//+field:natural"]⟩,
    ⟨[t!"NFragmentationError"], some t!"`tlv:\"0xc8\"`", [t!"//+field:natural:optional"]⟩,
    ⟨[t!"NOutOverMtu"], some t!"`tlv:\"0xc9\"`", [t!"//+field:natural:optional"]⟩,
    ⟨[t!"NInLpInvalid"], some t!"`tlv:\"0xca\"`", [t!"//+field:natural:optional"]⟩,
    ⟨[t!"NReassemblyTimeouts"], some t!"`tlv:\"0xcb\"`", [t!"//+field:natural:optional"]⟩,
    ⟨[t!"NInNetInvalid"], some t!"`tlv:\"0xcc\"`", [t!"//+field:natural:optional"]⟩,
    ⟨[t!"NAcknowledged"], some t!"`tlv:\"0xcd\"`", [t!"//+field:natural:optional"]⟩,
    ⟨[t!"NRetransmitted"], some t!"`tlv:\"0xce\"`", [t!"//+field:natural:optional"]⟩,
    ⟨[t!"NRetxExhausted"], some t!"`tlv:\"0xcf\"`", [t!"//+field:natural:optional"]⟩,
    ⟨[t!"NConngestionMarked"], some t!"`tlv:\"0xd0\"`", [t!"//+field:natural:optional"]⟩]⟩]⟩,
  -- lines 193-234
  ⟨[], [⟨t!"FaceStatus", some [
    ⟨[t!"FaceId"], some t!"`tlv:\"0x69\"`", [t!"//+field:natural"]⟩,
    ⟨[t!"Uri"], some t!"`tlv:\"0x72\"`", [t!"//+field:string"]⟩,
    ⟨[t!"LocalUri"], some t!"`tlv:\"0x81\"`", [t!"//+field:string"]⟩,
    ⟨[t!"ExpirationPeriod"], some t!"`tlv:\"0x6d\"`", [t!"//+field:natural:optional"]⟩,
    ⟨[t!"FaceScope"], some t!"`tlv:\"0x84\"`", [t!"//+field:natural"]⟩,
    ⟨[t!"FacePersistency"], some t!"`tlv:\"0x85\"`", [t!"//+field:natural"]⟩,
    ⟨[t!"LinkType"], some t!"`tlv:\"0x86\"`", [t!"//+field:natural"]⟩,
    ⟨[t!"BaseCongestionMarkInterval"], some t!"`tlv:\"0x87\"`", [t!"//+field:natural:optional"]⟩,
    ⟨[t!"DefaultCongestionThreshold"], some t!"`tlv:\"0x88\"`", [t!"//+field:natural:optional"]⟩,
    ⟨[t!"Mtu"], some t!"`tlv:\"0x89\"`", [t!"//+field:natural:optional"]⟩,
    ⟨[t!"NInInterests"], some t!"`tlv:\"0x90\"`", [t!"//+field:natural"]⟩,
    ⟨[t!"NInData"], some t!"`tlv:\"0x91\"`", [t!"//+field:natural"]⟩,
    ⟨[t!"NInNacks"], some t!"`tlv:\"0x97\"`", [t!"//+field:natural"]⟩,
    ⟨[t!"NOutInterests"], some t!"`tlv:\"0x92\"`", [t!"//+field:natural"]⟩,
    ⟨[t!"NOutData"], some t!"`tlv:\"0x93\"`", [t!"//+field:natural"]⟩,
    ⟨[t!"NOutNacks"], some t!"`tlv:\"0x98\"`", [t!"//+field:natural"]⟩,
    ⟨[t!"NInBytes"], some t!"`tlv:\"0x94\"`", [t!"//+field:natural"]⟩,
    ⟨[t!"NOutBytes"], some t!"`tlv:\"0x95\"`", [t!"//+field:natural"]⟩,
    ⟨[t!"Flags"], some t!"`tlv:\"0x6c\"`", [t!"//+field:natural"]⟩]⟩]⟩,
  -- lines 236-239
  ⟨[], [⟨t!"FaceStatusMsg", some [
    ⟨[t!"Vals"], some t!"`tlv:\"0x80\"`", [t!"//+field:sequence:*FaceStatus:struct:FaceStatus"]⟩]⟩]⟩,
  -- lines 241-256
  ⟨[], [⟨t!"FaceQueryFilterValue", some [
    ⟨[t!"FaceId"], some t!"`tlv:\"0x69\"`", [t!"//+field:natural:optional"]⟩,
    ⟨[t!"UriScheme"], some t!"`tlv:\"0x83\"`", [t!"//+field:string:optional"]⟩,
    ⟨[t!"Uri"], some t!"`tlv:\"0x72\"`", [t!"//+field:string:optional"]⟩,
    ⟨[t!"LocalUri"], some t!"`tlv:\"0x81\"`", [t!"//+field:string:optional"]⟩,
    ⟨[t!"FaceScope"], some t!"`tlv:\"0x84\"`", [t!"//+field:natural:optional"]⟩,
    ⟨[t!"FacePersistency"], some t!"`tlv:\"0x85\"`", [t!"//+field:natural:optional"]⟩,
    ⟨[t!"LinkType"], some t!"`tlv:\"0x86\"`", [t!"//+field:natural:optional"]⟩]⟩]⟩,
  -- lines 258-261
  ⟨[], [⟨t!"FaceQueryFilter", some [
    ⟨[t!"Val"], some t!"`tlv:\"0x96\"`", [t!"//+field:struct:FaceQueryFilterValue"]⟩]⟩]⟩,
  -- lines 263-274
  ⟨[], [⟨t!"Route", some [
    ⟨[t!"FaceId"], some t!"`tlv:\"0x69\"`", [t!"//+field:natural"]⟩,
    ⟨[t!"Origin"], some t!"`tlv:\"0x6f\"`", [t!"//+field:natural"]⟩,
    ⟨[t!"Cost"], some t!"`tlv:\"0x6a\"`", [t!"//+field:natural"]⟩,
    ⟨[t!"Flags"], some t!"`tlv:\"0x6c\"`", [t!"//+field:natural"]⟩,
    ⟨[t!"ExpirationPeriod"], some t!"`tlv:\"0x6d\"`", [t!"//+field:natural:optional"]⟩]⟩]⟩,
  -- lines 276-281
  ⟨[], [⟨t!"RibEntry", some [
    ⟨[t!"Name"], some t!"`tlv:\"0x07\"`", [t!"//+field:name"]⟩,
    ⟨[t!"Routes"], some t!"`tlv:\"0x81\"`", [t!"//+field:sequence:*Route:struct:Route"]⟩]⟩]⟩,
  -- lines 283-286
  ⟨[], [⟨t!"RibStatus", some [
    ⟨[t!"Entries"], some t!"`tlv:\"0x80\"`", [t!"//+field:sequence:*RibEntry:struct:RibEntry"]⟩]⟩]⟩,
  -- lines 288-293
  ⟨[], [⟨t!"NextHopRecord", some [
    ⟨[t!"FaceId"], some t!"`tlv:\"0x69\"`", [t!"//+field:natural"]⟩,
    ⟨[t!"Cost"], some t!"`tlv:\"0x6a\"`", [t!"//+field:natural"]⟩]⟩]⟩,
  -- lines 295-300
  ⟨[], [⟨t!"FibEntry", some [
    ⟨[t!"Name"], some t!"`tlv:\"0x07\"`", [t!"//+field:name"]⟩,
    ⟨[t!"NextHopRecords"], some t!"`tlv:\"0x81\"`", [t!"//+field:sequence:*NextHopRecord:struct:NextHopRecord"]⟩]⟩]⟩,
  -- lines 302-305
  ⟨[], [⟨t!"FibStatus", some [
    ⟨[t!"Entries"], some t!"`tlv:\"0x80\"`", [t!"//+field:sequence:*FibEntry:struct:FibEntry"]⟩]⟩]⟩,
  -- lines 307-312
  ⟨[], [⟨t!"StrategyChoice", some [
    ⟨[t!"Name"], some t!"`tlv:\"0x07\"`", [t!"//+field:name"]⟩,
    ⟨[t!"Strategy"], some t!"`tlv:\"0x6b\"`", [t!"//+field:struct:Strategy"]⟩]⟩]⟩,
  -- lines 314-317
  ⟨[], [⟨t!"StrategyChoiceMsg", some [
    ⟨[t!"StrategyChoices"], some t!"`tlv:\"0x80\"`", [t!"//+field:sequence:*StrategyChoice:struct:StrategyChoice"]⟩]⟩]⟩,
  -- lines 319-330
  ⟨[], [⟨t!"CsInfo", some [
    ⟨[t!"Capacity"], some t!"`tlv:\"0x83\"`", [t!"//+field:natural"]⟩,
    ⟨[t!"Flags"], some t!"`tlv:\"0x6c\"`", [t!"//+field:natural"]⟩,
    ⟨[t!"NCsEntries"], some t!"`tlv:\"0x87\"`", [t!"//+field:natural"]⟩,
    ⟨[t!"NHits"], some t!"`tlv:\"0x81\"`", [t!"//+field:natural"]⟩,
    ⟨[t!"NMisses"], some t!"`tlv:\"0x82\"`", [t!"//+field:natural"]⟩]⟩]⟩,
  -- lines 332-335
  ⟨[], [⟨t!"CsInfoMsg", some [
    ⟨[t!"CsInfo"], some t!"`tlv:\"0x80\"`", [t!"//+field:struct:CsInfo"]⟩]⟩]⟩,
  -- lines 338-342
  ⟨[t!"// No Tlv numbers assigned yet"], [⟨t!"CsQuery", some [
    ⟨[t!"Name"], none, []⟩,
    ⟨[t!"PacketSize"], none, []⟩,
    ⟨[t!"FreshnessPeriod"], none, []⟩]⟩]⟩]

/-- the type declarations of /repo/pkg/security/ndncert_0_3/tlv.go -/
def certSource : List DeclSrc := [
  -- lines 8-19
  ⟨[], [⟨t!"CaProfile", some [
    ⟨[t!"CaPrefix"], some t!"`tlv:\"0x81\"`", [t!"//+field:name"]⟩,
    ⟨[t!"CaInfo"], some t!"`tlv:\"0x83\"`", [t!"//+field:string"]⟩,
    ⟨[t!"ParamKey"], some t!"`tlv:\"0x85\"`", [t!"//+field:sequence:string:string"]⟩,
    ⟨[t!"MaxValidPeriod"], some t!"`tlv:\"0x8B\"`", [t!"//+field:natural"]⟩,
    ⟨[t!"CaCert"], some t!"`tlv:\"0x89\"`", [t!"//+field:wire"]⟩]⟩]⟩,
  -- lines 21-24
  ⟨[], [⟨t!"ProbeIntAppParam", some [
    ⟨[t!"Params"], some t!"`tlv:\"0x85\"`", [t!"//+field:map:string:string:0x87:[]byte:binary"]⟩]⟩]⟩,
  -- lines 26-31
  ⟨[], [⟨t!"ProbeRes", some [
    ⟨[t!"Response"], some t!"`tlv:\"0x07\"`", [t!"//+field:name"]⟩,
    ⟨[t!"MaxSuffixLength"], none, [t!"//+field:natural:optional"]⟩]⟩]⟩,
  -- lines 33-36
  ⟨[], [⟨t!"ProbeResContent", some [
    ⟨[t!"Vals"], some t!"`tlv:\"0x8D\"`", [t!"//+field:sequence:*ProbeRes:struct:ProbeRes"]⟩]⟩]⟩,
  -- lines 38-43
  ⟨[], [⟨t!"CmdNewInt", some [
    ⟨[t!"EcdhPub"], some t!"`tlv:\"0x91\"`", [t!"//+field:binary"]⟩,
    ⟨[t!"CertReq"], some t!"`tlv:\"0x93\"`", [t!"//+field:binary"]⟩]⟩]⟩,
  -- lines 45-54
  ⟨[], [⟨t!"CmdNewData", some [
    ⟨[t!"EcdhPub"], some t!"`tlv:\"0x91\"`", [t!"//+field:binary"]⟩,
    ⟨[t!"Salt"], some t!"`tlv:\"0x95\"`", [t!"//+field:binary"]⟩,
    ⟨[t!"ReqId"], some t!"`tlv:\"0x97\"`", [t!"//+field:binary"]⟩,
    ⟨[t!"Challenge"], some t!"`tlv:\"0x99\"`", [t!"//+field:sequence:string:string"]⟩]⟩]⟩,
  -- lines 56-63
  ⟨[], [⟨t!"CipherMsg", some [
    ⟨[t!"InitVec"], some t!"`tlv:\"0x9D\"`", [t!"//+field:binary"]⟩,
    ⟨[t!"AuthNTag"], some t!"`tlv:\"0xAF\"`", [t!"//+field:binary"]⟩,
    ⟨[t!"Payload"], some t!"`tlv:\"0x9F\"`", [t!"//+field:binary"]⟩]⟩]⟩,
  -- lines 65-70
  ⟨[], [⟨t!"ChallengeIntPlain", some [
    ⟨[t!"SelectedChal"], some t!"`tlv:\"0xA1\"`", [t!"//+field:string"]⟩,
    ⟨[t!"Params"], some t!"`tlv:\"0x85\"`", [t!"//+field:map:string:string:0x87:[]byte:binary"]⟩]⟩]⟩,
  -- lines 72-87
  ⟨[], [⟨t!"ChallengeDataPlain", some [
    ⟨[t!"Status"], some t!"`tlv:\"0x9B\"`", [t!"//+field:natural"]⟩,
    ⟨[t!"ChalStatus"], some t!"`tlv:\"0xA3\"`", [t!"//+field:string:optional"]⟩,
    ⟨[t!"RemainTries"], some t!"`tlv:\"0xA5\"`", [t!"//+field:natural:optional"]⟩,
    ⟨[t!"RemainTime"], some t!"`tlv:\"0xA7\"`", [t!"//+field:natural:optional"]⟩,
    ⟨[t!"CertName"], some t!"`tlv:\"0xA9\"`", [t!"//+field:name"]⟩,
    ⟨[t!"ForwardingHint"], some t!"`tlv:\"0x1e\"`", [t!"//+field:name"]⟩,
    ⟨[t!"Params"], some t!"`tlv:\"0x85\"`", [t!"//+field:map:string:string:0x87:[]byte:binary"]⟩]⟩]⟩,
  -- lines 89-94
  ⟨[], [⟨t!"ErrorMsgData", some [
    ⟨[t!"ErrCode"], some t!"`tlv:\"0xAB\"`", [t!"//+field:natural"]⟩,
    ⟨[t!"ErrInfo"], some t!"`tlv:\"0xAD\"`", [t!"//+field:string"]⟩]⟩]⟩]

/-- the type declarations of /repo/pkg/sync/tlv.go -/
def syncSource : List DeclSrc := [
  -- lines 8-11
  ⟨[], [⟨t!"StateVectorAppParam", some [
    ⟨[t!"StateVector"], some t!"`tlv:\"0xc9\"`", [t!"//+field:struct:StateVector"]⟩]⟩]⟩,
  -- lines 13-16
  ⟨[], [⟨t!"StateVector", some [
    ⟨[t!"Entries"], some t!"`tlv:\"0xca\"`", [t!"//+field:sequence:*StateVectorEntry:struct:StateVectorEntry"]⟩]⟩]⟩,
  -- lines 18-23
  ⟨[], [⟨t!"StateVectorEntry", some [
    ⟨[t!"NodeId"], some t!"`tlv:\"0x07\"`", [t!"//+field:name"]⟩,
    ⟨[t!"SeqNo"], some t!"`tlv:\"0xcc\"`", [t!"//+field:natural"]⟩]⟩]⟩]

/-- the type declarations of /repo/pkg/schema/svs/tlv.go -/
def svsSource : List DeclSrc := [
  -- lines 4-9
  ⟨[], [⟨t!"StateVecEntry", some [
    ⟨[t!"NodeId"], some t!"`tlv:\"0x07\"`", [t!"//+field:binary"]⟩,
    ⟨[t!"SeqNo"], some t!"`tlv:\"0xcc\"`", [t!"//+field:natural"]⟩]⟩]⟩,
  -- lines 11-14
  ⟨[], [⟨t!"StateVec", some [
    ⟨[t!"Entries"], some t!"`tlv:\"0xca\"`", [t!"//+field:sequence:*StateVecEntry:struct:StateVecEntry"]⟩]⟩]⟩,
  -- lines 16-19
  ⟨[], [⟨t!"StateVecAppParam", some [
    ⟨[t!"Entries"], some t!"`tlv:\"0xc9\"`", [t!"//+field:struct:StateVec"]⟩]⟩]⟩]

/-- the type declarations of /repo/pkg/schema/demosec/tlv.go -/
def demosecSource : List DeclSrc := [
  -- lines 7-16
  ⟨[t!"// +tlv-model:nocopy"], [⟨t!"EncryptedContent", some [
    ⟨[t!"KeyId"], some t!"`tlv:\"0x82\"`", [t!"//+field:binary"]⟩,
    ⟨[t!"Iv"], some t!"`tlv:\"0x84\"`", [t!"//+field:binary"]⟩,
    ⟨[t!"ContentLength"], some t!"`tlv:\"0x86\"`", [t!"//+field:natural"]⟩,
    ⟨[t!"CipherText"], some t!"`tlv:\"0x88\"`", [t!"//+field:wire"]⟩]⟩]⟩]

/-- the type declarations of /repo/pkg/schema/rdr/tlv.go -/
def rdrSource : List DeclSrc := [
  -- lines 6-11
  ⟨[], [⟨t!"ManifestDigest", some [
    ⟨[t!"SegNo"], some t!"`tlv:\"0xcc\"`", [t!"//+field:natural"]⟩,
    ⟨[t!"Digest"], some t!"`tlv:\"0xce\"`", [t!"//+field:binary"]⟩]⟩]⟩,
  -- lines 13-16
  ⟨[], [⟨t!"ManifestData", some [
    ⟨[t!"Entries"], some t!"`tlv:\"0xca\"`", [t!"//+field:sequence:*ManifestDigest:struct:ManifestDigest"]⟩]⟩]⟩,
  -- lines 18-39
  ⟨[], [⟨t!"MetaData", some [
    ⟨[t!"Name"], some t!"`tlv:\"0x07\"`", [t!"//+field:name"]⟩,
    ⟨[t!"FinalBlockID"], some t!"`tlv:\"0x1a\"`", [t!"//+field:binary"]⟩,
    ⟨[t!"SegmentSize"], some t!"`tlv:\"0xf500\"`", [t!"//+field:natural:optional"]⟩,
    ⟨[t!"Size"], some t!"`tlv:\"0xf502\"`", [t!"//+field:natural:optional"]⟩,
    ⟨[t!"Mode"], some t!"`tlv:\"0xf504\"`", [t!"//+field:natural:optional"]⟩,
    ⟨[t!"Atime"], some t!"`tlv:\"0xf506\"`", [t!"//+field:natural:optional"]⟩,
    ⟨[t!"Btime"], some t!"`tlv:\"0xf508\"`", [t!"//+field:natural:optional"]⟩,
    ⟨[t!"Ctime"], some t!"`tlv:\"0xf50a\"`", [t!"//+field:natural:optional"]⟩,
    ⟨[t!"Mtime"], some t!"`tlv:\"0xf50c\"`", [t!"//+field:natural:optional"]⟩,
    ⟨[t!"ObjectType"], some t!"`tlv:\"0xf50e\"`", [t!"//+field:string:optional"]⟩]⟩]⟩]

/-- the type declarations of /repo/examples/schema-test/shared-doc/crdt/tlv.go -/
def crdtSource : List DeclSrc := [
  -- lines 4-9
  ⟨[], [⟨t!"IDType", some [
    ⟨[t!"Producer"], some t!"`tlv:\"0xa1\"`", [t!"//+field:natural"]⟩,
    ⟨[t!"Clock"], some t!"`tlv:\"0xa3\"`", [t!"//+field:natural"]⟩]⟩]⟩,
  -- lines 17-28
  ⟨[], [⟨t!"Record", some [
    ⟨[t!"RecordType"], some t!"`tlv:\"0xa5\"`", [t!"//+field:natural"]⟩,
    ⟨[t!"ID"], some t!"`tlv:\"0xa7\"`", [t!"//+field:struct:IDType"]⟩,
    ⟨[t!"Origin"], some t!"`tlv:\"0xa9\"`", [t!"//+field:struct:IDType"]⟩,
    ⟨[t!"RightOrigin"], some t!"`tlv:\"0xaa\"`", [t!"//+field:struct:IDType"]⟩,
    ⟨[t!"Content"], some t!"`tlv:\"0xac\"`", [t!"//+field:string"]⟩]⟩]⟩]

end Ndn.Codec.Gen
