import Verif.Codec.Schemas
import Verif.Codec.Map

/-!
# The other TLV messages of the library

Management (`/repo/pkg/ndn/mgmt_2022/definitions.go`), NDNCERT (`/repo/pkg/security/ndncert_0_3/tlv.go`), the sync node
(`/repo/pkg/schema/svs/tlv.go`), encryption (`/repo/pkg/schema/demosec/tlv.go`) and the shared document
(`/repo/examples/schema-test/shared-doc/crdt/tlv.go`).  `CsQuery` has no field comments, so that nothing is generated for it.
A field `binary` or `name` is absent when it is nil, hence `opt`.
-/

namespace Ndn.Codec.Schema
open Ndn.Codec Fields Elem Mode

/-! ## Management -/

/-- definitions.go:115-132 -/
def faceEventNotificationValue : Fields :=
  cons 0xc1 req nat <| cons 0x69 req nat <| cons 0x72 req str <| cons 0x81 req str <| cons 0x84 req nat <| cons 0x85 req nat <|
  cons 0x86 req nat <| cons 0x6c req nat nil
/-- definitions.go:134-137 -/
def faceEventNotification : Fields := cons 0xc0 opt (struct faceEventNotificationValue) nil
/-- definitions.go:139-191 -/
def generalStatus : Fields :=
  cons 0x80 req str <| cons 0x81 req nat <| cons 0x82 req nat <| cons 0x83 req nat <| cons 0x84 req nat <| cons 0x85 req nat <|
  cons 0x86 req nat <| cons 0x87 req nat <| cons 0x90 req nat <| cons 0x91 req nat <| cons 0x97 req nat <| cons 0x92 req nat <|
  cons 0x93 req nat <| cons 0x98 req nat <| cons 0x99 req nat <| cons 0x9a req nat <| cons 0xc8 opt nat <| cons 0xc9 opt nat <|
  cons 0xca opt nat <| cons 0xcb opt nat <| cons 0xcc opt nat <| cons 0xcd opt nat <| cons 0xce opt nat <| cons 0xcf opt nat <|
  cons 0xd0 opt nat nil
/-- definitions.go:193-234 -/
def faceStatus : Fields :=
  cons 0x69 req nat <| cons 0x72 req str <| cons 0x81 req str <| cons 0x6d opt nat <| cons 0x84 req nat <| cons 0x85 req nat <|
  cons 0x86 req nat <| cons 0x87 opt nat <| cons 0x88 opt nat <| cons 0x89 opt nat <| cons 0x90 req nat <| cons 0x91 req nat <|
  cons 0x97 req nat <| cons 0x92 req nat <| cons 0x93 req nat <| cons 0x98 req nat <| cons 0x94 req nat <| cons 0x95 req nat <|
  cons 0x6c req nat nil
/-- definitions.go:236-239 -/
def faceStatusMsg : Fields := cons 0x80 seq (struct faceStatus) nil
/-- definitions.go:241-256 -/
def faceQueryFilterValue : Fields :=
  cons 0x69 opt nat <| cons 0x83 opt str <| cons 0x72 opt str <| cons 0x81 opt str <| cons 0x84 opt nat <| cons 0x85 opt nat <|
  cons 0x86 opt nat nil
/-- definitions.go:258-261 -/
def faceQueryFilter : Fields := cons 0x96 opt (struct faceQueryFilterValue) nil
/-- definitions.go:263-274 -/
def route : Fields := cons 0x69 req nat <| cons 0x6f req nat <| cons 0x6a req nat <| cons 0x6c req nat <| cons 0x6d opt nat nil
/-- definitions.go:276-281 -/
def ribEntry : Fields := cons 0x07 opt name <| cons 0x81 seq (struct route) nil
/-- definitions.go:283-286 -/
def ribStatus : Fields := cons 0x80 seq (struct ribEntry) nil
/-- definitions.go:288-293 -/
def nextHopRecord : Fields := cons 0x69 req nat <| cons 0x6a req nat nil
/-- definitions.go:295-300 -/
def fibEntry : Fields := cons 0x07 opt name <| cons 0x81 seq (struct nextHopRecord) nil
/-- definitions.go:302-305 -/
def fibStatus : Fields := cons 0x80 seq (struct fibEntry) nil
/-- definitions.go:307-312 -/
def strategyChoice : Fields := cons 0x07 opt name <| cons 0x6b opt (struct strategy) nil
/-- definitions.go:314-317 -/
def strategyChoiceMsg : Fields := cons 0x80 seq (struct strategyChoice) nil
/-- definitions.go:319-330 -/
def csInfo : Fields := cons 0x83 req nat <| cons 0x6c req nat <| cons 0x87 req nat <| cons 0x81 req nat <| cons 0x82 req nat nil
/-- definitions.go:332-335 -/
def csInfoMsg : Fields := cons 0x80 opt (struct csInfo) nil

/-! ## NDNCERT -/

/-- ndncert_0_3/tlv.go:8-19 -/
def caProfile : Fields := cons 0x81 opt name <| cons 0x83 req str <| cons 0x85 seq str <| cons 0x8b req nat <| cons 0x89 opt wire nil
/-- ndncert_0_3/tlv.go:21-24 -/
def probeIntAppParam : MapMsg := ⟨nil, 0x85, .str, 0x87, .bin⟩
/-- ndncert_0_3/tlv.go:38-43 -/
def cmdNewInt : Fields := cons 0x91 opt bin <| cons 0x93 opt bin nil
/-- ndncert_0_3/tlv.go:45-54 -/
def cmdNewData : Fields := cons 0x91 opt bin <| cons 0x95 opt bin <| cons 0x97 opt bin <| cons 0x99 seq str nil
/-- ndncert_0_3/tlv.go:56-63 -/
def cipherMsg : Fields := cons 0x9d opt bin <| cons 0xaf opt bin <| cons 0x9f opt bin nil
/-- ndncert_0_3/tlv.go:65-70 -/
def challengeIntPlain : MapMsg := ⟨cons 0xa1 req str nil, 0x85, .str, 0x87, .bin⟩
/-- ndncert_0_3/tlv.go:72-87 -/
def challengeDataPlain : MapMsg :=
  ⟨cons 0x9b req nat <| cons 0xa3 opt str <| cons 0xa5 opt nat <| cons 0xa7 opt nat <| cons 0xa9 opt name <| cons 0x1e opt name nil, 0x85, .str, 0x87, .bin⟩
/-- ndncert_0_3/tlv.go:89-94 -/
def errorMsgData : Fields := cons 0xab req nat <| cons 0xad req str nil

/-- `ProbeRes`, ndncert_0_3/tlv.go:26-31: the second field has no tag, so that its type number is 0 (codegen/codegen.go: parseTag) -/
def probeRes : Fields := cons 0x07 opt name <| cons 0 opt nat nil
/-- the fields of `ProbeRes` that its parser has a case for: "if (ne $f.TypeNum 0)", codegen/model.go:187-192, zz_generated.go:873-961 -/
def probeResParsed : Fields := cons 0x07 opt name nil
/-- the parser of `ProbeRes`; the second field stays nil -/
def parseProbeRes (ic : Bool) (fuel : Nat) (r : BR) : PR probeRes.V :=
  (probeResParsed.parse ic fuel r).map fun v => (v.1, none, ())

/-! ## The sync node, encryption, the shared document -/

/-- schema/svs/tlv.go:4-9 -/
def svsEntry : Fields := cons 0x07 opt bin <| cons 0xcc req nat nil
/-- schema/svs/tlv.go:11-14 -/
def svsVec : Fields := cons 0xca seq (struct svsEntry) nil
/-- schema/svs/tlv.go:16-19 -/
def svsAppParam : Fields := cons 0xc9 opt (struct svsVec) nil
/-- crdt/tlv.go:4-9 -/
def crdtId : Fields := cons 0xa1 req nat <| cons 0xa3 req nat nil
/-- crdt/tlv.go:17-28 -/
def crdtRecord : Fields :=
  cons 0xa5 req nat <| cons 0xa7 opt (struct crdtId) <| cons 0xa9 opt (struct crdtId) <| cons 0xaa opt (struct crdtId) <| cons 0xac req str nil

/-- the messages without maps, here and in `Schemas` -/
def library : List Fields :=
  [keyLocator, links, metaInfo, validityPeriod, certDescriptionEntry, certAdditionalDescription, signatureInfo, networkNack, cachePolicy, lpPacket,
    strategy, controlArgs, controlResponseVal, controlParameters, controlResponse, stateVectorEntry, stateVector, stateVectorAppParam,
    faceEventNotificationValue, faceEventNotification, generalStatus, faceStatus, faceStatusMsg, faceQueryFilterValue, faceQueryFilter, route,
    ribEntry, ribStatus, nextHopRecord, fibEntry, fibStatus, strategyChoice, strategyChoiceMsg, csInfo, csInfoMsg,
    caProfile, cmdNewInt, cmdNewData, cipherMsg, errorMsgData, svsEntry, svsVec, svsAppParam, crdtId, crdtRecord]
/-- the messages with maps -/
def libraryMaps : List MapMsg := [probeIntAppParam, challengeIntPlain, challengeDataPlain]

end Ndn.Codec.Schema
