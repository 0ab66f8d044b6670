import Verif.Codec.Spec

/-!
# Schemas of `/repo`

The annotated structs that the rest of the code uses (without the packets with ordered fields).
-/

namespace Ndn.Codec.Schema
open Fields Elem Mode

/-- spec_2022/definitions.go:10-15 -/
def keyLocator : Fields := cons 0x07 opt name (cons 0x1d opt bin nil)
/-- spec_2022/definitions.go:17-20 -/
def links : Fields := cons 0x07 seq name nil
/-- spec_2022/definitions.go:22-29 -/
def metaInfo : Fields := cons 0x18 opt nat (cons 0x19 opt time (cons 0x1a opt bin nil))
/-- spec_2022/definitions.go:31-36 -/
def validityPeriod : Fields := cons 0xfe req str (cons 0xff req str nil)
/-- spec_2022/definitions.go:38-43 -/
def certDescriptionEntry : Fields := cons 0x0201 req str (cons 0x0202 req str nil)
/-- spec_2022/definitions.go:45-48 -/
def certAdditionalDescription : Fields := cons 0x0200 seq (struct certDescriptionEntry) nil
/-- spec_2022/definitions.go:50-65 -/
def signatureInfo : Fields :=
  cons 0x1b req nat <| cons 0x1c opt (struct keyLocator) <| cons 0x26 opt bin <| cons 0x28 opt time <|
  cons 0x2a opt nat <| cons 0xfd opt (struct validityPeriod) <|
  cons 0x0102 opt (struct certAdditionalDescription) nil
/-- spec_2022/definitions.go:74-77 -/
def networkNack : Fields := cons 0x0321 req nat nil
/-- spec_2022/definitions.go:79-82 -/
def cachePolicy : Fields := cons 0x0335 req nat nil
/-- spec_2022/definitions.go:84-115 -/
def lpPacket : Fields :=
  cons 0x51 opt (fixed 8 false) <| cons 0x52 opt nat <| cons 0x53 opt nat <| cons 0x62 opt bin <|
  cons 0x0320 opt (struct networkNack) <| cons 0x032C opt nat <| cons 0x0330 opt nat <|
  cons 0x0334 opt (struct cachePolicy) <| cons 0x0340 opt nat <| cons 0x0344 opt (fixed 8 false) <|
  cons 0x0348 opt (fixed 8 false) <|
  flag 0x034C <| cons 0x0350 opt wire <| cons 0x50 opt wire nil
/-- mgmt_2022/definitions.go:51-55 -/
def strategy : Fields := cons 0x07 opt name nil
/-- mgmt_2022/definitions.go:57-93 -/
def controlArgs : Fields :=
  cons 0x07 opt name <| cons 0x69 opt nat <| cons 0x72 opt str <| cons 0x81 opt str <| cons 0x6f opt nat <|
  cons 0x6a opt nat <| cons 0x83 opt nat <| cons 0x84 opt nat <| cons 0x6c opt nat <| cons 0x70 opt nat <|
  cons 0x6b opt (struct strategy) <| cons 0x6d opt nat <| cons 0x85 opt nat <| cons 0x87 opt nat <|
  cons 0x88 opt nat <| cons 0x89 opt nat nil
/-- mgmt_2022/definitions.go:95-103 -/
def controlResponseVal : Fields :=
  cons 0x66 req nat <| cons 0x67 req str <| cons 0x68 opt (struct controlArgs) nil
/-- mgmt_2022/definitions.go:105-108 -/
def controlParameters : Fields := cons 0x68 opt (struct controlArgs) nil
/-- mgmt_2022/definitions.go:110-113 -/
def controlResponse : Fields := cons 0x65 opt (struct controlResponseVal) nil
/-- sync/tlv.go:18-23 -/
def stateVectorEntry : Fields := cons 0x07 opt name <| cons 0xcc req nat nil
/-- sync/tlv.go:13-16 -/
def stateVector : Fields := cons 0xca seq (struct stateVectorEntry) nil
/-- sync/tlv.go:8-11 -/
def stateVectorAppParam : Fields := cons 0xc9 opt (struct stateVector) nil

theorem keyLocator_wf : keyLocator.WF := by simp [keyLocator, Fields.WF, Elem.WF, Fields.types]
theorem links_wf : links.WF := by simp [links, Fields.WF, Elem.WF, Fields.types]
theorem metaInfo_wf : metaInfo.WF := by simp [metaInfo, Fields.WF, Elem.WF, Fields.types]
theorem signatureInfo_wf : signatureInfo.WF := by
  simp [signatureInfo, keyLocator, validityPeriod, certAdditionalDescription, certDescriptionEntry, Fields.WF, Elem.WF,
    Fields.types]
theorem lpPacket_wf : lpPacket.WF := by
  simp [lpPacket, networkNack, cachePolicy, Fields.WF, Elem.WF, Fields.types]
theorem controlArgs_wf : controlArgs.WF := by simp [controlArgs, strategy, Fields.WF, Elem.WF, Fields.types]
theorem controlParameters_wf : controlParameters.WF := by
  simp only [controlParameters, Fields.WF, Elem.WF, Fields.types]; exact ⟨by decide, by decide, by simp, controlArgs_wf, trivial⟩
theorem controlResponse_wf : controlResponse.WF := by
  simp only [controlResponse, controlResponseVal, Fields.WF, Elem.WF, Fields.types]
  exact ⟨by decide, by decide, by simp, ⟨by decide, by decide, by simp, trivial, by decide, by decide, by simp, trivial,
    by decide, by decide, by simp, controlArgs_wf, trivial⟩, trivial⟩
theorem stateVectorAppParam_wf : stateVectorAppParam.WF := by
  simp [stateVectorAppParam, stateVector, stateVectorEntry, Fields.WF, Elem.WF, Fields.types]

end Ndn.Codec.Schema
