import Verif.Packet.Total
import Verif.Packet.InterestParse

/-! # Packets with one element, and evaluation on given bytes (lemmas) -/

namespace Ndn.Packet
open Ndn.Codec Ndn.Codec.Schema

theorem packet_elem {typ : Nat} {body : Bytes} (ht : typ ∈ packetTypes) (hl : body.length < 2 ^ 61) {F : Nat} (hF : 2 ≤ F) {s : PacketSt}
    (h : ∀ r r1 : BR, BR.delegate (toInt body.length) r = (.ok (BR.new body), r1) → packetRead false F typ body.length {} r = some (.ok s, r1)) :
    parsePacket false F (BR.new (tlv typ body)) = some (.ok s, (BR.new (tlv typ body)).adv (tlv typ body).length) := by
  have ht64 : typ < 2 ^ 64 := by
    simp only [packetTypes, List.mem_cons, List.not_mem_nil, or_false] at ht
    omega
  obtain ⟨f, rfl⟩ : ∃ f, F = f + 1 + 1 := ⟨F - 2, by omega⟩
  unfold parsePacket
  have hr : (BR.new (tlv typ body)).rest = tlv typ body ++ [] := by rw [BR.rest_new, List.append_nil]
  rw [parseLoop_known (st' := s) (f + 1) hr ht64 (by omega) (by simpa using ht)]
  · rw [parseLoop_end]
    rw [BR.rest_adv, BR.rest_new, List.drop_length]
  · intro r2 h1 h2 h3 h4
    have hlen : (tlv typ body).length < 2 ^ 62 := by
      rw [tlv_length]
      have := tlLen_le typ; have := tlLen_le body.length
      omega
    apply h
    rw [toInt_small (by omega), BR.delegate_ok ⟨h4, by rw [h3]; exact hlen⟩ (by rw [h1]; simp), h1]
    simp

theorem packet_data {body : Bytes} (hl : body.length < 2 ^ 61) {F : Nat} (hF : 2 ≤ F) {p : DataV × DataCtx} {r' : BR}
    (h : parseData false F {} (BR.new body) = some (.ok p, r')) :
    ∃ r, parsePacket false F (BR.new (tlv 6 body)) = some (.ok { data := some p.1, dctx := p.2 }, r) := by
  refine ⟨_, packet_elem (by decide) hl hF ?_⟩
  intro r r1 hd
  unfold packetRead
  rw [hd]
  simp only
  rw [if_neg (by decide), if_pos trivial, h]

theorem packet_interest {body : Bytes} (hl : body.length < 2 ^ 61) {F : Nat} (hF : 2 ≤ F) {p : InterestV × InterestCtx} {r' : BR}
    (h : parseInterest false F {} (BR.new body) = some (.ok p, r')) :
    ∃ r, parsePacket false F (BR.new (tlv 5 body)) = some (.ok { interest := some p.1, ictx := p.2 }, r) := by
  refine ⟨_, packet_elem (by decide) hl hF ?_⟩
  intro r r1 hd
  unfold packetRead
  rw [hd]
  simp only
  rw [if_pos trivial, h]

theorem readTL_at {buf : Bytes} {pos : Nat} {b : UInt8} (h : buf[pos]? = some b) (hb : b.toNat ≤ 0xfc) :
    BR.readTL ⟨buf, pos⟩ = (.ok b.toNat, ⟨buf, pos + 1⟩) := by
  obtain ⟨h1, h2⟩ := List.getElem?_eq_some_iff.mp h
  have hd : (BR.rest ⟨buf, pos⟩) = b :: buf.drop (pos + 1) := by
    unfold BR.rest; simp only; rw [List.drop_eq_getElem_cons h1, h2]
  have s1 : TLSplit (BR.rest ⟨buf, pos⟩) b.toNat 1 := by rw [hd]; exact .one b _ hb
  have := readTL_of_split (r := ⟨buf, pos⟩) s1
  exact this


theorem wrap64_nat {l : Nat} (h : l < 2 ^ 63) : wrap64 (l : Int) = l := wrap64_id (by omega) (by omega)

theorem toInt_lit {l : Nat} (h : l < 2 ^ 62) : toInt l = l := toInt_small h

/-- evaluate a packet parser on given bytes, with facts about its elements -/
macro "eval_packet" "[" ts:Lean.Parser.Tactic.simpLemma,* "]" : tactic => `(tactic|
  simp [readData, readInterest, readPacket, finishParse, parsePacket, parseLoop, packetTypes, packetRead, BR.delegate, checkInterest, typParamsDigest,
    BR.new, readTL_at, Elem.V, toInt_lit, isCritical, BR.skip, BR.slice, wrap64_id, $ts,*])

/-- evaluate the parser of a Data on given bytes -/
macro "eval_parse" : tactic => `(tactic|
  simp [BR.delegate, parseLoop,
    parseData, ordParse, ordLoop, BR.new, dataSlots, readTL_at, ordInner, knows, argSlot, markSlot, elemSlot, sigSlot, Elem.read,
    readNameField, readNameSlots, readComponent, Elem.V, metaInfo, Fields.parse, Fields.types, Fields.init, Fields.finish, bind, pure, RM.bind, RM.pure,
    RM.onErr, toInt_lit, isCritical, BR.skip, BR.readWire, BR.readBuf, BR.slice, BR.range, rangeOf, wrap64_id, maxAlloc, ordFinish, Res.bind, PR.map, Res.map])

end Ndn.Packet
