import Verif.Codec.GoText
import Verif.Codec.GeneratedInterest
import Verif.Codec.GeneratedNoCopy
import Verif.Codec.OuterProps
import Verif.Codec.OuterPlain
import Verif.Enc.PrimLemmas

/-!
# The encoder of `Packet` in the repository

The Go below is copied from `/repo/pkg/ndn/spec_2022/zz_generated.go`.
-/

namespace Ndn.Codec.Gen

/-- the types and methods of the encoder of `Packet`, copied from `/repo/pkg/ndn/spec_2022/zz_generated.go` -/
def packetGo : Nat × Nat := go! r#"type PacketEncoder struct {
	length uint

	wirePlan []uint

	Interest_encoder InterestEncoder
	Data_encoder     DataEncoder
	LpPacket_encoder LpPacketEncoder
}
func (encoder *PacketEncoder) Init(value *Packet) {
	if value.Interest != nil {
		encoder.Interest_encoder.Init(value.Interest)
	}
	if value.Data != nil {
		encoder.Data_encoder.Init(value.Data)
	}
	if value.LpPacket != nil {
		encoder.LpPacket_encoder.Init(value.LpPacket)
	}

	l := uint(0)
	if value.Interest != nil {
		l += 1
		switch x := encoder.Interest_encoder.length; {
		case x <= 0xfc:
			l += 1
		case x <= 0xffff:
			l += 3
		case x <= 0xffffffff:
			l += 5
		default:
			l += 9
		}
		l += encoder.Interest_encoder.length
	}
	if value.Data != nil {
		l += 1
		switch x := encoder.Data_encoder.length; {
		case x <= 0xfc:
			l += 1
		case x <= 0xffff:
			l += 3
		case x <= 0xffffffff:
			l += 5
		default:
			l += 9
		}
		l += encoder.Data_encoder.length
	}
	if value.LpPacket != nil {
		l += 1
		switch x := encoder.LpPacket_encoder.length; {
		case x <= 0xfc:
			l += 1
		case x <= 0xffff:
			l += 3
		case x <= 0xffffffff:
			l += 5
		default:
			l += 9
		}
		l += encoder.LpPacket_encoder.length
	}
	encoder.length = l

	wirePlan := make([]uint, 0)
	l = uint(0)
	if value.Interest != nil {
		l += 1
		switch x := encoder.Interest_encoder.length; {
		case x <= 0xfc:
			l += 1
		case x <= 0xffff:
			l += 3
		case x <= 0xffffffff:
			l += 5
		default:
			l += 9
		}
		if encoder.Interest_encoder.length > 0 {
			l += encoder.Interest_encoder.wirePlan[0]
			for i := 1; i < len(encoder.Interest_encoder.wirePlan); i++ {
				wirePlan = append(wirePlan, l)
				l = 0
				l = encoder.Interest_encoder.wirePlan[i]
			}
			if l == 0 {
				wirePlan = append(wirePlan, l)
				l = 0
			}
		}
	}
	if value.Data != nil {
		l += 1
		switch x := encoder.Data_encoder.length; {
		case x <= 0xfc:
			l += 1
		case x <= 0xffff:
			l += 3
		case x <= 0xffffffff:
			l += 5
		default:
			l += 9
		}
		if encoder.Data_encoder.length > 0 {
			l += encoder.Data_encoder.wirePlan[0]
			for i := 1; i < len(encoder.Data_encoder.wirePlan); i++ {
				wirePlan = append(wirePlan, l)
				l = 0
				l = encoder.Data_encoder.wirePlan[i]
			}
			if l == 0 {
				wirePlan = append(wirePlan, l)
				l = 0
			}
		}
	}
	if value.LpPacket != nil {
		l += 1
		switch x := encoder.LpPacket_encoder.length; {
		case x <= 0xfc:
			l += 1
		case x <= 0xffff:
			l += 3
		case x <= 0xffffffff:
			l += 5
		default:
			l += 9
		}
		if encoder.LpPacket_encoder.length > 0 {
			l += encoder.LpPacket_encoder.wirePlan[0]
			for i := 1; i < len(encoder.LpPacket_encoder.wirePlan); i++ {
				wirePlan = append(wirePlan, l)
				l = 0
				l = encoder.LpPacket_encoder.wirePlan[i]
			}
			if l == 0 {
				wirePlan = append(wirePlan, l)
				l = 0
			}
		}
	}
	if l > 0 {
		wirePlan = append(wirePlan, l)
	}
	encoder.wirePlan = wirePlan
}
func (encoder *PacketEncoder) EncodeInto(value *Packet, wire enc.Wire) {

	wireIdx := 0
	buf := wire[wireIdx]

	pos := uint(0)

	if value.Interest != nil {
		buf[pos] = byte(5)
		pos += 1
		switch x := encoder.Interest_encoder.length; {
		case x <= 0xfc:
			buf[pos] = byte(x)
			pos += 1
		case x <= 0xffff:
			buf[pos] = 0xfd
			binary.BigEndian.PutUint16(buf[pos+1:], uint16(x))
			pos += 3
		case x <= 0xffffffff:
			buf[pos] = 0xfe
			binary.BigEndian.PutUint32(buf[pos+1:], uint32(x))
			pos += 5
		default:
			buf[pos] = 0xff
			binary.BigEndian.PutUint64(buf[pos+1:], uint64(x))
			pos += 9
		}
		if encoder.Interest_encoder.length > 0 {
			{
				subWire := make(enc.Wire, len(encoder.Interest_encoder.wirePlan))
				subWire[0] = buf[pos:]
				for i := 1; i < len(subWire); i++ {
					subWire[i] = wire[wireIdx+i]
				}
				encoder.Interest_encoder.EncodeInto(value.Interest, subWire)
				for i := 1; i < len(subWire); i++ {
					wire[wireIdx+i] = subWire[i]
				}
				if lastL := encoder.Interest_encoder.wirePlan[len(subWire)-1]; lastL > 0 {
					wireIdx += len(subWire) - 1
					if len(subWire) > 1 {
						pos = lastL
					} else {
						pos += lastL
					}
				} else {
					wireIdx += len(subWire)
					pos = 0
				}
				if wireIdx < len(wire) {
					buf = wire[wireIdx]
				} else {
					buf = nil
				}
			}
		}
	}
	if value.Data != nil {
		buf[pos] = byte(6)
		pos += 1
		switch x := encoder.Data_encoder.length; {
		case x <= 0xfc:
			buf[pos] = byte(x)
			pos += 1
		case x <= 0xffff:
			buf[pos] = 0xfd
			binary.BigEndian.PutUint16(buf[pos+1:], uint16(x))
			pos += 3
		case x <= 0xffffffff:
			buf[pos] = 0xfe
			binary.BigEndian.PutUint32(buf[pos+1:], uint32(x))
			pos += 5
		default:
			buf[pos] = 0xff
			binary.BigEndian.PutUint64(buf[pos+1:], uint64(x))
			pos += 9
		}
		if encoder.Data_encoder.length > 0 {
			{
				subWire := make(enc.Wire, len(encoder.Data_encoder.wirePlan))
				subWire[0] = buf[pos:]
				for i := 1; i < len(subWire); i++ {
					subWire[i] = wire[wireIdx+i]
				}
				encoder.Data_encoder.EncodeInto(value.Data, subWire)
				for i := 1; i < len(subWire); i++ {
					wire[wireIdx+i] = subWire[i]
				}
				if lastL := encoder.Data_encoder.wirePlan[len(subWire)-1]; lastL > 0 {
					wireIdx += len(subWire) - 1
					if len(subWire) > 1 {
						pos = lastL
					} else {
						pos += lastL
					}
				} else {
					wireIdx += len(subWire)
					pos = 0
				}
				if wireIdx < len(wire) {
					buf = wire[wireIdx]
				} else {
					buf = nil
				}
			}
		}
	}
	if value.LpPacket != nil {
		buf[pos] = byte(100)
		pos += 1
		switch x := encoder.LpPacket_encoder.length; {
		case x <= 0xfc:
			buf[pos] = byte(x)
			pos += 1
		case x <= 0xffff:
			buf[pos] = 0xfd
			binary.BigEndian.PutUint16(buf[pos+1:], uint16(x))
			pos += 3
		case x <= 0xffffffff:
			buf[pos] = 0xfe
			binary.BigEndian.PutUint32(buf[pos+1:], uint32(x))
			pos += 5
		default:
			buf[pos] = 0xff
			binary.BigEndian.PutUint64(buf[pos+1:], uint64(x))
			pos += 9
		}
		if encoder.LpPacket_encoder.length > 0 {
			{
				subWire := make(enc.Wire, len(encoder.LpPacket_encoder.wirePlan))
				subWire[0] = buf[pos:]
				for i := 1; i < len(subWire); i++ {
					subWire[i] = wire[wireIdx+i]
				}
				encoder.LpPacket_encoder.EncodeInto(value.LpPacket, subWire)
				for i := 1; i < len(subWire); i++ {
					wire[wireIdx+i] = subWire[i]
				}
				if lastL := encoder.LpPacket_encoder.wirePlan[len(subWire)-1]; lastL > 0 {
					wireIdx += len(subWire) - 1
					if len(subWire) > 1 {
						pos = lastL
					} else {
						pos += lastL
					}
				} else {
					wireIdx += len(subWire)
					pos = 0
				}
				if wireIdx < len(wire) {
					buf = wire[wireIdx]
				} else {
					buf = nil
				}
			}
		}
	}
}
func (encoder *PacketEncoder) Encode(value *Packet) enc.Wire {

	wire := make(enc.Wire, len(encoder.wirePlan))
	for i, l := range encoder.wirePlan {
		if l > 0 {
			wire[i] = make([]byte, l)
		}
	}
	encoder.EncodeInto(value, wire)

	return wire
}
"#

/-- the emitted text of the encoder of the model `n` is `g`, up to space -/
def SameOuter (ms : List TModel) (n : Txt) (g : Nat × Nat) : Prop := ∃ m, (ms.find? fun m => m.name == n) = some m ∧ (outerText m).map tight = goLines g

/-- the fields of `Packet`, definitions.go:175-182 -/
def packetFields : List Field :=
  [⟨t!"Interest", 0x05, .struct t!"Interest" true⟩, ⟨t!"Data", 0x06, .struct t!"Data" true⟩, ⟨t!"LpPacket", 0x64, .struct t!"LpPacket" true⟩]

def packetChecked : Bool :=
  match processAll asWritten specSource with
  | .ok ms => match ms.find? fun m => m.name == t!"Packet" with
    | some m => decide ((outerText m).map tight = goLines packetGo) && decide (m.fields = packetFields) && noCopyAt ms (ms.length + 1) t!"LpPacket" &&
        decide (resolve ms (ms.length + 1) t!"LpPacket" = some Schema.lpPacket)
    | none => false
  | _ => false

theorem packetChecked_true : packetChecked = true := by decide +kernel

/-- **C97, the text**: the encoder of `Packet` in the repository is what the generator writes, up to space -/
theorem C97_text {ord : Nat → List (Txt × Kind)} (h : ∀ i, (ord i).Perm classTable) : ∃ ms, processAll ord specSource = .ok ms ∧ SameOuter ms t!"Packet" packetGo := by
  have hb := packetChecked_true
  unfold packetChecked at hb
  split at hb
  · rename_i ms hms
    split at hb
    · rename_i m hm
      simp only [Bool.and_eq_true, decide_eq_true_eq] at hb
      exact ⟨ms, by rw [processAll_order h]; exact hms, m, hm, hb.1.1.1⟩
    · cases hb
  · cases hb

theorem packet_model {ord : Nat → List (Txt × Kind)} (h : ∀ i, (ord i).Perm classTable) {ms : List TModel} (hms : processAll ord specSource = .ok ms) :
    ∃ m, (ms.find? fun m => m.name == t!"Packet") = some m ∧ m.fields = packetFields ∧ noCopyAt ms (ms.length + 1) t!"LpPacket" = true ∧
      resolve ms (ms.length + 1) t!"LpPacket" = some Schema.lpPacket := by
  have hb := packetChecked_true
  unfold packetChecked at hb
  split at hb
  · rename_i ms' hms'
    rw [processAll_order h, hms'] at hms
    cases hms
    split at hb
    · rename_i m hm
      simp only [Bool.and_eq_true, decide_eq_true_eq] at hb
      exact ⟨m, hm, hb.1.1.2, hb.1.2, hb.2⟩
    · cases hb
  · cases hb

/-- the members of a `Packet` in which only the field `n` is present, and points to a struct with the members `kv0` -/
def Carries (kvs : List (Txt × GV)) (n : Txt) (kv0 : List (Txt × GV)) : Prop :=
  lookup n kvs = some (.ptr (.struct kv0)) ∧ ∀ f ∈ packetFields, f.name ≠ n → lookup f.name kvs = some .nil

/-- where `MakeInterest` puts the digest: the position in the Interest plus the lengths of the two numbers that it parses at the beginning of the first
buffer, spec.go:487-491 -/
def digestPlace (w : List Piece) (pos : Nat) : Option Nat :=
  match w with
  | [] => none
  | c :: _ => match parseTL c.bytes with
    | .ok (_, s1) => match parseTL (c.bytes.drop s1) with
      | .ok (_, s2) => some (pos + s1 + s2)
      | _ => none
    | _ => none

/-! ## Lemmas -/

theorem tlv_eq (n : Nat) (b : Bytes) : tlv n b = tlEnc n ++ tlEnc b.length ++ b := rfl

theorem tlv_len (n : Nat) (b : Bytes) : (tlv n b).length = (tlEnc n ++ tlEnc b.length).length + b.length := by simp only [tlv, List.length_append]

theorem set_tail {h b : Bytes} {w : List Piece} {i : Int} (hi : 0 < i) (x : Piece) :
    ∃ w', (Piece.own (h ++ b) :: w).set i.toNat x = .own (h ++ b) :: w' ∧ (Piece.own b :: w).set i.toNat x = .own b :: w' := by
  obtain ⟨k, hk⟩ : ∃ k, i.toNat = k + 1 := ⟨i.toNat - 1, by omega⟩
  rw [hk]
  exact ⟨w.set k x, rfl, rfl⟩

theorem digestPlace_header {num n : Nat} (h1 : num < 2 ^ 64) (h2 : n < 2 ^ 64) (b : Bytes) (w : List Piece) (pos : Nat) :
    digestPlace (.own (tlEnc num ++ tlEnc n ++ b) :: w) pos = some ((tlEnc num ++ tlEnc n).length + pos) := by
  have e1 : (tlEnc num ++ (tlEnc n ++ b)).drop (tlLen num) = tlEnc n ++ b := by rw [← tlEnc_length, List.drop_left]
  simp only [digestPlace, Piece.bytes, List.append_assoc, parseTL_tlEnc h1, e1, parseTL_tlEnc h2, List.length_append, tlEnc_length]
  congr 1
  omega

theorem putDigest_header (h b : Bytes) (w : List Piece) (pos : Nat) (d : Bytes) :
    ((putDigest (.own (h ++ b) :: w) 0 (h.length + pos) d).map Piece.bytes).flatten = h ++ ((putDigest (.own b :: w) 0 pos d).map Piece.bytes).flatten := by
  simp [putDigest, Piece.bytes, splice_at_header]

theorem putDigest_le (b : Bytes) (w : List Piece) (pos : Nat) (d : Bytes) : b.length ≤ ((putDigest (.own b :: w) 0 pos d).map Piece.bytes).flatten.length := by
  simp only [putDigest, List.getElem?_cons_zero, Option.map_some, Option.getD_some, List.set_cons_zero, List.map_cons, Piece.bytes, List.flatten_cons,
    List.length_append, splice, List.length_take, List.length_drop]
  omega

theorem interestBytes_le {need : Bool} {base : Name} {d : Bytes} (hd : d.length = 32) (v1 : selectorSchema.V) (v2 : paramSchema.V) (sig : Bytes) :
    (interestBytes (nameWith need base d) v1 v2 sig).length ≤
      (tlv 0x07 (Name.encBody base) ++ selectorSchema.enc v1 ++ paramSchema.enc v2).length + 44 + sig.length := by
  have hle := tlEnc_le (Name.encBody (nameWith need base d)).length
  have hlb : (Name.encBody (nameWith need base d)).length ≤ (Name.encBody base).length + 34 := by
    cases need
    · simp [nameWith]
    · simp only [nameWith, if_true, encBody_append, List.length_append, digest_comp _ hd, List.length_cons, hd]
      omega
  simp only [interestBytes, tlv, List.length_append]
  omega

theorem interestBytes_pos (n : Name) (v1 : selectorSchema.V) (v2 : paramSchema.V) (sig : Bytes) : 0 < (interestBytes n v1 v2 sig).length := by
  have : (tlEnc 0x07).length = 1 := by decide
  simp only [interestBytes, tlv, List.length_append]
  omega

/-! ## Interest -/

/-- **C97, Interests**: running the encoder of `Packet` on a packet with an Interest, for every name, with or without a digest at its end, all selectors,
parameters and signature info: a wire which, once a signature of the estimated length is put at the index that the encoder of the Interest tells, and a digest
where `MakeInterest` puts it, is the TLV of the Interest with that digest and signature.  The covered part is the components of the name without the digest, the
parameters and the signature info, no more and no less. -/
theorem C97_interest_partial {ord : Nat → List (Txt × Kind)} (h : ∀ i, (ord i).Perm classTable) {ms : List TModel} (hms : processAll ord specSource = .ok ms)
    {n base : Name} {v1 : selectorSchema.V} {v2 : paramSchema.V} {kvs kv0 : List (Txt × GV)} (hn : DigestFree n base) (hv : StandsInterest ms n v1 v2 kv0)
    (hk : Carries kvs t!"Interest" kv0) (est : Txt → Txt → Nat) (need : Txt → Txt → Bool) {E : Nat} (he : est t!"Interest" t!"SignatureValue" = E)
    (hl : (tlv 0x07 (Name.encBody base) ++ selectorSchema.enc v1 ++ paramSchema.enc v2).length + E < 2 ^ 61) :
    ∃ p, runOuter ms (ms.length + 1) t!"Packet" (.ptr (.struct kvs)) est need = .ok p ∧ givenOf p.wire = callerBuffers paramSchema v2 ∧
      (0 < E → (p.covered t!"Interest" t!"sigCovered").flatten = Name.encBody base ++ paramSchema.enc v2 ∧
        ∀ sig d : Bytes, sig.length = E → d.length = 32 → ∃ at', let w := p.wire.set (p.idx t!"Interest" t!"SignatureValue").toNat (.given sig)
          digestPlace w (p.pos t!"Interest" t!"NameV").toNat = some at' ∧
          ((if need t!"Interest" t!"NameV" then putDigest w 0 at' d else w).map Piece.bytes).flatten =
            tlv 0x05 (interestBytes (nameWith (need t!"Interest" t!"NameV") base d) v1 v2 (tlv 0x2e sig)) ∧
          p.length = (tlv 0x05 (interestBytes (nameWith (need t!"Interest" t!"NameV") base d) v1 v2 (tlv 0x2e sig))).length) ∧
      (E = 0 → (p.covered t!"Interest" t!"sigCovered").flatten = Name.encBody base ∧ p.idx t!"Interest" t!"SignatureValue" = -1 ∧
        ∀ d : Bytes, d.length = 32 → ∃ at', digestPlace p.wire (p.pos t!"Interest" t!"NameV").toNat = some at' ∧
          ((if need t!"Interest" t!"NameV" then putDigest p.wire 0 at' d else p.wire).map Piece.bytes).flatten =
            tlv 0x05 (interestBytes (nameWith (need t!"Interest" t!"NameV") base d) v1 v2 []) ∧
          p.length = (tlv 0x05 (interestBytes (nameWith (need t!"Interest" t!"NameV") base d) v1 v2 [])).length) := by
  obtain ⟨m, hm, hmf, _, _⟩ := packet_model h hms
  obtain ⟨ms', hms', _, hi⟩ := C96_library_partial h
  rw [hms] at hms'
  cases hms'
  obtain ⟨r, hr, hri, hrg, hr1, hr2⟩ := (hi n base v1 v2 hn).2 kv0 hv (est t!"Interest") (need t!"Interest") E he hl
  have hd32 : (List.replicate 32 (0 : UInt8)).length = 32 := List.length_replicate ..
  have hsl : (tlv 0x2e (List.replicate E 0)).length ≤ E + 10 := by
    have := tlEnc_le (List.replicate E (0 : UInt8)).length
    have h1 : (tlEnc 0x2e).length = 1 := by decide
    simp only [tlv, List.length_append, h1, List.length_replicate] at *
    omega
  -- the length and the first buffer
  have hlen : 0 < r.length ∧ r.length < 2 ^ 61 + 64 := by
    rcases Nat.eq_zero_or_pos E with h0 | h0
    · have := ((hr2 h0).2.2 _ hd32).2
      rw [this]
      exact ⟨interestBytes_pos _ _ _ _, Nat.lt_of_le_of_lt (interestBytes_le hd32 _ _ _) (by simp only [List.length_nil]; omega)⟩
    · have := ((hr1 h0).2.2 (List.replicate E 0) _ (List.length_replicate ..) hd32).2
      rw [this]
      exact ⟨interestBytes_pos _ _ _ _, Nat.lt_of_le_of_lt (interestBytes_le hd32 _ _ _) (by omega)⟩
  have hfirst : ∀ b, r.wire.head? = some (.own b) → b.length ≤ r.length := by
    intro b hb
    obtain ⟨w, hw⟩ : ∃ w, r.wire = .own b :: w := by
      cases hw : r.wire with
      | nil => rw [hw] at hb; cases hb
      | cons c w => rw [hw] at hb; cases hb; exact ⟨w, rfl⟩
    rcases Nat.eq_zero_or_pos E with h0 | h0
    · obtain ⟨e1, e2⟩ := (hr2 h0).2.2 _ hd32
      rw [e2, ← e1, hw]
      split
      · exact putDigest_le _ _ _ _
      · simp [Piece.bytes]
    · obtain ⟨hp, _, hr1⟩ := hr1 h0
      obtain ⟨e1, e2⟩ := hr1 (List.replicate E 0) _ (List.length_replicate ..) hd32
      obtain ⟨w', _, hw'⟩ := set_tail (h := []) (b := b) (w := w) hp (.given (List.replicate E 0))
      rw [e2, ← e1, hw, hw']
      split
      · exact putDigest_le _ _ _ _
      · simp [Piece.bytes]
  obtain ⟨p, b, w, hp, hrw, hpw, hpl, hpi, hpp, hpc⟩ := C97_wrap_partial (f := ⟨t!"Interest", 0x05, .struct t!"Interest" true⟩) (pre := [])
    (post := packetFields.drop 1) (est := est) (need := need) hm hmf (by rw [hmf]; simp [packetFields]) rfl (by rw [hmf]; decide +kernel) hk.1
    (fun g hg => hk.2 g (List.mem_of_mem_drop (i := 1) hg) (by
      simp only [packetFields, List.drop_succ_cons, List.drop_zero, List.nil_append, List.mem_cons, List.not_mem_nil, or_false] at hg
      rcases hg with rfl | rfl <;> decide +kernel)) hr hlen.1 (by omega)
    (fun b hb => by have := hfirst b hb; omega)
  simp only at hpw hpl hpi hpp hpc
  have h64 : r.length < 2 ^ 64 := by omega
  refine ⟨p, hp, ?_, fun h0 => ⟨?_, fun sig d hsig hd => ?_⟩, fun h0 => ⟨?_, ?_, fun d hd => ?_⟩⟩
  · rw [← hrg, hrw, hpw]; rfl
  · rw [hpc]; exact (hr1 h0).2.1
  · obtain ⟨hp0, _, hr1⟩ := hr1 h0
    obtain ⟨e1, e2⟩ := hr1 sig d hsig hd
    rw [hpi, hpp, hpw, hpl]
    obtain ⟨w', hw1, hw2⟩ := set_tail (h := tlEnc 5 ++ tlEnc r.length) (b := b) (w := w) hp0 (.given sig)
    rw [hrw, hw2] at e1
    refine ⟨(tlEnc 5 ++ tlEnc r.length).length + (r.pos t!"NameV").toNat, ?_, ?_, ?_⟩
    · rw [hw1]
      exact digestPlace_header (by decide) h64 _ _ _
    · rw [hw1, tlv_eq 5, ← e2, ← e1]
      split
      · exact putDigest_header _ _ _ _ _
      · simp [Piece.bytes]
    · rw [tlv_len, ← e2]
  · rw [hpc]; exact (hr2 h0).1
  · rw [hpi]; exact (hr2 h0).2.1
  · obtain ⟨e1, e2⟩ := (hr2 h0).2.2 d hd
    rw [hpp, hpw, hpl]
    rw [hrw] at e1
    refine ⟨_, digestPlace_header (by decide) h64 _ _ _, ?_, ?_⟩
    · unfold tlv
      rw [← e2, ← e1]
      split
      · exact putDigest_header _ _ _ _ _
      · simp [Piece.bytes]
    · rw [tlv_len, ← e2]

/-! ## Data -/

theorem data_skip {kvs kv0 : List (Txt × GV)} (hk : Carries kvs t!"Data" kv0) :
    ∀ g ∈ packetFields.take 1 ++ packetFields.drop 2, lookup g.name kvs = some .nil := fun g hg => by
  refine hk.2 g ?_ ?_
  · rcases List.mem_append.1 hg with hg | hg
    · exact List.mem_of_mem_take hg
    · exact List.mem_of_mem_drop hg
  · simp only [packetFields, List.take_succ_cons, List.take_zero, List.drop_succ_cons, List.drop_zero, List.cons_append, List.nil_append, List.mem_cons,
      List.not_mem_nil, or_false] at hg
    rcases hg with rfl | rfl <;> decide +kernel

theorem head_le {w : List Piece} {b : Bytes} {i : Int} {x : Piece} (hi : 0 < i) (hb : w.head? = some (.own b)) :
    b.length ≤ ((w.set i.toNat x).map Piece.bytes).flatten.length := by
  cases w with
  | nil => cases hb
  | cons c w =>
    cases hb
    obtain ⟨w', _, hw'⟩ := set_tail (h := []) (b := b) (w := w) hi x
    rw [hw']
    simp [Piece.bytes]

theorem head_le' {w : List Piece} {b : Bytes} (hb : w.head? = some (.own b)) : b.length ≤ (w.map Piece.bytes).flatten.length := by
  cases w with
  | nil => cases hb
  | cons c w =>
    cases hb
    simp [Piece.bytes]

/-- **C97, Data**: running the encoder of `Packet` on a packet with a Data, for every name, meta-info, content and signature info, and every signature value
that is not empty and of the length that was estimated: a wire which, once the signature is put at the index that the encoder of the Data tells, is the TLV of
the Data; and the covered part is the encoding of name, meta-info, content and signature info, no more and no less.  If no signature is estimated, then the
wire is the TLV of the four fields. -/
theorem C97_data_partial {ord : Nat → List (Txt × Kind)} (h : ∀ i, (ord i).Perm classTable) {ms : List TModel} (hms : processAll ord specSource = .ok ms)
    {v : dataSchema.V} {kvs kv0 : List (Txt × GV)} (hv : StandsAll ms dataSchema dataMid v kv0) (hk : Carries kvs t!"Data" kv0) (est : Txt → Txt → Nat)
    (need : Txt → Txt → Bool) (hneed : need t!"Data" = fun _ => false) :
    (∀ sig : Bytes, sig ≠ [] → est t!"Data" t!"SignatureValue" = sig.length → (dataSchema.enc v ++ tlv 0x17 sig).length < 2 ^ 63 →
      ∃ p, runOuter ms (ms.length + 1) t!"Packet" (.ptr (.struct kvs)) est need = .ok p ∧
        ((p.wire.set (p.idx t!"Data" t!"SignatureValue").toNat (.given sig)).map Piece.bytes).flatten = tlv 0x06 (dataSchema.enc v ++ tlv 0x17 sig) ∧
        givenOf p.wire = callerBuffers dataSchema v ∧ (p.covered t!"Data" t!"sigCovered").flatten = dataSchema.enc v ∧
        p.length = (tlv 0x06 (dataSchema.enc v ++ tlv 0x17 sig)).length) ∧
    (est t!"Data" t!"SignatureValue" = 0 → (dataSchema.enc v).length < 2 ^ 61 → dataSchema.enc v ≠ [] →
      ∃ p, runOuter ms (ms.length + 1) t!"Packet" (.ptr (.struct kvs)) est need = .ok p ∧ (p.wire.map Piece.bytes).flatten = tlv 0x06 (dataSchema.enc v) ∧
        givenOf p.wire = callerBuffers dataSchema v ∧ p.idx t!"Data" t!"SignatureValue" = -1 ∧ p.length = (tlv 0x06 (dataSchema.enc v)).length) := by
  obtain ⟨m, hm, hmf, _, _⟩ := packet_model h hms
  obtain ⟨ms', hms', _, hi⟩ := C95_library_partial h
  rw [hms] at hms'
  cases hms'
  obtain ⟨hr1, hr2⟩ := (hi v).2 kv0 hv
  have hwrap := fun (r : Signed) (hr : runSigned ms (ms.length + 1) t!"Data" (.ptr (.struct kv0)) (est t!"Data") = .ok r) =>
    C97_wrap_partial (f := ⟨t!"Data", 0x06, .struct t!"Data" true⟩) (pre := packetFields.take 1) (post := packetFields.drop 2) (est := est) (need := need) (r := r)
      hm hmf (by rw [hmf]; simp [packetFields]) rfl (by rw [hmf]; decide +kernel) hk.1 (data_skip hk) (by simp only; rw [hneed]; exact hr)
  refine ⟨fun sig hne he hl => ?_, fun he hl hne => ?_⟩
  · obtain ⟨r, hr, hi0, e1, e2, e3, e4⟩ := hr1 sig (est t!"Data") hne he hl
    have h0 : 0 < (dataSchema.enc v ++ tlv 0x17 sig).length := by
      have := List.length_pos_iff.2 hne
      simp only [tlv, List.length_append]
      omega
    obtain ⟨p, b, w, hp, hrw, hpw, hpl, hpi, hpp, hpc⟩ := hwrap r hr (by omega) (by omega) (fun b hb => by
      have := head_le (x := .given sig) hi0 hb
      rw [e1] at this
      omega)
    simp only at hpw hpl hpi hpp hpc
    obtain ⟨w', hw1, hw2⟩ := set_tail (h := tlEnc 6 ++ tlEnc r.length) (b := b) (w := w) hi0 (.given sig)
    rw [hrw, hw2] at e1
    refine ⟨p, hp, ?_, by rw [← e2, hrw, hpw]; rfl, by rw [hpc]; exact e3, ?_⟩
    · rw [hpi, hpw, hw1]
      unfold tlv at e1 e4 ⊢
      rw [← e4, ← e1]
      simp [Piece.bytes]
    · rw [hpl, tlv_len, ← e4]
  · obtain ⟨r, hr, e1, e2, e3, _, e4⟩ := hr2 (est t!"Data") he hl hne
    have h0 := List.length_pos_iff.2 hne
    obtain ⟨p, b, w, hp, hrw, hpw, hpl, hpi, hpp, hpc⟩ := hwrap r hr (by omega) (by omega) (fun b hb => by
      have := head_le' hb
      rw [e1] at this
      omega)
    simp only at hpw hpl hpi hpp hpc
    rw [hrw] at e1
    refine ⟨p, hp, ?_, by rw [← e2, hrw, hpw]; rfl, by rw [hpi]; exact e3, ?_⟩
    · rw [hpw, tlv, ← e4, ← e1]
      simp [Piece.bytes]
    · rw [hpl, tlv_len, ← e4]

/-! ## LpPacket -/

/-- **C97, link-layer packets**: running the encoder of `Packet` on a packet with an LpPacket that is not empty gives its TLV, and the buffers of the fragment are
as given -/
theorem C97_lp_partial {ord : Nat → List (Txt × Kind)} (h : ∀ i, (ord i).Perm classTable) {ms : List TModel} (hms : processAll ord specSource = .ok ms)
    {v : Schema.lpPacket.V} {kvs kv0 : List (Txt × GV)} (hv : StandsFor ms t!"LpPacket" Schema.lpPacket v (.ptr (.struct kv0))) (hk : Carries kvs t!"LpPacket" kv0)
    (est : Txt → Txt → Nat) (need : Txt → Txt → Bool) (hest : est t!"LpPacket" = fun _ => 0) (hl : (Schema.lpPacket.enc v).length + 18 < 2 ^ 64)
    (hne : Schema.lpPacket.enc v ≠ []) :
    ∃ p, runOuter ms (ms.length + 1) t!"Packet" (.ptr (.struct kvs)) est need = .ok p ∧
      (p.wire.map Piece.bytes).flatten = tlv 0x64 (Schema.lpPacket.enc v) ∧ givenOf p.wire = callerBuffers Schema.lpPacket v ∧
      p.length = (tlv 0x64 (Schema.lpPacket.enc v)).length := by
  obtain ⟨m, hm, hmf, hnc, hres⟩ := packet_model h hms
  obtain ⟨w, e1, e2, e3, _⟩ := C94_encode_partial hnc hres hv (by omega) hne
  have hr := runSigned_plain (need := need t!"LpPacket") hnc e1
  have h0 := List.length_pos_iff.2 hne
  obtain ⟨p, b, w', hp, hrw, hpw, hpl, _⟩ := C97_wrap_partial (f := ⟨t!"LpPacket", 0x64, .struct t!"LpPacket" true⟩) (pre := packetFields.take 2) (post := [])
    (est := est) (need := need) hm hmf (by rw [hmf]; simp [packetFields]) rfl (by rw [hmf]; decide +kernel) hk.1
    (fun g hg => by
      simp only [packetFields, List.take_succ_cons, List.take_zero, List.append_nil, List.mem_cons, List.not_mem_nil, or_false] at hg
      refine hk.2 g ?_ ?_
      · rcases hg with rfl | rfl <;> simp [packetFields]
      · rcases hg with rfl | rfl <;> decide +kernel)
    (by simp only; rw [hest]; exact hr) h0 hl (fun b hb => by
      have := head_le' hb
      rw [e2] at this
      omega)
  simp only at hrw hpw hpl
  subst hrw
  refine ⟨p, hp, ?_, by rw [← e3, hpw]; rfl, ?_⟩
  · rw [hpw, tlv, ← e2]
    simp [Piece.bytes]
  · rw [hpl, tlv_len]

/-! ## Examples -/

/-- what the encoder of a packet tells, of one of its fields -/
def Outer.told (f : Txt) (r : Res Outer) : Option Told :=
  match r with
  | .ok s => some ⟨s.wire, s.length, s.idx f t!"SignatureValue", s.idx f t!"NameV", s.pos f t!"NameV", s.covered f t!"sigCovered"⟩
  | _ => none

/-- a Go value of type `Packet` -/
def examplePacket (interest data lp : GV) : GV := .ptr (.struct [(t!"Interest", interest), (t!"Data", data), (t!"LpPacket", lp)])

/-- a signed Interest with parameters of two buffers: as the example for C96, with the header in the first buffer.  The position of the digest is still 7 -/
example : Outer.told t!"Interest"
    (runOuter (modelsOf specSource) 4 t!"Packet" (examplePacket (exampleInterest (.name [⟨8, [65]⟩]) (.wire [[1, 2], [3]])) .nil .nil) (fun _ _ => 4) fun _ _ => true) =
    some ⟨[.own ([5, 52, 7, 37, 8, 1, 65, 2, 32] ++ List.replicate 32 0 ++ [18, 0, 36, 3]), .given [1, 2], .given [3], .own [46, 4], .own []], 54, 4, 0, 7,
      [[8, 1, 65], [36, 3], [1, 2], [3], []]⟩ := by decide +kernel

/-- a Data with a content of two buffers and a signature of 32 bytes -/
example : Outer.told t!"Data"
    (runOuter (modelsOf specSource) 4 t!"Packet" (examplePacket .nil (exampleData (.name [⟨8, [65]⟩]) (.wire [[1, 2], [3]])) .nil) (fun _ _ => 32) fun _ _ => false) =
    some ⟨[.own [6, 44, 7, 3, 8, 1, 65, 21, 3], .given [1, 2], .given [3], .own [23, 32], .own []], 46, 4, 0, 0,
      [[7, 3, 8, 1, 65, 21, 3], [1, 2], [3], []]⟩ := by decide +kernel

/-- a link-layer packet with a fragment -/
example : (Outer.told t!"LpPacket"
    (runOuter (modelsOf specSource) 4 t!"Packet" (examplePacket .nil .nil (exampleLp (.bytes [7]) false .nil (.wire [[1, 2], [3]]))) (fun _ _ => 0) fun _ _ => false)).map
      (fun t => (t.wire, t.length)) = some ([.own [100, 8, 98, 1, 7, 80, 3], .given [1, 2], .given [3]], 10) := by decide +kernel

/-- an empty one: an idle packet, `[100, 0]` -/
example : (Outer.told t!"LpPacket"
    (runOuter (modelsOf specSource) 4 t!"Packet" (examplePacket .nil .nil (exampleLp .nil false .nil .nil)) (fun _ _ => 0) fun _ _ => false)).map
      (fun t => (t.wire, t.length)) = some ([.own [100, 0]], 2) := by decide +kernel

/-- **C97 is violated by packets with two structs present**: the bytes are those of the two, one after the other, but the index that the encoder of the Data
tells is 1, where the signature of the Interest belongs; that of the Data belongs at 3.  (`MakeInterest` and `MakeData` make packets with one.) -/
theorem C97_several_violated : Outer.told t!"Data"
    (runOuter (modelsOf specSource) 4 t!"Packet" (examplePacket (exampleInterest (.name [⟨8, [65]⟩]) .nil) (exampleData (.name [⟨8, [65]⟩]) .nil) .nil) (fun _ _ => 4)
      fun _ _ => false) =
    some ⟨[.own [5, 13, 7, 3, 8, 1, 65, 18, 0, 46, 4], .own [], .own [6, 11, 7, 3, 8, 1, 65, 23, 4], .own []], 28, 1, 0, 0, [[7, 3, 8, 1, 65]]⟩ := by decide +kernel

/-- two structs in one buffer -/
example : (Outer.told t!"Data"
    (runOuter (modelsOf specSource) 4 t!"Packet" (examplePacket (exampleInterest (.name [⟨8, [65]⟩]) .nil) (exampleData (.name [⟨8, [65]⟩]) .nil) .nil) (fun _ _ => 0)
      fun _ _ => false)).map (fun t => (t.wire, t.length)) = some ([.own [5, 7, 7, 3, 8, 1, 65, 18, 0, 6, 5, 7, 3, 8, 1, 65]], 16) := by decide +kernel

/-- a Data that ends in a buffer of its own, and a link-layer packet that goes on there -/
example : (Outer.told t!"Data"
    (runOuter (modelsOf specSource) 4 t!"Packet" (examplePacket .nil (.ptr (.struct [(t!"NameV", .name [⟨8, [65]⟩]), (t!"MetaInfo", .nil), (t!"ContentV", .wire [[1, 2]]),
      (t!"SignatureInfo", .ptr (.struct [(t!"SignatureType", .num 1), (t!"KeyLocator", .nil), (t!"SignatureNonce", .nil), (t!"SignatureTime", .nil),
        (t!"SignatureSeqNum", .nil), (t!"ValidityPeriod", .nil), (t!"AdditionalDescription", .nil)]))])) (exampleLp (.bytes [7]) false .nil .nil)) (fun _ _ => 0)
      fun _ _ => false)).map (fun t => (t.wire, t.length)) =
    some ([.own [6, 14, 7, 3, 8, 1, 65, 21, 2], .given [1, 2], .own [22, 3, 27, 1, 1, 100, 3, 98, 1, 7]], 21) := by decide +kernel

/-- no packet at all: a panic -/
example : Outer.told t!"Data" (runOuter (modelsOf specSource) 4 t!"Packet" (examplePacket .nil .nil .nil) (fun _ _ => 0) fun _ _ => false) = none := by decide +kernel

/-- `MakeInterest` adds the two bytes of the header to the 7 -/
example : digestPlace [.own [5, 52, 7, 37, 8, 1, 65, 2, 32]] 7 = some 9 := by decide +kernel

/-- a packet that carries only an Interest -/
example : Carries [(t!"Interest", .ptr (.struct [])), (t!"Data", .nil), (t!"LpPacket", .nil)] t!"Interest" [] := by
  refine ⟨by rfl, fun f hf hn => ?_⟩
  simp only [packetFields, List.mem_cons, List.not_mem_nil, or_false] at hf
  rcases hf with rfl | rfl | rfl
  · exact absurd rfl hn
  · rfl
  · rfl

end Ndn.Codec.Gen
