import Verif.Codec.PacketLemmas

/-!
# The parser of `Packet` (C101)

The `Parse` of zz_generated.go for `Packet` (pkg/ndn/spec_2022/zz_generated.go) calls those of `Interest`, `Data` and `LpPacket`.  Running all of them has the outcome of
`Packet.parsePacket`, from which the model of `ReadInterest`, `ReadData` and `ReadPacket` starts.
-/

namespace Ndn.Codec.Gen

theorem packet_parts : ((modelsOf specSource).find? fun m => m.name == t!"Packet").map TModel.fields = some packetParts ∧
    parsableAt (modelsOf specSource) 4 t!"LpPacket" = true ∧ resolve (modelsOf specSource) 4 t!"LpPacket" = some Schema.lpPacket := by decide +kernel

/-- **C101, the library**: the lines of zz_generated.go for the parser of Packet are what the generator writes; and running them, with the parsers of Interest, Data and
LpPacket that they call and the contexts that those share, gives for every input the outcome of `parsePacket`: the same value and covered parts, or the same error, or a
panic, or no end -/
theorem C101_library {ord : Nat → List (Txt × Kind)} (h : ∀ i, (ord i).Perm classTable) : ∃ ms packet, processAll ord specSource = .ok ms ∧
    (∀ p ∈ packetParsers, SameParser ms p.1 p.2) ∧ (ms.find? fun m => m.name == t!"Packet") = some packet ∧
    ∀ (ic : Bool) (fuel depth : Nat) (r : BR), 4 ≤ depth → r.Good → SameEnd ms (runPacket ms ic fuel depth packet r) (Packet.parsePacket ic fuel r) := by
  obtain ⟨ms, int, data, hms, -, hi, hd, hir, hdr⟩ := C100_library h
  obtain ⟨ms', hms', htext⟩ := allSameParser_spec packet_sameParsers h
  obtain rfl : ms = ms' := by
    rw [hms] at hms'
    injection hms'
  have hmo : modelsOf specSource = ms := by
    rw [processAll_order h] at hms
    simp only [modelsOf, hms]
  obtain ⟨f1, f2, f3⟩ := packet_parts
  rw [hmo, Option.map_eq_some_iff] at f1
  rw [hmo] at f2 f3
  obtain ⟨packet, hp, hpf⟩ := f1
  obtain ⟨lp, _, -, hl, hn, -⟩ := parsableAt_find f2
  refine ⟨ms, packet, hms, htext, hp, fun ic fuel depth r hdep hr => packet_body (int := int) (data := data) ?_ hpf r hr⟩
  exact ⟨hi, hd, ⟨lp, hl⟩, fun ctx c r hr => hir ic fuel depth ctx c r hdep hr, fun ctx c r hr => hdr ic fuel depth ctx c r hdep hr,
    fun r hr => parse_sim ms ic fuel 4 depth hdep _ _ f2 f3 r hr, fun m hm => by rw [hl] at hm; injection hm with hm; rw [← hm]; exact hn⟩

/-- **C101, the contexts**: the `Parse` of zz_generated.go keeps the context of Data between two Data in one buffer: the bytes that it reports as covered by the signature of the
second one leave out the name, whatever it is (`C29_signed_violated`, here for the code that the generator writes) -/
theorem C101_context_violated {ord : Nat → List (Txt × Kind)} (h : ∀ i, (ord i).Perm classTable) : ∃ ms packet, processAll ord specSource = .ok ms ∧
    (ms.find? fun m => m.name == t!"Packet") = some packet ∧ ∀ x : UInt8, ∃ kvs data c,
      runPacket ms false 10 4 packet (BR.new (Packet.twoData x)) = .ret (.ptr (.struct kvs)) none c ∧ lookup t!"Data" kvs = some (.ptr (.struct data)) ∧
      lookup t!"NameV" data = some (.name [⟨8, [x]⟩]) ∧ lookup t!"SignatureValue" data = some (.wire [[5]]) ∧ c.dwires t!"sigCovered" = [[21, 1, 99]] := by
  obtain ⟨ms, packet, hms, -, hp, hrun⟩ := C101_library h
  refine ⟨ms, packet, hms, hp, fun x => ?_⟩
  have hr := hrun false 10 4 (BR.new (Packet.twoData x)) (Nat.le_refl _) (.new (by simp [Packet.twoData]))
  obtain ⟨st, r', hpar, e1, e2⟩ : ∃ st r', Packet.parsePacket false 10 (BR.new (Packet.twoData x)) = some (.ok st, r') ∧
      st.data = some { name := some [⟨8, [x]⟩], content := some [[99]], sigValue := some [[5]] } ∧ st.dctx.sigCovered = [[21, 1, 99]] := by
    have hd := Packet.C29_signed_violated x
    rw [Packet.readData] at hd
    revert hd
    rcases Packet.parsePacket false 10 (BR.new (Packet.twoData x)) with _ | ⟨st | e | _, r'⟩ <;> intro hd
    · exact absurd hd (by simp [Packet.finishParse])
    · refine ⟨st, r', rfl, ?_⟩
      simp only [Packet.finishParse, Option.some.injEq, Res.ok.injEq] at hd
      cases hdat : st.data with
      | none => simp [hdat] at hd
      | some d =>
        simp only [hdat] at hd
        split at hd
        · cases hd
        · injection hd with hd
          injection hd with h1 h2
          exact ⟨by rw [h1], h2⟩
    · exact absurd hd (by simp [Packet.finishParse])
    · exact absurd hd (by simp [Packet.finishParse])
  rw [hpar] at hr
  obtain ⟨kvs, c, h1, ⟨-, ⟨g, h2, h3⟩, -, -, -, -, -, h4, -⟩⟩ := hr
  rw [e1] at h3
  obtain ⟨data, ints, wires, ctx, rfl, ⟨g1, a1, b1⟩, -, -, -, ⟨g5, a5, b5⟩, -⟩ := h3
  obtain ⟨-, rfl⟩ : _ ∧ g1 = _ := b1
  obtain ⟨_, -, rfl⟩ : ∃ nc, _ ∧ g5 = _ := b5
  exact ⟨kvs, data, c, h1, h2, a1, a5, h4.trans e2⟩

end Ndn.Codec.Gen
