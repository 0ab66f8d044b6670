import Verif.Codec.PacketRead
import Verif.Packet.MakeInterestProps

/-!
# What `MakeData` and `MakeInterest` make, read by the code of zz_generated.go (C101)
-/

namespace Ndn.Codec.Gen

/-- the Go value of a wire that may be nil -/
def wireOrNil : Option Wire → GV
  | none => .nil
  | some w => .wire w

theorem wire_value {ms : List TModel} {c : Cls} {v : Option Wire} {g : GV} (h : StandsSome ms .wire c v g) : g = wireOrNil v := by
  cases v with
  | none => exact h
  | some w => obtain ⟨_, -, h⟩ := h; exact h

theorem name_value {ms : List TModel} {c : Cls} {n : Name} {v : Option Name} (hv : v = some n) {g : GV} (h : StandsSome ms .name c v g) : g = .name n := by
  subst hv
  exact h.2

/-- **C101, Data there and back**: a Data that `MakeData` makes is read by `ReadData` with the code of zz_generated.go: a Go struct whose members NameV and ContentV are the name and
the content (as one buffer); with a signer, SignatureValue is its signature, and the bytes reported as covered are those that it got, otherwise it is nil.
The assumptions are those of `C27_data_round_trip_partial`. -/
theorem C101_data_round_trip_partial {ord : Nat → List (Txt × Kind)} (hord : ∀ i, (ord i).Perm classTable) : ∃ ms packet, processAll ord specSource = .ok ms ∧
    (ms.find? fun m => m.name == t!"Packet") = some packet ∧
    ∀ (name : Name) (config : Packet.DataConfig) (content : Option Wire) (signer : Option Packet.Signer) (e : Packet.Encoded),
      Packet.makeData (some name) (some config) content signer = .ok e →
      (∀ c ∈ name, c.Small) → (∀ t, config.contentType = some t → t < 2 ^ 64) → (∀ d, config.freshness = some d → Packet.WholeMs d) →
      (∀ c, config.finalBlock = some c → c.Small) → (∀ c n, Packet.signerConfig signer = some c → c.keyName = some n → ∀ x ∈ n, x.Small) →
      (∀ c, Packet.signerConfig signer = some c → -2 ^ 63 ≤ c.typ ∧ c.typ < 2 ^ 63) →
      (∀ sg sig, signer = some sg → sg.sign e.covered = some sig → sg.est ≤ 252 ∨ (253 ≤ sig.length ∧ sg.est / 256 = sig.length / 256 ∧ sg.est < 2 ^ 63)) →
      e.wire.flatten.length < 2 ^ 43 → ∀ fuel depth, e.wire.flatten.length < fuel → 4 ≤ depth →
      ∃ data cov, codeReadData (runPacket ms false fuel depth packet (BR.new e.wire.flatten)) = some (.ok (.ok (.ptr (.struct data), cov))) ∧
        lookup t!"NameV" data = some (.name name) ∧ lookup t!"ContentV" data = some (wireOrNil (content.map fun w => [w.flatten])) ∧
        (Packet.signerConfig signer = none → lookup t!"SignatureInfo" data = some .nil ∧ lookup t!"SignatureValue" data = some .nil) ∧
        ∀ c sg, Packet.signerConfig signer = some c → signer = some sg →
          if sg.est = 0 then lookup t!"SignatureValue" data = some .nil
          else ∃ sig, sg.sign e.covered = some sig ∧ lookup t!"SignatureValue" data = some (.wire [sig]) ∧ cov.flatten = e.covered.flatten := by
  obtain ⟨ms, packet, hms, hp, hr⟩ := C101_read hord
  refine ⟨ms, packet, hms, hp, fun name config content signer e h hname hct hfr hfb hkey hty hsig hl fuel depth hF hd => ?_⟩
  obtain ⟨d, cov, h1, h2, -, -, -, h3, h4, h5⟩ := Packet.C27_data_round_trip_partial name config content signer e h hname hct hfr hfb hkey hty hsig hl fuel hF
  obtain ⟨hread, -⟩ := hr id fuel depth (BR.new e.wire.flatten) hd (.new (by omega))
  rw [h1] at hread
  obtain ⟨⟨g, cov'⟩, hc, ⟨data, ints, wires, ctx, hg, ⟨g1, a1, b1⟩, -, ⟨g3, a3, b3⟩, ⟨g4, a4, b4⟩, ⟨g5, a5, b5⟩, -⟩, hcov⟩ := hread
  obtain rfl : g = _ := hg
  obtain rfl : cov' = cov := hcov
  rw [name_value h2 b1] at a1
  rw [wire_value b3, h3] at a3
  rw [wire_value b5] at a5
  refine ⟨data, _, hc, a1, a3, fun hn => ?_, fun c sg hcf hsg => ?_⟩
  · obtain ⟨k1, k2⟩ := h4 hn
    rw [k2] at a5
    rw [k1] at b4
    obtain rfl : g4 = .nil := b4
    exact ⟨a4, a5⟩
  · have := (h5 c hcf).2.2.2.2 sg hsg
    by_cases h0 : sg.est = 0
    · rw [if_pos h0] at this ⊢
      rw [this] at a5
      exact a5
    · rw [if_neg h0] at this ⊢
      obtain ⟨sig, k1, k2, k3⟩ := this
      rw [k2] at a5
      exact ⟨sig, k1, a5, k3⟩

/-- `/A` with content in two buffers and no signer -/
example : ∃ ms packet data cov, (ms.find? fun m => m.name == t!"Packet") = some packet ∧ ∃ e, Packet.makeData (some [⟨8, [65]⟩]) (some {}) (some [[1], [2]]) none = .ok e ∧
    codeReadData (runPacket ms false 30 4 packet (BR.new e.wire.flatten)) = some (.ok (.ok (.ptr (.struct data), cov))) ∧
    lookup t!"NameV" data = some (.name [⟨8, [65]⟩]) ∧ lookup t!"ContentV" data = some (.wire [[1, 2]]) ∧ lookup t!"SignatureValue" data = some .nil := by
  obtain ⟨ms, packet, -, hp, h⟩ := C101_data_round_trip_partial (ord := asWritten) fun _ => .refl _
  obtain ⟨e, he, hl⟩ : ∃ e, Packet.makeData (some [⟨8, [65]⟩]) (some {}) (some [[1], [2]]) none = .ok e ∧ e.wire.flatten.length < 30 := by
    obtain ⟨w, s, h1, h2⟩ := Packet.data_unsigned (v := Packet.dataOf [⟨8, [65]⟩] {} (some [[1], [2]]) none) rfl
    have hs : Packet.dataSig none = .ok (none, 0) := rfl
    unfold Packet.makeData
    simp only [hs, Res.bind, h1]
    refine ⟨_, rfl, ?_⟩
    simp only [h2]
    have hl : (tlv 6 (Packet.bytesOf (Packet.dataOf [⟨8, [65]⟩] {} (some [[1], [2]]) none).bodies.signed)).length = 13 := by rfl
    omega
  obtain ⟨data, cov, h1, h2, h3, h4, -⟩ := h [⟨8, [65]⟩] {} (some [[1], [2]]) none e he (by simp [Component.Small]) (by simp) (by simp) (by simp)
    (by simp [Packet.signerConfig]) (by simp [Packet.signerConfig]) (by simp) (by omega) 30 4 hl (Nat.le_refl _)
  exact ⟨ms, packet, data, cov, hp, e, he, h1, h2, h3, (h4 rfl).2⟩

/-- **C101, Interests there and back**: the same for an Interest that `MakeInterest` makes and `ReadInterest`.  The assumptions are those of `C28_interest_round_trip_partial`. -/
theorem C101_interest_round_trip_partial {ord : Nat → List (Txt × Kind)} (hord : ∀ i, (ord i).Perm classTable) : ∃ ms packet, processAll ord specSource = .ok ms ∧
    (ms.find? fun m => m.name == t!"Packet") = some packet ∧
    ∀ (sha : Bytes → Bytes), (∀ b, (sha b).length = 32) → ∀ (name : Name) (config : Packet.InterestConfig) (appParam : Option Wire) (signer : Option Packet.Signer) (e : Packet.Encoded),
      Packet.makeInterest sha (some name) (some config) appParam signer = .ok e →
      (∀ c ∈ name, c.Small) → (∀ ns, config.fwdHint = some ns → ∀ n ∈ ns, ∀ c ∈ n, c.Small) → (∀ x, config.nonce = some x → x < 2 ^ 32) →
      (∀ d, config.lifetime = some d → Packet.WholeMs d) → (∀ x, config.hopLimit = some x → x < 2 ^ 8) →
      (∀ c n, Packet.signerConfig signer = some c → c.keyName = some n → ∀ x ∈ n, x.Small) →
      (∀ c, Packet.signerConfig signer = some c → -2 ^ 63 ≤ c.typ ∧ c.typ < 2 ^ 63) →
      (∀ c t, Packet.signerConfig signer = some c → c.sigTime = some t → 0 ≤ t ∧ t < 2 ^ 63) →
      (∀ c x, Packet.signerConfig signer = some c → c.seqNum = some x → x < 2 ^ 64) →
      e.wire.flatten.length < 2 ^ 43 → ∀ fuel depth, e.wire.flatten.length < fuel → 4 ≤ depth →
      ∃ int cov, codeReadInterest sha (runPacket ms false fuel depth packet (BR.new e.wire.flatten)) = some (.ok (.ok (.ptr (.struct int), cov))) ∧
        lookup t!"NameV" int = some (.name e.finalName) ∧ lookup t!"CanBePrefixV" int = some (.bool config.canBePrefix) ∧
        lookup t!"MustBeFreshV" int = some (.bool config.mustBeFresh) ∧ lookup t!"ApplicationParameters" int = some (wireOrNil (appParam.map fun w => [w.flatten])) ∧
        (Packet.signerConfig signer = none → lookup t!"SignatureInfo" int = some .nil ∧ lookup t!"SignatureValue" int = some .nil) ∧
        ∀ c sg, Packet.signerConfig signer = some c → signer = some sg →
          if sg.est = 0 then lookup t!"SignatureValue" int = some .nil
          else ∃ sig, sg.sign e.covered = some sig ∧ lookup t!"SignatureValue" int = some (.wire [sig]) ∧ cov.flatten = e.covered.flatten := by
  obtain ⟨ms, packet, hms, hp, hr⟩ := C101_read hord
  refine ⟨ms, packet, hms, hp, fun sha hsha name config appParam signer e h hname hhint hnonce hlife hhop hkey hty htime hseq hl fuel depth hF hd => ?_⟩
  obtain ⟨v, cov, h1, h2, -, h3, h4, -, -, -, -, h5, h6, h7⟩ :=
    Packet.C28_interest_round_trip_partial sha hsha name config appParam signer e h hname hhint hnonce hlife hhop hkey hty htime hseq hl fuel hF
  obtain ⟨-, hread, -⟩ := hr sha fuel depth (BR.new e.wire.flatten) hd (.new (by omega))
  rw [h1] at hread
  obtain ⟨⟨g, cov'⟩, hc, ⟨int, ints, wires, ctx, hg, ⟨g1, a1, b1⟩, ⟨g2, a2, b2⟩, ⟨g3, a3, b3⟩, -, -, -, -, ⟨g4, a4, b4⟩, ⟨g5, a5, b5⟩, ⟨g6, a6, b6⟩, -⟩, hcov⟩ := hread
  obtain rfl : g = _ := hg
  obtain rfl : cov' = cov := hcov
  obtain rfl : g2 = .bool v.canBePrefix := b2
  obtain rfl : g3 = .bool v.mustBeFresh := b3
  rw [name_value h2 b1] at a1
  rw [h3] at a2
  rw [h4] at a3
  rw [wire_value b4, h5] at a4
  rw [wire_value b6] at a6
  refine ⟨int, _, hc, a1, a2, a3, a4, fun hn => ?_, fun c sg hcf hsg => ?_⟩
  · obtain ⟨k1, k2⟩ := h6 hn
    rw [k2] at a6
    rw [k1] at b5
    obtain rfl : g5 = .nil := b5
    exact ⟨a5, a6⟩
  · have := (h7 c hcf).2.2.2.2.2 sg hsg
    by_cases h0 : sg.est = 0
    · rw [if_pos h0] at this ⊢
      rw [this] at a6
      exact a6
    · rw [if_neg h0] at this ⊢
      obtain ⟨sig, k1, k2, k3⟩ := this
      rw [k2] at a6
      exact ⟨sig, k1, a6, k3⟩

/-- `/A` with options, parameters in two buffers and a signer -/
example : ∃ ms packet int cov e, (ms.find? fun m => m.name == t!"Packet") = some packet ∧
    Packet.makeInterest Packet.sha32 (some [⟨8, [65]⟩]) (some Packet.exConfig) (some [[1], [2]]) (some Packet.keyedSigner) = .ok e ∧
    codeReadInterest Packet.sha32 (runPacket ms false (e.wire.flatten.length + 1) 4 packet (BR.new e.wire.flatten)) = some (.ok (.ok (.ptr (.struct int), cov))) ∧
    lookup t!"CanBePrefixV" int = some (.bool true) ∧ lookup t!"SignatureValue" int = some (.wire [[1, 2]]) ∧ cov.flatten = e.covered.flatten := by
  obtain ⟨ms, packet, -, hp, h⟩ := C101_interest_round_trip_partial (ord := asWritten) fun _ => .refl _
  obtain ⟨e, h1, h2⟩ := Packet.exMade
  have hc : ∀ c, Packet.signerConfig (some Packet.keyedSigner) = some c →
      c = { typ := 0, keyName := some [⟨8, [75]⟩], nonce := some [9], sigTime := some 1600000000000000000, seqNum := some 5 } := by
    intro c h; injection h with h; exact h.symm
  obtain ⟨int, cov, k1, -, k2, -, -, -, k3⟩ := h Packet.sha32 (fun _ => List.length_replicate) _ _ _ _ e h1
    (by simp [Component.Small]) (by intro ns h; injection h with h; subst h; simp [Component.Small])
    (by intro x h; injection h with h; omega) (by intro x h; injection h with h; exact ⟨4000, by omega, by omega⟩)
    (by intro x h; injection h with h; omega)
    (by intro c n h1 h2; rw [hc c h1] at h2; injection h2 with h2; subst h2; simp [Component.Small])
    (by intro c h1; rw [hc c h1]; decide)
    (by intro c t h1 h2; rw [hc c h1] at h2; injection h2 with h2; omega)
    (by intro c t h1 h2; rw [hc c h1] at h2; injection h2 with h2; omega) h2 (e.wire.flatten.length + 1) 4 (by omega) (Nat.le_refl _)
  have k3 := k3 _ Packet.keyedSigner rfl rfl
  rw [if_neg (by decide)] at k3
  obtain ⟨sig, m1, m2, m3⟩ := k3
  injection m1 with m1
  subst m1
  exact ⟨ms, packet, int, cov, e, hp, h1, k1, k2, m2, m3⟩

end Ndn.Codec.Gen
