import Verif.Engine.Dispatch
import Verif.Packet.Props
import Verif.Packet.MakeLemmas
import Verif.Codec.Props

/-! # Properties of the dispatch of received packets and of replies: C38, C39 -/

namespace Ndn.Engine
open Ndn.Packet Ndn.Codec Ndn.Codec.Schema

/-! ## Specification: bytes on the wire and the values they stand for -/

/-- `f` is an Interest with the value `v`, possibly with unrecognised, non-critical elements -/
def IsInterest (sha : Bytes → Bytes) (v : InterestV) (f : Bytes) : Prop :=
  ∃ b its, v.Bodies b ∧ v.InRange ∧ Fitting 15 interestTypes b.items its ∧ (v.appParam.isSome → HeadClean its) ∧
    v.Valid sha ((bytesOf its).drop (bytesOf b.head).length) ∧ f = tlv 5 (bytesOf its) ∧ (bytesOf its).length < 2 ^ 43

/-- `f` is a Data with the value `v`, possibly with unrecognised, non-critical elements -/
def IsData (v : DataV) (f : Bytes) : Prop :=
  ∃ b its, v.Bodies b ∧ v.InRange ∧ v.name.isSome ∧ Fitting 7 dataTypes b.items its ∧ f = tlv 6 (bytesOf its) ∧ (bytesOf its).length < 2 ^ 43

/-- `f` is a link packet with the value `v`, possibly with unrecognised, non-critical elements anywhere -/
def IsLink (v : lpPacket.V) (f : Bytes) : Prop :=
  lpPacket.InRange v ∧ ∃ own items, lpPacket.Own false v own ∧ Mixed (Ignorable false lpPacket) own items ∧ f = tlv 100 items.flatten ∧
    items.flatten.length < 2 ^ 43

theorem tlv_body_lt (typ : Nat) (body : Bytes) : body.length + 1 < (tlv typ body).length := by
  rw [tlv_length]
  have := tlLen_pos typ; have := tlLen_pos body.length
  omega

theorem packet_lp {body : Bytes} (hl : body.length < 2 ^ 61) {F : Nat} (hF : 2 ≤ F) {v : lpPacket.V} {r' : BR}
    (h : lpPacket.parse false F (BR.new body) = some (.ok v, r')) :
    ∃ r, parsePacket false F (BR.new (tlv 100 body)) = some (.ok { lp := some v }, r) := by
  refine ⟨_, packet_elem (by decide) hl hF ?_⟩
  intro r r1 hd
  unfold packetRead
  rw [hd]
  simp only
  rw [if_neg (by decide), if_neg (by decide), h]

theorem IsInterest.read {sha : Bytes → Bytes} {v : InterestV} {f : Bytes} (h : IsInterest sha v f) {F : Nat} (hF : f.length < F) :
    ∃ ctx : InterestCtx, readPacket sha F (BR.new f) = some (.ok (.ok { interest := some v, ictx := ctx })) ∧
      readInterest sha F (BR.new f) = some (.ok (.ok (v, ctx.sigCovered))) := by
  obtain ⟨b, its, hb, hv, hfit, hhead, hok, rfl, hl⟩ := h
  have := tlv_body_lt 5 (bytesOf its)
  obtain ⟨st, r', h1, h2, h3, h5⟩ := parseInterest_items hb hv hfit hl (by omega : _ < F) {}
  obtain ⟨r, h4⟩ := packet_interest (by omega) (by omega) h1
  subst h2
  have hc : checkInterest sha st.1 st.2 = none := by
    by_cases ha : st.1.appParam.isSome = true
    · exact checkInterest_valid (by rw [h3 (hhead ha)]; simpa using hok)
    · exact checkInterest_valid ⟨hok.named, fun h => absurd h ha, hok.params⟩
  refine ⟨st.2, ?_, ?_⟩
  · unfold readPacket; rw [h4]; simp only [finishParse, hc]
  · unfold readInterest; rw [h4]; simp only [finishParse, hc]

theorem IsData.read {sha : Bytes → Bytes} {v : DataV} {f : Bytes} (h : IsData v f) {F : Nat} (hF : f.length < F) :
    ∃ ctx : DataCtx, readPacket sha F (BR.new f) = some (.ok (.ok { data := some v, dctx := ctx })) ∧
      readData F (BR.new f) = some (.ok (.ok (v, ctx.sigCovered))) := by
  obtain ⟨b, its, hb, hv, hn, hfit, rfl, hl⟩ := h
  have := tlv_body_lt 6 (bytesOf its)
  obtain ⟨st, r', h1, h2, h3⟩ := parseData_items hb hv hfit hl (by omega : _ < F) {}
  obtain ⟨r, h4⟩ := packet_data (by omega) (by omega) h1
  subst h2
  have hc : ¬ st.1.name.isNone = true := by cases h : st.1.name <;> simp_all
  refine ⟨st.2, ?_, ?_⟩
  · unfold readPacket; rw [h4]; simp only [finishParse]; rw [if_neg hc]
  · unfold readData; rw [h4]; simp only [finishParse]; rw [if_neg hc]

theorem IsLink.read {sha : Bytes → Bytes} {v : lpPacket.V} {f : Bytes} (h : IsLink v f) {F : Nat} (hF : f.length < F) :
    readPacket sha F (BR.new f) = some (.ok (if (lpFragment v).isNone then .error .invalid else .ok { lp := some v })) := by
  obtain ⟨hv, own, items, ho, hm, rfl, hl⟩ := h
  have := tlv_body_lt 100 items.flatten
  obtain ⟨r', h1⟩ := lpPacket.parse_mixed false lpPacket_wf v hv own items ho hm hl F (by omega)
  obtain ⟨r, h2⟩ := packet_lp (by omega) (by omega) h1
  unfold readPacket; rw [h2]; rfl

/-- a link packet is handled by `onLink`, or dropped if it is empty -/
theorem IsLink.onPacket {sha : Bytes → Bytes} {v : lpPacket.V} {f : Bytes} (h : IsLink v f) {F : Nat} (hF : f.length < F) :
    onPacket sha F f = if (lpFragment v).isNone then some (.ok .drop) else onLink sha F v := by
  unfold Engine.onPacket
  rw [h.read hF]
  split
  · simp_all
  · simp_all
  · simp_all
  · rename_i h1
    split at h1 <;> simp_all
  · rename_i h1
    split at h1
    · simp_all
    · rename_i h2
      rw [if_neg h2]
      injection h1 with h1; injection h1 with h1; injection h1 with h1
      subst h1
      rfl

/-! ## C38 -/

/-- evaluate the parser of an Interest on given bytes -/
macro "eval_interest" : tactic => `(tactic|
  simp [BR.delegate, parseLoop, parseInterest, interestSlots, flagSlot, readIntName, ordParse, ordLoop, BR.new, readTL_at, ordInner, knows, argSlot, markSlot,
    elemSlot, sigSlot, Elem.read, readNameField, readNameSlots, readComponent, Elem.V, bind, pure, RM.bind, RM.pure,
    RM.onErr, toInt_lit, isCritical, BR.skip, BR.readWire, BR.readBuf, BR.slice, BR.range, rangeOf, wrap64_id, maxAlloc, ordFinish, Res.bind, PR.map, Res.map])

/-- C38: a bare Interest is handed to the Interest handler, a bare Data to the Data handler, with the received bytes and the part of them that
the signature covers.  Missing: see `C38_overlong_violated`, `C38_two_packets_violated`, `C38_no_return_violated`. -/
theorem C38_bare_partial (sha : Bytes → Bytes) (f : Bytes) (F : Nat) (hF : f.length < F) :
    (∀ v, IsInterest sha v f → ∃ cov, readInterest sha F (BR.new f) = some (.ok (.ok (v, cov))) ∧
      onPacket sha F f = some (.ok (.interest v [f] cov none none))) ∧
    (∀ v, IsData v f → ∃ cov, readData F (BR.new f) = some (.ok (.ok (v, cov))) ∧
      onPacket sha F f = some (.ok (.data v cov [f] none))) := by
  constructor
  · intro v h
    obtain ⟨ctx, h1, h2⟩ := h.read hF
    exact ⟨_, h2, by unfold onPacket; rw [h1]; rfl⟩
  · intro v h
    obtain ⟨ctx, h1, h2⟩ := h.read (sha := sha) hF
    exact ⟨_, h2, by unfold onPacket; rw [h1]; rfl⟩

/-- the rest of `onLink`, after `ReadPacket` of the fragment returned `x` -/
def linkAction (lp : lpPacket.V) (f : Bytes) : Except PErr PacketSt → Action
  | .error _ => .drop
  | .ok pkt => if pkt.data.isNone = pkt.interest.isNone then .drop else route pkt [f] ((lpNack lp).getD 0) (lpPitToken lp) (lpIncoming lp)

/-- a link packet that is not fragmented -/
theorem IsLink.inner {sha : Bytes → Bytes} {lp : lpPacket.V} {g f : Bytes} (h : IsLink lp g) (h1 : lpFragIndex lp = none)
    (h2 : lpFragCount lp = none) (h3 : lpFragment lp = some [f]) {F : Nat} (hF : g.length < F) {x : Except PErr PacketSt}
    (hx : readPacket sha F (BR.new f) = some (.ok x)) :
    Engine.onPacket sha F g = some (.ok (linkAction lp f x)) := by
  rw [h.onPacket hF, if_neg (by rw [h3]; simp)]
  unfold onLink
  rw [if_neg (by rw [h1, h2]; simp), h3]
  simp only [List.flatten_cons, List.flatten_nil, List.append_nil, hx]
  cases x with
  | error e => rfl
  | ok pkt => simp only [linkAction]; split <;> rfl

/-- C38: of a link packet that is not fragmented, the fragment is parsed; with a Nack header whose reason is not 0, an Interest goes to the
Nack path with that reason; without a Nack header, an Interest or a Data goes to its handler with the PIT token of the link packet.
Missing: a Nack header with reason 0, see `C38_nack_none_violated`. -/
theorem C38_link_partial (sha : Bytes → Bytes) (lp : lpPacket.V) (g f : Bytes) (hg : IsLink lp g) (h1 : lpFragIndex lp = none)
    (h2 : lpFragCount lp = none) (h3 : lpFragment lp = some [f]) (F : Nat) (hF : g.length + f.length < F) :
    (∀ v reason, IsInterest sha v f → lpNack lp = some reason → reason ≠ 0 → onPacket sha F g = some (.ok (.nack v.name reason))) ∧
    (∀ v, IsInterest sha v f → lpNack lp = none → ∃ cov, readInterest sha F (BR.new f) = some (.ok (.ok (v, cov))) ∧
      onPacket sha F g = some (.ok (.interest v [f] cov (lpPitToken lp) (lpIncoming lp)))) ∧
    (∀ v, IsData v f → lpNack lp = none → ∃ cov, readData F (BR.new f) = some (.ok (.ok (v, cov))) ∧
      onPacket sha F g = some (.ok (.data v cov [f] (lpPitToken lp)))) := by
  refine ⟨?_, ?_, ?_⟩
  · intro v reason h hn hr
    obtain ⟨ctx, g1, g2⟩ := h.read (F := F) (by omega)
    rw [hg.inner h1 h2 h3 (by omega) g1]
    simp [linkAction, route, hn, hr]
  · intro v h hn
    obtain ⟨ctx, g1, g2⟩ := h.read (F := F) (by omega)
    refine ⟨_, g2, ?_⟩
    rw [hg.inner h1 h2 h3 (by omega) g1]
    simp [linkAction, route, hn]
  · intro v h hn
    obtain ⟨ctx, g1, g2⟩ := h.read (sha := sha) (F := F) (by omega)
    refine ⟨_, g2, ?_⟩
    rw [hg.inner h1 h2 h3 (by omega) g1]
    simp [linkAction, route, hn]

/-- C38: dropped are link packets with a fragment index or count, without a fragment, with a fragment that is a link packet or that
`ReadPacket` rejects, those with a Nack header (with a reason other than 0) and a Data, and everything that `ReadPacket` rejects. -/
theorem C38_drop_partial (sha : Bytes → Bytes) (lp : lpPacket.V) (g : Bytes) (hg : IsLink lp g) (F : Nat) (hF : g.length < F) :
    ((lpFragIndex lp).isSome ∨ (lpFragCount lp).isSome → onPacket sha F g = some (.ok .drop)) ∧
    (lpFragment lp = none → onPacket sha F g = some (.ok .drop)) ∧
    (∀ f, lpFragment lp = some [f] → f.length < F →
      (∀ lp', IsLink lp' f → onPacket sha F g = some (.ok .drop)) ∧
      (∀ e, readPacket sha F (BR.new f) = some (.ok (.error e)) → onPacket sha F g = some (.ok .drop)) ∧
      (∀ v reason, IsData v f → lpNack lp = some reason → reason ≠ 0 → onPacket sha F g = some (.ok .drop))) ∧
    (∀ buf e, readPacket sha F (BR.new buf) = some (.ok (.error e)) → onPacket sha F buf = some (.ok .drop)) := by
  have hfrag : (lpFragIndex lp).isSome ∨ (lpFragCount lp).isSome → onPacket sha F g = some (.ok .drop) := by
    intro h
    rw [hg.onPacket hF]
    split
    · rfl
    · unfold onLink; rw [if_pos (by simpa using h)]
  refine ⟨hfrag, ?_, ?_, ?_⟩
  · intro h
    rw [hg.onPacket hF, if_pos (by rw [h]; rfl)]
  · intro f hf hFf
    by_cases hi : (lpFragIndex lp).isSome ∨ (lpFragCount lp).isSome
    · have := hfrag hi
      exact ⟨fun _ _ => this, fun _ _ => this, fun _ _ _ _ _ => this⟩
    · have h1 : lpFragIndex lp = none := by cases h : lpFragIndex lp <;> simp_all
      have h2 : lpFragCount lp = none := by cases h : lpFragCount lp <;> simp_all
      refine ⟨?_, ?_, ?_⟩
      · intro lp' hl
        rw [hg.inner h1 h2 hf hF (hl.read hFf)]
        cases (lpFragment lp').isNone <;> rfl
      · intro e he
        rw [hg.inner h1 h2 hf hF he]; rfl
      · intro v reason h hn hr
        obtain ⟨ctx, g1, g2⟩ := h.read (sha := sha) hFf
        rw [hg.inner h1 h2 hf hF g1]
        simp [linkAction, route, hn, hr]
  · intro buf e he
    unfold onPacket; rw [he]

/-- the Interest `/A` with the element of unknown type 40, in a link packet with a PIT token, a Nack header and the unknown element 1000 -/
def exLink (nack : Option Nat) (frag : Bytes) : lpPacket.V :=
  (none, none, none, some ([7, 7] : Bytes), nack.map fun n => ((n, ()) : networkNack.V), some (3 : Nat), none, none, none, none, none, false, none, some [frag], ())

def exInterest : InterestV := { name := some [⟨8, [65]⟩], mustBeFresh := true }

def exInterestBytes : Bytes := [5, 9, 7, 3, 8, 1, 65, 18, 0, 40, 0]

theorem exInterest_is (sha : Bytes → Bytes) : IsInterest sha exInterest exInterestBytes :=
  ⟨exInterest.bodies, [⟨some 2, 7, [8, 1, 65]⟩, ⟨some 4, 18, []⟩, ⟨none, 40, []⟩], InterestV.bodies_bodies _, by
      constructor <;> simp [exInterest, OptIn, Elem.InRange, Component.Small],
    ⟨by decide, rfl, by
      intro x hx hs
      simp only [List.mem_cons, List.not_mem_nil, or_false] at hx
      rcases hx with rfl | rfl | rfl
      · exact absurd hs (by decide)
      · exact absurd hs (by decide)
      · decide⟩,
    by simp [exInterest], ⟨rfl, by simp [exInterest], by simp [exInterest]⟩, rfl, by decide⟩

/-- the encoding of a link packet -/
theorem isLink_enc {v : lpPacket.V} (hv : lpPacket.InRange v) (hl : (lpPacket.enc v).length < 2 ^ 43) : IsLink v (tlv 100 (lpPacket.enc v)) :=
  ⟨hv, _, _, Fields.own_elems false lpPacket v, Mixed.refl _ _, rfl, hl⟩

theorem exLink_inRange (nack : Option Nat) (hn : ∀ n ∈ nack, n < 2 ^ 64) (f : Bytes) : lpPacket.InRange (exLink nack f) := by
  cases nack with
  | none => exact ⟨trivial, trivial, trivial, trivial, trivial, (by decide : 3 < 2 ^ 64), trivial, trivial, trivial, trivial, trivial, trivial, ⟨f, rfl⟩, trivial⟩
  | some n =>
    exact ⟨trivial, trivial, trivial, trivial, ⟨hn n rfl, trivial⟩, (by decide : 3 < 2 ^ 64), trivial, trivial, trivial, trivial, trivial, trivial, ⟨f, rfl⟩,
      trivial⟩

/-- the hypotheses of the theorems about link packets: the Interest in a link packet with a PIT token and a Nack header -/
example : ∃ g, IsLink (exLink (some 50) exInterestBytes) g ∧ lpNack (exLink (some 50) exInterestBytes) = some 50 ∧
    lpPitToken (exLink (some 50) exInterestBytes) = some [7, 7] ∧ lpFragment (exLink (some 50) exInterestBytes) = some [exInterestBytes] :=
  ⟨_, isLink_enc (exLink_inRange _ (by simp) _) (by decide), rfl, rfl, rfl⟩

/-- … and the link packet in another one -/
example : ∃ g, IsLink (exLink none (tlv 100 (lpPacket.enc (exLink none exInterestBytes)))) g :=
  ⟨_, isLink_enc (exLink_inRange _ (by simp) _) (by decide)⟩

example : ∃ f, IsData { name := some [⟨8, [65]⟩] } f :=
  ⟨_, DataV.bodies { name := some [⟨8, [65]⟩] }, (DataV.bodies { name := some [⟨8, [65]⟩] }).items, DataV.bodies_bodies _,
    by constructor <;> simp [OptIn, Elem.InRange, Component.Small], rfl, ⟨by decide, rfl, by
      intro x hx hs
      have hx : x ∈ [(⟨some 2, 7, [8, 1, 65]⟩ : It)] := hx
      rw [List.mem_singleton] at hx
      subst hx
      exact absurd hs (by decide)⟩, rfl, by decide⟩

/-- C38 fails: a link packet with a Nack header whose reason is 0 does not go to the Nack path; its Interest is handed to the Interest
handler, as if it had been received. -/
theorem C38_nack_none_violated (sha : Bytes → Bytes) : ∃ lp g, IsLink lp g ∧ lpNack lp = some 0 ∧ lpFragment lp = some [exInterestBytes] ∧
    ∀ F, g.length + exInterestBytes.length < F → ∃ raw cov token face, onPacket sha F g = some (.ok (.interest exInterest raw cov token face)) := by
  have hl := isLink_enc (exLink_inRange (some 0) (by simp) exInterestBytes) (by decide)
  refine ⟨_, _, hl, rfl, rfl, fun F hF => ?_⟩
  obtain ⟨ctx, g1, g2⟩ := (exInterest_is sha).read (F := F) (by omega)
  exact ⟨_, _, _, _, hl.inner rfl rfl rfl (by omega) g1⟩

theorem empty_parse : ∃ c r, parseInterest false 10 {} ⟨[], 0⟩ = some (.ok ({}, c), r) := by
  eval_interest

theorem rootInterest_parse (c : InterestCtx) : ∃ c' r, parseInterest false 10 c ⟨[7, 0], 0⟩ = some (.ok ({ name := some [] }, c'), r) := by
  have hv : InterestV.InRange { name := some [] } := by constructor <;> simp [OptIn, Elem.InRange]
  obtain ⟨⟨v, c'⟩, r, h1, h2, _⟩ := parseInterest_items (InterestV.bodies_bodies { name := some [] }) hv (its := [⟨some 2, 7, []⟩])
    ⟨by decide, rfl, by intro x hx hs; rw [List.mem_singleton] at hx; subst hx; exact absurd hs (by decide)⟩ (by decide) (by decide : _ < 10) c
  exact ⟨c', r, by simp only at h2; rw [← h2]; exact h1⟩

theorem paramsInterest_parse : ∃ c r, parseInterest false 10 {} ⟨[7, 0, 36, 0], 0⟩ =
    some (.ok ({ name := some [], appParam := some [[]] }, c), r) := by
  have hv : InterestV.InRange { name := some [], appParam := some [[]] } := by constructor <;> simp [OptIn, Elem.InRange]
  obtain ⟨⟨v, c'⟩, r, h1, h2, _⟩ := parseInterest_items (InterestV.bodies_bodies { name := some [], appParam := some [[]] }) hv
    (its := [⟨some 2, 7, []⟩, ⟨some 11, 36, []⟩])
    ⟨by decide, rfl, by
      intro x hx hs
      simp only [List.mem_cons, List.not_mem_nil, or_false] at hx
      rcases hx with rfl | rfl
      · exact absurd hs (by decide)
      · exact absurd hs (by decide)⟩ (by decide) (by decide : _ < 10) {}
  exact ⟨c', r, by simp only at h2; rw [← h2]; exact h1⟩

/-- C38 fails: an Interest whose length is larger than what is left is not dropped as malformed: its body is taken to be empty, its bytes are read as
further packets, and the Interest in them is handed to the handler. -/
theorem C38_overlong_violated (sha : Bytes → Bytes) : ∃ v cov,
    onPacket sha 10 [5, 0x7f, 5, 2, 7, 0] = some (.ok (.interest v [[5, 0x7f, 5, 2, 7, 0]] cov none none)) := by
  obtain ⟨c1, r1, h1⟩ := empty_parse
  obtain ⟨c2, r2, h2⟩ := rootInterest_parse c1
  refine ⟨{ name := some [] }, c2.sigCovered, ?_⟩
  unfold onPacket
  eval_packet [h1, h2]
  rfl

/-- C38 fails: `onPacket` panics on some buffers and runs forever on others. -/
theorem C38_no_return_violated (sha : Bytes → Bytes) (F : Nat) (hF : 2 ≤ F) :
    onPacket sha F panicBytes = some .panic ∧ onPacket sha F loopBytes = none := by
  unfold onPacket
  rw [(C24_readPacket_panics sha F hF).1, (C23_readPacket_diverges sha F).1]
  exact ⟨rfl, rfl⟩

/-- C38 fails: with a Data in front of it, an Interest is handed to the handler without the checks: here with application parameters and no digest. -/
theorem C38_two_packets_violated (sha : Bytes → Bytes) : ∃ v raw cov,
    onPacket sha 10 [6, 2, 7, 0, 5, 4, 7, 0, 36, 0] = some (.ok (.interest v raw cov none none)) ∧ v.appParam.isSome ∧ v.name = some [] := by
  obtain ⟨c2, r2, h2⟩ := paramsInterest_parse
  refine ⟨{ name := some [], appParam := some [[]] }, [[6, 2, 7, 0, 5, 4, 7, 0, 36, 0]], c2.sigCovered, ?_, rfl, rfl⟩
  unfold onPacket
  eval_packet [plainData_parse, h2]
  rfl

/-! ## C39 -/

theorem lpFields_mem {t : Bytes} {w : Option Wire} {f : NF} (h : f ∈ lpFields t w) :
    f.Ok ∧ (∀ n need, f ≠ .iname n need) ∧ (∀ t e, f ≠ .sig t e) ∧ f ≠ .mark := by
  cases w with
  | none =>
    simp only [lpFields, optWire, List.append_nil, List.mem_singleton] at h
    subst h
    exact ⟨trivial, by simp, by simp, by simp⟩
  | some w =>
    simp only [lpFields, optWire, List.cons_append, List.nil_append, List.mem_cons, List.not_mem_nil, or_false] at h
    rcases h with rfl | rfl
    · exact ⟨trivial, by simp, by simp, by simp⟩
    · exact ⟨trivial, by simp, by simp, by simp⟩

theorem lpEncode (t : Bytes) (w : Wire) :
    ∃ p s, packetEncode 100 (lpFields t (some w)) = .ok (p, s) ∧ p.flatten = tlv 100 (tlv 0x62 t ++ tlv 0x50 w.flatten) := by
  have hb : fieldBytes (lpFields t (some w)) = tlv 0x62 t ++ tlv 0x50 w.flatten := by
    show tlv 0x62 t ++ (tlv 0x50 w.flatten ++ []) = _
    rw [List.append_nil]
  have hc : coverStart 0 (lpFields t (some w)) = 0 := rfl
  obtain ⟨s, h1, h2, _, _⟩ := run_fields (start := 0) (lpFields t (some w)) (fun f hf => ⟨(lpFields_mem hf).1, (lpFields_mem hf).2.1⟩)
    (s := { wire := alloc (wirePlan 0 (lpFields t (some w))) }) (done := []) (acc := [])
    ⟨by rw [alloc_fill]; rfl, rfl, rfl⟩ rfl (fun hm => absurd rfl (lpFields_mem hm).2.2.2) (by simp)
  have hlen : encLength (lpFields t (some w)) = (tlv 0x62 t ++ tlv 0x50 w.flatten).length := by
    rw [encLength_eq (fun f hf => ⟨(lpFields_mem hf).1, (lpFields_mem hf).2.2.1⟩), hb]
  have hfl : s.wire.flatten = tlv 0x62 t ++ tlv 0x50 w.flatten := by
    rw [h2, List.nil_append, chunks_flatten (fun f hf => (lpFields_mem hf).2.2.1), hb]; rfl
  have hne : s.wire ≠ [] := by
    intro h
    rw [h] at hfl
    have := congrArg List.length hfl
    rw [List.length_append] at this
    have := tlv_body_lt 0x62 t
    simp at *
    omega
  refine ⟨_, s, packetEncode_eq ?_ (by rw [hc]; exact h1) hne, ?_⟩
  · rw [hlen, List.length_append]
    have := tlv_body_lt 0x62 t
    omega
  · rw [before_flatten hne, hfl, hlen]; rfl

/-- C39: with `now0` the time when the Interest came in and `ms` its lifetime (4 s if it has none): after `now0` plus the lifetime, `Reply` sends
nothing and reports an error; before, with the face down, the same; with the face up, it gives the face exactly the packet `w` if the
Interest came without a PIT token, and otherwise a link packet with that token and `w` as its fragment, and it returns the face's
error.  Missing: lifetimes of 2^63 ns or more, see `C39_lifetime_violated`. -/
theorem C39_reply_partial (now0 now : Int) (ms : Option Nat) (hms : ∀ m ∈ ms, m * 1000000 < 2 ^ 63) (running : Bool) (fails : Wire → Bool) (w : Wire) :
    let deadline : Int := now0 + (ms.getD 4000 : Nat) * 1000000
    let run := fun token => reply (replyDeadline now0 (ms.map durOfMs)) now running token fails (some w)
    (deadline < now → ∀ token, run token = .ok (some .deadlineExceeded, none)) ∧
    (now ≤ deadline → running = false → ∀ token, run token = .ok (some .faceDown, none)) ∧
    (now ≤ deadline → running = true →
      run none = .ok (if fails w then some .send else none, some (some w)) ∧
      ∀ t, ∃ p, run (some t) = .ok (if fails p then some .send else none, some (some p)) ∧
        p.flatten = tlv 100 (tlv 0x62 t ++ tlv 0x50 w.flatten)) := by
  intro deadline run
  have hd : replyDeadline now0 (ms.map durOfMs) = deadline := by
    cases ms with
    | none => rfl
    | some m =>
      have := hms m rfl
      show now0 + durOfMs m = now0 + (m : Int) * 1000000
      unfold durOfMs
      rw [toInt_of_lt (by omega), wrap64_id (by omega) (by omega)]
  have hrun : ∀ token, run token = reply deadline now running token fails (some w) := fun token => by show reply _ _ _ _ _ _ = _; rw [hd]
  refine ⟨?_, ?_, ?_⟩
  · intro h token
    rw [hrun]; unfold reply; rw [if_pos h]
  · intro h hr token
    rw [hrun]; unfold reply; rw [if_neg (by omega), if_pos (by rw [hr]; rfl)]
  · intro h hr
    constructor
    · rw [hrun]; unfold reply; rw [if_neg (by omega), if_neg (by rw [hr]; simp)]; rfl
    · intro t
      obtain ⟨p, s, h1, h2⟩ := lpEncode t w
      refine ⟨p, ?_, h2⟩
      rw [hrun]; unfold reply; rw [if_neg (by omega), if_neg (by rw [hr]; simp)]
      simp only [h1]; rfl

/-- what is sent is a link packet with the PIT token and the packet -/
theorem C39_sent_is_link (t d : Bytes) (hl : (tlv 0x62 t ++ tlv 0x50 d).length < 2 ^ 43) : ∃ lp, IsLink lp (tlv 100 (tlv 0x62 t ++ tlv 0x50 d)) ∧
    lpPitToken lp = some t ∧ lpFragment lp = some [d] ∧ lpFragIndex lp = none ∧ lpFragCount lp = none ∧ lpNack lp = none := by
  let lp : lpPacket.V := (none, none, none, some t, none, none, none, none, none, none, none, false, none, some [d], ())
  have e : lpPacket.enc lp = tlv 0x62 t ++ tlv 0x50 d := by
    show tlv 0x62 t ++ (tlv 0x50 (d ++ []) ++ []) = _
    rw [List.append_nil, List.append_nil]
  refine ⟨lp, ?_, rfl, rfl, rfl, rfl, rfl⟩
  rw [← e]
  exact isLink_enc ⟨trivial, trivial, trivial, trivial, trivial, trivial, trivial, trivial, trivial, trivial, trivial, trivial, ⟨d, rfl⟩, trivial⟩ (by rw [e]; exact hl)

/-- an Interest with a lifetime of 2 s that came in at 5 s: `Reply` at 7 s -/
example : ∃ p, reply (replyDeadline 5000000000 (some (durOfMs 2000))) 7000000000 true (some [1]) (fun _ => false) (some [[6, 2], [7, 0]]) =
    .ok (none, some (some p)) ∧ p.flatten = [100, 9, 0x62, 1, 1, 0x50, 4, 6, 2, 7, 0] := by
  obtain ⟨p, h1, h2⟩ := ((C39_reply_partial 5000000000 7000000000 (some 2000) (by simp) true (fun _ => false) [[6, 2], [7, 0]]).2.2 (by simp) rfl).2 [1]
  exact ⟨p, h1, h2⟩

/-- C39 fails: with a lifetime of 9223372036855 ms (292 years), the deadline overflows, and `Reply` refuses at once. -/
theorem C39_lifetime_violated (now : Int) (w : Wire) :
    reply (replyDeadline now (some (durOfMs 9223372036855))) now true none (fun _ => false) (some w) = .ok (some .deadlineExceeded, none) := by
  have : durOfMs 9223372036855 < 0 := by
    unfold durOfMs
    rw [toInt_small (by decide), wrap64_eq]
    decide
  unfold reply replyDeadline
  rw [if_pos (by simp only [Option.getD_some]; omega)]

end Ndn.Engine
