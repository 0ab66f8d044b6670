import Verif.Engine.ExchangeLemmas
import Verif.Engine.DispatchProps
import Verif.Engine.FibProps
import Verif.Packet.MakeInterestProps
import Verif.Packet.MakeProps
import Verif.Security.SignersProps

/-! # Properties of an exchange of packets between two engines: C86 -/

namespace Ndn.Engine
open Ndn.Packet Ndn.Codec

/-! ## Specification -/

/-- What `MakeInterest` can carry without loss (see C28). -/
structure InterestOk (name : Name) (config : InterestConfig) (signer : Option Signer) : Prop where
  name : ∀ c ∈ name, c.Small
  hint : ∀ ns, config.fwdHint = some ns → ∀ n ∈ ns, ∀ c ∈ n, c.Small
  nonce : ∀ x, config.nonce = some x → x < 2 ^ 32
  lifetime : ∀ d, config.lifetime = some d → WholeMs d
  hop : ∀ x, config.hopLimit = some x → x < 2 ^ 8
  key : ∀ c n, signerConfig signer = some c → c.keyName = some n → ∀ x ∈ n, x.Small
  typ : ∀ c, signerConfig signer = some c → -2 ^ 63 ≤ c.typ ∧ c.typ < 2 ^ 63
  time : ∀ c t, signerConfig signer = some c → c.sigTime = some t → 0 ≤ t ∧ t < 2 ^ 63
  seq : ∀ c x, signerConfig signer = some c → c.seqNum = some x → x < 2 ^ 64

/-- What `MakeData` can carry without loss (see C27). -/
structure DataOk (name : Name) (config : DataConfig) (signer : Option Signer) (covered : Wire) : Prop where
  name : ∀ c ∈ name, c.Small
  contentType : ∀ t, config.contentType = some t → t < 2 ^ 64
  freshness : ∀ d, config.freshness = some d → WholeMs d
  finalBlock : ∀ c, config.finalBlock = some c → c.Small
  key : ∀ c n, signerConfig signer = some c → c.keyName = some n → ∀ x ∈ n, x.Small
  typ : ∀ c, signerConfig signer = some c → -2 ^ 63 ≤ c.typ ∧ c.typ < 2 ^ 63
  sig : ∀ sg sig, signer = some sg → sg.sign covered = some sig →
    sg.est ≤ 252 ∨ (253 ≤ sig.length ∧ sg.est / 256 = sig.length / 256 ∧ sg.est < 2 ^ 63)

/-- The received Interest has the final name, options, parameters and signature that were sent. -/
structure InterestBack (config : InterestConfig) (appParam : Option Wire) (signer : Option Signer) (e : Encoded) (v : InterestV) (cov : Wire) : Prop where
  name : v.name = some e.finalName
  canBePrefix : v.canBePrefix = config.canBePrefix
  mustBeFresh : v.mustBeFresh = config.mustBeFresh
  hint : v.hintNames = config.fwdHint
  nonce : v.nonce = config.nonce
  lifetime : v.lifetime = config.lifetime
  hop : v.hopLimit = config.hopLimit
  param : v.appParam = appParam.map (fun w => [w.flatten])
  sig : ∀ c sg, signerConfig signer = some c → signer = some sg → sg.est ≠ 0 → sigTypeOf v.sigInfo = c.typ ∧
    ∃ sig, sg.sign e.covered = some sig ∧ v.sigValue = some [sig] ∧ cov.flatten = e.covered.flatten

/-- The received Data has the name, options, content and signature that were sent. -/
structure DataBack (name : Name) (config : DataConfig) (content : Option Wire) (signer : Option Signer) (e : Encoded) (d : DataV) (cov : Wire) : Prop where
  name : d.name = some name
  contentType : d.contentType = config.contentType
  freshness : d.freshness = config.freshness
  finalBlock : d.finalBlockID = config.finalBlock
  content : d.content = content.map (fun w => [w.flatten])
  sig : ∀ c sg, signerConfig signer = some c → signer = some sg → sg.est ≠ 0 → sigTypeOf d.sigInfo = c.typ ∧ keyNameOf d.sigInfo = c.keyName ∧
    ∃ sig, sg.sign e.covered = some sig ∧ d.sigValue = some [sig] ∧ cov.flatten = e.covered.flatten

/-- The bytes on the network: the packet as it is, or in a link packet with a PIT token. -/
def carried : Option Bytes → Bytes → Bytes
  | none, b => b
  | some t, b => tlv 100 (tlv 0x62 t ++ tlv 0x50 b)

/-- The name ends with a digest of a packet. -/
def EndsDigest (n : Name) : Prop := ∃ p d, n = p ++ [⟨1, d⟩]

/-- The Data `raw` named `d` is what the Interest asks for: same name, a name below with `CanBePrefix`, or the same packet. -/
def Asks (sha : Bytes → Bytes) (n : Name) (cbp : Bool) (d : Name) (raw : Bytes) : Prop :=
  (n = d ∧ ¬ EndsDigest n) ∨ (n <+: d ∧ cbp = true ∧ ¬ EndsDigest n) ∨ n = d ++ [⟨1, sha raw⟩]

/-- Events that do not touch the pending Interest `y` at `q`: other calls of `Express`, time, timers; Data below it that does not satisfy it, or Data
elsewhere whose name has a node of its own in the table; Nacks elsewhere; timeout functions of nodes in the table that are not above, and of its own node
before the deadline. -/
def Quiet (sha : Bytes → Bytes) (q : List Bytes) (y : Pend) (s : Pit) : PitEvent → Prop
  | .express _ _ _ _ => True
  | .tick _ => True
  | .fire _ => True
  | .data d raw => if q <+: keys d then y.satisfied sha q.length d raw = false else ∃ r k, r <+: keys d ∧ ¬ r <+: q ∧ s.trie.find r = some k
  | .nack d _ => ¬ keys d <+: q ∧ ¬ q <+: keys d
  | .run _ m => ∃ p, s.trie.find p = some m ∧ (p <+: q → p = q ∧ s.now < y.deadline)

/-- All events of `more`, which come after `evs` (latest first), are quiet. -/
def AllQuiet (sha : Bytes → Bytes) (q : List Bytes) (y : Pend) (evs : List PitEvent) : List PitEvent → Prop
  | [] => True
  | ev :: more => AllQuiet sha q y evs more ∧ Quiet sha q y (pitAfter sha (more ++ evs)) ev

/-! ## Lemmas -/

theorem isInterest_made {sha : Bytes → Bytes} {v : InterestV} (hv : v.InRange) (hval : v.Valid sha ((bytesOf v.bodies.items).drop (bytesOf v.bodies.head).length))
    (hl : v.enc.length < 2 ^ 43) : IsInterest sha v v.enc := by
  refine ⟨v.bodies, v.bodies.items, v.bodies_bodies, hv, interest_clean v.bodies, fun _ => headClean_of_clean fun x hx => ?_, hval, rfl, ?_⟩
  · obtain ⟨j, g1, _⟩ := (interest_items_incr v.bodies).ge x hx
    rw [g1]; simp
  · have := tlv_body_lt 5 (bytesOf v.bodies.items)
    unfold InterestV.enc at hl
    omega

theorem isData_made {v : DataV} (hv : v.InRange) (hn : v.name.isSome) (hl : v.enc.length < 2 ^ 43) : IsData v v.enc := by
  refine ⟨v.bodies, v.bodies.items, v.bodies_bodies, hv, hn, data_clean v.bodies, rfl, ?_⟩
  have := tlv_body_lt 6 (bytesOf v.bodies.items)
  unfold DataV.enc at hl
  omega

theorem carried_length (t : Option Bytes) (b : Bytes) : b.length ≤ (carried t b).length := by
  cases t with
  | none => exact Nat.le_refl _
  | some t =>
    unfold carried
    rw [tlv_length, List.length_append, tlv_length, tlv_length]
    omega

theorem carried_bound (t b : Bytes) : (carried (some t) b).length ≤ t.length + b.length + 60 := by
  unfold carried
  rw [tlv_length]
  have h1 := tlLen_le (tlv 0x62 t ++ tlv 0x50 b).length
  have h2 : (tlv 0x62 t ++ tlv 0x50 b).length = tlLen 0x62 + tlLen t.length + t.length + (tlLen 0x50 + tlLen b.length + b.length) := by
    rw [List.length_append, tlv_length, tlv_length]; omega
  have := tlLen_le 100
  have := tlLen_le 0x62
  have := tlLen_le 0x50
  have := tlLen_le t.length
  have := tlLen_le b.length
  omega

/-- what `onPacket` does with a made packet, bare or in a link packet -/
theorem carried_interest {sha : Bytes → Bytes} {v : InterestV} {f : Bytes} (h : IsInterest sha v f) (t : Option Bytes) (hl : (carried t f).length < 2 ^ 43) {F : Nat}
    (hF : (carried t f).length + f.length < F) {w : InterestV} {cov : Wire} (hr : readInterest sha F (BR.new f) = some (.ok (.ok (w, cov)))) :
    ∃ inc, onPacket sha F (carried t f) = some (.ok (.interest w [f] cov t inc)) := by
  cases t with
  | none =>
    obtain ⟨cov', h1, h2⟩ := (C38_bare_partial sha f F (by have := carried_length none f; omega)).1 v h
    rw [hr] at h1
    injection h1 with h1; injection h1 with h1; injection h1 with h1; injection h1 with h1 h1'
    subst h1; subst h1'
    exact ⟨none, h2⟩
  | some t =>
    have hl' : (tlv 0x62 t ++ tlv 0x50 f).length < 2 ^ 43 := by
      have := tlv_body_lt 100 (tlv 0x62 t ++ tlv 0x50 f)
      have hl : (tlv 100 (tlv 0x62 t ++ tlv 0x50 f)).length < 2 ^ 43 := hl
      omega
    obtain ⟨lp, g1, g2, g3, g4, g5, g6⟩ := C39_sent_is_link t f hl'
    obtain ⟨cov', h1, h2⟩ := (C38_link_partial sha lp (carried (some t) f) f g1 g4 g5 g3 F hF).2.1 v h g6
    rw [hr] at h1
    injection h1 with h1; injection h1 with h1; injection h1 with h1; injection h1 with h1 h1'
    subst h1; subst h1'
    rw [g2] at h2
    exact ⟨_, h2⟩

theorem carried_data {sha : Bytes → Bytes} {v : DataV} {f : Bytes} (h : IsData v f) (t : Option Bytes) (hl : (carried t f).length < 2 ^ 43) {F : Nat}
    (hF : (carried t f).length + f.length < F) {w : DataV} {cov : Wire} (hr : readData F (BR.new f) = some (.ok (.ok (w, cov)))) :
    onPacket sha F (carried t f) = some (.ok (.data w cov [f] t)) := by
  cases t with
  | none =>
    obtain ⟨cov', h1, h2⟩ := (C38_bare_partial sha f F (by have := carried_length none f; omega)).2 v h
    rw [hr] at h1
    injection h1 with h1; injection h1 with h1; injection h1 with h1; injection h1 with h1 h1'
    subst h1; subst h1'
    exact h2
  | some t =>
    have hl' : (tlv 0x62 t ++ tlv 0x50 f).length < 2 ^ 43 := by
      have := tlv_body_lt 100 (tlv 0x62 t ++ tlv 0x50 f)
      have hl : (tlv 100 (tlv 0x62 t ++ tlv 0x50 f)).length < 2 ^ 43 := hl
      omega
    obtain ⟨lp, g1, g2, g3, g4, g5, g6⟩ := C39_sent_is_link t f hl'
    obtain ⟨cov', h1, h2⟩ := (C38_link_partial sha lp (carried (some t) f) f g1 g4 g5 g3 F hF).2.2 v h g6
    rw [hr] at h1
    injection h1 with h1; injection h1 with h1; injection h1 with h1; injection h1 with h1 h1'
    subst h1; subst h1'
    rw [g2] at h2
    exact h2

theorem stripDigest_canon {n : Name} (h : Canon n) : Canon (stripDigest n) := fun c hc => h c (stripDigest_mem hc)

theorem finalName_canon {name fn : Name} {p : Bool} (h : Canon name)
    (hf : if p then ∃ d, fn = stripDigest name ++ [⟨2, d⟩] ∧ d.length = 32 else fn = stripDigest name) : Canon fn := by
  cases p with
  | false =>
    simp only [Bool.false_eq_true, if_false] at hf
    rw [hf]
    exact stripDigest_canon h
  | true =>
    simp only [if_true] at hf
    obtain ⟨d, rfl, _⟩ := hf
    intro c hc
    rcases List.mem_append.mp hc with hc | hc
    · exact stripDigest_canon h c hc
    · simp only [List.mem_singleton] at hc
      subst hc
      exact ⟨(by decide : 2 < 2 ^ 64), fun hx => absurd (show isNumberType 2 from hx) (by unfold isNumberType; decide)⟩

/-- an Interest that is asked for sits where the Data passes, and is satisfied -/
theorem asks_satisfied {sha : Bytes → Bytes} {n : Name} {cbp : Bool} {d : Name} {raw : Bytes} (h : Asks sha n cbp d raw) (id dl : Nat) :
    keys (splitDigest n).1 <+: keys d ∧ Pend.satisfied sha (keys (splitDigest n).1).length d raw ⟨id, dl, cbp, (splitDigest n).2⟩ = true := by
  have hnd : ¬ EndsDigest n → splitDigest n = (n, none) := by
    intro hn
    unfold splitDigest
    cases hg : n.getLast? with
    | none => rfl
    | some c =>
      simp only
      split
      · rename_i hc
        refine absurd ⟨n.dropLast, c.val, ?_⟩ hn
        obtain ⟨p, hp⟩ := List.getLast?_eq_some_iff.mp hg
        subst hp
        rw [List.dropLast_concat]
        rcases c with ⟨t, v⟩
        simp only at hc
        subst hc
        rfl
      · rfl
  have hlen : ∀ m : Name, (keys m).length = m.length := fun m => List.length_map ..
  rcases h with ⟨rfl, h2⟩ | ⟨h1, rfl, h2⟩ | rfl
  · rw [hnd h2, hlen]
    refine ⟨List.prefix_refl _, ?_⟩
    simp [Pend.satisfied]
  · rw [hnd h2, hlen]
    refine ⟨?_, ?_⟩
    · obtain ⟨r, rfl⟩ := h1
      exact ⟨keys r, by simp [keys]⟩
    · simp [Pend.satisfied]
  · have : splitDigest (d ++ [⟨1, sha raw⟩]) = (d, some (sha raw)) := by
      unfold splitDigest
      simp
    rw [this, hlen]
    refine ⟨List.prefix_refl _, ?_⟩
    simp [Pend.satisfied]

theorem quiet_keeps {sha : Bytes → Bytes} {q : List Bytes} {y : Pend} {s : Pit} (h : s.Inv) (hw : s.Waits q y) {ev : PitEvent} (hq : Quiet sha q y s ev) :
    (s.step sha ev).Waits q y := by
  cases ev with
  | express n l c d => exact express_keeps h n l c d hw
  | tick d => exact hw
  | fire t =>
    show Pit.Waits (if t ∈ s.timers ∧ t.due ≤ s.now then { s with timers := s.timers.erase t, started := (t.id, t.node) :: s.started } else s) q y
    split
    · exact hw
    · exact hw
  | data d raw =>
    have hq : if q <+: keys d then y.satisfied sha q.length d raw = false else ∃ r k, r <+: keys d ∧ ¬ r <+: q ∧ s.trie.find r = some k := hq
    split at hq
    · rename_i hp
      exact onData_keeps h sha d raw hw (fun _ => hq) (.inl hp)
    · rename_i hp
      exact onData_keeps h sha d raw hw (fun hx => absurd hx hp) (.inr hq)
  | nack d r => exact onNack_keeps h d r hw hq.1 hq.2
  | run id m =>
    obtain ⟨p, h1, h2⟩ := hq
    show Pit.Waits (if (id, m) ∈ s.started then Pit.timeoutFunc { s with started := s.started.erase (id, m) } m else s) q y
    split
    · have hi : Pit.Inv { s with started := s.started.erase (id, m) } := ⟨h.wf, h.dep0, h.out, h.ids, h.uniq, h.callIds, h.home⟩
      exact timeout_keeps hi (s := { s with started := s.started.erase (id, m) }) hw h1 (fun e => (h2 (e ▸ List.prefix_refl _)).2) (fun e => (h2 e).1)
    · exact hw

theorem allQuiet_waits {sha : Bytes → Bytes} {q : List Bytes} {y : Pend} {evs : List PitEvent} (hw : (pitAfter sha evs).Waits q y) :
    ∀ more, AllQuiet sha q y evs more → (pitAfter sha (more ++ evs)).Waits q y
  | [], _ => hw
  | _ :: more, h => quiet_keeps (pitAfter_inv sha (more ++ evs)) (allQuiet_waits hw more h.1) h.2

/-- what the producer sees -/
theorem request_seen (sha : Bytes → Bytes) (hsha : ∀ b, (sha b).length = 32) {name : Name} {config : InterestConfig} {appParam : Option Wire}
    {signer : Option Signer} {e : Encoded} (hm : makeInterest sha (some name) (some config) appParam signer = .ok e) (hok : InterestOk name config signer)
    (hcan : Canon name) (token : Option Bytes) (hl : (carried token e.wire.flatten).length < 2 ^ 43) (fuel : Nat)
    (hF : (carried token e.wire.flatten).length + e.wire.flatten.length < fuel) :
    Canon e.finalName ∧ ∃ v cov inc, InterestBack config appParam signer e v cov ∧
      onPacket sha fuel (carried token e.wire.flatten) = some (.ok (.interest v [e.wire.flatten] cov token inc)) := by
  have hle := carried_length token e.wire.flatten
  obtain ⟨v, cov, ⟨g1, g2, g3⟩, g4, a1, a2, a3, a4, a5, a6, a7, a8, a9, _, a11⟩ := madeInterest_parts sha hsha name config appParam signer e hm hok.name hok.hint hok.nonce
    hok.lifetime hok.hop hok.key hok.typ hok.time hok.seq (by omega) fuel (by omega)
  have hi : IsInterest sha v e.wire.flatten := by
    rw [g1]
    exact isInterest_made g2 g3 (by rw [← g1]; omega)
  obtain ⟨inc, h2⟩ := carried_interest hi token hl hF g4
  refine ⟨finalName_canon hcan a2, v, cov, inc, ⟨a1, a3, a4, a5, a6, a7, a8, a9, ?_⟩, h2⟩
  intro c sg hc hsg he
  obtain ⟨b1, _, _, _, _, b2⟩ := a11 c hc
  have b2 := b2 sg hsg
  rw [if_neg he] at b2
  exact ⟨b1, b2⟩

/-- what the consumer sees -/
theorem data_seen (sha : Bytes → Bytes) {name : Name} {config : DataConfig} {content : Option Wire} {signer : Option Signer} {e : Encoded}
    (hm : makeData (some name) (some config) content signer = .ok e) (hok : DataOk name config signer e.covered)
    (token : Option Bytes) (hl : (carried token e.wire.flatten).length < 2 ^ 43) (fuel : Nat)
    (hF : (carried token e.wire.flatten).length + e.wire.flatten.length < fuel) :
    ∃ v cov, DataBack name config content signer e v cov ∧
      onPacket sha fuel (carried token e.wire.flatten) = some (.ok (.data v cov [e.wire.flatten] token)) := by
  have hle := carried_length token e.wire.flatten
  obtain ⟨v, cov, ⟨g1, g2, g3⟩, g4, a1, a2, a3, a4, a5, _, a7⟩ := madeData_parts name config content signer e hm hok.name hok.contentType hok.freshness
    hok.finalBlock hok.key hok.typ hok.sig (by omega) fuel (by omega)
  have hi : IsData v e.wire.flatten := by
    rw [g1]
    exact isData_made g2 g3 (by rw [← g1]; omega)
  refine ⟨v, cov, ⟨a1, a2, a3, a4, a5, ?_⟩, carried_data hi token hl hF g4⟩
  intro c sg hc hsg he
  obtain ⟨b1, b2, _, _, b3⟩ := a7 c hc
  have b3 := b3 sg hsg
  rw [if_neg he] at b3
  exact ⟨b1, b2, b3⟩

/-! ## C86 -/

/-- C86: a made Interest that arrives, bare or in a link packet with a token, is given to the handler whose prefix it is under, with what the sender put in, the token,
and a deadline after its lifetime; the tables do not change. -/
theorem C86_request_partial (sha : Bytes → Bytes) (hsha : ∀ b, (sha b).length = 32) (name : Name) (config : InterestConfig) (appParam : Option Wire)
    (signer : Option Signer) (e : Encoded) (hm : makeInterest sha (some name) (some config) appParam signer = .ok e) (hok : InterestOk name config signer)
    (hcan : Canon name) (ops : List FibOp) (hops : ∀ op ∈ ops, Canon op.name) (p : Name) (x : Nat) (hp : (p, x) ∈ attachedAfter ops) (hpre : p <+: e.finalName)
    (token : Option Bytes) (hl : (carried token e.wire.flatten).length < 2 ^ 43) (fuel : Nat)
    (hF : (carried token e.wire.flatten).length + e.wire.flatten.length < fuel) (pit : Pit) (now : Int) :
    ∃ v cov, InterestBack config appParam signer e v cov ∧
      Eng.receive sha fuel ⟨fibAfter ops, pit⟩ now (carried token e.wire.flatten) =
        some (.ok (⟨fibAfter ops, pit⟩, .handler x v [e.wire.flatten] cov token (now + config.lifetime.getD 4000000000))) := by
  obtain ⟨hfc, v, cov, inc, hb, h2⟩ := request_seen sha hsha hm hok hcan token hl fuel hF
  refine ⟨v, cov, hb, ?_⟩
  have hh : (fibAfter ops).handler (v.name.getD []) = some x := by
    rw [hb.name]
    exact ((C31_dispatch_partial ops hops e.finalName hfc).1 x).mpr ⟨p, hp, hpre⟩
  unfold Eng.receive
  rw [h2]
  simp only [hh, hb.lifetime]
  rfl

/-- C86: a reply before the deadline on a face that runs puts the packet on the network, with the token of the Interest. -/
theorem C86_reply_partial (deadline now : Int) (hd : now ≤ deadline) (token : Option Bytes) (w : Wire) :
    ∃ p, reply deadline now true token (fun _ => false) (some w) = .ok (none, some (some p)) ∧ p.flatten = carried token w.flatten := by
  have h0 : replyDeadline (deadline - 4000000000) ((none : Option Nat).map durOfMs) = deadline := by
    show deadline - 4000000000 + 4000000000 = deadline
    omega
  have h := (C39_reply_partial (deadline - 4000000000) now none (fun m hm => nomatch hm) true (fun _ => false) w).2.2
    (by show now ≤ deadline - 4000000000 + ((4000 : Nat) : Int) * 1000000; omega) rfl
  simp only [h0] at h
  cases token with
  | none => exact ⟨w, h.1, rfl⟩
  | some t => exact h.2 t

/-- C86: a made Data that arrives, bare or in a link packet, is given to the callback of every pending Interest that asks for it, with what the producer put in. -/
theorem C86_delivered_partial (sha : Bytes → Bytes) (evs more : List PitEvent) (n : Name) (hn : n ≠ []) (life : Nat) (cbp : Bool) (delay : Nat)
    (hq : AllQuiet sha (keys (splitDigest n).1) ⟨(pitAfter sha evs).next, (pitAfter sha evs).now - delay + life, cbp, (splitDigest n).2⟩
      (.express n life cbp delay :: evs) more)
    (name : Name) (config : DataConfig) (content : Option Wire) (signer : Option Signer) (e : Encoded)
    (hm : makeData (some name) (some config) content signer = .ok e) (hok : DataOk name config signer e.covered) (ha : Asks sha n cbp name e.wire.flatten)
    (token : Option Bytes) (hl : (carried token e.wire.flatten).length < 2 ^ 43) (fuel : Nat)
    (hF : (carried token e.wire.flatten).length + e.wire.flatten.length < fuel) (fib : Fib) (now : Int) :
    ∃ v cov e' calls, DataBack name config content signer e v cov ∧ (pitAfter sha evs).next ∈ calls ∧
      Eng.receive sha fuel ⟨fib, pitAfter sha (more ++ .express n life cbp delay :: evs)⟩ now (carried token e.wire.flatten) =
        some (.ok (e', .data calls v [e.wire.flatten] cov)) := by
  obtain ⟨v, cov, hb, h2⟩ := data_seen sha hm hok token hl fuel hF
  have hw := allQuiet_waits (evs := .express n life cbp delay :: evs) (express_waits (pitAfter_inv sha evs) n life cbp delay hn) more hq
  obtain ⟨h3, h4⟩ := asks_satisfied ha (pitAfter sha evs).next ((pitAfter sha evs).now - delay + life)
  refine ⟨v, cov, ⟨fib, (pitAfter sha (more ++ .express n life cbp delay :: evs)).onData sha name e.wire.flatten⟩, _, hb, onData_called (pitAfter_inv sha _) sha name e.wire.flatten hw h3 h4, ?_⟩
  unfold Eng.receive
  rw [h2]
  simp only [hb.name, Option.getD_some, List.flatten_cons, List.flatten_nil, List.append_nil]

/-- C86: the whole exchange.  The consumer makes an Interest and expresses it, after any history; it reaches the producer, bare or in a link packet; the
handler is called and makes a Data that the Interest asks for; it replies before the deadline; the packet comes back; meanwhile nothing at the consumer touches
the pending Interest.  Then the callback of this `Express` is called with the Data, and the bytes and the signature that the callback can check are
those that the producer signed.  Missing: the events that `Quiet` excludes lose the Interest (C36). -/
theorem C86_exchange_partial (sha : Bytes → Bytes) (hsha : ∀ b, (sha b).length = 32)
    -- the Interest
    (name : Name) (config : InterestConfig) (appParam : Option Wire) (signer : Option Signer) (e : Encoded)
    (hm : makeInterest sha (some name) (some config) appParam signer = .ok e) (hok : InterestOk name config signer) (hcan : Canon name)
    (hne : e.finalName ≠ [])
    -- the consumer
    (evs more : List PitEvent) (life delay : Nat) (fibC : Fib)
    (hq : AllQuiet sha (keys (splitDigest e.finalName).1)
      ⟨(pitAfter sha evs).next, (pitAfter sha evs).now - delay + life, config.canBePrefix, (splitDigest e.finalName).2⟩
      (.express e.finalName life config.canBePrefix delay :: evs) more)
    -- the producer
    (ops : List FibOp) (hops : ∀ op ∈ ops, Canon op.name) (p : Name) (x : Nat) (hp : (p, x) ∈ attachedAfter ops) (hpre : p <+: e.finalName) (pitP : Pit)
    -- the Data
    (dname : Name) (dconfig : DataConfig) (content : Option Wire) (dsigner : Option Signer) (d : Encoded)
    (hdm : makeData (some dname) (some dconfig) content dsigner = .ok d) (hdok : DataOk dname dconfig dsigner d.covered)
    (ha : Asks sha e.finalName config.canBePrefix dname d.wire.flatten)
    -- times, tokens and sizes
    (t0 t1 t2 : Int) (ht : t1 ≤ t0 + config.lifetime.getD 4000000000) (token : Option Bytes)
    (hl1 : (carried token e.wire.flatten).length < 2 ^ 43) (hl2 : (carried token d.wire.flatten).length < 2 ^ 43) (fuel : Nat)
    (hF1 : (carried token e.wire.flatten).length + e.wire.flatten.length < fuel)
    (hF2 : (carried token d.wire.flatten).length + d.wire.flatten.length < fuel) :
    ∃ v cov deadline w dv dcov c calls,
      Eng.receive sha fuel ⟨fibAfter ops, pitP⟩ t0 (carried token e.wire.flatten) =
        some (.ok (⟨fibAfter ops, pitP⟩, .handler x v [e.wire.flatten] cov token deadline)) ∧
      InterestBack config appParam signer e v cov ∧
      reply deadline t1 true token (fun _ => false) (some d.wire) = .ok (none, some (some w)) ∧
      Eng.receive sha fuel ⟨fibC, pitAfter sha (more ++ .express e.finalName life config.canBePrefix delay :: evs)⟩ t2 w.flatten =
        some (.ok (c, .data calls dv [d.wire.flatten] dcov)) ∧
      (pitAfter sha evs).next ∈ calls ∧ DataBack dname dconfig content dsigner d dv dcov ∧
      ∀ (check : Bytes → Bytes → Bool) (sg : Signer) (sc : SigConfig), dsigner = some sg → signerConfig dsigner = some sc → sg.est ≠ 0 →
        (∀ m sig, sg.sign m = some sig → check m.flatten sig = true) → ∃ sig, dv.sigValue = some [sig] ∧ check dcov.flatten sig = true := by
  obtain ⟨v, cov, h1, h2⟩ := C86_request_partial sha hsha name config appParam signer e hm hok hcan ops hops p x hp hpre token hl1 fuel hF1 pitP t0
  obtain ⟨w, h3, h4⟩ := C86_reply_partial (t0 + config.lifetime.getD 4000000000) t1 ht token d.wire
  obtain ⟨dv, dcov, c, calls, h5, h6, h7⟩ := C86_delivered_partial sha evs more e.finalName hne life config.canBePrefix delay hq dname dconfig content dsigner d hdm hdok ha
    token hl2 fuel hF2 fibC t2
  refine ⟨v, cov, _, w, dv, dcov, c, calls, h2, h1, h3, by rw [h4]; exact h7, h6, h5, ?_⟩
  intro check sg sc hsg hsc he hch
  obtain ⟨_, _, sig, k1, k2, k3⟩ := h5.sig sc sg hsc hsg he
  exact ⟨sig, k2, by rw [k3]; exact hch _ _ k1⟩

/-- `/A` with `CanBePrefix` -/
theorem exchange_interest : ∃ e, makeInterest sha32 (some [⟨8, [65]⟩]) (some { canBePrefix := true }) none none = .ok e ∧ e.finalName = [⟨8, [65]⟩] ∧
    e.wire.flatten = [5, 7, 7, 3, 8, 1, 65, 33, 0] := by
  obtain ⟨w, s, h1, h2⟩ := interest_plain (v := interestOf [⟨8, [65]⟩] { canBePrefix := true } none none) rfl rfl rfl false
  refine ⟨{ wire := w, covered := [], finalName := [⟨8, [65]⟩] }, ?_, rfl, ?_⟩
  · simp only [makeInterest, interestSig, Res.bind, Option.isSome_none, h1]
    rfl
  · rw [h2, head_bytes _ _ rfl]
    rfl

/-- `/A/B` with a signature -/
theorem exchange_data : ∃ d, makeData (some [⟨8, [65]⟩, ⟨8, [66]⟩]) (some {}) (some [[1], [2]]) (some (exSigner 72 [1, 2])) = .ok d ∧ d.wire.flatten.length < 2 ^ 43 :=
  Security.makeData_ok (si := some (mkSigInfo 0 none none none none none)) (est := 72) (by rfl) (by decide) (by decide) (fun w => ⟨_, rfl, by decide⟩) (by decide)

theorem exSigner_config {c : SigConfig} (h : signerConfig (some (exSigner 72 [1, 2])) = some c) : c = { typ := 0 } := (Option.some.inj h).symm

/-- the hypotheses are met: `/A` with `CanBePrefix` is expressed; then `/C` is expressed and gets its Data; a handler for `/A` replies with `/A/B`, signed, in a
link packet -/
example : ∃ e d,
    makeInterest sha32 (some [⟨8, [65]⟩]) (some { canBePrefix := true }) none none = .ok e ∧ InterestOk [⟨8, [65]⟩] { canBePrefix := true } none ∧
    Canon [⟨8, [65]⟩] ∧ e.finalName ≠ [] ∧
    AllQuiet sha32 (keys (splitDigest e.finalName).1) ⟨0, 100, true, (splitDigest e.finalName).2⟩ [.express e.finalName 100 true 0]
      [.tick 5, .data [⟨8, [67]⟩] [9], .express [⟨8, [67]⟩] 100 false 0] ∧
    ([⟨8, [65]⟩], 3) ∈ attachedAfter [.attach [⟨8, [65]⟩] 3] ∧ [⟨8, [65]⟩] <+: e.finalName ∧
    makeData (some [⟨8, [65]⟩, ⟨8, [66]⟩]) (some {}) (some [[1], [2]]) (some (exSigner 72 [1, 2])) = .ok d ∧
    DataOk [⟨8, [65]⟩, ⟨8, [66]⟩] {} (some (exSigner 72 [1, 2])) d.covered ∧ Asks sha32 e.finalName true [⟨8, [65]⟩, ⟨8, [66]⟩] d.wire.flatten ∧
    (carried (some [1]) e.wire.flatten).length < 2 ^ 43 ∧ d.wire.flatten.length < 2 ^ 43 := by
  obtain ⟨e, h1, h2, h3⟩ := exchange_interest
  obtain ⟨d, g1, g2⟩ := exchange_data
  have hl : (carried (some [1]) e.wire.flatten).length < 2 ^ 43 := by
    have h9 : e.wire.flatten.length = 9 := by rw [h3]; rfl
    have := carried_bound [1] e.wire.flatten
    simp only [List.length_cons, List.length_nil] at this
    omega
  refine ⟨e, d, h1, ?_, ?_, by rw [h2]; simp, ?_, by decide, by rw [h2]; exact List.prefix_refl _, g1, ?_, ?_, hl, g2⟩
  · exact ⟨by simp [Component.Small], fun _ h => (nomatch h), fun _ h => (nomatch h), fun _ h => (nomatch h), fun _ h => (nomatch h),
      fun _ _ h => (nomatch h), fun _ h => (nomatch h), fun _ _ h => (nomatch h), fun _ _ h => (nomatch h)⟩
  · intro c hc
    simp only [List.mem_singleton] at hc
    subst hc
    exact ⟨(by decide : 8 < 2 ^ 64), fun hx => absurd (show isNumberType 8 from hx) (by unfold isNumberType; decide)⟩
  · rw [h2]
    have hne : ¬ keys (splitDigest [⟨8, [65]⟩]).1 <+: keys [⟨8, [67]⟩] := by decide
    have hne' : ¬ keys [⟨8, [67]⟩] <+: keys (splitDigest [⟨8, [65]⟩]).1 := by decide
    have hf : (pitAfter sha32 ([PitEvent.express [⟨8, [67]⟩] 100 false 0] ++ [.express [⟨8, [65]⟩] 100 true 0])).trie.find (keys [⟨8, [67]⟩]) = some 2 := by
      decide
    refine ⟨⟨⟨trivial, trivial⟩, ?_⟩, trivial⟩
    unfold Quiet
    dsimp only
    rw [if_neg hne]
    exact ⟨keys [⟨8, [67]⟩], 2, List.prefix_refl _, hne', hf⟩
  · exact ⟨by simp [Component.Small], fun _ h => (nomatch h), fun _ h => (nomatch h), fun _ h => (nomatch h),
      fun c n h1 h2 => by rw [exSigner_config h1] at h2; exact (nomatch h2), fun c h1 => by rw [exSigner_config h1]; decide,
      fun sg sig h1 _ => by injection h1 with h1; subst h1; exact .inl (by decide)⟩
  · rw [h2]
    refine .inr (.inl ⟨⟨[⟨8, [66]⟩], rfl⟩, rfl, ?_⟩)
    rintro ⟨p, dg, h⟩
    have := congrArg List.getLast? h
    simp at this

/-- What a made Data does to the tables, whatever they hold. -/
theorem made_received (sha : Bytes → Bytes) {name : Name} {config : DataConfig} {content : Option Wire} {signer : Option Signer} {e : Encoded}
    (hm : makeData (some name) (some config) content signer = .ok e) (hok : DataOk name config signer e.covered) (hl : e.wire.flatten.length < 2 ^ 43) (fuel : Nat)
    (hF : 2 * e.wire.flatten.length < fuel) (c : Eng) (now : Int) :
    ∃ v cov, Eng.receive sha fuel c now e.wire.flatten = some (.ok ({ c with pit := c.pit.onData sha name e.wire.flatten },
      .data (newCalls c.pit (c.pit.onData sha name e.wire.flatten)) v [e.wire.flatten] cov)) := by
  obtain ⟨v, cov, hb, h2⟩ := data_seen sha hm hok none hl fuel (by show e.wire.flatten.length + _ < _; omega)
  refine ⟨v, cov, ?_⟩
  have h2 : onPacket sha fuel e.wire.flatten = some (.ok (.data v cov [e.wire.flatten] none)) := h2
  unfold Eng.receive
  rw [h2]
  simp only [hb.name, Option.getD_some, List.flatten_cons, List.flatten_nil, List.append_nil]

/-- Data that satisfies nothing calls nothing. -/
theorem newCalls_none {sha : Bytes → Bytes} {s : Pit} (hi : s.Inv) {name : Name} {raw : Bytes} (h : ¬ s.satisfies sha name raw) :
    newCalls s (s.onData sha name raw) = [] := by
  rw [onData_none hi h]
  unfold newCalls
  rw [Nat.sub_self]
  rfl

/-- in a table where only the root exists nothing is satisfied -/
theorem satisfies_none {sha : Bytes → Bytes} {s : Pit} {name : Name} {raw : Bytes} (h : ∀ r, r ≠ [] → s.trie.find r = none)
    (h0 : (s.trie.node 0).val = []) : ¬ s.satisfies sha name raw := by
  rintro ⟨q, c, _, h1, y, hy, _⟩
  by_cases hq : q = []
  · subst hq
    have : c = 0 := (Option.some.inj h1).symm
    rw [this, h0] at hy
    cases hy
  · rw [h q hq] at h1
    cases h1

/-- C86 fails: `/A` is expressed, Data `/C` that nobody asked for arrives, then the Data for `/A`, before the deadline: no callback is called, for any signer
and content. -/
theorem C86_unsolicited_violated (sha : Bytes → Bytes) (content : Option Wire) (signer : Option Signer) (d1 d2 : Encoded)
    (h1 : makeData (some [⟨8, [67]⟩]) (some {}) content signer = .ok d1) (h2 : makeData (some [⟨8, [65]⟩]) (some {}) content signer = .ok d2)
    (hok1 : DataOk [⟨8, [67]⟩] {} signer d1.covered) (hok2 : DataOk [⟨8, [65]⟩] {} signer d2.covered) (hl1 : d1.wire.flatten.length < 2 ^ 43)
    (hl2 : d2.wire.flatten.length < 2 ^ 43) (fuel : Nat) (hF1 : 2 * d1.wire.flatten.length < fuel) (hF2 : 2 * d2.wire.flatten.length < fuel) (fib : Fib) (t : Int) :
    let c : Eng := ⟨fib, pitAfter sha [.express [⟨8, [65]⟩] 100 false 0]⟩
    (∃ c' v cov, Eng.receive sha fuel c t d2.wire.flatten = some (.ok (c', .data [0] v [d2.wire.flatten] cov))) ∧
    ∃ c' v cov c'' v' cov', Eng.receive sha fuel c t d1.wire.flatten = some (.ok (c', .data [] v [d1.wire.flatten] cov)) ∧
      Eng.receive sha fuel c' t d2.wire.flatten = some (.ok (c'', .data [] v' [d2.wire.flatten] cov')) := by
  intro c
  obtain ⟨v0, cov0, g0⟩ := made_received sha h2 hok2 hl2 fuel hF2 c t
  obtain ⟨v1, cov1, g1⟩ := made_received sha h1 hok1 hl1 fuel hF1 c t
  obtain ⟨v2, cov2, g2⟩ := made_received sha h2 hok2 hl2 fuel hF2 { c with pit := c.pit.onData sha [⟨8, [67]⟩] d1.wire.flatten } t
  have e0 : newCalls c.pit (c.pit.onData sha [⟨8, [65]⟩] d2.wire.flatten) = [0] := by rfl
  have hi : c.pit.Inv := pitAfter_inv sha _
  have hs : ¬ c.pit.satisfies sha [⟨8, [67]⟩] d1.wire.flatten := by
    rintro ⟨q, k, h1, h2, y, hy, _⟩
    obtain ⟨r, hr⟩ := h1
    match q, hr with
    | [], _ =>
      have : k = 0 := (Option.some.inj h2).symm
      subst this
      cases hy
    | [_], hr =>
      injection hr with hr _
      subst hr
      cases h2
    | _ :: _ :: _, hr => cases hr
  have e1 := newCalls_none hi hs
  have hx := (C36_exact sha [.express [⟨8, [65]⟩] 100 false 0] [⟨8, [67]⟩] d1.wire.flatten hs).2.2.2.2 [] 0 List.nil_prefix rfl (by
    intro l' hl' hlen
    obtain ⟨r, hr⟩ := hl'
    match l', hr with
    | [], _ => cases hlen
    | [_], hr =>
      injection hr with hr _
      subst hr
      rfl
    | _ :: _ :: _, hr => cases hr)
  have e2 := newCalls_none (sha := sha) (name := [⟨8, [65]⟩]) (raw := d2.wire.flatten) (onData_inv hi sha [⟨8, [67]⟩] d1.wire.flatten)
    (satisfies_none (fun r hr => hx.2 rfl r hr List.nil_prefix) (by
      rw [onData_none hi hs]
      exact ((Trie.deleteIf_shrinks (fun l : List Pend => l.isEmpty) c.pit.trie (c.pit.trie.prefixMatch 0 (keys [⟨8, [67]⟩]))).val 0).trans (show (c.pit.trie.node 0).val = [] from rfl)))
  rw [e0] at g0
  rw [e1] at g1
  rw [e2] at g2
  exact ⟨⟨_, v0, cov0, g0⟩, _, v1, cov1, _, v2, cov2, g1, g2⟩

/-- its hypotheses are met -/
example : ∃ d1 d2, makeData (some [⟨8, [67]⟩]) (some {}) (some [[1], [2]]) (some (exSigner 72 [1, 2])) = .ok d1 ∧ d1.wire.flatten.length < 2 ^ 43 ∧
    makeData (some [⟨8, [65]⟩]) (some {}) (some [[1], [2]]) (some (exSigner 72 [1, 2])) = .ok d2 ∧ d2.wire.flatten.length < 2 ^ 43 := by
  obtain ⟨d1, h1, h2⟩ := Security.makeData_ok (name := [⟨8, [67]⟩]) (config := {}) (content := some [[1], [2]]) (sg := exSigner 72 [1, 2])
    (si := some (mkSigInfo 0 none none none none none)) (est := 72) (by rfl) (by decide) (by decide) (fun w => ⟨_, rfl, by decide⟩) (by decide)
  obtain ⟨d2, h3, h4⟩ := Security.makeData_ok (name := [⟨8, [65]⟩]) (config := {}) (content := some [[1], [2]]) (sg := exSigner 72 [1, 2])
    (si := some (mkSigInfo 0 none none none none none)) (est := 72) (by rfl) (by decide) (by decide) (fun w => ⟨_, rfl, by decide⟩) (by decide)
  exact ⟨d1, d2, h1, h2, h3, h4⟩

end Ndn.Engine
