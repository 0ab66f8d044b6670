import Verif.Schema.Fetch
import Verif.Schema.LeafProps
import Verif.Schema.PoliciesProps
import Verif.Schema.TreeProps
import Verif.Engine.ExchangeProps

/-! # Properties of fetching what another program provides: C88 -/

namespace Ndn.Schema
open Ndn.Packet Ndn.Engine Ndn.Security

/-! ## Specification -/

/-- The name needed is that of the packet, or its name followed by the digest of the packet. -/
def Wanted (sha : Bytes → Bytes) (needed name : Name) (raw : Bytes) : Prop :=
  (needed = name ∧ ∃ p c, name = p ++ [c] ∧ c.typ ≠ 1 ∧ c.typ ≠ 2) ∨ needed = name ++ [⟨1, sha raw⟩]

/-- The policies of a node that trusts `p`: it is the last one, and no other one is about its kind of signature. -/
def Trusts (p : SignerPolicy) (ps : List SignerPolicy) : Prop :=
  ps.getLast? = some p ∧ (∀ q ∈ ps, q.sigType = p.sigType → q = p) ∧ ∀ key, .hmac key ∈ ps → key ≠ []

/-- the storages can be used -/
def Timed (n : PointCfg) (w : LeafWorld) : Prop := ∀ k ∈ n.stores, (w.store k).timer = true

/-! ## Lemmas -/

theorem refine_wanted {sha : Bytes → Bytes} {t : STree} {m : Matched} {name : Name} {raw : Bytes} (h : Wanted sha m.name name raw)
    (ha : (t.at' m.addr).isSome) : refine t m name = some ⟨m.addr, name, m.matching⟩ := by
  obtain ⟨⟨es, t'⟩, ht⟩ := Option.isSome_iff_exists.mp ha
  unfold refine
  rcases h with ⟨h, _⟩ | h
  · rw [h, if_pos ((Name.isPrefix_iff _ _).mpr (List.prefix_refl _)), ht]
    simp only [List.drop_length]
    rw [continueMatch]
    simp [stripParams, stripDigest]
  · rw [if_neg (by
      rw [Name.isPrefix_iff, h]
      intro hp
      have := hp.length_le
      rw [List.length_append] at this
      exact absurd this (by simp))]
    rw [h]
    simp only [List.getLast?_append, List.getLast?_singleton, Option.some_or, List.dropLast_concat]
    rw [if_neg (by simp [typDigest, (nameEqual_iff name name).mpr rfl])]

theorem signer_config (sha : Bytes → Bytes) (mac : Bytes → Bytes → Bytes) (keyName : Option Name) (cert : Option (Bytes × Bytes)) (p : SignerPolicy) :
    ∃ c, signerConfig (some (p.signer sha mac keyName cert)) = some c ∧ c.typ = p.sigType ∧ (∀ n, c.keyName = some n → keyName = some n) ∧
      (p.signer sha mac keyName cert).est = 32 := by
  cases p with
  | sha256 => exact ⟨{ typ := sigSha256 }, rfl, rfl, fun _ h => (nomatch h), rfl⟩
  | hmac key =>
    exact ⟨{ typ := sigHmac, keyName := keyName, notBefore := cert.map (·.1), notAfter := cert.map (·.2) }, rfl, rfl, fun _ h => h, rfl⟩

/-- what the signer of a policy makes is accepted by a node that trusts the policy -/
theorem own_passes {sha : Bytes → Bytes} {mac : Bytes → Bytes → Bytes} {keyName : Option Name} {cert : Option (Bytes × Bytes)} {p : SignerPolicy}
    {ps : List SignerPolicy} (ht : Trusts p ps) {name : Name} {config : DataConfig} {content : Option Wire} {e : Encoded}
    (hm : makeData (some name) (some config) content (some (p.signer sha mac keyName cert)) = .ok e) {d : DataV} {cov : Wire}
    (hb : DataBack name config content (some (p.signer sha mac keyName cert)) e d cov) :
    ∃ v, applyPolicies sha mac ps (.ofData d cov) = .ok v ∧ (onDataResult v ()).1 = .data := by
  obtain ⟨c, hc, hty, _, hest⟩ := signer_config sha mac keyName cert p
  obtain ⟨g1, _, sig, g2, g3, g4⟩ := hb.sig c _ hc rfl (by rw [hest]; decide)
  have hcov : e.covered.flatten ≠ [] := by
    cases p with
    | sha256 => exact covered_ne (si := some (mkSigInfo 0 none none none none none)) (est := 32) (by rfl) (by decide) hm
    | hmac key =>
      cases cert with
      | none => exact covered_ne (si := some (mkSigInfo 4 keyName none none none none)) (est := 32) (by rfl) (by decide) hm
      | some ct => exact covered_ne (si := some (mkSigInfo 4 keyName none none none (some ct))) (est := 32) (by rfl) (by decide) hm
  have hne : cov ≠ [] := by rintro rfl; exact hcov g4.symm
  have hso : sigOf d.sigInfo d.sigValue = ⟨p.sigType, sig⟩ := by
    unfold sigOf
    rw [g1, hty, g3]
    simp
  obtain ⟨v, k1, _, k2⟩ := C63_data_partial sha mac ps ht.2.2 d cov hne
  refine ⟨v, k1, k2 ?_ ⟨p, ht.1, by rw [hso]⟩⟩
  intro q hq hf
  have hqp := ht.2.1 q hq (by rw [hf.1.symm, hso])
  subst hqp
  apply hf.2
  rw [hso, g4]
  cases q with
  | sha256 => exact (Option.some.inj g2).symm
  | hmac key => exact (Option.some.inj g2).symm

theorem dataOk_signer {sha : Bytes → Bytes} {mac : Bytes → Bytes → Bytes} {keyName : Option Name} {cert : Option (Bytes × Bytes)} (p : SignerPolicy)
    {name : Name} {config : DataConfig} (hname : ∀ c ∈ name, c.Small) (hct : ∀ t, config.contentType = some t → t < 2 ^ 64)
    (hfr : ∀ d, config.freshness = some d → WholeMs d) (hfb : ∀ c, config.finalBlock = some c → c.Small)
    (hkey : ∀ n, keyName = some n → ∀ x ∈ n, x.Small) (cov : Wire) : DataOk name config (some (p.signer sha mac keyName cert)) cov := by
  obtain ⟨c, hc, hty, hkn, hest⟩ := signer_config sha mac keyName cert p
  refine ⟨hname, hct, hfr, hfb, fun c' n h1 h2 => ?_, fun c' h1 => ?_, fun sg sig h1 _ => ?_⟩
  · rw [hc] at h1
    obtain rfl := Option.some.inj h1
    exact hkey n (hkn n h2)
  · rw [hc] at h1
    obtain rfl := Option.some.inj h1
    rw [hty]
    cases p with
    | sha256 => decide
    | hmac key => exact (by decide : -2 ^ 63 ≤ (4 : Int) ∧ (4 : Int) < 2 ^ 63)
  · obtain rfl := Option.some.inj h1
    rw [hest]
    exact .inl (by decide)

theorem stripDigest_wanted {sha : Bytes → Bytes} {needed name : Name} {raw : Bytes} (h : Wanted sha needed name raw) : Packet.stripDigest needed = needed := by
  rcases h with ⟨rfl, p, c, rfl, _, h2⟩ | rfl
  · rw [stripDigest_concat, if_neg h2]
  · rw [stripDigest_concat, if_neg (show ¬ (1 = 2) by decide)]

theorem asks_wanted {sha : Bytes → Bytes} {needed name : Name} {raw : Bytes} (h : Wanted sha needed name raw) (cbp : Bool) : Asks sha needed cbp name raw := by
  rcases h with ⟨rfl, p, c, rfl, h1, _⟩ | rfl
  · refine .inl ⟨rfl, ?_⟩
    rintro ⟨q, d, h⟩
    have := congrArg List.getLast? h
    simp at this
    exact h1 (by rw [this])
  · exact .inr (.inr rfl)

theorem canon_wanted {sha : Bytes → Bytes} {needed name : Name} {raw : Bytes} (h : Wanted sha needed name raw) (hn : Canon name) : Canon needed := by
  rcases h with ⟨rfl, _⟩ | rfl
  · exact hn
  · intro c hc
    rcases List.mem_append.mp hc with hc | hc
    · exact hn c hc
    · simp only [List.mem_singleton] at hc
      subst hc
      exact ⟨(by decide : 1 < 2 ^ 64), fun hx => absurd (show isNumberType 1 from hx) (by unfold isNumberType; decide)⟩

/-- `NeedCallback` expresses the Interest that `MakeInterest` makes -/
theorem need_express {sha : Bytes → Bytes} {z : Int} {ord : Nat → List (Bytes × Nat) → List (Bytes × Nat)} {n : PointCfg} {w : LeafWorld} {name : Name}
    {appParam : Option Wire} {cfg : Option InterestConfig} {nonce : Nat} {signer : Option Signer} {supress : Bool} {e : Encoded} {life : Nat} {cbp : Bool}
    (h : needCallback sha z ord n w name appParam cfg nonce signer supress = .ok (.express e life cbp)) :
    makeInterest sha (some name) (some (n.intCfg cfg nonce)) appParam signer = .ok e ∧ cbp = (n.intCfg cfg nonce).canBePrefix ∧
      life = ((n.intCfg cfg nonce).lifetime.getD 4000000000).toNat := by
  unfold needCallback at h
  simp only at h
  split at h
  · cases h
  · cases hm : makeInterest sha (some name) (some (n.intCfg cfg nonce)) appParam signer with
    | panic => rw [hm] at h; cases h
    | err x => rw [hm] at h; cases h
    | ok e' =>
      rw [hm] at h
      simp only at h
      split at h
      · cases h
      · injection h with h
        injection h with h1 h2 h3
        exact ⟨by rw [h1], h3.symm, h2.symm⟩

theorem onDataResult_status {S : Type} (v : Listeners S VAns) (s : S) : (onDataResult v s).1 = .data ∨ (onDataResult v s).1 = .unverified := by
  unfold onDataResult
  split
  split
  · exact .inr rfl
  · exact .inl rfl

theorem saveAll_none (z : Int) (name : Name) (raw : Wire) (ks : List Nat) (w : LeafWorld) (h : ks ≠ []) : saveAll z name raw none ks w = .panic := by
  cases ks with
  | nil => exact absurd rfl h
  | cons k ks =>
    unfold saveAll LeafWorld.save
    split <;> rfl

/-- a packet that was just saved is found -/
theorem saved_found {z now : Int} {ops : List LeafOp} {w w' : LeafWorld} (h : leafRun z ops (LeafWorld.new z now) = .ok w) (hc : LeafCanon ops)
    {name : Name} (hn : Canon name) {raw : Wire} (hr : raw ≠ []) {f : Int} {k : Nat} {ks : List Nat}
    (hs : saveAll z name raw (some f) (k :: ks) w = .ok w') (ord : Nat → List (Bytes × Nat) → List (Bytes × Nat)) (cbp mf : Bool) (hf : mf = true → 0 < f) :
    searchCache z ord (k :: ks) w' name cbp mf = some raw := by
  obtain ⟨_, ext, hh, hsv⟩ := run_spec ops h (holds_new z now)
  obtain ⟨g1, g2, g3, g4⟩ := saveAll_spec _ hs hh
  refine searchCache_head ?_ hr
  unfold LeafWorld.search
  rw [g3 k, g1 k List.mem_cons_self, if_pos rfl, g4 k]
  refine C53_found z _ ?_ name hn ord _ _ _ ⟨raw, w.now + f⟩ ?_ ⟨hr, fun h => ?_⟩
  · intro p hp
    rcases List.mem_append.mp hp with hp | hp
    · obtain ⟨_, rfl⟩ := List.mem_replicate.mp hp
      exact hn
    · rw [List.append_nil] at hp
      obtain ⟨op, hop, hs⟩ := hsv k p hp
      exact hc op hop k _ _ hs
  · simp only [List.count_cons_self]
    unfold lastPut
    simp [List.replicate_succ]
  · rw [g2]
    have := hf h
    show w.now < w.now + f
    omega

/-! ## C88 -/

/-- C88: what one program provides at a leaf, another one gets with `Need`.  The producer provides the packet after any history, with the signer of a policy; later it
saves nothing else under the name.  The consumer calls `NeedCallback` for the name, or for the name with the digest of the packet, and has not the packet in its
storage: the Interest reaches the producer, bare or in a link packet, while the packet is valid; the tree's handler replies with the packet; it comes back
before the deadline and nothing at the consumer touches the pending Interest meanwhile.  Then the closure of this `NeedCallback` is called, the
validators pass, and the application's callback gets the content and the name that were provided; and the next `Need` for the name is answered from the storage. -/
theorem C88_fetch_partial (sha : Bytes → Bytes) (hsha : ∀ b, (sha b).length = 32) (mac : Bytes → Bytes → Bytes)
    (ord : Nat → List (Bytes × Nat) → List (Bytes × Nat)) (z : Int)
    -- the producer's program
    (now1 : Int) (ops1 ops2 : List LeafOp) (w1 w2 w3 : LeafWorld) (n : LeafCfg) (name : Name) (content : Option Wire) (cfg : Option DataConfig)
    (keyName : Option Name) (cert : Option (Bytes × Bytes)) (p : SignerPolicy) (raw : Wire) (k : Nat) (ks : List Nat)
    (h1 : leafRun z ops1 (LeafWorld.new z now1) = .ok w1)
    (h2 : provide z n (some name) content cfg (some (p.signer sha mac keyName cert)) w1 = .ok (some raw, w2)) (h3 : leafRun z ops2 w2 = .ok w3)
    (hk : k ∈ n.stores) (hc1 : LeafCanon ops1) (hc2 : LeafCanon ops2) (hn : Canon name) (ho : ∀ op ∈ ops2, ∀ r, ¬op.Saves k name r)
    (hsmall : ∀ c ∈ name, c.Small) (hct : ∀ t, (n.dataCfg cfg).contentType = some t → t < 2 ^ 64)
    (hfr : ∀ d, (n.dataCfg cfg).freshness = some d → WholeMs d) (hfb : ∀ c, (n.dataCfg cfg).finalBlock = some c → c.Small)
    (hkey : ∀ nm, keyName = some nm → ∀ x ∈ nm, x.Small)
    -- the producer's tree and engine
    (pre : Name) (tp : STree) (points : Addr → Option PointCfg) (fops : List FibOp) (hfops : ∀ op ∈ fops, Canon op.name) (x : Nat)
    (hat : (pre, x) ∈ attachedAfter fops) (pitP : Pit)
    -- the consumer
    (tc : STree) (nc : PointCfg) (m : Matched) (hm : Wanted sha m.name name raw.flatten) (hma : (tc.at' m.addr).isSome) (wc : LeafWorld)
    (icfg : Option InterestConfig) (nonce : Nat) (supress : Bool) (e : Encoded) (life : Nat) (cbp : Bool)
    (hneed : needCallback sha z ord nc wc m.name none icfg nonce none supress = .ok (.express e life cbp))
    (hiok : InterestOk m.name (nc.intCfg icfg nonce) none) (htr : Trusts p nc.policies)
    (evs more : List PitEvent) (delay : Nat) (fibC : Fib)
    (hq : AllQuiet sha (keys (splitDigest m.name).1)
      ⟨(pitAfter sha evs).next, (pitAfter sha evs).now - delay + life, cbp, (splitDigest m.name).2⟩ (.express m.name life cbp delay :: evs) more)
    (now2 : Int) (opsC : List LeafOp) (wc2 : LeafWorld) (hwc : leafRun z opsC (LeafWorld.new z now2) = .ok wc2) (hcC : LeafCanon opsC) (htm : Timed nc wc2)
    (hfs : nc.stores ≠ [] → (n.dataCfg cfg).freshness.isSome)
    -- the node at the producer
    (a : Addr) (mt : Matching) (np : PointCfg) (hpre : pre <+: m.name) (hmatch : matchName pre tp m.name = some (a, mt)) (hnp : points a = some np)
    (hks : np.stores = k :: ks) (hv : (nc.intCfg icfg nonce).mustBeFresh = true → w3.now < w1.now + n.validDur)
    -- times, tokens and sizes
    (t0 t1 t2 : Int) (ht : t1 ≤ t0 + (nc.intCfg icfg nonce).lifetime.getD 4000000000) (token : Option Bytes)
    (hl1 : (carried token e.wire.flatten).length < 2 ^ 43) (hl2 : (carried token raw.flatten).length < 2 ^ 43) (fuel : Nat)
    (hF1 : (carried token e.wire.flatten).length + e.wire.flatten.length < fuel) (hF2 : (carried token raw.flatten).length + raw.flatten.length < fuel) :
    ∃ iv icov deadline w dv dcov c calls v wc3,
      Eng.receive sha fuel ⟨fibAfter fops, pitP⟩ t0 (carried token e.wire.flatten) =
        some (.ok (⟨fibAfter fops, pitP⟩, .handler x iv [e.wire.flatten] icov token deadline)) ∧
      (∀ (S : Type) (lv : Listeners S VAns) (s : S), treeHandler z ord pre tp points w3 iv lv s = .replied raw) ∧
      reply deadline t1 true token (fun _ => false) (some raw) = .ok (none, some (some w)) ∧
      Eng.receive sha fuel ⟨fibC, pitAfter sha (more ++ .express m.name life cbp delay :: evs)⟩ t2 w.flatten =
        some (.ok (c, .data calls dv [raw.flatten] dcov)) ∧
      (pitAfter sha evs).next ∈ calls ∧
      applyPolicies sha mac nc.policies (.ofData dv dcov) = .ok v ∧
      needOnData z tc nc m v () wc2 dv [raw.flatten] =
        .ok (⟨.data, content.map (fun w => [w.flatten]), some ⟨m.addr, name, m.matching⟩⟩, wc3) ∧
      ∀ kc kcs, nc.stores = kc :: kcs → ∀ cbp' mf' f, (n.dataCfg cfg).freshness = some f → (mf' = true → 0 < f) →
        ∃ d, needCached z ord nc.stores wc3 name cbp' mf' = some d ∧ d.name = some name ∧ d.content = content.map (fun w => [w.flatten]) := by
  rcases (provide_spec h2).2 with ⟨_, _, hr, _⟩ | ⟨nm, de, hnm, hdm, hr, hs⟩
  · exact (nomatch hr)
  injection hnm with hnm
  injection hr with hr
  subst hnm hr
  have hdok := dataOk_signer (sha := sha) (mac := mac) (keyName := keyName) (cert := cert) p hsmall hct hfr hfb hkey de.covered
  obtain ⟨him, hcbp, hlife⟩ := need_express hneed
  have hfn : e.finalName = m.name := by
    have hle := carried_length token e.wire.flatten
    obtain ⟨v, cov, _, _, _, g, _⟩ := madeInterest_parts sha hsha m.name _ none none e him hiok.name hiok.hint hiok.nonce
      hiok.lifetime hiok.hop hiok.key hiok.typ hiok.time hiok.seq (by omega) fuel (by omega)
    simp only [Option.isSome_none, Bool.false_eq_true, if_false] at g
    rw [g, stripDigest_wanted hm]
  have hne : e.finalName ≠ [] := by
    rw [hfn]
    rcases hm with ⟨h, q, c, h', _⟩ | h
    · rw [h, h']; simp
    · rw [h]; simp
  subst hcbp
  obtain ⟨iv, icov, deadline, w, dv, dcov, c, calls, r1, r2, r3, r4, r5, r6, _⟩ := C86_exchange_partial sha hsha m.name (nc.intCfg icfg nonce) none none e him hiok
    (canon_wanted hm hn) hne evs more life delay fibC (by rw [hfn]; exact hq) fops hfops pre x hat (by rw [hfn]; exact hpre) pitP name (n.dataCfg cfg) content
    _ de hdm hdok (by rw [hfn]; exact asks_wanted hm _) t0 t1 t2 ht token hl1 hl2 fuel hF1 hF2
  obtain ⟨v, hv1, hv2⟩ := own_passes htr hdm r6
  have hraw : de.wire ≠ [] := by
    intro h0
    have hle := carried_length token de.wire.flatten
    obtain ⟨_, _, hrd, _⟩ := C27_data_round_trip_partial name (n.dataCfg cfg) content _ de hdm hdok.name hdok.contentType hdok.freshness hdok.finalBlock
      hdok.key hdok.typ hdok.sig (by omega) (de.wire.flatten.length + 1) (Nat.lt_succ_self _)
    rw [h0] at hrd
    exact absurd hrd (by intro h; cases h)
  have hrf := refine_wanted hm hma
  have hsave : ∃ wc3, saveAll z name [de.wire.flatten] dv.freshness nc.stores wc2 = .ok wc3 := by
    cases hst : nc.stores with
    | nil => exact ⟨wc2, rfl⟩
    | cons kc kcs =>
      obtain ⟨f, hf⟩ := Option.isSome_iff_exists.mp (hfs (by rw [hst]; simp))
      rw [r6.freshness, hf, ← hst]
      obtain ⟨w', g, _⟩ := saveAll_ok z name [de.wire.flatten] f nc.stores wc2 htm
      exact ⟨w', g⟩
  obtain ⟨wc3, hsave⟩ := hsave
  refine ⟨iv, icov, deadline, w, dv, dcov, c, calls, v, wc3, r1, ?_, r3, by rw [← hfn]; exact r4, r5, hv1, ?_, ?_⟩
  · intro S lv s
    unfold treeHandler
    rw [r2.name, hfn]
    simp only [Option.getD_some, hmatch, hnp, hks]
    refine (C81_answered z now1 ops1 ops2 w1 w2 w3 n name content cfg _ de.wire k h1 h2 h3 hk hc1 hc2 hn ho hraw ord ks _ _ hv).2 S iv lv s r2.mustBeFresh
      r2.canBePrefix ?_
    rw [r2.name, hfn]
    rcases hm with ⟨h, q, c, h', h1, _⟩ | h
    · refine .inl ⟨by rw [h], by rw [h']; simp, ?_⟩
      intro c' hc'
      rw [h'] at hc'
      simp at hc'
      rw [← hc']
      exact h1
    · exact .inr ⟨_, by rw [h]⟩
  · unfold needOnData
    rw [r6.name]
    simp only [Option.getD_some, hrf, hv2, hsave, Res.map, r6.content]
  · intro kc kcs hst cbp' mf' f hf hmf
    have hle := carried_length token de.wire.flatten
    obtain ⟨d, cov, hrd, g1, _, _, _, g5, _⟩ := C27_data_round_trip_partial name (n.dataCfg cfg) content _ de hdm hdok.name hdok.contentType hdok.freshness
      hdok.finalBlock hdok.key hdok.typ hdok.sig (by omega) (de.wire.flatten.length + 1) (Nat.lt_succ_self _)
    refine ⟨d, ?_, g1, g5⟩
    unfold needCached
    rw [r6.freshness, hf, hst] at hsave
    rw [hst, saved_found hwc hcC hn (by simp) hsave ord cbp' mf' hmf]
    simp only [List.flatten_cons, List.flatten_nil, List.append_nil]
    rw [hrd]

/-- a leaf at `/A`, with storage 0 and `Sha256SignerPolicy` -/
def exPoint : PointCfg := { stores := [0], policies := [.sha256] }

theorem exFetch_made : ∃ e, makeData (some nmA) (some (exLeaf.dataCfg none)) (some [[1]]) (some (SignerPolicy.sha256.signer sha32 (fun _ => sha32) none none)) = .ok e ∧
    e.wire.flatten.length < 2 ^ 43 :=
  makeData_ok (si := some (mkSigInfo 0 none none none none none)) (est := 32) (by rfl) (by decide) (by decide) (fun w => ⟨_, rfl, by simp [sha32]⟩) (by decide)

theorem exFetch_interest : ∃ e, makeInterest sha32 (some nmA) (some { canBePrefix := true }) none none = .ok e ∧ e.wire.flatten = [5, 7, 7, 3, 8, 1, 97, 33, 0] := by
  obtain ⟨w, s, h1, h2⟩ := interest_plain (v := interestOf nmA { canBePrefix := true } none none) rfl rfl rfl false
  refine ⟨{ wire := w, covered := [], finalName := nmA }, ?_, ?_⟩
  · simp only [makeInterest, interestSig, Res.bind, Option.isSome_none, h1]
    rfl
  · rw [h2, head_bytes _ _ rfl]
    rfl

theorem exPoint_trusts : Trusts .sha256 exPoint.policies := ⟨rfl, by simp [exPoint], by simp [exPoint]⟩

/-- the hypotheses are met: `/A` is provided with a SHA-256 signature and needed by another program, which gets the content -/
example : ∃ w1 w2 raw e,
    leafRun 0 [.attach 0] (LeafWorld.new 0 0) = .ok w1 ∧
    provide 0 exLeaf (some nmA) (some [[1]]) none (some (SignerPolicy.sha256.signer sha32 (fun _ => sha32) none none)) w1 = .ok (some raw, w2) ∧
    needCallback sha32 0 (fun _ l => l) exPoint ((LeafWorld.new 0 0).onAttach 0) nmA none (some { canBePrefix := true }) 0 none false =
      .ok (.express e 4000000000 true) ∧
    ∃ dv dcov v wc3, applyPolicies sha32 (fun _ => sha32) exPoint.policies (.ofData dv dcov) = .ok v ∧
      needOnData 0 (.node []) exPoint ⟨[], nmA, []⟩ v () ((LeafWorld.new 0 0).onAttach 0) dv [raw.flatten] =
        .ok (⟨.data, some [[1]], some ⟨[], nmA, []⟩⟩, wc3) := by
  obtain ⟨de, hde, hl⟩ := exFetch_made
  have ht : ∀ k ∈ ([0] : List Nat), (((LeafWorld.new 0 0).onAttach 0).store k).timer = true := by
    intro k hk; rw [show k = 0 from List.mem_singleton.mp hk]; rfl
  obtain ⟨h1, _⟩ := C81_provides 0 exLeaf nmA (some [[1]]) none (some (SignerPolicy.sha256.signer sha32 (fun _ => sha32) none none))
    ((LeafWorld.new 0 0).onAttach 0) rfl ht
  obtain ⟨w2, h2, h3⟩ := h1 de hde
  obtain ⟨e, g1, g3⟩ := exFetch_interest
  have hneed : needCallback sha32 0 (fun _ l => l) exPoint ((LeafWorld.new 0 0).onAttach 0) nmA none (some { canBePrefix := true }) 0 none false =
      .ok (.express e 4000000000 true) := by
    have hc : needCached 0 (fun _ l => l) exPoint.stores ((LeafWorld.new 0 0).onAttach 0) nmA true false = none := by rfl
    unfold needCallback
    simp only [PointCfg.intCfg, Option.isNone_none, Bool.and_self, if_true, hc]
    rw [show makeInterest sha32 (some nmA) (some { canBePrefix := true }) none none = .ok e from g1]
    rfl
  have hl1 : (carried none e.wire.flatten).length < 2 ^ 43 := by
    rw [g3]
    decide
  have hattach : LeafCanon [.attach 0] := fun op ho k nm r hs => by rw [List.mem_singleton.mp ho] at hs; exact hs.elim
  have hsm : ∀ c ∈ nmA, c.Small := by simp [nmA, Component.Small]
  obtain ⟨iv, icov, dl, w, dv, dcov, c, calls, v, wc3, _, _, _, _, _, r1, r2, _⟩ := C88_fetch_partial sha32 (fun _ => rfl) (fun _ => sha32) (fun _ l => l) 0
    0 [.attach 0] [] _ w2 w2 exLeaf nmA (some [[1]]) none none none .sha256 de.wire 0 [] rfl h2 rfl (List.mem_singleton.mpr rfl) hattach
    (fun op ho => (nomatch ho)) canon_ex.1 (fun op ho => (nomatch ho)) hsm (fun t ht => by injection ht with ht; subst ht; decide)
    (fun d hd => by injection hd with hd; subst hd; exact ⟨1, by decide⟩) (fun c hc => (nomatch hc)) (fun n hn => (nomatch hn))
    nmA (.node []) (fun _ => some exPoint) [.attach nmA 3] (fun op ho => by rw [List.mem_singleton.mp ho]; exact canon_ex.1) 3 (by decide) Pit.new
    (.node []) exPoint ⟨[], nmA, []⟩ (.inl ⟨rfl, [], ⟨8, [97]⟩, rfl, by decide, by decide⟩) rfl _ (some { canBePrefix := true }) 0 false e 4000000000 true hneed
    ⟨hsm, fun _ h => (nomatch h), fun _ h => (nomatch h), fun _ h => (nomatch h), fun _ h => (nomatch h),
      fun _ _ h => (nomatch h), fun _ h => (nomatch h), fun _ _ h => (nomatch h), fun _ _ h => (nomatch h)⟩ exPoint_trusts
    [] [] 0 (Trie.new none) trivial 0 [.attach 0] _ rfl hattach ht (fun _ => rfl) [] [] exPoint (List.prefix_refl _)
    (by unfold matchName; rw [if_pos (by decide), if_pos (by decide)]; rw [continueMatch]; rfl) rfl rfl (fun h => (nomatch h)) 0 0 0 (by decide) none hl1
    hl _ (Nat.lt_succ_of_le (Nat.le_max_left _ _))
    (Nat.lt_succ_of_le (Nat.le_max_right _ _))
  exact ⟨_, w2, de.wire, e, rfl, h2, hneed, dv, dcov, v, wc3, r1, r2⟩

/-- C88: what `NeedCallback` does without an `InterestConfig`.  A Data from the storage is given only if there is neither signer nor parameter, and it is one
that was saved under the name or below.  An Interest is sent only if it is not suppressed, by the node or by the caller, and the storage has nothing to give; it
carries the settings of the node, and the engine waits for the node's lifetime. -/
theorem C88_request (sha : Bytes → Bytes) (hsha : ∀ b, (sha b).length = 32) (z now : Int) (ops : List LeafOp) (w : LeafWorld)
    (hw : leafRun z ops (LeafWorld.new z now) = .ok w) (hc : LeafCanon ops) (ord : Nat → List (Bytes × Nat) → List (Bytes × Nat))
    (hord : ∀ i l, (ord i l).Perm l) (n : PointCfg) (name : Name) (hn : Canon name) (appParam : Option Wire) (nonce : Nat) (signer : Option Signer)
    (supress : Bool) (r : NeedDo) (h : needCallback sha z ord n w name appParam none nonce signer supress = .ok r) :
    (∀ d, r = .cached d → signer = none ∧ appParam = none ∧ ∃ raw cov, (∃ k ∈ n.stores, ∃ q, name <+: q ∧ ∃ op ∈ ops, op.Saves k q raw) ∧
      readData (raw.flatten.length + 1) (BR.new raw.flatten) = some (.ok (.ok (d, cov)))) ∧
    (∀ e life cbp, r = .express e life cbp → n.supressInt = false ∧ supress = false ∧
      (signer = none → appParam = none → needCached z ord n.stores w name n.canBePrefix n.mustBeFresh = none) ∧
      life = n.lifetime.toNat ∧ cbp = n.canBePrefix ∧
      ∀ (_ : InterestOk name (n.intCfg none nonce) signer) (_ : e.wire.flatten.length < 2 ^ 43) (F : Nat) (_ : e.wire.flatten.length < F),
        ∃ v cov, readInterest sha F (BR.new e.wire.flatten) = some (.ok (.ok (v, cov))) ∧ v.canBePrefix = n.canBePrefix ∧ v.mustBeFresh = n.mustBeFresh ∧
          v.lifetime = some n.lifetime ∧ v.nonce = some nonce ∧ v.hopLimit = none ∧ v.hintNames = none ∧ v.appParam = appParam.map (fun w => [w.flatten])) ∧
    (r = .supressed → n.supressInt = true ∨ supress = true) := by
  unfold needCallback at h
  simp only [PointCfg.intCfg] at h
  generalize hg : (if (signer.isNone && appParam.isNone) = true then needCached z ord n.stores w name n.canBePrefix n.mustBeFresh else none) = g at h
  cases g with
  | some d =>
    injection h with h
    subst h
    refine ⟨fun d' hd => ?_, fun _ _ _ h => (nomatch h), fun h => (nomatch h)⟩
    injection hd with hd
    subst hd
    split at hg
    · rename_i hno
      simp only [Bool.and_eq_true, Option.isNone_iff_eq_none] at hno
      refine ⟨hno.1, hno.2, ?_⟩
      unfold needCached at hg
      cases hs : searchCache z ord n.stores w name n.canBePrefix n.mustBeFresh with
      | none => rw [hs] at hg; cases hg
      | some raw =>
        rw [hs] at hg
        simp only at hg
        obtain ⟨_, hk⟩ := C81_from_storage z now ops w hw hc name hn ord hord n.stores _ _ raw hs
        split at hg
        · rename_i d' cov hrd
          injection hg with hg
          subst hg
          exact ⟨raw, cov, hk, hrd⟩
        · cases hg
    · cases hg
  | none =>
    simp only at h
    have hcfg : n.intCfg none nonce = { canBePrefix := n.canBePrefix, mustBeFresh := n.mustBeFresh, nonce := some nonce, lifetime := some n.lifetime } := rfl
    rw [← hcfg] at h
    cases hm : makeInterest sha (some name) (some (n.intCfg none nonce)) appParam signer with
    | panic => rw [hm] at h; cases h
    | err x =>
      rw [hm] at h
      injection h with h
      subst h
      exact ⟨fun _ h => (nomatch h), fun _ _ _ h => (nomatch h), fun h => (nomatch h)⟩
    | ok e =>
      rw [hm] at h
      simp only at h
      split at h
      · rename_i hsup
        injection h with h
        subst h
        exact ⟨fun _ h => (nomatch h), fun _ _ _ h => (nomatch h), fun _ => by simpa using hsup⟩
      · rename_i hsup
        injection h with h
        subst h
        refine ⟨fun _ h => (nomatch h), fun e' life cbp he => ?_, fun h => (nomatch h)⟩
        injection he with h1 h2 h3
        subst h1 h2 h3
        simp only [Bool.or_eq_true, not_or, Bool.not_eq_true] at hsup
        refine ⟨hsup.1, hsup.2, fun h1 h2 => ?_, rfl, rfl, fun hok hl F hF => ?_⟩
        · subst h1 h2
          simpa using hg
        · obtain ⟨v, cov, _, g2, _, _, a1, a2, a3, a4, a5, a6, a7, _⟩ := madeInterest_parts sha hsha name _ appParam signer e hm hok.name hok.hint hok.nonce
            hok.lifetime hok.hop hok.key hok.typ hok.time hok.seq hl F hF
          exact ⟨v, cov, g2, a1, a2, a5, a4, a6, a3, a7⟩

/-- its hypotheses are met: `/A` is needed with the defaults of the node, the storage is empty, and an Interest goes out -/
example : ∃ e, needCallback sha32 0 (fun _ l => l) exPoint ((LeafWorld.new 0 0).onAttach 0) nmA none none 7 none false = .ok (.express e 4000000000 true) ∧
    InterestOk nmA (exPoint.intCfg none 7) none ∧ e.wire.flatten = [5, 19, 7, 3, 8, 1, 97, 33, 0, 18, 0, 10, 4, 0, 0, 0, 7, 12, 2, 15, 160] := by
  obtain ⟨w, s, h1, h2⟩ := interest_plain (v := interestOf nmA (exPoint.intCfg none 7) none none) rfl rfl rfl false
  have hsm : ∀ c ∈ nmA, c.Small := by simp [nmA, Component.Small]
  refine ⟨{ wire := w, covered := [], finalName := nmA }, ?_, ⟨hsm, fun _ h => (nomatch h), ?_, ?_, fun _ h => (nomatch h),
      fun _ _ h => (nomatch h), fun _ h => (nomatch h), fun _ _ h => (nomatch h), fun _ _ h => (nomatch h)⟩, ?_⟩
  · have hc : needCached 0 (fun _ l => l) exPoint.stores ((LeafWorld.new 0 0).onAttach 0) nmA (exPoint.intCfg none 7).canBePrefix
        (exPoint.intCfg none 7).mustBeFresh = none := by rfl
    unfold needCallback
    simp only [Option.isNone_none, Bool.and_self, if_true, hc]
    simp only [makeInterest, interestSig, Res.bind, Option.isSome_none, h1]
    rfl
  · intro n h
    injection h with h
    subst h
    decide
  · intro n h
    injection h with h
    subst h
    exact ⟨4000, by decide⟩
  · rw [h2, head_bytes _ _ rfl]
    rfl

/-- C88: when the goroutine for a Data panics, before the callback is called: exactly if the validators pass, there is a storage, and the Data's name is not
that of a node, or it has no FreshnessPeriod, or a storage was applied after the tree was attached. -/
theorem C88_panics_iff {S : Type} (z : Int) (t : STree) (n : PointCfg) (m : Matched) (v : Listeners S VAns) (s : S) (w : LeafWorld) (d : DataV) (raw : Wire) :
    needOnData z t n m v s w d raw = .panic ↔ (onDataResult v s).1 = .data ∧ n.stores ≠ [] ∧
      (refine t m (d.name.getD []) = none ∨ d.freshness = none ∨ ∃ k ∈ n.stores, (w.store k).timer = false) := by
  unfold needOnData
  simp only
  rcases onDataResult_status v s with h | h
  · rw [h]
    simp only [true_and]
    cases hr : refine t m (d.name.getD []) with
    | none =>
      simp only [true_or, and_true]
      by_cases hs : n.stores = []
      · rw [hs]; simp
      · rw [if_neg (by simpa using hs)]
        simp [hs]
    | some y =>
      simp only [reduceCtorEq, false_or]
      cases hf : d.freshness with
      | none =>
        simp only [true_or, and_true]
        by_cases hs : n.stores = []
        · rw [hs]; simp [saveAll, Res.map]
        · rw [saveAll_none z _ _ _ _ hs]
          simp [Res.map, hs]
      | some f =>
        simp only [reduceCtorEq, false_or]
        by_cases ht : ∃ k ∈ n.stores, (w.store k).timer = false
        · rw [saveAll_panic z _ _ _ _ _ ht]
          obtain ⟨k, hk, hkt⟩ := ht
          simp only [Res.map, true_iff]
          exact ⟨List.ne_nil_of_mem hk, k, hk, hkt⟩
        · obtain ⟨w', hw, _⟩ := saveAll_ok z y.name raw f n.stores w (fun k hk => by
            by_cases hh : (w.store k).timer = true
            · exact hh
            · exact absurd ⟨k, hk, by simpa using hh⟩ ht)
          rw [hw]
          simp only [Res.map, reduceCtorEq, false_iff]
          exact fun hc => ht hc.2
  · rw [h]
    simp

/-- C88: whatever Data arrives, the callback gets content only if it is that of this Data and the Data is genuine for one policy of the node and
forged for none; otherwise the status is `InterestResultUnverified` and nothing is saved. -/
theorem C88_sound (sha : Bytes → Bytes) (mac : Bytes → Bytes → Bytes) (z : Int) (t : STree) (n : PointCfg) (m : Matched)
    (hk : ∀ key, .hmac key ∈ n.policies → key ≠ []) (w w' : LeafWorld) (d : DataV) (raw cov : Wire) (hc : cov ≠ []) (v : Listeners Unit VAns)
    (hv : applyPolicies sha mac n.policies (.ofData d cov) = .ok v) (r : NeedRes) (h : needOnData z t n m v () w d raw = .ok (r, w')) :
    let sig := sigOf d.sigInfo d.sigValue
    (r.status = .data ∧ r.content = d.content ∧ (∃ p ∈ n.policies, Genuine sha mac p sig.typ sig.value cov.flatten) ∧
      ∀ p ∈ n.policies, ¬Forged sha mac p sig.typ sig.value cov.flatten) ∨ (r.status = .unverified ∧ r.content = none ∧ w' = w) := by
  intro sig
  obtain ⟨v', g1, g2, _⟩ := C63_data_partial sha mac n.policies hk d cov hc
  rw [hv] at g1
  injection g1 with g1
  subst g1
  unfold needOnData at h
  simp only at h
  rcases onDataResult_status v () with hs | hs
  · rw [hs] at h
    obtain ⟨k1, k2⟩ := g2 hs
    refine .inl ?_
    simp only at h
    cases hr : refine t m (d.name.getD []) with
    | none =>
      rw [hr] at h
      simp only at h
      split at h
      · injection h with h
        injection h with h _
        subst h
        exact ⟨rfl, rfl, k1, k2⟩
      · cases h
    | some y =>
      rw [hr] at h
      simp only at h
      cases hsv : saveAll z y.name raw d.freshness n.stores w with
      | panic => rw [hsv] at h; cases h
      | err _ => rw [hsv] at h; cases h
      | ok w1 =>
        rw [hsv] at h
        injection h with h
        injection h with h _
        subst h
        exact ⟨rfl, rfl, k1, k2⟩
  · rw [hs] at h
    simp only at h
    injection h with h
    injection h with h1 h2
    subst h1
    exact .inr ⟨rfl, rfl, h2.symm⟩

/-- C88 fails: `CanBePrefix` is set by default; a Data below the needed name for which the tree has no node, signed as the node's policy wants it, is
delivered, and if the node has a storage the goroutine panics: the process ends.  With `Sha256SignerPolicy` everybody can make such a Data. -/
theorem C88_below_panics (sha : Bytes → Bytes) (mac : Bytes → Bytes → Bytes) (z : Int) (tc : STree) (nc : PointCfg) (m : Matched) (p : SignerPolicy)
    (htr : Trusts p nc.policies) (hst : nc.stores ≠ []) (q : Name) (l : Component) (hmn : m.name = q ++ [l]) (hl : l.typ ≠ 1)
    (c : Component) (cs : Name) (hno : refine tc m (m.name ++ c :: cs) = none)
    (config : DataConfig) (content : Option Wire) (keyName : Option Name) (cert : Option (Bytes × Bytes)) (de : Encoded)
    (hdm : makeData (some (m.name ++ c :: cs)) (some config) content (some (p.signer sha mac keyName cert)) = .ok de)
    (hdok : DataOk (m.name ++ c :: cs) config (some (p.signer sha mac keyName cert)) de.covered)
    (evs more : List PitEvent) (life delay : Nat) (fibC : Fib)
    (hq : AllQuiet sha (keys (splitDigest m.name).1)
      ⟨(pitAfter sha evs).next, (pitAfter sha evs).now - delay + life, true, (splitDigest m.name).2⟩ (.express m.name life true delay :: evs) more)
    (t2 : Int) (token : Option Bytes) (hl2 : (carried token de.wire.flatten).length < 2 ^ 43) (fuel : Nat)
    (hF2 : (carried token de.wire.flatten).length + de.wire.flatten.length < fuel) (wc : LeafWorld) :
    ∃ dv dcov e' calls v,
      Eng.receive sha fuel ⟨fibC, pitAfter sha (more ++ .express m.name life true delay :: evs)⟩ t2 (carried token de.wire.flatten) =
        some (.ok (e', .data calls dv [de.wire.flatten] dcov)) ∧
      (pitAfter sha evs).next ∈ calls ∧ applyPolicies sha mac nc.policies (.ofData dv dcov) = .ok v ∧
      needOnData z tc nc m v () wc dv [de.wire.flatten] = .panic := by
  obtain ⟨dv, dcov, e', calls, r1, r2, r3⟩ := C86_delivered_partial sha evs more m.name (by rw [hmn]; simp) life true delay hq (m.name ++ c :: cs) config content _
    de hdm hdok (.inr (.inl ⟨⟨c :: cs, rfl⟩, rfl, by
      rintro ⟨q', d', h⟩
      rw [hmn] at h
      have := congrArg List.getLast? h
      simp at this
      exact hl (by rw [this])⟩)) token hl2 fuel hF2 fibC t2
  obtain ⟨v, hv1, hv2⟩ := own_passes htr hdm r1
  refine ⟨dv, dcov, e', calls, v, r3, r2, hv1, ?_⟩
  rw [C88_panics_iff]
  exact ⟨hv2, hst, .inl (by rw [r1.name]; exact hno)⟩

/-- its hypotheses are met: `/A` is needed, `/A/B` arrives -/
example : Trusts .sha256 exPoint.policies ∧ exPoint.stores ≠ [] ∧ refine (.node []) ⟨[], nmA, []⟩ (nmA ++ [⟨8, [98]⟩]) = none ∧
    (∃ de, makeData (some (nmA ++ [⟨8, [98]⟩])) (some {}) none (some (SignerPolicy.sha256.signer sha32 (fun _ => sha32) none none)) = .ok de ∧
      DataOk (nmA ++ [⟨8, [98]⟩]) {} (some (SignerPolicy.sha256.signer sha32 (fun _ => sha32) none none)) de.covered ∧ de.wire.flatten.length < 2 ^ 43) := by
  refine ⟨exPoint_trusts, by decide, ?_, ?_⟩
  · unfold refine
    rw [if_pos (by decide)]
    simp only [STree.at']
    rw [continueMatch]
    rfl
  · obtain ⟨de, h1, h2⟩ := makeData_ok (name := nmA ++ [⟨8, [98]⟩]) (config := {}) (content := none)
      (sg := SignerPolicy.sha256.signer sha32 (fun _ => sha32) none none) (si := some (mkSigInfo 0 none none none none none)) (est := 32) (by rfl) (by decide)
      (by decide) (fun w => ⟨_, rfl, by simp [sha32]⟩) (by decide)
    exact ⟨de, h1, dataOk_signer (config := {}) (keyName := none) (cert := none) .sha256 (by simp [nmA, Component.Small]) (fun _ h => (nomatch h)) (fun _ h => (nomatch h)) (fun _ h => (nomatch h))
      (fun _ h => (nomatch h)) _, h2⟩

end Ndn.Schema
