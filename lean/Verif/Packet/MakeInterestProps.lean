import Verif.Packet.MakeInterest
import Verif.Packet.MakeProps

/-! # C28: an Interest that is made is read back -/

namespace Ndn.Packet
open Ndn.Codec Ndn.Codec.Schema

/-- a name without the parameters digest at its end -/
def stripDigest : Name → Name
  | [] => []
  | [c] => if c.typ = 2 then [] else [c]
  | c :: d :: n => c :: stripDigest (d :: n)

theorem stripDigest_concat (n : Name) (c : Component) : stripDigest (n ++ [c]) = if c.typ = 2 then n else n ++ [c] := by
  induction n with
  | nil => rfl
  | cons a n ih =>
    cases n with
    | nil =>
      show a :: stripDigest [c] = _
      rw [stripDigest]; split <;> rfl
    | cons b n =>
      show a :: stripDigest ((b :: n) ++ [c]) = _
      rw [ih]; split <;> rfl

theorem interestName_eq (need : Bool) (n : Name) :
    interestName need n = stripDigest n ++ if need then [⟨2, List.replicate 32 0⟩] else [] := by
  unfold interestName
  rcases nil_or_snoc n with rfl | ⟨m, c, rfl⟩
  · rfl
  · simp only [List.getLast?_append, List.getLast?_singleton, Option.some_or, List.dropLast_concat, stripDigest_concat]
    rfl

theorem stripDigest_mem {n : Name} {c : Component} (h : c ∈ stripDigest n) : c ∈ n := by
  rcases nil_or_snoc n with rfl | ⟨m, d, rfl⟩
  · exact h
  · rw [stripDigest_concat] at h
    split at h
    · exact List.mem_append_left _ h
    · exact h

theorem signedPart_digest (n : Name) (d : Bytes) : signedPart (n ++ [⟨2, d⟩]) = n := by
  induction n with
  | nil => rfl
  | cons c n ih =>
    rw [List.cons_append, signedPart, if_pos (by simp), ih]

theorem Incr.fits {n : Nat} : ∀ {l : List It} {p : Nat}, Incr p l → Fits n p l
  | [], _, _ => trivial
  | ⟨some _, _, _⟩ :: _, _, ⟨_, h1, h2, h3⟩ => by injection h1 with h1; subst h1; exact ⟨h2, h3.fits⟩

theorem interest_clean (b : InterestB) : Fitting 15 interestTypes b.items b.items := by
  refine ⟨((interest_items_incr b).mono (by omega)).fits, ?_, ?_⟩
  · refine List.filter_eq_self.mpr fun x hx => ?_
    obtain ⟨j, g1, _⟩ := (interest_items_incr b).ge x hx
    rw [g1]; rfl
  · intro x hx hn
    obtain ⟨j, g1, _⟩ := (interest_items_incr b).ge x hx
    rw [hn] at g1; exact (nomatch g1)

/-- reading the Interest with canonical bytes -/
theorem read_made_interest {sha : Bytes → Bytes} {v : InterestV} (hv : v.InRange)
    (hval : v.Valid sha ((bytesOf v.bodies.items).drop (bytesOf v.bodies.head).length)) {b : Bytes} (hb : b = v.enc) (hl : b.length < 2 ^ 43) {F : Nat} (hF : b.length < F) :
    ∃ cov, readInterest sha F (BR.new b) = some (.ok (.ok (v, cov))) ∧
      (v.sigValue.isSome → cov.flatten = (nameCover v).flatten ++ bytesOf v.bodies.params) := by
  subst hb
  have hle : (bytesOf v.bodies.items).length + 2 ≤ v.enc.length := by
    rw [InterestV.enc, tlv_length]
    have := tlLen_pos 5
    have := tlLen_pos (bytesOf v.bodies.items).length
    omega
  obtain ⟨ctx, h1, h2, h3⟩ := readInterest_items (sha := sha) v.bodies_bodies hv (interest_clean v.bodies) (by omega) (by omega : _ < F)
  have hc : checkInterest sha v ctx = none := checkInterest_valid (by
    rw [h2 (headClean_of_clean fun x hx => by
      obtain ⟨j, g1, _⟩ := (interest_items_incr v.bodies).ge x hx
      rw [g1]; simp)]
    simpa using hval)
  rw [hc] at h1
  refine ⟨_, h1, fun hs => ?_⟩
  rw [h3 rfl, if_pos (show v.bodies.sigValue.isSome = true from (Option.isSome_map (f := Elem.body .wire) (x := v.sigValue)).trans hs)]
  simp

/-- the Interest that is read back -/
def made (fn : Name) (config : InterestConfig) (appParam : Option Wire) (si : Option signatureInfo.V) (sv : Option Wire) : InterestV :=
  { name := some fn
    canBePrefix := config.canBePrefix
    mustBeFresh := config.mustBeFresh
    fwdHint := config.fwdHint.map fun ns => (ns, ())
    nonce := config.nonce.map (· % 2 ^ 32)
    lifetime := config.lifetime
    hopLimit := config.hopLimit.map (· % 2 ^ 8)
    appParam := appParam.map fun w => [w.flatten]
    sigInfo := si
    sigValue := sv }

theorem made_head (name fn : Name) (config : InterestConfig) (appParam : Option Wire) (si : Option signatureInfo.V) (sv : Option Wire) :
    bytesOf (made fn config appParam si sv).bodies.head = tlv 7 (Name.encBody fn) ++ fieldBytes (midFields (interestOf name config appParam si)) :=
  head_bytes (made fn config appParam si sv) fn rfl

theorem made_params (name fn : Name) (config : InterestConfig) (appParam : Option Wire) (si : Option signatureInfo.V) (sv : Option Wire) :
    bytesOf (made fn config appParam si sv).bodies.params = bytesOf (interestOf name config appParam si).bodies.params := by
  rw [params_bytes, params_bytes]
  congr 1
  cases appParam with
  | none => rfl
  | some w =>
    show tlv 0x24 ([w.flatten] : Wire).flatten ++ [] = tlv 0x24 w.flatten ++ []
    simp

theorem made_items (name fn : Name) (config : InterestConfig) (appParam : Option Wire) (si : Option signatureInfo.V) (sv : Option Wire) :
    bytesOf (made fn config appParam si sv).bodies.items = tlv 7 (Name.encBody fn) ++ fieldBytes (midFields (interestOf name config appParam si)) ++
      (bytesOf (interestOf name config appParam si).bodies.params ++ bytesOf (ownIt 13 0x2e (sv.map List.flatten))) := by
  rw [InterestB.items, bytesOf_append, bytesOf_append, made_head name, made_params name]
  rfl

/-- the signature info that is made -/
theorem interestSig_cases {need : Bool} {signer : Option Signer} {si : Option signatureInfo.V} {est : Nat} (h : interestSig need signer = .ok (si, est)) :
    (signerConfig signer = none ∧ si = none ∧ est = 0) ∨
    ∃ sg c, signer = some sg ∧ sg.sigInfo = some (some c) ∧ signerConfig signer = some c ∧ est = sg.est ∧ est ≤ 252 ∧ need = true ∧
      si = some (mkSigInfo (sigTypeNum c.typ) (if c.typ ≠ 0 then c.keyName else none) c.nonce (c.sigTime.map sigTimeDur) c.seqNum none) := by
  unfold interestSig at h
  cases signer with
  | none => injection h with h; injection h with h1 h2; exact .inl ⟨rfl, h1.symm, h2.symm⟩
  | some sg =>
    obtain ⟨info, e, sign⟩ := sg
    simp only at h
    cases info with
    | none => exact (nomatch h)
    | some info =>
      cases info with
      | none => injection h with h; injection h with h1 h2; exact .inl ⟨rfl, h1.symm, h2.symm⟩
      | some c =>
        simp only at h
        by_cases ht : c.typ = signatureNone
        · rw [if_pos ht] at h
          injection h with h; injection h with h1 h2; exact .inl ⟨by simp [signerConfig, ht], h1.symm, h2.symm⟩
        · rw [if_neg ht] at h
          refine .inr ⟨_, c, rfl, rfl, by simp [signerConfig, ht], ?_⟩
          cases need with
          | false => exact (nomatch h)
          | true =>
            simp only [Bool.not_true, Bool.false_eq_true, if_false] at h
            by_cases q1 : (c.notBefore.isSome || c.notAfter.isSome) = true
            · rw [if_pos q1] at h; exact (nomatch h)
            by_cases q2 : c.typ ≠ signatureDigestSha256 ∧ c.keyName.isNone = true
            · rw [if_neg q1, if_pos q2] at h; exact (nomatch h)
            by_cases q3 : e ≥ 253
            · rw [if_neg q1, if_neg q2, if_pos q3] at h; exact (nomatch h)
            rw [if_neg q1, if_neg q2, if_neg q3] at h
            injection h with h; injection h with h1 h2
            exact ⟨h2.symm, by omega, rfl, h1.symm⟩

theorem sigTimeDur_eq {t : Int} (h1 : 0 ≤ t) (h2 : t < 2 ^ 63) : sigTimeDur t = t / 1000000 * 1000000 := by
  unfold sigTimeDur
  exact wrap64_id (by omega) (by omega)

theorem interestSig_inRange {need : Bool} {signer : Option Signer} {si : Option signatureInfo.V} {est : Nat} (h : interestSig need signer = .ok (si, est))
    (hkey : ∀ c n, signerConfig signer = some c → c.keyName = some n → ∀ x ∈ n, x.Small)
    (htime : ∀ c t, signerConfig signer = some c → c.sigTime = some t → 0 ≤ t ∧ t < 2 ^ 63)
    (hseq : ∀ c x, signerConfig signer = some c → c.seqNum = some x → x < 2 ^ 64) : OptIn (.struct signatureInfo) si := by
  rcases interestSig_cases h with ⟨_, rfl, _⟩ | ⟨sg, c, _, _, hc, _, _, _, rfl⟩
  · trivial
  · refine mkSigInfo_inRange (sigTypeNum_lt _) (fun n hn => ?_) (fun d hd => ?_) (fun x hx => hseq c x hc hx)
    · split at hn
      · exact hkey c n hc hn
      · exact (nomatch hn)
    · cases ht : c.sigTime with
      | none => rw [ht] at hd; exact (nomatch hd)
      | some t =>
        rw [ht] at hd
        injection hd with hd
        obtain ⟨h1, h2⟩ := htime c t hc ht
        rw [sigTimeDur_eq h1 h2] at hd
        exact ⟨(t / 1000000).toNat, by omega, by omega⟩

theorem interestSig_read {need : Bool} {signer : Option Signer} {si : Option signatureInfo.V} {est : Nat} (h : interestSig need signer = .ok (si, est))
    (hty : ∀ c, signerConfig signer = some c → -2 ^ 63 ≤ c.typ ∧ c.typ < 2 ^ 63)
    (htime : ∀ c t, signerConfig signer = some c → c.sigTime = some t → 0 ≤ t ∧ t < 2 ^ 63) (c : SigConfig) (hc : signerConfig signer = some c) :
    sigTypeOf si = c.typ ∧ keyNameOf si = (if c.typ = 0 then none else c.keyName) ∧
      sigNonceOf si = c.nonce ∧ sigTimeOf si = c.sigTime.map (· / 1000000) ∧ sigSeqNumOf si = c.seqNum := by
  rcases interestSig_cases h with ⟨hx, _⟩ | ⟨sg, c', _, _, hc', _, _, _, rfl⟩
  · rw [hx] at hc; exact (nomatch hc)
  · rw [hc] at hc'; injection hc' with hc'; subst hc'
    refine ⟨toInt_sigTypeNum (hty c hc).1 (hty c hc).2, ?_, rfl, ?_, rfl⟩
    · unfold keyNameOf mkSigInfo
      by_cases h0 : c.typ = 0
      · rw [if_neg (by simpa using h0), if_pos h0]; rfl
      · rw [if_pos h0, if_neg h0]; cases c.keyName <;> rfl
    · show (c.sigTime.map sigTimeDur).map (fun d => d.tdiv 1000000) = _
      cases ht : c.sigTime with
      | none => rfl
      | some t =>
        obtain ⟨h1, h2⟩ := htime c t hc ht
        show some ((sigTimeDur t).tdiv 1000000) = some (t / 1000000)
        rw [sigTimeDur_eq h1 h2, Int.tdiv_eq_ediv_of_nonneg (by omega)]
        have : t / 1000000 * 1000000 / 1000000 = t / 1000000 := by omega
        rw [this]

theorem made_inRange {fn : Name} {config : InterestConfig} {appParam : Option Wire} {si : Option signatureInfo.V} {sv : Option Wire}
    (hhint : ∀ ns, config.fwdHint = some ns → ∀ n ∈ ns, ∀ c ∈ n, c.Small) (hlife : ∀ d, config.lifetime = some d → WholeMs d)
    (hsiIn : OptIn (.struct signatureInfo) si) (hfn : ∀ c ∈ fn, c.Small) (hsv : OptIn .wire sv) :
    (made fn config appParam si sv).InRange := by
  refine ⟨hfn, ?_, ?_, ?_, ?_, ?_, hsiIn, hsv⟩
  · show OptIn (.struct links) (config.fwdHint.map fun ns => (ns, ()))
    cases hh : config.fwdHint with
    | none => trivial
    | some ns => exact ⟨hhint ns hh, trivial⟩
  · show OptIn (.fixed 4 false) (config.nonce.map (· % 2 ^ 32))
    cases config.nonce with
    | none => trivial
    | some x => exact Nat.mod_lt _ (by decide)
  · show OptIn .time config.lifetime
    cases hh : config.lifetime with
    | none => trivial
    | some d => exact hlife d hh
  · show OptIn (.fixed 1 true) (config.hopLimit.map (· % 2 ^ 8))
    cases config.hopLimit with
    | none => trivial
    | some x => exact Nat.mod_lt _ (by decide)
  · show OptIn .wire (appParam.map fun w => [w.flatten])
    cases appParam with
    | none => trivial
    | some w => exact ⟨_, rfl⟩

theorem sig_item (sig : Bytes) : bytesOf (ownIt 13 0x2e ((some [sig] : Option Wire).map List.flatten)) = tlv 0x2e sig := by
  simp [ownIt, bytesOf, It.bytes]

/-- what `MakeInterest` makes -/
theorem makeInterest_shape {sha : Bytes → Bytes} (hsha : ∀ b, (sha b).length = 32) {name : Name} {config : InterestConfig}
    {appParam : Option Wire} {signer : Option Signer} {e : Encoded}
    (h : makeInterest sha (some name) (some config) appParam signer = .ok e) (hl : e.wire.flatten.length < 2 ^ 43) :
    ∃ si est, interestSig appParam.isSome signer = .ok (si, est) ∧ ∃ sv : Option Wire,
      e.wire.flatten = (made e.finalName config appParam si sv).enc ∧
      (made e.finalName config appParam si sv).Valid sha ((bytesOf (made e.finalName config appParam si sv).bodies.items).drop
        (bytesOf (made e.finalName config appParam si sv).bodies.head).length) ∧
      (if appParam.isSome then ∃ d, e.finalName = stripDigest name ++ [⟨2, d⟩] ∧ d.length = 32 else e.finalName = stripDigest name) ∧
      (if est = 0 then sv = none else ∃ sg sig, signer = some sg ∧ sg.sign e.covered = some sig ∧ sv = some [sig] ∧ appParam.isSome = true ∧
        e.covered.flatten = Name.encBody (stripDigest name) ++ bytesOf (made e.finalName config appParam si sv).bodies.params) := by
  unfold makeInterest at h
  simp only at h
  cases hsi : interestSig appParam.isSome signer with
  | panic => rw [hsi] at h; exact (nomatch h)
  | err x => rw [hsi] at h; exact (nomatch h)
  | ok p =>
    obtain ⟨si, est⟩ := p
    rw [hsi] at h
    refine ⟨si, est, rfl, ?_⟩
    have hcases := interestSig_cases hsi
    simp only [Res.bind] at h
    cases appParam with
    | none =>
      rcases hcases with ⟨hnone, rfl, rfl⟩ | ⟨_, _, _, _, _, _, _, hx, _⟩
      · obtain ⟨w, s, h1, h2⟩ := interest_plain (v := interestOf name config none none) rfl rfl rfl false
        simp only [Option.isSome_none] at h
        rw [h1] at h
        have h : Res.ok ({ wire := w, covered := [], finalName := interestName false name } : Encoded) = .ok e := h
        injection h with h
        subst h
        have hfn : interestName false name = stripDigest name := by rw [interestName_eq]; simp
        have hw : w.flatten = (made (stripDigest name) config none none none).enc := by
          rw [h2, InterestV.enc, made_items name, head_bytes _ _ rfl]
          show tlv 5 (tlv 7 (Name.encBody (interestName false name)) ++ _) = tlv 5 (_ ++ ([] ++ []))
          rw [hfn, List.append_nil, List.append_nil]
        simp only
        rw [hfn]
        exact ⟨none, hw, ⟨rfl, fun hx => (nomatch hx), fun hx => (nomatch hx)⟩, rfl, rfl⟩
      · exact (nomatch hx)
    | some a =>
      simp only [Option.isSome_some] at h
      have hit : interestName true name = stripDigest name ++ [⟨2, List.replicate 32 0⟩] := by rw [interestName_eq]; rfl
      have hvn : (interestOf name config (some a) si).name = some (stripDigest name ++ [⟨2, List.replicate 32 0⟩]) := by
        rw [← hit]; rfl
      have hvalid : ∀ sv P, bytesOf (interestOf name config (some a) si).bodies.params ++ bytesOf (ownIt 13 0x2e (sv.map List.flatten)) = P →
          (made (stripDigest name ++ [⟨2, sha P⟩]) config (some a) si sv).Valid sha
          ((bytesOf (made (stripDigest name ++ [⟨2, sha P⟩]) config (some a) si sv).bodies.items).drop
            (bytesOf (made (stripDigest name ++ [⟨2, sha P⟩]) config (some a) si sv).bodies.head).length) := by
        intro sv P hP
        rw [made_items name, made_head name, List.drop_left, hP]
        exact ⟨rfl, fun _ => ⟨_, rfl⟩, fun _ => rfl⟩
      have hhead := head_bytes (interestOf name config (some a) si) _ hvn
      by_cases he : est = 0
      · subst he
        obtain ⟨s, bs, h1, h2, h3⟩ := interest_params hvn (a := a) rfl true
        rw [h1] at h
        simp only [signInterest, gt_iff_lt, Nat.lt_irrefl, if_false, Nat.sub_zero] at h
        rw [h3, if_neg (by simp)] at h
        cases hd : digestInterest sha name (some a) (lastPos (stripDigest name ++ [⟨2, List.replicate 32 0⟩]))
          ((tlEnc 5 ++ tlEnc ((bytesOf (interestOf name config (some a) si).bodies.head).length + (bytesOf (interestOf name config (some a) si).bodies.params).length) ++
            (bytesOf (interestOf name config (some a) si).bodies.head ++ (tlEnc 0x24 ++ tlEnc a.flatten.length))) :: bs) with
        | err x => rw [hd] at h; exact (nomatch h)
        | panic => rw [hd] at h; exact (nomatch h)
        | ok q =>
          obtain ⟨w2, fn⟩ := q
          rw [hd] at h
          have h : Res.ok ({ wire := w2, covered := [], finalName := fn } : Encoded) = .ok e := h
          injection h with h
          subst h
          simp only at hl ⊢
          obtain ⟨k1, k2⟩ := finish_eq (k := 0) hsha hit (by omega) rfl h2 hhead hd (if_neg (by omega)) (by omega)
          have hP : bytesOf (interestOf name config (some a) si).bodies.params ++ bytesOf (ownIt 13 0x2e ((none : Option Wire).map List.flatten)) =
            bytesOf (interestOf name config (some a) si).bodies.params := List.append_nil _
          have hw : w2.flatten = (made fn config (some a) si none).enc := by
            rw [k1, InterestV.enc, made_items name, hP, k2]
          refine ⟨none, hw, ?_, ⟨_, k2, hsha _⟩, rfl⟩
          rw [k2]
          exact hvalid none _ hP
      · have hpos : 0 < est := by omega
        rcases hcases with ⟨_, _, hx⟩ | ⟨sg, c, hsg, hinfo, hc, hest, h252, _, _⟩
        · exact absurd hx he
        obtain ⟨s, w, i, h1, h2, h3, h4, h5⟩ := interest_signed hvn (a := a) rfl true hpos h252
        rw [h1] at h
        simp only [signInterest] at h
        rw [if_pos hpos, h2, hsg] at h
        simp only [Option.bind_some] at h
        cases hsign : sg.sign s.covered with
        | none => rw [hsign] at h; exact (nomatch h)
        | some sig =>
          rw [hsign] at h
          simp only at h
          by_cases hlen : sig.length > est
          · rw [if_pos hlen] at h; exact (nomatch h)
          · rw [if_neg hlen] at h
            obtain ⟨bs, p1, p2⟩ := h5 sig (by omega)
            rw [p1] at h
            simp only [Res.map] at h
            rw [h3, if_neg (by simp)] at h
            cases hd : digestInterest sha name (some a) (lastPos (stripDigest name ++ [⟨2, List.replicate 32 0⟩]))
              ((tlEnc 5 ++ tlEnc ((bytesOf (interestOf name config (some a) si).bodies.head).length +
                (bytesOf (interestOf name config (some a) si).bodies.params ++ tlv 0x2e sig).length + (est - sig.length)) ++
                (bytesOf (interestOf name config (some a) si).bodies.head ++ (tlEnc 0x24 ++ tlEnc a.flatten.length))) :: bs) with
            | err x => rw [hd] at h; exact (nomatch h)
            | panic => rw [hd] at h; exact (nomatch h)
            | ok q =>
              obtain ⟨w2, fn⟩ := q
              rw [hd] at h
              simp only at h
              cases hsh : (if est - sig.length > 0 then shrinkHead w2 (est - sig.length) else .ok w2) with
              | err x => rw [hsh] at h; exact (nomatch h)
              | panic => rw [hsh] at h; exact (nomatch h)
              | ok w3 =>
                rw [hsh] at h
                have h : Res.ok ({ wire := w3, covered := s.covered, finalName := fn } : Encoded) = .ok e := h
                injection h with h
                subst h
                simp only at hl ⊢
                obtain ⟨k1, k2⟩ := finish_eq hsha hit (by omega) rfl p2 hhead hd hsh (by omega)
                have hP : bytesOf (interestOf name config (some a) si).bodies.params ++ bytesOf (ownIt 13 0x2e ((some [sig] : Option Wire).map List.flatten)) =
                    bytesOf (interestOf name config (some a) si).bodies.params ++ tlv 0x2e sig :=
                  congrArg (bytesOf (interestOf name config (some a) si).bodies.params ++ ·) (sig_item sig)
                have hw : w3.flatten = (made fn config (some a) si (some [sig])).enc := by
                  rw [k1, InterestV.enc, made_items name, hP, k2]
                refine ⟨some [sig], hw, ?_, ⟨_, k2, hsha _⟩, ?_⟩
                · rw [k2]
                  exact hvalid (some [sig]) _ hP
                · rw [if_neg he, made_params name]
                  refine ⟨sg, sig, hsg, hsign, rfl, rfl, ?_⟩
                  rw [h4, if_pos rfl, List.dropLast_concat]

/-- the bytes of a made Interest are those of a value with the parts of C28 -/
theorem madeInterest_parts (sha : Bytes → Bytes) (hsha : ∀ b, (sha b).length = 32) (name : Name) (config : InterestConfig)
    (appParam : Option Wire) (signer : Option Signer) (e : Encoded)
    (h : makeInterest sha (some name) (some config) appParam signer = .ok e)
    (hname : ∀ c ∈ name, c.Small) (hhint : ∀ ns, config.fwdHint = some ns → ∀ n ∈ ns, ∀ c ∈ n, c.Small)
    (hnonce : ∀ x, config.nonce = some x → x < 2 ^ 32) (hlife : ∀ d, config.lifetime = some d → WholeMs d)
    (hhop : ∀ x, config.hopLimit = some x → x < 2 ^ 8)
    (hkey : ∀ c n, signerConfig signer = some c → c.keyName = some n → ∀ x ∈ n, x.Small)
    (hty : ∀ c, signerConfig signer = some c → -2 ^ 63 ≤ c.typ ∧ c.typ < 2 ^ 63)
    (htime : ∀ c t, signerConfig signer = some c → c.sigTime = some t → 0 ≤ t ∧ t < 2 ^ 63)
    (hseq : ∀ c x, signerConfig signer = some c → c.seqNum = some x → x < 2 ^ 64)
    (hl : e.wire.flatten.length < 2 ^ 43) (F : Nat) (hF : e.wire.flatten.length < F) :
    ∃ v cov, (e.wire.flatten = v.enc ∧ v.InRange ∧ v.Valid sha ((bytesOf v.bodies.items).drop (bytesOf v.bodies.head).length)) ∧
      readInterest sha F (BR.new e.wire.flatten) = some (.ok (.ok (v, cov))) ∧
      v.name = some e.finalName ∧
      (if appParam.isSome then ∃ d, e.finalName = stripDigest name ++ [⟨2, d⟩] ∧ d.length = 32 else e.finalName = stripDigest name) ∧
      v.canBePrefix = config.canBePrefix ∧ v.mustBeFresh = config.mustBeFresh ∧ v.hintNames = config.fwdHint ∧ v.nonce = config.nonce ∧
      v.lifetime = config.lifetime ∧ v.hopLimit = config.hopLimit ∧ v.appParam = appParam.map (fun w => [w.flatten]) ∧
      (signerConfig signer = none → v.sigInfo = none ∧ v.sigValue = none) ∧
      ∀ c, signerConfig signer = some c → sigTypeOf v.sigInfo = c.typ ∧ keyNameOf v.sigInfo = (if c.typ = 0 then none else c.keyName) ∧
        sigNonceOf v.sigInfo = c.nonce ∧ sigTimeOf v.sigInfo = c.sigTime.map (· / 1000000) ∧ sigSeqNumOf v.sigInfo = c.seqNum ∧
        ∀ sg, signer = some sg →
          if sg.est = 0 then v.sigValue = none
          else ∃ sig, sg.sign e.covered = some sig ∧ v.sigValue = some [sig] ∧ cov.flatten = e.covered.flatten := by
  obtain ⟨si, est, hsi, sv, hw, hval, hfn, hsv⟩ := makeInterest_shape hsha h hl
  have hcases := interestSig_cases hsi
  have hsigacc := interestSig_read hsi hty htime
  have hfs : ∀ c ∈ e.finalName, c.Small := by
    intro c hc
    cases hap : appParam.isSome with
    | false =>
      rw [hap] at hfn
      simp only [Bool.false_eq_true, if_false] at hfn
      rw [hfn] at hc
      exact hname c (stripDigest_mem hc)
    | true =>
      rw [hap, if_pos rfl] at hfn
      obtain ⟨d, h1, h2⟩ := hfn
      rw [h1] at hc
      rcases List.mem_append.mp hc with hc | hc
      · exact hname c (stripDigest_mem hc)
      · simp only [List.mem_singleton] at hc
        subst hc
        exact ⟨(by decide : 2 < 2 ^ 64), by rw [h2]; decide⟩
  have hsvin : OptIn .wire sv := by
    by_cases he : est = 0
    · rw [if_pos he] at hsv; rw [hsv]; trivial
    · rw [if_neg he] at hsv
      obtain ⟨_, sig, _, _, h1, _⟩ := hsv
      rw [h1]; exact ⟨_, rfl⟩
  have hin := made_inRange (appParam := appParam) hhint hlife (interestSig_inRange hsi hkey htime hseq) hfs hsvin
  obtain ⟨cov, g1, g2⟩ := read_made_interest hin hval hw hl hF
  refine ⟨made e.finalName config appParam si sv, cov, ⟨hw, hin, hval⟩, g1, rfl, hfn, rfl, rfl, ?_, ?_, rfl, ?_, rfl, ?_, ?_⟩
  · show (config.fwdHint.map fun ns => ((ns, ()) : links.V)).map (fun l => (l.1 : List Name)) = _
    cases config.fwdHint <;> rfl
  · show config.nonce.map (· % 2 ^ 32) = config.nonce
    cases hh : config.nonce with
    | none => rfl
    | some x => show some (x % 2 ^ 32) = some x; rw [Nat.mod_eq_of_lt (hnonce x hh)]
  · show config.hopLimit.map (· % 2 ^ 8) = config.hopLimit
    cases hh : config.hopLimit with
    | none => rfl
    | some x => show some (x % 2 ^ 8) = some x; rw [Nat.mod_eq_of_lt (hhop x hh)]
  · intro hc
    rcases hcases with ⟨_, rfl, rfl⟩ | ⟨sg, c, _, _, hc', _⟩
    · exact ⟨rfl, hsv⟩
    · rw [hc] at hc'; exact (nomatch hc')
  · intro c hc
    obtain ⟨a1, a2, a3, a4, a5⟩ := hsigacc c hc
    refine ⟨a1, a2, a3, a4, a5, fun sg hsg => ?_⟩
    rcases hcases with ⟨hx, _⟩ | ⟨sg', c', hsg', _, _, hest, _⟩
    · rw [hx] at hc; exact (nomatch hc)
    · rw [hsg] at hsg'; injection hsg' with hsg'; subst hsg'
      rw [← hest]
      by_cases he : est = 0
      · rw [if_pos he] at hsv ⊢; exact hsv
      · rw [if_neg he] at hsv ⊢
        obtain ⟨sg', sig, h1, h2, h3, h4, h5⟩ := hsv
        rw [hsg] at h1; injection h1 with h1; subst h1
        refine ⟨sig, h2, h3, ?_⟩
        rw [g2 (by show sv.isSome = true; rw [h3]; rfl), h5]
        congr 1
        rw [h4, if_pos rfl] at hfn
        obtain ⟨d, hd, _⟩ := hfn
        show [Name.encBody (signedPart e.finalName)].flatten = _
        rw [hd, signedPart_digest]; simp

/-- C28: an Interest that `MakeInterest` makes is accepted by `ReadInterest`, which returns the final name (the given name without a
digest at its end, and with a digest of 32 bytes when there are parameters) and the same options, parameters (as one buffer) and
signature; what it reports as covered is what the signer got.  Assumed: nonce, hop limit and times that fit their fields
(`C28_violated`), components of at most 252 bytes.  The key name comes back only with a signature type other than 0, which is a digest
(`C28_key_name_violated`); the signature time comes back in milliseconds. -/
theorem C28_interest_round_trip_partial (sha : Bytes → Bytes) (hsha : ∀ b, (sha b).length = 32) (name : Name) (config : InterestConfig)
    (appParam : Option Wire) (signer : Option Signer) (e : Encoded)
    (h : makeInterest sha (some name) (some config) appParam signer = .ok e)
    (hname : ∀ c ∈ name, c.Small) (hhint : ∀ ns, config.fwdHint = some ns → ∀ n ∈ ns, ∀ c ∈ n, c.Small)
    (hnonce : ∀ x, config.nonce = some x → x < 2 ^ 32) (hlife : ∀ d, config.lifetime = some d → WholeMs d)
    (hhop : ∀ x, config.hopLimit = some x → x < 2 ^ 8)
    (hkey : ∀ c n, signerConfig signer = some c → c.keyName = some n → ∀ x ∈ n, x.Small)
    (hty : ∀ c, signerConfig signer = some c → -2 ^ 63 ≤ c.typ ∧ c.typ < 2 ^ 63)
    (htime : ∀ c t, signerConfig signer = some c → c.sigTime = some t → 0 ≤ t ∧ t < 2 ^ 63)
    (hseq : ∀ c x, signerConfig signer = some c → c.seqNum = some x → x < 2 ^ 64)
    (hl : e.wire.flatten.length < 2 ^ 43) (F : Nat) (hF : e.wire.flatten.length < F) :
    ∃ v cov, readInterest sha F (BR.new e.wire.flatten) = some (.ok (.ok (v, cov))) ∧
      v.name = some e.finalName ∧
      (if appParam.isSome then ∃ d, e.finalName = stripDigest name ++ [⟨2, d⟩] ∧ d.length = 32 else e.finalName = stripDigest name) ∧
      v.canBePrefix = config.canBePrefix ∧ v.mustBeFresh = config.mustBeFresh ∧ v.hintNames = config.fwdHint ∧ v.nonce = config.nonce ∧
      v.lifetime = config.lifetime ∧ v.hopLimit = config.hopLimit ∧ v.appParam = appParam.map (fun w => [w.flatten]) ∧
      (signerConfig signer = none → v.sigInfo = none ∧ v.sigValue = none) ∧
      ∀ c, signerConfig signer = some c → sigTypeOf v.sigInfo = c.typ ∧ keyNameOf v.sigInfo = (if c.typ = 0 then none else c.keyName) ∧
        sigNonceOf v.sigInfo = c.nonce ∧ sigTimeOf v.sigInfo = c.sigTime.map (· / 1000000) ∧ sigSeqNumOf v.sigInfo = c.seqNum ∧
        ∀ sg, signer = some sg →
          if sg.est = 0 then v.sigValue = none
          else ∃ sig, sg.sign e.covered = some sig ∧ v.sigValue = some [sig] ∧ cov.flatten = e.covered.flatten := by
  obtain ⟨v, cov, _, r⟩ := madeInterest_parts sha hsha name config appParam signer e h hname hhint hnonce hlife hhop hkey hty htime hseq hl F hF
  exact ⟨v, cov, r⟩

/-- `MakeInterest` succeeds: parameters and a signer that makes a signature value of at most the estimated length, if any -/
theorem makeInterest_ok {sha : Bytes → Bytes} (hsha : ∀ b, (sha b).length = 32) {name : Name} {config : InterestConfig}
    {a : Wire} {signer : Option Signer} {si : Option signatureInfo.V} {est : Nat} (hsi : interestSig true signer = .ok (si, est)) {sg : Signer} {sig : Bytes}
    (hsg : signer = some sg) (hsign : ∀ w, sg.sign w = some sig) (h0 : 0 < est) (hlen : sig.length ≤ est)
    (hL : (bytesOf (interestOf name config (some a) si).bodies.head).length + (bytesOf (interestOf name config (some a) si).bodies.params).length < 2 ^ 42) :
    ∃ e, makeInterest sha (some name) (some config) (some a) signer = .ok e ∧ e.wire.flatten.length < 2 ^ 43 := by
  have h252 : est ≤ 252 := by
    rcases interestSig_cases hsi with ⟨_, _, h⟩ | ⟨_, _, _, _, _, _, h, _⟩ <;> omega
  have hit : interestName true name = stripDigest name ++ [⟨2, List.replicate 32 0⟩] := by rw [interestName_eq]; rfl
  have hvn : (interestOf name config (some a) si).name = some (stripDigest name ++ [⟨2, List.replicate 32 0⟩]) := by
    rw [← hit]; rfl
  have hhead := head_bytes (interestOf name config (some a) si) _ hvn
  obtain ⟨s, w, i, h1, h2, h3, h4, h5⟩ := interest_signed hvn (a := a) rfl true h0 h252
  obtain ⟨bs, p1, p2⟩ := h5 sig hlen
  obtain ⟨P, hP⟩ : ∃ P, P = bytesOf (interestOf name config (some a) si).bodies.params ++ tlv 0x2e sig := ⟨_, rfl⟩
  obtain ⟨H, hH⟩ : ∃ H, H = bytesOf (interestOf name config (some a) si).bodies.head := ⟨_, rfl⟩
  have hPl : P.length ≤ (bytesOf (interestOf name config (some a) si).bodies.params).length + 270 := by
    rw [hP, List.length_append, tlv_length]
    have := tlLen_le 0x2e
    have := tlLen_le sig.length
    omega
  rw [← hP, ← hH] at p1
  rw [← hP] at p2
  rw [← hH] at hhead hL
  rw [hhead] at p1 hL
  rw [List.length_append] at hL
  have hZ : ∀ d : Bytes, d.length = 32 → (tlv 7 (Name.encBody (stripDigest name ++ [⟨2, d⟩]))).length = (upToDigest (stripDigest name)).length + 32 := by
    intro d hd
    rw [tlv_digest hd, List.length_append, hd]
  have hZ1 := hZ _ (List.length_replicate (n := 32) (a := (0 : UInt8)))
  have hZ2 := hZ _ (hsha P)
  have hp2 := congrArg List.length p2
  simp only [List.length_append] at hp2
  unfold makeInterest
  simp only [Option.isSome_some, hsi, Res.bind]
  rw [h1]
  simp only [signInterest]
  rw [if_pos h0, h2, hsg]
  simp only [Option.bind_some, hsign]
  rw [if_neg (by omega), p1]
  simp only [Res.map]
  rw [h3, if_neg (by simp), digestInterest_eq hsha hit (by rw [List.length_append]; omega) rfl p2]
  simp only
  have t1 := tlLen_le 5
  by_cases hk : est - sig.length > 0
  · rw [if_pos hk]
    have := shrinkHead_eq (typ := 5) (L := (tlv 7 (Name.encBody (stripDigest name ++ [⟨2, List.replicate 32 0⟩])) ++
        fieldBytes (midFields (interestOf name config (some a) si))).length + P.length + (est - sig.length)) (s := est - sig.length)
      (w := (tlv 7 (Name.encBody (stripDigest name ++ [⟨2, sha P⟩])) ++ fieldBytes (midFields (interestOf name config (some a) si)) ++
        (tlEnc 0x24 ++ tlEnc a.flatten.length)) :: bs) (by decide) (by rw [List.length_append]; omega) (by omega) (by simp)
    simp only [before] at this
    rw [this]
    refine ⟨_, rfl, ?_⟩
    simp only [List.flatten_cons, List.length_append, hZ2, tlEnc_length] at hp2 ⊢
    have := tlLen_le ((tlv 7 (Name.encBody (stripDigest name ++ [⟨2, List.replicate 32 0⟩]))).length +
        (fieldBytes (midFields (interestOf name config (some a) si))).length + P.length + (est - sig.length) - (est - sig.length))
    omega
  · rw [if_neg hk]
    refine ⟨_, rfl, ?_⟩
    simp only [List.flatten_cons, List.length_append, hZ2, tlEnc_length] at hp2 ⊢
    have := tlLen_le ((tlv 7 (Name.encBody (stripDigest name ++ [⟨2, List.replicate 32 0⟩]))).length +
        (fieldBytes (midFields (interestOf name config (some a) si))).length + P.length + (est - sig.length))
    omega

/-- a hash function for examples -/
def sha32 (_ : Bytes) : Bytes := List.replicate 32 7

/-- a signer with a digest type and a key name -/
def keyedSigner : Signer :=
  ⟨some (some { typ := 0, keyName := some [⟨8, [75]⟩], nonce := some [9], sigTime := some 1600000000000000000, seqNum := some 5 }), 32, fun _ => some [1, 2]⟩

def exConfig : InterestConfig :=
  { canBePrefix := true, fwdHint := some [[⟨8, [72]⟩]], nonce := some 17, lifetime := some 4000000000, hopLimit := some 3 }

theorem exMade : ∃ e, makeInterest sha32 (some [⟨8, [65]⟩]) (some exConfig) (some [[1], [2]]) (some keyedSigner) = .ok e ∧
    e.wire.flatten.length < 2 ^ 43 := by
  refine makeInterest_ok (fun _ => List.length_replicate) (si := some (mkSigInfo 0 none (some [9]) (some 1600000000000000000) (some 5) none)) (est := 32)
    ?_ rfl (fun _ => rfl) (by omega) (sig := [1, 2]) (by decide) ?_
  · show Res.ok (some (mkSigInfo 0 none (some [9]) (some (sigTimeDur 1600000000000000000)) (some 5) none), 32) = _
    rw [sigTimeDur_eq (by decide) (by decide)]; rfl
  · decide

/-- the hypotheses are met: `/A` with options, parameters in two buffers and a signer -/
example : (∀ b, (sha32 b).length = 32) ∧ (∀ c ∈ ([⟨8, [65]⟩] : Name), c.Small) ∧
    (∀ ns, exConfig.fwdHint = some ns → ∀ n ∈ ns, ∀ c ∈ n, c.Small) ∧ WholeMs 4000000000 ∧ (∃ c, signerConfig (some keyedSigner) = some c) ∧
    ∃ e, makeInterest sha32 (some [⟨8, [65]⟩]) (some exConfig) (some [[1], [2]]) (some keyedSigner) = .ok e ∧ e.wire.flatten.length < 2 ^ 43 := by
  refine ⟨fun _ => List.length_replicate, by simp [Component.Small], ?_, ⟨4000, by decide⟩, ⟨_, rfl⟩, exMade⟩
  intro ns h
  injection h with h
  subst h
  simp [Component.Small]

/-- C28 fails: a nonce that does not fit 32 bits is read back as another nonce -/
theorem C28_violated (sha : Bytes → Bytes) : ∃ e v cov, makeInterest sha (some []) (some { nonce := some (2 ^ 32) }) none none = .ok e ∧
    readInterest sha 20 (BR.new e.wire.flatten) = some (.ok (.ok (v, cov))) ∧ v.nonce = some 0 := by
  obtain ⟨w, s, h1, h2⟩ := interest_plain (v := interestOf [] { nonce := some (2 ^ 32) } none none) rfl rfl rfl false
  have hw : w.flatten = (made [] { nonce := some (2 ^ 32) } none none none).enc := by
    rw [h2, InterestV.enc, made_items [], head_bytes _ _ rfl]
    show tlv 5 (_ ++ _) = tlv 5 (_ ++ ([] ++ []))
    rw [List.append_nil, List.append_nil]; rfl
  have hl : (InterestV.enc (made [] { nonce := some (2 ^ 32) } none none none)).length = 10 := by rfl
  obtain ⟨cov, g1, _⟩ := read_made_interest (sha := sha) (F := 20) (v := made [] { nonce := some (2 ^ 32) } none none none)
    ⟨fun c hc => (nomatch hc), trivial, (by decide : 0 < 2 ^ 32), trivial, trivial, trivial, trivial, trivial⟩
    ⟨rfl, fun hx => (nomatch hx), fun hx => (nomatch hx)⟩ hw (by rw [hw, hl]; omega) (by rw [hw, hl]; omega)
  exact ⟨{ wire := w, covered := [], finalName := [] }, _, cov, by simp only [makeInterest, interestSig, Res.bind, Option.isSome_none, h1]; rfl, g1, rfl⟩

/-- C28 fails: the key name of a signer with a digest type is lost -/
theorem C28_key_name_violated : ∃ e v cov, makeInterest sha32 (some [⟨8, [65]⟩]) (some exConfig) (some [[1], [2]]) (some keyedSigner) = .ok e ∧
    readInterest sha32 (e.wire.flatten.length + 1) (BR.new e.wire.flatten) = some (.ok (.ok (v, cov))) ∧ keyNameOf v.sigInfo = none ∧
    (signerConfig (some keyedSigner)).bind (·.keyName) = some [⟨8, [75]⟩] := by
  obtain ⟨e, h1, h2⟩ := exMade
  have hc : ∀ c, signerConfig (some keyedSigner) = some c → c = { typ := 0, keyName := some [⟨8, [75]⟩], nonce := some [9], sigTime := some 1600000000000000000, seqNum := some 5 } := by
    intro c h; injection h with h; exact h.symm
  obtain ⟨v, cov, g1, _, _, _, _, _, _, _, _, _, _, g2⟩ := C28_interest_round_trip_partial sha32 (fun _ => List.length_replicate) _ _ _ _ e h1
    (by simp [Component.Small]) (by intro ns h; injection h with h; subst h; simp [Component.Small])
    (by intro x h; injection h with h; omega) (by intro x h; injection h with h; exact ⟨4000, by omega, by omega⟩)
    (by intro x h; injection h with h; omega)
    (by intro c n h1 h2; rw [hc c h1] at h2; injection h2 with h2; subst h2; simp [Component.Small])
    (by intro c h1; rw [hc c h1]; decide)
    (by intro c t h1 h2; rw [hc c h1] at h2; injection h2 with h2; omega)
    (by intro c t h1 h2; rw [hc c h1] at h2; injection h2 with h2; omega) h2 (e.wire.flatten.length + 1) (by omega)
  exact ⟨e, v, cov, h1, g1, (g2 _ rfl).2.1, rfl⟩

end Ndn.Packet
