import Verif.Codec.Props
import Verif.Enc.NameProps
import Verif.Schema.DemoSec
import Verif.Schema.PoliciesProps
import Verif.Security.SignersProps

/-!
# C64: keys and trust in the demonstration, C65: encrypted content
-/

namespace Ndn.Schema
open Ndn.Packet Ndn.Security

/-! ## C64: specification -/

/-- The certificate of a key is a Data with the name of the key and the key as its content, signed with `by`. -/
def SignedWith (mac : Bytes → Bytes → Bytes) (k : HmacKey) (signKey : Bytes) : Prop :=
  ∃ fuel d cov, readData fuel (BR.new k.cert) = some (.ok (.ok (d, cov))) ∧ d.name.getD [] = k.name ∧ (d.content.getD []).flatten = k.bits ∧
    (d.sigValue.getD []).flatten = mac signKey cov.flatten

/-- There is a chain of certificates in the store from a self-signed key to this one. -/
inductive Trusted (mac : Bytes → Bytes → Bytes) (store : KeyStore) : HmacKey → Prop
  | anchor {k : HmacKey} : k ∈ store → SignedWith mac k k.bits → Trusted mac store k
  | signed {k k' : HmacKey} : k ∈ store → Trusted mac store k' → SignedWith mac k k'.bits → Trusted mac store k

/-- the stores made by successful calls of `AddTrustAnchor` and `EnrollKey`, with names and certificates that the encoder handles -/
inductive Made (mac : Bytes → Bytes → Bytes) : KeyStore → Prop
  | empty : Made mac []
  | anchor {store store' : KeyStore} {fuel : Nat} {cert : Bytes} : Made mac store → store.addTrustAnchor mac fuel cert = some (.ok (some store')) →
      Made mac store'
  | enroll {store store' : KeyStore} {keyName signKeyName : Name} {bits : Bytes} : Made mac store → (∀ c ∈ keyName, c.Small) →
      store.enrollKey mac keyName bits signKeyName = .ok (some store') → (∀ k ∈ store', k.cert.length < 2 ^ 43) → Made mac store'

/-! ## C64: lemmas -/

theorem name_equal {a b : Name} (h : a.equal b = true) : a = b := by
  unfold Name.equal at h
  split at h
  · cases h
  · rename_i hl
    have hp : Name.isPrefix a b = true := by unfold Name.isPrefix; rw [if_neg (by omega)]; exact h
    obtain ⟨t, ht⟩ := (C14_is_prefix a b b).1.mp hp
    have : t = [] := by
      have := congrArg List.length ht
      rw [List.length_append] at this
      exact List.length_eq_zero_iff.mp (by omega)
    rw [ht, this, List.append_nil]

theorem KeyStore.getKey_mem {store : KeyStore} {n : Name} {k : HmacKey} (h : store.getKey n = some k) : k ∈ store ∧ k.name = n := by
  have h1 := List.mem_of_find?_eq_some h
  have h2 := List.find?_some h
  exact ⟨h1, (name_equal h2).symm⟩

theorem Trusted.mono {mac : Bytes → Bytes → Bytes} {s s' : KeyStore} {k : HmacKey} (h : Trusted mac s k) (hs : ∀ x ∈ s, x ∈ s') : Trusted mac s' k := by
  induction h with
  | anchor h1 h2 => exact .anchor (hs _ h1) h2
  | signed h1 _ h3 ih => exact .signed (hs _ h1) ih h3

/-- what `EnrollKey` appends -/
theorem enroll_cases {mac : Bytes → Bytes → Bytes} {store store' : KeyStore} {keyName signKeyName : Name} {bits : Bytes}
    (h : store.enrollKey mac keyName bits signKeyName = .ok (some store')) :
    ∃ k e, store.getKey signKeyName = some k ∧ store' = store ++ [⟨keyName, bits, e.wire.flatten⟩] ∧
      makeData (some keyName) (some { contentType := some 2, freshness := some 3600000000000 }) (some [bits])
        (some (hmacSigner mac (some keyName) k.bits none)) = .ok e := by
  unfold KeyStore.enrollKey at h
  cases hk : store.getKey signKeyName with
  | none => rw [hk] at h; cases h
  | some k =>
    rw [hk] at h
    dsimp only at h
    split at h
    · cases h
    · cases h
    · rename_i e he
      injection h with h
      injection h with h
      exact ⟨k, e, rfl, h.symm, he⟩

theorem wholeMs_hour : WholeMs 3600000000000 := ⟨3600000, by decide⟩

/-- an enrolled certificate reads back -/
theorem enroll_read {mac : Bytes → Bytes → Bytes} {keyName : Name} {bits key : Bytes} {e : Encoded} (hs : ∀ c ∈ keyName, c.Small)
    (he : makeData (some keyName) (some { contentType := some 2, freshness := some 3600000000000 }) (some [bits])
        (some (hmacSigner mac (some keyName) key none)) = .ok e) (hl : e.wire.flatten.length < 2 ^ 43) :
    ∃ d cov, readData (e.wire.flatten.length + 1) (BR.new e.wire.flatten) = some (.ok (.ok (d, cov))) ∧ d.name = some keyName ∧
      (d.content.getD []).flatten = bits ∧ (d.sigValue.getD []).flatten = mac key cov.flatten ∧ keyNameOf d.sigInfo = some keyName := by
  have hw := wholeMs_hour
  obtain ⟨d, cov, h1, h2, _, _, _, h3, _, h4⟩ := C27_data_round_trip_partial _ _ _ _ e he hs (fun t ht => by injection ht with ht; subst ht; decide)
    (fun t ht => by injection ht with ht; subst ht; exact hw) (fun _ hc => by cases hc)
    (fun c n hc hn => by
      have hc : some ({ typ := sigHmac, keyName := some keyName } : SigConfig) = some c := hc
      injection hc with hc; subst hc
      injection hn with hn; subst hn; exact hs)
    (fun c hc => by
      have hc : some ({ typ := sigHmac, keyName := some keyName } : SigConfig) = some c := hc
      injection hc with hc; subst hc
      exact (show -2 ^ 63 ≤ sigHmac ∧ sigHmac < 2 ^ 63 by decide)) (fun sg sig hg _ => by injection hg with hg; subst hg; exact .inl (by simp [hmacSigner])) hl _ (Nat.lt_succ_self _)
  obtain ⟨d', cov', sig, g1, g2, g3, g4⟩ := data_sig
      (c := { typ := sigHmac, keyName := some keyName, notBefore := none, notAfter := none }) rfl (show sigHmac ≠ signatureNone by decide)
      (by simp [hmacSigner]) he hs (fun t ht => by injection ht with ht; subst ht; decide)
    (fun t ht => by injection ht with ht; subst ht; exact hw) (fun _ hc => by cases hc)
      (fun n hn => by injection hn with hn; subst hn; exact hs) (show -2 ^ 63 ≤ sigHmac ∧ sigHmac < 2 ^ 63 by decide) (fun _ _ => .inl (by simp [hmacSigner])) hl (Nat.lt_succ_self _)
  rw [h1] at g1
  injection g1 with g1
  injection g1 with g1
  injection g1 with g1
  injection g1 with gd gc
  subst gd; subst gc
  refine ⟨d, cov, h1, h2, by rw [h3]; simp, ?_, (h4 _ rfl).2.1⟩
  have : (sigOf d.sigInfo d.sigValue).value = sig := by rw [g3]
  rw [show (d.sigValue.getD []).flatten = sig from this, g4]
  exact (Option.some.inj g2).symm

/-! ## C64: theorems -/

/-- C64: every key of a store made by `AddTrustAnchor` and `EnrollKey` has a chain of certificates to a self-signed one.  Partial: components
of at most 252 bytes, certificates under 8 TiB. -/
theorem C64_chain_partial (mac : Bytes → Bytes → Bytes) (store : KeyStore) (h : Made mac store) : ∀ k ∈ store, Trusted mac store k := by
  induction h with
  | empty => simp
  | @anchor store store' fuel cert _ h ih =>
    unfold KeyStore.addTrustAnchor at h
    split at h
    · cases h
    · cases h
    · cases h
    · cases h
    · rename_i d cov hr
      dsimp only at h
      split at h
      · rename_i hc
        injection h with h
        injection h with h
        injection h with h
        subst h
        have hc : mac (d.content.getD []).flatten cov.flatten = (d.sigValue.getD []).flatten := by simpa [checkHmacSig, sigOf] using hc
        intro k hk
        rcases List.mem_append.mp hk with hk | hk
        · exact (ih k hk).mono fun x hx => List.mem_append_left _ hx
        · obtain rfl := List.mem_singleton.mp hk
          exact .anchor (List.mem_append_right _ (by simp)) ⟨fuel, d, cov, hr, rfl, rfl, hc.symm⟩
      · cases h
  | @enroll store store' keyName signKeyName bits _ hs h hl ih =>
    obtain ⟨k0, e, h1, rfl, h2⟩ := enroll_cases h
    intro k hk
    rcases List.mem_append.mp hk with hk | hk
    · exact (ih k hk).mono fun x hx => List.mem_append_left _ hx
    · obtain rfl := List.mem_singleton.mp hk
      obtain ⟨d, cov, g1, g2, g3, g4, _⟩ := enroll_read hs h2 (hl ⟨keyName, bits, e.wire.flatten⟩ (List.mem_append_right _ (by simp)))
      exact .signed (List.mem_append_right _ (by simp)) ((ih k0 (KeyStore.getKey_mem h1).1).mono fun x hx => List.mem_append_left _ hx)
        ⟨_, d, cov, g1, by rw [g2]; rfl, g3, g4⟩

/-- C64 fails: a certificate should name the key that signed it; one that was enrolled names itself, whichever key signed it. -/
theorem C64_locator_violated (mac : Bytes → Bytes → Bytes) (store store' : KeyStore) (keyName signKeyName : Name) (bits : Bytes) (hs : ∀ c ∈ keyName, c.Small)
    (h : store.enrollKey mac keyName bits signKeyName = .ok (some store')) (hl : ∀ k ∈ store', k.cert.length < 2 ^ 43) (hne : signKeyName ≠ keyName) :
    ∃ k fuel d cov, store' = store ++ [k] ∧ readData fuel (BR.new k.cert) = some (.ok (.ok (d, cov))) ∧ keyNameOf d.sigInfo ≠ some signKeyName := by
  obtain ⟨k0, e, h1, rfl, h2⟩ := enroll_cases h
  obtain ⟨d, cov, g1, _, _, _, g5⟩ := enroll_read hs h2 (hl ⟨keyName, bits, e.wire.flatten⟩ (List.mem_append_right _ (by simp)))
  exact ⟨_, _, d, cov, rfl, g1, by rw [g5]; intro hc; injection hc with hc; exact hne hc.symm⟩

/-- C64 fails: a key that is enrolled again is never found: `GetKey` keeps returning the first one. -/
theorem C64_renewed_violated (mac : Bytes → Bytes → Bytes) (store store' : KeyStore) (keyName signKeyName : Name) (bits : Bytes)
    (h : store.enrollKey mac keyName bits signKeyName = .ok (some store')) (old : HmacKey) (ho : store.getKey keyName = some old) :
    store'.getKey keyName = some old := by
  obtain ⟨k0, e, h1, rfl, h2⟩ := enroll_cases h
  unfold KeyStore.getKey at *
  rw [List.find?_append, ho]
  rfl

/-- C64, decisions: with a target and tags that give the name of a key, a Data passes iff its signature is an HMAC under the key fetched by that name,
and it is refused iff it has an HMAC signature that does not match, or no key can be fetched. -/
theorem C64_signed_by_partial (mac : Bytes → Bytes → Bytes) (mapping : TagMapping) (hm : ∀ e ∈ mapping, e.2.isSome) (keyName : Matching → Option Name)
    (fetch : Name → Option Wire) (m : Matching) (cov : Wire) (typ : Int) (value : Bytes) (n : Name)
    (hn : keyName (m.map fun e => (e.1, ((mapping.find? (·.1 == e.1)).bind (·.2)).getD e.2)) = some n) :
    let r := signedByOnValidate mac mapping keyName fetch (some m) ⟨some cov, some ⟨typ, value⟩⟩
    (r = .ok 1 ↔ typ = 4 ∧ ∃ key, fetch n = some key ∧ value = mac key.flatten cov.flatten) ∧
    (r = .ok (-2) ↔ typ = 4 ∧ ∀ key, fetch n = some key → value ≠ mac key.flatten cov.flatten) ∧
    (r = .ok 0 ↔ typ ≠ 4) := by
  have hconv : convertTags mapping m = .ok (m.map fun e => (e.1, ((mapping.find? (·.1 == e.1)).bind (·.2)).getD e.2)) := by
    clear hn
    induction m with
    | nil => rfl
    | cons e m ih =>
      obtain ⟨k, v⟩ := e
      have h1 : convertTag mapping k v = .ok (((mapping.find? (·.1 == k)).bind (·.2)).getD v) := by
        unfold convertTag
        cases hf : List.find? (fun e => e.1 == k) mapping with
        | none => rfl
        | some e =>
          obtain ⟨k', v'⟩ := e
          cases v' with
          | none => exact absurd (hm _ (List.mem_of_find?_eq_some hf)) (by simp)
          | some v' => rfl
      simp only [convertTags, h1, ih, Res.bind, Res.map, List.map_cons]
  have hr : signedByOnValidate mac mapping keyName fetch (some m) ⟨some cov, some ⟨typ, value⟩⟩ =
      if typ ≠ 4 then .ok 0 else match fetch n with
        | none => .ok (-2)
        | some key => .ok (if mac key.flatten cov.flatten == value then 1 else -2) := by
    unfold signedByOnValidate
    simp only [hconv, Res.bind, hn, sigHmac, vrSilence, vrFail, vrPass, checkHmacSig]
    split
    · rfl
    · cases fetch n <;> rfl
  intro r
  have hr : r = _ := hr
  rw [hr]
  by_cases ht : typ = 4
  · rw [if_neg (by simpa using ht)]
    cases hf : fetch n with
    | none => simp [ht]
    | some key =>
      by_cases hv : mac key.flatten cov.flatten = value
      · simp [ht, hv]
      · have hv' : ¬value = mac key.flatten cov.flatten := fun h => hv h.symm
        simp [ht, hv, hv']
  · rw [if_pos ht]
    simp [ht]

/-- C64, composed: if only keys of a store so made are fetched, then what passes is signed with a key that has a chain to a self-signed one. -/
theorem C64_trust_partial (mac : Bytes → Bytes → Bytes) (store : KeyStore) (h : Made mac store) (mapping : TagMapping) (keyName : Matching → Option Name)
    (fetch : Name → Option Wire) (hf : ∀ n w, fetch n = some w → ∃ k ∈ store, k.name = n ∧ w.flatten = k.bits) (target : Option Matching) (cov : Wire)
    (typ : Int) (value : Bytes) (hp : signedByOnValidate mac mapping keyName fetch target ⟨some cov, some ⟨typ, value⟩⟩ = .ok 1) :
    ∃ k, Trusted mac store k ∧ (∃ m m', target = some m ∧ convertTags mapping m = .ok m' ∧ keyName m' = some k.name) ∧ typ = 4 ∧
      value = mac k.bits cov.flatten := by
  cases target with
  | none => cases hp
  | some m =>
    unfold signedByOnValidate at hp
    dsimp only at hp
    split at hp
    · cases hp
    · rename_i ht
      cases hc : convertTags mapping m with
      | panic => rw [hc] at hp; cases hp
      | err => rw [hc] at hp; cases hp
      | ok m' =>
        rw [hc] at hp
        simp only [Res.bind] at hp
        cases hn : keyName m' with
        | none => rw [hn] at hp; cases hp
        | some n =>
          rw [hn] at hp
          dsimp only at hp
          cases hw : fetch n with
          | none => rw [hw] at hp; cases hp
          | some key =>
            rw [hw] at hp
            dsimp only at hp
            split at hp
            · rename_i hv
              obtain ⟨k, h1, h2, h3⟩ := hf n key hw
              refine ⟨k, C64_chain_partial mac store h k h1, ⟨m, m', rfl, hc, by rw [h2]; exact hn⟩, by simpa [sigHmac] using ht, ?_⟩
              rw [← h3]
              exact (by simpa [checkHmacSig] using hv : _ = _).symm
            · cases hp

/-- C64, own Data: what is signed with the signer that the policy gives passes, if the key of the store is what is fetched.  Partial: as C27. -/
theorem C64_own_data_partial (mac : Bytes → Bytes → Bytes) (mapping : TagMapping) (keyName : Matching → Option Name) (store : KeyStore) (m : Matching)
    (sg : Signer) (hsg : signedBySigner mac mapping keyName store (some m) = .ok (some sg)) (name : Name) (config : DataConfig) (content : Option Wire) (e : Encoded)
    (h : makeData (some name) (some config) content (some sg) = .ok e)
    (fetch : Name → Option Wire) (hf : ∀ n k, store.getKey n = some k → ∃ w, fetch n = some w ∧ w.flatten = k.bits)
    (hname : ∀ c ∈ name, c.Small) (hct : ∀ t, config.contentType = some t → t < 2 ^ 64) (hfr : ∀ d, config.freshness = some d → WholeMs d)
    (hfb : ∀ c, config.finalBlock = some c → c.Small) (hkey : ∀ m' n, keyName m' = some n → ∀ x ∈ n, x.Small)
    (hl : e.wire.flatten.length < 2 ^ 43) (F : Nat) (hF : e.wire.flatten.length < F) :
    ∃ d cov, readData F (BR.new e.wire.flatten) = some (.ok (.ok (d, cov))) ∧
      signedByOnValidate mac mapping keyName fetch (some m) (.ofData d cov) = .ok 1 := by
  unfold signedBySigner at hsg
  dsimp only at hsg
  cases hc : convertTags mapping m with
  | panic => rw [hc] at hsg; cases hsg
  | err => rw [hc] at hsg; cases hsg
  | ok m' =>
    rw [hc] at hsg
    simp only [Res.map] at hsg
    injection hsg with hsg
    cases hn : keyName m' with
    | none => rw [hn] at hsg; cases hsg
    | some n =>
      rw [hn] at hsg
      cases hk : store.getKey n with
      | none => simp [hk] at hsg
      | some k =>
        have hsg : hmacSigner mac (some n) k.bits none = sg := by simpa [hk] using hsg
        subst hsg
        obtain ⟨d, cov, sig, h1, h2, h3, h4⟩ := data_sig
          (c := { typ := sigHmac, keyName := some n, notBefore := none, notAfter := none }) rfl (show sigHmac ≠ signatureNone by decide)
          (by simp [hmacSigner]) h hname hct hfr hfb
          (fun n' hn' => by injection hn' with hn'; subst hn'; exact hkey m' n hn) (show -2 ^ 63 ≤ sigHmac ∧ sigHmac < 2 ^ 63 by decide)
          (fun _ _ => .inl (by simp [hmacSigner])) hl hF
        have h5 := covered_ne (si := some (mkSigInfo 4 (some n) none none none none)) (est := 32) (by rfl) (by decide) h
        have hcov : cov ≠ [] := by rintro rfl; exact h5 h4.symm
        obtain ⟨w, hw1, hw2⟩ := hf n k hk
        refine ⟨d, cov, h1, ?_⟩
        have hv : VEvent.ofData d cov = ⟨some cov, some ⟨sigHmac, sig⟩⟩ := by
          unfold VEvent.ofData; rw [if_neg hcov, h3]
        rw [hv]
        unfold signedByOnValidate
        simp only [hc, Res.bind, hn, hw1, ne_eq, not_true_eq_false, if_false]
        have : mac k.bits cov.flatten = sig := by rw [h4]; exact Option.some.inj h2
        simp [checkHmacSig, hw2, this, vrPass]

/-- the hypotheses of `C64_chain_partial`, `C64_locator_violated` and `C64_own_data_partial` are met: an anchor `/K`, and a key `/L` signed by it -/
example : ∃ store store' : KeyStore, Made (fun _ => sha32) store ∧ Made (fun _ => sha32) store' ∧
    store.enrollKey (fun _ => sha32) [⟨8, [76]⟩] [7] [⟨8, [75]⟩] = .ok (some store') ∧ (∀ k ∈ store', k.cert.length < 2 ^ 43) ∧
    store'.map (·.name) = [[⟨8, [75]⟩], [⟨8, [76]⟩]] ∧
    ∃ sg, signedBySigner (fun _ => sha32) [([120], some [76])] (fun m => some (m.map fun e => ⟨8, e.2⟩)) store' (some [([120], [1])]) = .ok (some sg) := by
  have mk : ∀ (n : Name) (b k : Bytes), (n = [⟨8, [75]⟩] ∨ n = [⟨8, [76]⟩]) → (b = [5] ∨ b = [7]) → ∃ e, makeData (some n)
      (some { contentType := some 2, freshness := some 3600000000000 }) (some [b]) (some (hmacSigner (fun _ => sha32) (some n) k none)) = .ok e ∧
      e.wire.flatten.length < 2 ^ 43 := by
    intro n b k hn hb
    refine makeData_ok (si := some (mkSigInfo 4 (some n) none none none none)) (est := 32) (by rfl) (by decide) (by decide)
      (fun w => ⟨_, rfl, by simp [sha32, hmacSigner]⟩) ?_
    rcases hn with rfl | rfl <;> rcases hb with rfl | rfl <;> decide
  have small : ∀ x, x = 75 ∨ x = 76 → ∀ c ∈ ([⟨8, [x]⟩] : Name), c.Small := by
    intro x _ c hc
    rw [List.mem_singleton.mp hc]
    exact ⟨(show 8 < 2 ^ 64 by decide), (show 1 ≤ 252 by decide)⟩
  obtain ⟨e, h1, h2⟩ := mk [⟨8, [75]⟩] [5] [5] (.inl rfl) (.inl rfl)
  obtain ⟨d, cov, g1, g2, g3, g4, _⟩ := enroll_read (small 75 (.inl rfl)) h1 h2
  have ha : KeyStore.addTrustAnchor (fun _ => sha32) (e.wire.flatten.length + 1) [] e.wire.flatten = some (.ok (some [⟨[⟨8, [75]⟩], [5], e.wire.flatten⟩])) := by
    unfold KeyStore.addTrustAnchor
    rw [g1]
    dsimp only
    rw [g3, if_pos (by simp only [checkHmacSig, sigOf, g4]; simp), g2]
    rfl
  have hm : Made (fun _ => sha32) [⟨[⟨8, [75]⟩], [5], e.wire.flatten⟩] := .anchor .empty ha
  obtain ⟨e', h3, h4⟩ := mk [⟨8, [76]⟩] [7] [5] (.inr rfl) (.inr rfl)
  have he : KeyStore.enrollKey (fun _ => sha32) [⟨[⟨8, [75]⟩], [5], e.wire.flatten⟩] [⟨8, [76]⟩] [7] [⟨8, [75]⟩] =
      .ok (some [⟨[⟨8, [75]⟩], [5], e.wire.flatten⟩, ⟨[⟨8, [76]⟩], [7], e'.wire.flatten⟩]) := by
    unfold KeyStore.enrollKey
    rw [show KeyStore.getKey [⟨[⟨8, [75]⟩], [5], e.wire.flatten⟩] [⟨8, [75]⟩] = some ⟨[⟨8, [75]⟩], [5], e.wire.flatten⟩ from rfl]
    dsimp only
    rw [h3]
    rfl
  have hl : ∀ k ∈ ([⟨[⟨8, [75]⟩], [5], e.wire.flatten⟩, ⟨[⟨8, [76]⟩], [7], e'.wire.flatten⟩] : KeyStore), k.cert.length < 2 ^ 43 := by
    intro k hk
    rcases List.mem_cons.mp hk with rfl | hk
    · exact h2
    · rw [List.mem_singleton.mp hk]; exact h4
  exact ⟨_, _, hm, .enroll hm (small 76 (.inr rfl)) he hl, he, hl, rfl, _, rfl⟩

/-- C64 fails: a Data that the tree does not match (a longer one, for an Interest with CanBePrefix) crashes the policy, whatever its signature. -/
theorem C64_target_panics (mac : Bytes → Bytes → Bytes) (mapping : TagMapping) (t : STree) (keyNode : Addr) (pre : Name) (fetch : Name → Option Wire) (n : Matched)
    (name : Name) (h : refine t n name = none) (e : VEvent) : signedByOnData mac mapping t keyNode pre fetch n name e = .panic := by
  unfold signedByOnData
  rw [h]
  rfl

/-- such a Data: the node is that of `/a`, the Data is `/a/b` -/
example : refine (.node [(.comp ⟨8, [97]⟩, .node [])]) ⟨[0], [⟨8, [97]⟩], []⟩ [⟨8, [97]⟩, ⟨8, [98]⟩] = none := by
  simp [refine, Name.isPrefix, allEqual, Component.equal, STree.at', STree.chd, continueMatch, stripParams, stripDigest, typParams, typDigest, pick]

/-- C64 fails: tags that do not give a name for the key crash the policy for every Data with an HMAC signature. -/
theorem C64_key_name_panics (mac : Bytes → Bytes → Bytes) (mapping : TagMapping) (keyName : Matching → Option Name) (fetch : Name → Option Wire)
    (m m' : Matching) (hc : convertTags mapping m = .ok m') (hn : keyName m' = none) (cov : Wire) (value : Bytes) :
    signedByOnValidate mac mapping keyName fetch (some m) ⟨some cov, some ⟨4, value⟩⟩ = .panic := by
  unfold signedByOnValidate
  simp only [hc, Res.bind, hn, sigHmac, ne_eq, not_true_eq_false, if_false]

/-! ## C65: specification -/

/-- what a block cipher promises: blocks of 16 bytes go to blocks of 16 bytes and back -/
def BlockCipher.Correct (B : BlockCipher) : Prop := ∀ k b : Bytes, b.length = 16 → (B.enc k b).length = 16 ∧ B.dec k (B.enc k b) = b

/-! ## C65: lemmas -/

theorem xorBytes_xorBytes (a b : Bytes) (h : a.length = b.length) : xorBytes (xorBytes a b) b = a := by
  induction a generalizing b with
  | nil => simp [xorBytes]
  | cons x a ih =>
    cases b with
    | nil => simp at h
    | cons y b =>
      have := ih b (by simpa using h)
      simp only [xorBytes, List.zipWith_cons_cons] at *
      rw [this, UInt8.xor_assoc, UInt8.xor_self, UInt8.xor_zero]

theorem xorBytes_length (a b : Bytes) (h : a.length = b.length) : (xorBytes a b).length = a.length := by
  simp [xorBytes, h]

theorem cbc_roundtrip (B : BlockCipher) (hB : B.Correct) (k : Bytes) (n : Nat) (iv b : Bytes) (hi : iv.length = 16) (hb : b.length = n * 16) :
    (cbcEnc (B.enc k) n iv b).length = n * 16 ∧ cbcDec (B.dec k) n iv (cbcEnc (B.enc k) n iv b) = b := by
  induction n generalizing iv b with
  | zero => simp at hb; subst hb; simp [cbcEnc, cbcDec]
  | succ n ih =>
    have ht : (b.take blockSize).length = iv.length := by simp [blockSize]; omega
    obtain ⟨h1, h2⟩ := hB k (xorBytes (b.take blockSize) iv) (by rw [xorBytes_length _ _ ht, ht, hi])
    obtain ⟨h3, h4⟩ := ih _ (b.drop blockSize) h1 (by simp [blockSize]; omega)
    have h5 : (cbcEnc (B.enc k) (n + 1) iv b).take blockSize = B.enc k (xorBytes (b.take blockSize) iv) := by
      rw [cbcEnc]; exact List.take_left' h1
    have h6 : (cbcEnc (B.enc k) (n + 1) iv b).drop blockSize = cbcEnc (B.enc k) n (B.enc k (xorBytes (b.take blockSize) iv)) (b.drop blockSize) := by
      rw [cbcEnc]; exact List.drop_left' h1
    constructor
    · rw [cbcEnc, List.length_append, h1, h3]; omega
    · rw [cbcDec, h5, h6, h2, h4, xorBytes_xorBytes _ _ ht, List.take_append_drop]

theorem encryptedContent_wf : encryptedContent.WF := by simp [encryptedContent, Codec.Fields.WF, Codec.Elem.WF, Codec.Fields.types]

/-- the bytes of an encrypted content -/
def encBytes (ckid iv : Bytes) (l : Nat) (x : Bytes) : Bytes :=
  [Codec.tlv 0x82 ckid, Codec.tlv 0x84 iv, Codec.tlv 0x86 (natEnc l), Codec.tlv 0x88 [x].flatten].flatten

theorem natEnc_le (l : Nat) : (natEnc l).length ≤ 8 := by
  rw [Codec.natEnc_natW, Codec.be_length]
  rcases Codec.natW_cases l with h | h | h | h <;> omega

theorem encBytes_length (ckid iv : Bytes) (l : Nat) (x : Bytes) : (encBytes ckid iv l x).length ≤ 80 + ckid.length + iv.length + x.length := by
  have h1 := tlLen_le 0x82
  have h2 := tlLen_le 0x84
  have h3 := tlLen_le 0x86
  have h4 := tlLen_le 0x88
  have h5 := tlLen_le ckid.length
  have h6 := tlLen_le iv.length
  have h7 := tlLen_le (natEnc l).length
  have h8 := tlLen_le x.length
  have h9 := natEnc_le l
  simp only [encBytes, List.flatten_cons, List.flatten_nil, List.length_append, Codec.tlv_length, List.append_nil]
  omega

theorem blocks_length (l : Nat) : l + ((l + 16 - 1) / 16 * 16 - l) = (l + 16 - 1) / 16 * 16 := by omega

/-! ## C65: theorems -/

/-- C65: what `Encrypt` makes with a content key, `Decrypt` reads with the key fetched by the key's number, for every content.  Partial: under 8 TiB. -/
theorem C65_roundtrip_partial (B : BlockCipher) (hB : B.Correct) (ckid keybits iv : Bytes) (hc : ckid.length = 8) (hk : keybits.length = 32)
    (hi : iv.length = 16) (content : Wire) (hl : content.flatten.length < 2 ^ 42) (fetch : Bytes → Option Wire) (key : Wire)
    (hf : fetch ckid = some key) (hkey : key.flatten = keybits) :
    ∃ w, encrypt B ckid keybits iv content = .ok (some w) ∧ ∀ fuel, w.length < fuel → decrypt B fetch fuel w = some (.ok (some content.flatten)) := by
  generalize hb : content.flatten = b at *
  have hpad := blocks_length b.length
  generalize hn : (b.length + 16 - 1) / 16 = n at *
  obtain ⟨h1, h2⟩ := cbc_roundtrip B hB keybits n iv (b ++ List.replicate (n * 16 - b.length) 0) hi (by rw [List.length_append, List.length_replicate, hpad])
  generalize hx : cbcEnc (B.enc keybits) n iv (b ++ List.replicate (n * 16 - b.length) 0) = x at *
  let v : encryptedContent.V := mkEnc (some ckid) (some iv) b.length (some [x])
  have hr : encryptedContent.InRange v := ⟨trivial, trivial, by show b.length < 2 ^ 64; omega, ⟨x, rfl⟩, trivial⟩
  have hs : (encryptedContent.enc v).length < 2 ^ 43 := by
    have := encBytes_length ckid iv b.length x
    rw [show encryptedContent.enc v = encBytes ckid iv b.length x from rfl]
    omega
  obtain ⟨w, g1, g2⟩ := Codec.C19_codec_roundtrip_partial _ encryptedContent_wf v hr hs
  refine ⟨w, ?_, fun fuel hfu => ?_⟩
  · unfold encrypt
    rw [if_neg (by omega)]
    simp only [blockSize, hb, hn, hx]
    rw [show encryptedContent.encode (mkEnc (some ckid) (some iv) b.length (some [x])) = .ok w from g1]
    rfl
  · obtain ⟨r, hr⟩ := g2 true fuel hfu
    unfold decrypt
    rw [hr]
    show some (decryptValue B fetch v).1 = _
    unfold decryptValue
    rw [show (encKeyId v).getD [] = ckid from rfl, hf]
    dsimp only
    rw [hkey, hk, show (encIv v).getD [] = iv from rfl, show ((encText v).getD []).flatten = x by show [x].flatten = x; simp, hi, h1,
      show encLen v = b.length from rfl]
    rw [if_neg (by decide), if_neg (by decide), if_neg (by simp [blockSize])]
    rw [show n * 16 / blockSize = n from Nat.mul_div_cancel _ (by decide), h2]
    dsimp only
    rw [if_neg (by rw [List.length_append]; omega)]
    simp

/-- the hypotheses are met, by a cipher that is not the identity -/
example : (⟨fun _ b => b.map (· + 1), fun _ b => b.map (· - 1)⟩ : BlockCipher).Correct := by
  intro k b h
  refine ⟨by simpa using h, ?_⟩
  simp only [List.map_map]
  rw [show ((fun x : UInt8 => x - 1) ∘ fun x => x + 1) = id from funext fun x => by simp, List.map_id]

/-- C65: `Encrypt` refuses exactly the keys of the wrong size. -/
theorem C65_refuses (B : BlockCipher) (ckid keybits iv : Bytes) (content : Wire) :
    encrypt B ckid keybits iv content = .ok none ↔ ¬(ckid.length = 8 ∧ keybits.length = 32) := by
  unfold encrypt
  split
  · rename_i h
    simp only [true_iff]
    omega
  · rename_i h
    constructor
    · intro hc
      dsimp only at hc
      rw [Codec.Fields.encode_eq _ _ (Codec.Fields.WF.widths _ encryptedContent_wf)] at hc
      cases hc
    · intro hc; exact absurd (by omega) hc

/-- a packet with these fields, as `Decrypt` sees it -/
theorem decrypt_enc (B : BlockCipher) (fetch : Bytes → Option Wire) (ckid iv : Bytes) (l : Nat) (x : Bytes) (hl : l < 2 ^ 64)
    (hs : ckid.length + iv.length + x.length < 2 ^ 42) (fuel : Nat) (hf : (encBytes ckid iv l x).length < fuel) :
    decrypt B fetch fuel (encBytes ckid iv l x) = some (decryptValue B fetch (mkEnc (some ckid) (some iv) l (some [x]))).1 := by
  let v : encryptedContent.V := mkEnc (some ckid) (some iv) l (some [x])
  have hr : encryptedContent.InRange v := ⟨trivial, trivial, hl, ⟨x, rfl⟩, trivial⟩
  have hs : (encryptedContent.enc v).length < 2 ^ 43 := by
    have := encBytes_length ckid iv l x
    rw [show encryptedContent.enc v = encBytes ckid iv l x from rfl]
    omega
  obtain ⟨w, g1, g2⟩ := Codec.C19_codec_roundtrip_partial _ encryptedContent_wf v hr hs
  rw [Codec.Fields.encode_eq _ _ (Codec.Fields.WF.widths _ encryptedContent_wf)] at g1
  injection g1 with g1
  have g1 : encBytes ckid iv l x = w := g1
  subst g1
  obtain ⟨r, hr⟩ := g2 true fuel hf
  unfold decrypt
  rw [hr]

/-- C65 fails: whoever sends content under a key that can be fetched crashes the reader with an initialisation vector that does not have 16 bytes. -/
theorem C65_iv_panics (B : BlockCipher) (fetch : Bytes → Option Wire) (ckid : Bytes) (hc : ckid.length = 8) (key : Wire) (hf : fetch ckid = some key)
    (hk : key.flatten.length = 32) (iv : Bytes) (hi : iv.length ≠ 16) (hi' : iv.length < 2 ^ 32) :
    ∃ w, ∀ fuel, w.length < fuel → decrypt B fetch fuel w = some .panic := by
  refine ⟨encBytes ckid iv 0 [], fun fuel hfu => ?_⟩
  rw [decrypt_enc B fetch ckid iv 0 [] (by omega) (by simp; omega) fuel hfu]
  unfold decryptValue
  rw [show (encKeyId (mkEnc (some ckid) (some iv) 0 (some [[]]))).getD [] = ckid from rfl, hf]
  dsimp only
  rw [hk, show (encIv (mkEnc (some ckid) (some iv) 0 (some [[]]))).getD [] = iv from rfl, if_neg (by decide), if_pos (show ¬iv.length = blockSize from hi)]

/-- C65 fails: also with a length greater than that of the content.  (With `2 ^ 64 - 1`, whatever the capacity of the buffer is.) -/
theorem C65_length_panics (B : BlockCipher) (fetch : Bytes → Option Wire) (ckid : Bytes) (hc : ckid.length = 8) (key : Wire) (hf : fetch ckid = some key)
    (hk : key.flatten.length = 32) (l : Nat) (h0 : 0 < l) (hl : l < 2 ^ 64) :
    ∃ w, ∀ fuel, w.length < fuel → decrypt B fetch fuel w = some .panic := by
  refine ⟨encBytes ckid (List.replicate 16 0) l [], fun fuel hfu => ?_⟩
  rw [decrypt_enc B fetch ckid _ l [] hl (by simp; omega) fuel hfu]
  unfold decryptValue
  rw [show (encKeyId (mkEnc (some ckid) (some (List.replicate 16 0)) l (some [[]]))).getD [] = ckid from rfl, hf]
  dsimp only
  rw [hk, show (encIv (mkEnc (some ckid) (some (List.replicate 16 0)) l (some [[]]))).getD [] = List.replicate 16 0 from rfl, 
    show ((encText (mkEnc (some ckid) (some (List.replicate 16 0)) l (some [[]]))).getD []).flatten = [] from rfl,
    show encLen (mkEnc (some ckid) (some (List.replicate 16 0)) l (some [[]])) = l from rfl, if_neg (by decide), if_neg (by decide), if_neg (by decide)]
  dsimp only
  rw [if_pos (show (cbcDec (B.dec key.flatten) (([] : Bytes).length / blockSize) (List.replicate 16 0) []).length < l from h0)]

/-- C65: with an initialisation vector of 16 bytes and a length within the content, `Decrypt` does not crash, and what it gives has this length. -/
theorem C65_safe_partial (B : BlockCipher) (hB : ∀ k b : Bytes, b.length = 16 → (B.dec k b).length = 16) (fetch : Bytes → Option Wire) (v : encryptedContent.V)
    (iv : Bytes) (hv : encIv v = some iv) (hi : iv.length = 16) (hl : encLen v ≤ ((encText v).getD []).flatten.length) :
    ∃ o, (decryptValue B fetch v).1 = .ok o ∧ ∀ b, o = some b → b.length = encLen v := by
  have hlen : ∀ (D : Bytes → Bytes) (hD : ∀ b : Bytes, b.length = 16 → (D b).length = 16) (n : Nat) (iv b : Bytes), iv.length = 16 → b.length = n * 16 →
      (cbcDec D n iv b).length = n * 16 := by
    intro D hD n
    induction n with
    | zero => intros; rfl
    | succ n ih =>
      intro iv b h1 h2
      have ht : (b.take blockSize).length = 16 := by simp [blockSize]; omega
      rw [cbcDec, List.length_append, ih _ _ ht (by simp [blockSize]; omega), xorBytes_length _ _ (by rw [hD _ ht, h1]), hD _ ht]
      omega
  unfold decryptValue
  rw [hv]
  cases fetch ((encKeyId v).getD []) with
  | none => exact ⟨none, rfl, fun b hb => (nomatch hb)⟩
  | some key =>
    dsimp only [Option.getD_some]
    split
    · exact ⟨none, rfl, fun b hb => (nomatch hb)⟩
    · rw [if_neg (by rw [hi]; decide)]
      split
      · exact ⟨none, rfl, fun b hb => (nomatch hb)⟩
      · rename_i hm
        have hm : ((encText v).getD []).flatten.length % 16 = 0 := by simpa [blockSize] using hm
        have h := hlen (B.dec key.flatten) (fun b => hB _ b) (((encText v).getD []).flatten.length / 16) iv ((encText v).getD []).flatten hi (by omega)
        rw [show blockSize = 16 from rfl]
        dsimp only
        rw [if_neg (by omega)]
        refine ⟨_, rfl, fun b hb => ?_⟩
        injection hb with hb
        rw [← hb, List.length_take, h]
        omega

/-- C65: which keys work.  For a packet of whole blocks with an initialisation vector of 16 bytes and a length within the content, `Decrypt` gives something exactly
if there is a key and it has 16, 24 or 32 bytes. -/
theorem C65_keys (B : BlockCipher) (hB : ∀ k b : Bytes, b.length = 16 → (B.dec k b).length = 16) (fetch : Bytes → Option Wire) (v : encryptedContent.V)
    (iv : Bytes) (hv : encIv v = some iv) (hi : iv.length = 16) (hl : encLen v ≤ ((encText v).getD []).flatten.length)
    (hm : ((encText v).getD []).flatten.length % 16 = 0) :
    (∃ b, (decryptValue B fetch v).1 = .ok (some b)) ↔
      ∃ key, fetch ((encKeyId v).getD []) = some key ∧ (key.flatten.length = 16 ∨ key.flatten.length = 24 ∨ key.flatten.length = 32) := by
  obtain ⟨o, ho, _⟩ := C65_safe_partial B hB fetch v iv hv hi hl
  rw [ho]
  unfold decryptValue at ho
  rw [hv] at ho
  cases hk : fetch ((encKeyId v).getD []) with
  | none =>
    rw [hk] at ho
    cases ho
    simp
  | some key =>
    rw [hk] at ho
    dsimp only [Option.getD_some] at ho
    by_cases ha : key.flatten.length = 16 ∨ key.flatten.length = 24 ∨ key.flatten.length = 32
    · have : aesKeyLen key.flatten.length = true := by
        rcases ha with ha | ha | ha <;> rw [ha] <;> rfl
      rw [this, if_neg (by decide), if_neg (by rw [hi]; decide), if_neg (by rw [show blockSize = 16 from rfl, hm]; decide)] at ho
      constructor
      · intro _; exact ⟨key, rfl, ha⟩
      · intro _
        dsimp only at ho
        split at ho
        · cases ho
        · injection ho with ho
          exact ⟨_, by rw [← ho]⟩
    · have : aesKeyLen key.flatten.length = false := by
        unfold aesKeyLen
        simp only [Bool.or_eq_false_iff, beq_eq_false_iff_ne]
        omega
      rw [this, if_pos (by decide)] at ho
      cases ho
      constructor
      · rintro ⟨b, hb⟩; cases hb
      · rintro ⟨key', h1, h2⟩
        injection h1 with h1
        exact absurd (h1 ▸ h2) ha

/-- two blocks and a key of 24 bytes -/
example : (decryptValue ⟨fun _ b => b, fun _ b => b⟩ (fun _ => some [List.replicate 24 0]) (mkEnc none (some (List.replicate 16 1)) 20 (some [List.replicate 32 1]))).1 =
    .ok (some (List.replicate 20 0)) := by decide

/-- C65 fails: `Decrypt` decrypts the received packet in place, so a packet that is decrypted again gives something else. -/
theorem C65_again_violated : ∃ (B : BlockCipher) (ckid keybits iv content other : Bytes) (v : encryptedContent.V) (w : Bytes), B.Correct ∧
    encrypt B ckid keybits iv [content] = .ok (some w) ∧ encryptedContent.encode v = .ok w ∧
    (decryptValue B (fun _ => some [keybits]) v).1 = .ok (some content) ∧
    (decryptValue B (fun _ => some [keybits]) (decryptValue B (fun _ => some [keybits]) v).2).1 = .ok (some other) ∧ other ≠ content := by
  refine ⟨⟨fun _ b => b, fun _ b => b⟩, List.replicate 8 0, List.replicate 32 0, List.replicate 16 1, List.replicate 16 0, List.replicate 16 1,
    mkEnc (some (List.replicate 8 0)) (some (List.replicate 16 1)) 16 (some [List.replicate 16 1]),
    encBytes (List.replicate 8 0) (List.replicate 16 1) 16 (List.replicate 16 1), fun k b h => ⟨h, rfl⟩, ?_, ?_, by decide, by decide, by decide⟩
  · unfold encrypt
    rw [if_neg (by decide)]
    dsimp only
    rw [Codec.Fields.encode_eq _ _ (Codec.Fields.WF.widths _ encryptedContent_wf)]
    rfl
  · rw [Codec.Fields.encode_eq _ _ (Codec.Fields.WF.widths _ encryptedContent_wf)]
    rfl

end Ndn.Schema
