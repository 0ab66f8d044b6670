import Verif.Security.Pib
import Verif.Security.SignersProps
import Verif.Enc.NameProps
import Verif.Enc.TextLemmas
import Verif.Packet.MakeProps

namespace Ndn.Security

open Ndn Ndn.Packet Ndn.Codec

/-! ## Specification -/

/-- the TLV of a name, as other programs write it into the database -/
def nameTlv (n : Name) : Bytes := tlEnc 7 ++ tlEnc (n.flatMap Component.tlv).length ++ n.flatMap Component.tlv

/-- names whose lengths are below 253, the others are not encoded as they should be (C10) -/
def Short (n : Name) : Prop := (∀ c ∈ n, c.typ < 2 ^ 64) ∧ n.Small

/-- a database in which everything belongs together: numbers and names of rows are unique in a table, and a key is named after its identity and a certificate
after its key (the identity, `KEY` and an identifier; the key, an issuer and a version) -/
structure Consistent (db : Db) : Prop where
  identId : ∀ a ∈ db.idents, ∀ b ∈ db.idents, a.id = b.id → a = b
  identName : ∀ a ∈ db.idents, ∀ b ∈ db.idents, a.name = b.name → a = b
  keyId : ∀ a ∈ db.keys, ∀ b ∈ db.keys, a.id = b.id → a = b
  keyName : ∀ a ∈ db.keys, ∀ b ∈ db.keys, a.name = b.name → a = b
  certId : ∀ a ∈ db.certs, ∀ b ∈ db.certs, a.id = b.id → a = b
  certName : ∀ a ∈ db.certs, ∀ b ∈ db.certs, a.name = b.name → a = b
  ident : ∀ i ∈ db.idents, ∃ n, Short n ∧ i.name = nameTlv n
  key : ∀ k ∈ db.keys, ∃ i ∈ db.idents, i.id = k.identityId ∧ ∃ n a b, Short (n ++ [a, b]) ∧ i.name = nameTlv n ∧ k.name = nameTlv (n ++ [a, b])
  cert : ∀ c ∈ db.certs, ∃ k ∈ db.keys, k.id = c.keyId ∧ ∃ n a b, Short (n ++ [a, b]) ∧ k.name = nameTlv n ∧ c.name = nameTlv (n ++ [a, b])

/-- a row holds a Data, with a key locator -/
def Holds (r : CertRow) (loc : Option Name) : Prop :=
  ∃ d cov, readData (r.data.length + 1) (BR.new r.data) = some (.ok (.ok (d, cov))) ∧ keyNameOf d.sigInfo = loc

/-- no row makes the parser crash (C26) -/
def Calm' (db : Db) : Prop := ∀ r ∈ db.certs, ∃ x, readData (r.data.length + 1) (BR.new r.data) = some (.ok x)

/-! ## Names -/

theorem enc_tlv {c : Component} (h : c.val.length ≤ 252) : c.enc = c.tlv := by
  unfold Component.enc Component.tlv
  rw [natEnc_eq_tlEnc h]

theorem encBody_flatMap (n : Name) : Name.encBody n = n.flatMap Component.enc := by
  induction n with
  | nil => rfl
  | cons c n ih => simp [Name.encBody, ih]

theorem flatMap_tlv {n : Name} (h : ∀ c ∈ n, c.val.length ≤ 252) : n.flatMap Component.enc = n.flatMap Component.tlv := by
  induction n with
  | nil => rfl
  | cons c n ih =>
    rw [List.flatMap_cons, List.flatMap_cons, enc_tlv (h c (List.mem_cons_self ..)), ih fun x hx => h x (List.mem_cons_of_mem _ hx)]

theorem bytes_tlv {n : Name} (h : Short n) : n.bytes = nameTlv n := by
  unfold Name.bytes nameTlv
  have h1 : Name.encBody n = n.flatMap Component.tlv := by rw [encBody_flatMap, flatMap_tlv h.2.1]
  have h2 : Name.encLen n = (n.flatMap Component.tlv).length := by rw [Name.encLen_eq, h1]
  rw [h1, ← h2, natEnc_eq_tlEnc h.2.2]

theorem short_length {n : Name} (h : Short n) : n.bytes.length < 2 ^ 62 := by
  have h1 := h.2.2
  unfold Name.bytes
  rw [List.length_append, List.length_append, natEnc_length, ← Name.encLen_eq, natLen_eq_tlLen h1]
  have : tlLen (Name.encLen n) = 1 := by unfold tlLen; rw [if_pos h1]
  have h7 : (tlEnc 7).length = 1 := rfl
  omega

theorem column {n : Name} (h : Short n) : columnName (nameTlv n) = some (.ok n) := by
  rw [← bytes_tlv h]
  exact (C10_name_roundtrip_partial n h.1 (short_length h) _ (Nat.lt_succ_self _)).mpr h.2

theorem nameTlv_inj {n m : Name} (hn : Short n) (hm : Short m) (h : nameTlv n = nameTlv m) : n = m := by
  have := column hn
  rw [h, column hm] at this
  injection this with this
  injection this with this
  exact this.symm

theorem short_prefix {n : Name} {m : Name} (h : Short (n ++ m)) : Short n := by
  refine ⟨fun c hc => h.1 c (List.mem_append_left _ hc), fun c hc => h.2.1 c (List.mem_append_left _ hc), ?_⟩
  have := h.2.2
  rw [Name.encLen_eq] at this ⊢
  rw [encBody_flatMap] at this ⊢
  rw [List.flatMap_append, List.length_append] at this
  omega

/-! ## Rows by name -/

theorem first_by {α : Type} {l : List α} {p : α → Bool} {a : α} (ha : a ∈ l) (hp : p a = true) (hu : ∀ b ∈ l, p b = true → b = a) :
    ∃ rest, l.filter p = a :: rest := by
  have hm : a ∈ l.filter p := List.mem_filter.mpr ⟨ha, hp⟩
  cases hf : l.filter p with
  | nil => rw [hf] at hm; cases hm
  | cons b rest =>
    have hb : b ∈ l.filter p := by rw [hf]; exact List.mem_cons_self ..
    obtain ⟨h1, h2⟩ := List.mem_filter.mp hb
    exact ⟨rest, by rw [hu b h1 h2]⟩

/-- C83: an identity that is in the database is found by its name, and what is found is in the database -/
theorem C83_identity_partial {db : Db} (hdb : Consistent db) {n : Name} (hn : Short n) (i : Ident) :
    db.getIdentity n = some i ↔ ∃ r ∈ db.idents, r.name = nameTlv n ∧ i = ⟨r.id, n, r.dflt⟩ := by
  unfold Db.getIdentity
  rw [bytes_tlv hn]
  constructor
  · intro h
    split at h
    · cases h
    · rename_i r rest hf
      injection h with h
      have hr : r ∈ db.idents.filter (fun r => r.name == nameTlv n) := by rw [hf]; exact List.mem_cons_self ..
      obtain ⟨h1, h2⟩ := List.mem_filter.mp hr
      exact ⟨r, h1, by simpa using h2, h.symm⟩
  · rintro ⟨r, hr, hname, rfl⟩
    obtain ⟨rest, hf⟩ := first_by (p := fun r => r.name == nameTlv n) hr (by simpa using hname)
      (fun b hb hp => hdb.identName b hb r hr (by rw [hname]; simpa using hp))
    rw [hf]

/-- C83: a key that is in the database is found by its name, with its bits, and what is found is in the database -/
theorem C83_key_partial {db : Db} (hdb : Consistent db) {n : Name} (hn : Short n) (k : Key) :
    db.getKey n = some k ↔ ∃ r ∈ db.keys, r.name = nameTlv n ∧ k = ⟨r.id, n, r.bits, r.dflt⟩ := by
  unfold Db.getKey
  rw [bytes_tlv hn]
  constructor
  · intro h
    split at h
    · cases h
    · rename_i r rest hf
      injection h with h
      have hr : r ∈ db.keys.filter (fun r => r.name == nameTlv n) := by rw [hf]; exact List.mem_cons_self ..
      obtain ⟨h1, h2⟩ := List.mem_filter.mp hr
      exact ⟨r, h1, by simpa using h2, h.symm⟩
  · rintro ⟨r, hr, hname, rfl⟩
    obtain ⟨rest, hf⟩ := first_by (p := fun r => r.name == nameTlv n) hr (by simpa using hname)
      (fun b hb hp => hdb.keyName b hb r hr (by rw [hname]; simpa using hp))
    rw [hf]

theorem certOf_ok {r : CertRow} {n : Name} {c : Cert} : certOf r n = .ok (some c) ↔ ∃ loc, Holds r loc ∧ c = ⟨r.id, n, r.data, r.dflt, loc⟩ := by
  unfold certOf Holds
  constructor
  · intro h
    split at h
    · rename_i d cov hd
      injection h with h
      injection h with h
      exact ⟨_, ⟨d, cov, hd, rfl⟩, h.symm⟩
    · injection h with h; cases h
    · cases h
    · cases h
    · cases h
  · rintro ⟨loc, ⟨d, cov, hd, rfl⟩, rfl⟩
    rw [hd]

/-- C83: a certificate that is in the database is found by its name, with its bytes and the name of the key that signed it; what is found is in the database -/
theorem C83_cert_partial {db : Db} (hdb : Consistent db) {n : Name} (hn : Short n) (c : Cert) :
    db.getCert n = .ok (some c) ↔ ∃ r ∈ db.certs, r.name = nameTlv n ∧ ∃ loc, Holds r loc ∧ c = ⟨r.id, n, r.data, r.dflt, loc⟩ := by
  unfold Db.getCert
  rw [bytes_tlv hn]
  constructor
  · intro h
    split at h
    · injection h with h; cases h
    · rename_i r rest hf
      have hr : r ∈ db.certs.filter (fun r => r.name == nameTlv n) := by rw [hf]; exact List.mem_cons_self ..
      obtain ⟨h1, h2⟩ := List.mem_filter.mp hr
      exact ⟨r, h1, by simpa using h2, certOf_ok.mp h⟩
  · rintro ⟨r, hr, hname, hc⟩
    obtain ⟨rest, hf⟩ := first_by (p := fun r => r.name == nameTlv n) hr (by simpa using hname)
      (fun b hb hp => hdb.certName b hb r hr (by rw [hname]; simpa using hp))
    rw [hf]
    exact certOf_ok.mpr hc

theorem take_two (n : Name) (a b : Component) : (n ++ [a, b]).take ((n ++ [a, b]).length - 2) = n := by simp

/-- C83: the key of a certificate that is found is the one that the row of the certificate refers to -/
theorem C83_cert_key_partial {db : Db} (hdb : Consistent db) {n : Name} (hn : Short n) {c : Cert} (h : db.getCert n = .ok (some c)) :
    ∃ r ∈ db.certs, r.id = c.rowId ∧ ∃ k ∈ db.keys, k.id = r.keyId ∧ ∃ m, k.name = nameTlv m ∧ c.key db = some ⟨k.id, m, k.bits, k.dflt⟩ := by
  obtain ⟨r, hr, hname, loc, _, rfl⟩ := (C83_cert_partial hdb hn c).mp h
  refine ⟨r, hr, rfl, ?_⟩
  obtain ⟨k, hk, hid, m, a, b, hs, hkn, hrn⟩ := hdb.cert r hr
  have hnm : n = m ++ [a, b] := nameTlv_inj hn hs (hname.symm.trans hrn)
  refine ⟨k, hk, hid, m, hkn, ?_⟩
  subst hnm
  unfold Cert.key
  rw [if_neg (by simp), take_two]
  exact (C83_key_partial hdb (short_prefix hs) _).mpr ⟨k, hk, hkn, rfl⟩

/-- C83: the identity of a key that is found is the one that the row of the key refers to -/
theorem C83_key_identity_partial {db : Db} (hdb : Consistent db) {n : Name} (hn : Short n) {k : Key} (h : db.getKey n = some k) :
    ∃ r ∈ db.keys, r.id = k.rowId ∧ ∃ i ∈ db.idents, i.id = r.identityId ∧ ∃ m, i.name = nameTlv m ∧ k.identity db = some ⟨i.id, m, i.dflt⟩ := by
  obtain ⟨r, hr, hname, rfl⟩ := (C83_key_partial hdb hn k).mp h
  refine ⟨r, hr, rfl, ?_⟩
  obtain ⟨i, hi, hid, m, a, b, hs, hin, hrn⟩ := hdb.key r hr
  have hnm : n = m ++ [a, b] := nameTlv_inj hn hs (hname.symm.trans hrn)
  refine ⟨i, hi, hid, m, hin, ?_⟩
  subst hnm
  unfold Key.identity
  rw [if_neg (by simp), take_two]
  exact (C83_identity_partial hdb (short_prefix hs) _).mpr ⟨i, hi, hin, rfl⟩

/-! ## Searching -/

theorem certOf_total {r : CertRow} (hc : ∃ x, readData (r.data.length + 1) (BR.new r.data) = some (.ok x)) (n : Name) :
    (∃ loc, Holds r loc ∧ certOf r n = .ok (some ⟨r.id, n, r.data, r.dflt, loc⟩)) ∨ ((∀ loc, ¬ Holds r loc) ∧ certOf r n = .ok none) := by
  obtain ⟨x, hx⟩ := hc
  cases x with
  | ok p =>
    obtain ⟨d, cov⟩ := p
    have hh : Holds r (keyNameOf d.sigInfo) := ⟨d, cov, hx, rfl⟩
    exact .inl ⟨_, hh, certOf_ok.mpr ⟨_, hh, rfl⟩⟩
  | error e =>
    refine .inr ⟨?_, by unfold certOf; rw [hx]⟩
    rintro loc ⟨d, cov, hd, _⟩
    rw [hx] at hd
    simp at hd

/-- a certificate that a row stands for -/
def Stands (r : CertRow) (c : Cert) : Prop := ∃ n loc, Short n ∧ r.name = nameTlv n ∧ Holds r loc ∧ c = ⟨r.id, n, r.data, r.dflt, loc⟩

theorem loop_spec {check : Cert → Bool} : ∀ (rows : List CertRow), (∀ r ∈ rows, ∃ n, Short n ∧ r.name = nameTlv n) →
    (∀ r ∈ rows, ∃ x, readData (r.data.length + 1) (BR.new r.data) = some (.ok x)) →
    (∃ c, findCertLoop check rows = .ok (some c) ∧ check c = true ∧ ∃ r ∈ rows, Stands r c) ∨
    (findCertLoop check rows = .ok none ∧ ∀ r ∈ rows, ∀ c, Stands r c → check c = false) := by
  intro rows
  induction rows with
  | nil => intro _ _; exact .inr ⟨rfl, by simp⟩
  | cons r rs ih =>
    intro hn hc
    obtain ⟨n, hs, hname⟩ := hn r (List.mem_cons_self ..)
    have ih := ih (fun r h => hn r (List.mem_cons_of_mem _ h)) (fun r h => hc r (List.mem_cons_of_mem _ h))
    unfold findCertLoop
    rw [hname, column hs]
    dsimp only
    have huniq : ∀ c, Stands r c → ∃ loc, Holds r loc ∧ c = ⟨r.id, n, r.data, r.dflt, loc⟩ := by
      rintro c ⟨m, loc, hm, hm', hh, rfl⟩
      cases nameTlv_inj hm hs (hm'.symm.trans hname)
      exact ⟨loc, hh, rfl⟩
    rcases certOf_total (hc r (List.mem_cons_self ..)) n with ⟨loc, hh, he⟩ | ⟨hh, he⟩
    · rw [he]
      dsimp only
      cases hck : check ⟨r.id, n, r.data, r.dflt, loc⟩ with
      | true => exact .inl ⟨_, by rw [if_pos rfl], hck, r, List.mem_cons_self .., n, loc, hs, hname, hh, rfl⟩
      | false =>
        rw [if_neg (by simp)]
        rcases ih with ⟨c, h1, h2, r', h3, h4⟩ | ⟨h1, h2⟩
        · exact .inl ⟨c, h1, h2, r', List.mem_cons_of_mem _ h3, h4⟩
        · refine .inr ⟨h1, fun r' hr' c hst => ?_⟩
          rcases List.mem_cons.mp hr' with rfl | hr'
          · obtain ⟨loc', hh', rfl⟩ := huniq c hst
            have : loc' = loc := by
              obtain ⟨d, cov, hd, hl⟩ := hh
              obtain ⟨d', cov', hd', hl'⟩ := hh'
              rw [hd] at hd'
              simp at hd'
              rw [← hl, ← hl', hd'.1]
            subst this
            exact hck
          · exact h2 r' hr' c hst
    · rw [he]
      dsimp only
      rcases ih with ⟨c, h1, h2, r', h3, h4⟩ | ⟨h1, h2⟩
      · exact .inl ⟨c, h1, h2, r', List.mem_cons_of_mem _ h3, h4⟩
      · refine .inr ⟨h1, fun r' hr' c hst => ?_⟩
        rcases List.mem_cons.mp hr' with rfl | hr'
        · obtain ⟨loc', hh', rfl⟩ := huniq c hst
          exact absurd hh' (hh loc')
        · exact h2 r' hr' c hst

theorem cert_short {db : Db} (hdb : Consistent db) {r : CertRow} (hr : r ∈ db.certs) : ∃ n, Short n ∧ r.name = nameTlv n := by
  obtain ⟨_, _, _, n, a, b, hs, _, h⟩ := hdb.cert r hr
  exact ⟨_, hs, h⟩

/-- C83: `FindCert` of a key gives a certificate of this key that passes the check if there is one -/
theorem C83_find_partial {db : Db} (hdb : Consistent db) (hc : Calm' db) (k : Nat) (check : Cert → Bool) :
    (∃ c, db.findCert k check = .ok (some c) ∧ check c = true ∧ ∃ r ∈ db.certs, r.keyId = k ∧ Stands r c) ∨
    (db.findCert k check = .ok none ∧ ∀ r ∈ db.certs, r.keyId = k → ∀ c, Stands r c → check c = false) := by
  have hmem : ∀ r, r ∈ db.certs.filter (fun r => r.keyId == k) ↔ r ∈ db.certs ∧ r.keyId = k := fun r => by simp
  rcases loop_spec (check := check) (db.certs.filter (fun r => r.keyId == k)) (fun r hr => cert_short hdb ((hmem r).mp hr).1)
    (fun r hr => hc r ((hmem r).mp hr).1) with ⟨c, h1, h2, r, h3, h4⟩ | ⟨h1, h2⟩
  · exact .inl ⟨c, h1, h2, r, ((hmem r).mp h3).1, ((hmem r).mp h3).2, h4⟩
  · exact .inr ⟨h1, fun r hr hk => h2 r ((hmem r).mpr ⟨hr, hk⟩)⟩

/-- C83: `FindCert` of an identity gives a certificate of a key of this identity that passes the check if there is one -/
theorem C83_identity_find_partial {db : Db} (hdb : Consistent db) (hc : Calm' db) (i : Ident) (check : Cert → Bool) :
    (∃ c, db.identFindCert i check = .ok (some c) ∧ check c = true ∧
      ∃ k ∈ db.keys, k.identityId = i.rowId ∧ ∃ r ∈ db.certs, r.keyId = k.id ∧ Stands r c) ∨
    (db.identFindCert i check = .ok none ∧
      ∀ k ∈ db.keys, k.identityId = i.rowId → ∀ r ∈ db.certs, r.keyId = k.id → ∀ c, Stands r c → check c = false) := by
  have key : ∀ rows : List KeyRow, (∀ r ∈ rows, r ∈ db.keys) →
      (∃ c, identFindLoop db check rows = .ok (some c) ∧ check c = true ∧ ∃ k ∈ rows, ∃ r ∈ db.certs, r.keyId = k.id ∧ Stands r c) ∨
      (identFindLoop db check rows = .ok none ∧ ∀ k ∈ rows, ∀ r ∈ db.certs, r.keyId = k.id → ∀ c, Stands r c → check c = false) := by
    intro rows
    induction rows with
    | nil => intro _; exact .inr ⟨rfl, by simp⟩
    | cons k ks ih =>
      intro hk
      have ih := ih fun r h => hk r (List.mem_cons_of_mem _ h)
      obtain ⟨_, _, _, n, a, b, hs, _, hname⟩ := hdb.key k (hk k (List.mem_cons_self ..))
      unfold identFindLoop
      rw [hname, column hs]
      dsimp only
      rcases C83_find_partial hdb hc k.id check with ⟨c, h1, h2, r, h3, h4⟩ | ⟨h1, h2⟩
      · rw [h1]
        exact .inl ⟨c, rfl, h2, k, List.mem_cons_self .., r, h3, h4⟩
      · rw [h1]
        dsimp only
        rcases ih with ⟨c, g1, g2, k', g3, g4⟩ | ⟨g1, g2⟩
        · exact .inl ⟨c, g1, g2, k', List.mem_cons_of_mem _ g3, g4⟩
        · refine .inr ⟨g1, fun k' hk' r hr hrk c hst => ?_⟩
          rcases List.mem_cons.mp hk' with rfl | hk'
          · exact h2 r hr hrk c hst
          · exact g2 k' hk' r hr hrk c hst
  have hmem : ∀ r, r ∈ db.keys.filter (fun r => r.identityId == i.rowId) ↔ r ∈ db.keys ∧ r.identityId = i.rowId := fun r => by simp
  rcases key (db.keys.filter (fun r => r.identityId == i.rowId)) (fun r hr => ((hmem r).mp hr).1) with ⟨c, h1, h2, k, h3, h4⟩ | ⟨h1, h2⟩
  · exact .inl ⟨c, h1, h2, k, ((hmem k).mp h3).1, ((hmem k).mp h3).2, h4⟩
  · exact .inr ⟨h1, fun k hk hi => h2 k ((hmem k).mpr ⟨hk, hi⟩)⟩

/-! ## Signing -/

/-- the files are named by the hash of the name of the key, in hexadecimal: different hashes, different files -/
theorem C83_file_name (sha : Bytes → Bytes) (a b : Bytes) : toFileName sha a = toFileName sha b ↔ sha a = sha b := by
  constructor
  · intro h
    unfold toFileName at h
    have h := List.append_cancel_right h
    generalize sha a = x at h ⊢
    generalize sha b = y at h ⊢
    induction x generalizing y with
    | nil =>
      cases y with
      | nil => rfl
      | cons c y => simp [hex2] at h
    | cons c x ih =>
      cases y with
      | nil => simp [hex2] at h
      | cons d y =>
        simp only [List.flatMap_cons, hex2, List.cons_append, List.nil_append, List.cons.injEq] at h
        obtain ⟨h1, h2, h3⟩ := h
        have e1 := parseHex2_hex2 false c
        have e2 := parseHex2_hex2 false d
        rw [h1, h2, e2] at e1
        injection e1 with e1
        rw [e1, ih y h3]
  · intro h
    unfold toFileName
    rw [h]

/-- C83: the signer of a certificate uses the private key in the file of the key that the row of the certificate refers to, and names the certificate -/
theorem C83_signer_partial {E R : Scheme} {db : Db} (hdb : Consistent db) {n : Name} (hn : Short n) {c : Cert} (h : db.getCert n = .ok (some c))
    (t : Tpm E R) (rE : E.ρ) (rR : R.ρ) :
    ∃ r ∈ db.certs, r.id = c.rowId ∧ ∃ k ∈ db.keys, k.id = r.keyId ∧
      ∀ text block, t.files (toFileName t.sha k.name) = some text → t.base64 text = some block →
        (∀ sk est, t.ecKey block = some (sk, est) → getSignerForCert t rE rR c.name = some (eccSigner E t.sha sk rE est (some n) none none 0)) ∧
        (t.ecKey block = none → ∀ sk est, t.rsaKey block = some (sk, est) →
          getSignerForCert t rE rR c.name = some (rsaSigner R t.sha sk rR est (some n) none none 0)) := by
  obtain ⟨r, hr, hname, loc, _, rfl⟩ := (C83_cert_partial hdb hn c).mp h
  refine ⟨r, hr, rfl, ?_⟩
  obtain ⟨k, hk, hid, m, a, b, hs, hkn, hrn⟩ := hdb.cert r hr
  have hnm : n = m ++ [a, b] := nameTlv_inj hn hs (hname.symm.trans hrn)
  refine ⟨k, hk, hid, fun text block h1 h2 => ?_⟩
  subst hnm
  unfold getSignerForCert
  rw [if_neg (by simp), take_two]
  unfold Tpm.getSigner
  rw [bytes_tlv (short_prefix hs), ← hkn, h1]
  dsimp only
  rw [h2]
  dsimp only
  refine ⟨fun sk est h3 => by rw [h3], fun h3 sk est h4 => by rw [h3, h4]⟩

/-- C83, end to end: a Data that is signed with an elliptic-curve key through its certificate is read with a key locator by which the certificate is
found, and verifies under the public key of the private key in the file. -/
theorem C83_chain_partial {E R : Scheme} (hE : E.Correct) {db : Db} (hdb : Consistent db) {n : Name} (hn : Short n) {c : Cert}
    (h : db.getCert n = .ok (some c)) (t : Tpm E R) (rE : E.ρ) (rR : R.ρ) {k : KeyRow} (hk : k ∈ db.keys) {r : CertRow} (hr : r ∈ db.certs)
    (hrn : r.name = nameTlv n) (hkr : k.id = r.keyId) {text block : Bytes} (h1 : t.files (toFileName t.sha k.name) = some text)
    (h2 : t.base64 text = some block) {sk : E.SK} {est : Nat} (h3 : t.ecKey block = some (sk, est)) (h0 : 0 < est) (hfit : Fit E sk rE est)
    {name : Name} {config : DataConfig} {content : Option Wire} {e : Encoded}
    (hm : makeData (some name) (some config) content (getSignerForCert t rE rR c.name) = .ok e)
    (hname : ∀ c ∈ name, c.Small) (hct : ∀ t, config.contentType = some t → t < 2 ^ 64) (hfr : ∀ d, config.freshness = some d → WholeMs d)
    (hfb : ∀ c, config.finalBlock = some c → c.Small) (hl : e.wire.flatten.length < 2 ^ 43) (F : Nat) (hF : e.wire.flatten.length < F) :
    ∃ d cov, readData F (BR.new e.wire.flatten) = some (.ok (.ok (d, cov))) ∧ d.name = some name ∧
      (∃ loc, keyNameOf d.sigInfo = some loc ∧ db.getCert loc = .ok (some c)) ∧
      ecdsaValidate E t.sha cov (sigOf d.sigInfo d.sigValue) (E.pub sk) = true := by
  obtain ⟨r', hr', hid, k', hk', hkid, hsig⟩ := C83_signer_partial hdb hn h t rE rR
  have hrr : r' = r := by
    obtain ⟨r'', hr'', hn'', loc, _, rfl⟩ := (C83_cert_partial hdb hn c).mp h
    have e1 : r'' = r := hdb.certName r'' hr'' r hr (hn''.trans hrn.symm)
    subst e1
    exact hdb.certId r' hr' r'' hr'' hid
  subst hrr
  have hkk : k' = k := hdb.keyId k' hk' k hk (hkid.trans hkr.symm)
  subst hkk
  have hs := (hsig text block h1 h2).1 sk est h3
  rw [hs] at hm
  have hkey : ∀ x ∈ n, x.Small := fun x hx => ⟨hn.1 x hx, hn.2.1 x hx⟩
  obtain ⟨d, cov, g1, g2⟩ := C57_data_ecdsa_partial E hE t.sha sk rE est h0 hfit (some n) none 0 name config content e hm hname hct hfr hfb
    (fun m hm => by cases hm; exact hkey) hl F hF
  have hsc : signerConfig (some (eccSigner E t.sha sk rE est (some n) none none 0)) = some (eccSigInfo (some n) none none 0).1 :=
    by simp [signerConfig, eccSigner, eccSigInfo, sigEcdsa, signatureNone]
  obtain ⟨d', cov', f1, f2, _, _, _, _, _, f3⟩ := C27_data_round_trip_partial name config content _ e hm hname hct hfr hfb
    (by intro c' m e1 e2; rw [hsc] at e1; injection e1 with e1; subst e1; cases e2; exact hkey)
    (by intro c' e1; rw [hsc] at e1; injection e1 with e1; subst e1; exact (by decide : -2 ^ 63 ≤ sigEcdsa ∧ sigEcdsa < 2 ^ 63))
    (by intro sg sig e1 e2; injection e1 with e1; subst e1; exact fits hfit e2) hl F hF
  rw [g1] at f1
  simp only [Option.some.injEq, Res.ok.injEq, Except.ok.injEq, Prod.mk.injEq] at f1
  obtain ⟨rfl, rfl⟩ := f1
  exact ⟨d, cov, g1, f2, ⟨n, (f3 _ hsc).2.1, h⟩, g2⟩

/-! ## What goes wrong -/

theorem bytes_ne {n : Name} (h : ¬ n.Small) : n.bytes ≠ nameTlv n := by
  intro he
  have hlen := congrArg List.length he
  unfold Name.bytes nameTlv at hlen
  simp only [List.length_append, natEnc_length, tlEnc_length] at hlen
  rw [← Name.encLen_eq] at hlen
  have hge := tlv_length_ge n
  have hnl : natLen (Name.encLen n) ≤ tlLen (Name.encLen n) := by
    by_cases h : Name.encLen n ≤ 0xfc
    · rw [natLen_eq_tlLen h]; omega
    · exact Nat.le_of_lt (natLen_lt_tlLen (by omega))
  have hmono := tlLen_mono hge.1
  apply h
  constructor
  · intro c hc
    apply Classical.byContradiction
    intro hcl
    have := hge.2 ⟨c, hc, by omega⟩
    omega
  · apply Classical.byContradiction
    intro hcl
    have := natLen_lt_tlLen (x := Name.encLen n) (by omega)
    omega

/-- C83 fails: an identity (a key, a certificate) in the database whose name has 253 bytes or more, or a component of that length, is never found. -/
theorem C83_long_violated {n : Name} (h : ¬ n.Small) (i : IdentRow) (k : KeyRow) (c : CertRow) (hi : i.name = nameTlv n) (hk : k.name = nameTlv n)
    (hc : c.name = nameTlv n) : Db.getIdentity ⟨[i], [k], [c]⟩ n = none ∧ Db.getKey ⟨[i], [k], [c]⟩ n = none ∧ Db.getCert ⟨[i], [k], [c]⟩ n = .ok none := by
  have hne : (nameTlv n == n.bytes) = false := by
    have := bytes_ne h
    simpa using fun he => this he.symm
  simp [Db.getIdentity, Db.getKey, Db.getCert, hi, hk, hc, hne]

def nameA : Name := [⟨8, [65]⟩]
def nameB : Name := [⟨8, [66]⟩]
def keyA : Name := nameA ++ [⟨8, [75, 69, 89]⟩, ⟨8, [1]⟩]
def keyB : Name := nameB ++ [⟨8, [75, 69, 89]⟩, ⟨8, [2]⟩]
def certA : Name := keyA ++ [selfComp, ⟨54, [1]⟩]

/-- a Data named `/A` with a signature by `/B` -/
def valA : DataV := dataOf nameA {} none (some (mkSigInfo 3 (some nameB) none none none none))

def dataA : Bytes := valA.enc

theorem readA : ∃ cov, readData (dataA.length + 1) (BR.new dataA) = some (.ok (.ok (valA, cov))) := by
  have hl : dataA.length = 21 := by rfl
  obtain ⟨cov, h, _⟩ := read_made (v := valA) (F := dataA.length + 1)
    ⟨fun c hc => by cases List.mem_singleton.mp hc; exact (⟨by decide, by decide⟩ : Component.Small ⟨8, [65]⟩), ⟨trivial, trivial, trivial, trivial⟩, trivial,
      mkSigInfo_inRange (by decide) (fun n hn => by cases hn; intro c hc; cases List.mem_singleton.mp hc; exact ⟨by decide, by decide⟩) (fun n hn => (nomatch hn)) (fun n hn => (nomatch hn)), trivial⟩ rfl
    (by show dataA.length < _; rw [hl]; decide) (Nat.lt_succ_self _)
  exact ⟨cov, h⟩

/-- a database of two identities with a key each, and a certificate -/
def dbA : Db :=
  ⟨[⟨1, nameTlv nameA, true⟩, ⟨2, nameTlv nameB, false⟩], [⟨5, 1, nameTlv keyA, [9], true⟩, ⟨6, 2, nameTlv keyB, [8], false⟩],
    [⟨3, 5, nameTlv certA, dataA, true⟩]⟩

theorem dbA_consistent : Consistent dbA where
  identId := by decide
  identName := by decide
  keyId := by decide
  keyName := by decide
  certId := by decide
  certName := by decide
  ident := by
    intro i hi
    simp only [dbA, List.mem_cons, List.not_mem_nil, or_false] at hi
    rcases hi with rfl | rfl
    · exact ⟨nameA, ⟨by decide, by decide, by decide⟩, rfl⟩
    · exact ⟨nameB, ⟨by decide, by decide, by decide⟩, rfl⟩
  key := by
    intro k hk
    simp only [dbA, List.mem_cons, List.not_mem_nil, or_false] at hk
    rcases hk with rfl | rfl
    · exact ⟨_, List.mem_cons_self .., rfl, nameA, ⟨8, [75, 69, 89]⟩, ⟨8, [1]⟩, ⟨by decide, by decide, by decide⟩, rfl, rfl⟩
    · exact ⟨_, List.mem_cons_of_mem _ (List.mem_cons_self ..), rfl, nameB, ⟨8, [75, 69, 89]⟩, ⟨8, [2]⟩, ⟨by decide, by decide, by decide⟩, rfl, rfl⟩
  cert := by
    intro c hc
    simp only [dbA, List.mem_cons, List.not_mem_nil, or_false] at hc
    subst hc
    exact ⟨_, List.mem_cons_self .., rfl, keyA, selfComp, ⟨54, [1]⟩, ⟨by decide, by decide, by decide⟩, rfl, rfl⟩

/-- C83 fails: the certificate that is given out under a name, and as the self-signed certificate of a key, need not have this name nor be signed by this key:
only the column of the name is looked at. -/
theorem C83_self_violated :
    dbA.getCert certA = .ok (some ⟨3, certA, dataA, true, some nameB⟩) ∧
    (dbA.getKey keyA).map (fun k => k.selfSignedCert dbA) = some (.ok (some ⟨3, certA, dataA, true, some nameB⟩)) ∧
    ∃ d cov, readData (dataA.length + 1) (BR.new dataA) = some (.ok (.ok (d, cov))) ∧ d.name = some nameA := by
  obtain ⟨cov, hr⟩ := readA
  have hs : Short certA := ⟨by decide, by decide, by decide⟩
  have hh : Holds ⟨3, 5, nameTlv certA, dataA, true⟩ (some nameB) := ⟨valA, cov, hr, rfl⟩
  refine ⟨(C83_cert_partial dbA_consistent hs _).mpr ⟨_, List.mem_cons_self .., rfl, _, hh, rfl⟩, ?_, valA, cov, hr, rfl⟩
  rw [(C83_key_partial dbA_consistent (n := keyA) ⟨by decide, by decide, by decide⟩ _).mpr ⟨_, List.mem_cons_self .., rfl, rfl⟩]
  show some (findCertLoop isSelf [⟨3, 5, nameTlv certA, dataA, true⟩]) = _
  unfold findCertLoop
  rw [column hs]
  dsimp only
  rw [certOf_ok.mpr ⟨_, hh, rfl⟩]
  dsimp only
  rw [if_pos (by rfl)]

/-- C83 fails: an identity gives out the keys of the others -/
theorem C83_foreign_violated :
    (dbA.getIdentity nameA).bind (fun i => i.getKey dbA keyB) = some ⟨6, keyB, [8], false⟩ ∧
    (dbA.getKey keyB).bind (fun k => k.identity dbA) = some ⟨2, nameB, false⟩ := by
  decide +kernel

/-- the hypotheses of the theorems are met -/
example : Short certA ∧ Calm' dbA ∧ Holds ⟨3, 5, nameTlv certA, dataA, true⟩ (some nameB) ∧
    ((⟨3, certA, dataA, true, some nameB⟩ : Cert).key dbA) = some ⟨5, keyA, [9], true⟩ := by
  obtain ⟨cov, hr⟩ := readA
  refine ⟨⟨by decide, by decide, by decide⟩, ?_, ⟨valA, cov, hr, rfl⟩, by decide +kernel⟩
  intro r h
  simp only [dbA, List.mem_cons, List.not_mem_nil, or_false] at h
  subst h
  exact ⟨_, hr⟩

/-- a name that is not short -/
example : ¬ Name.Small [⟨8, List.replicate 253 0⟩] := fun h => absurd (h.1 _ (List.mem_cons_self ..)) (by rw [List.length_replicate]; decide)

end Ndn.Security
