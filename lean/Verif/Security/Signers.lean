import Verif.Packet.Make

/-!
# Model of the signers and validators, `/repo/pkg/security`

SHA-256 is an arbitrary function `sha`, HMAC an arbitrary function `mac` of the key and the message, and a public-key signature an arbitrary `Scheme`.
Writing buffers one after another into a hash is hashing their concatenation, and never fails.  `forCert` times are given as texts (see
`SigConfig`).  A signer is used by one goroutine.
-/

namespace Ndn.Security
open Ndn.Packet

/-- `ndn.SigType`, ndn.go:18-26 -/
def sigSha256 : Int := 0
def sigRsa : Int := 1
def sigEcdsa : Int := 3
def sigHmac : Int := 4

/-- a public-key signature over a digest: `SignASN1`/`SignPKCS1v15` (`none`: an error; `ρ` is what is read from `rand.Reader`), and the verification -/
structure Scheme where
  SK : Type
  PK : Type
  ρ : Type
  pub : SK → PK
  sign : SK → ρ → Bytes → Option Bytes
  verify : PK → Bytes → Bytes → Bool

/-- what a signature scheme promises -/
def Scheme.Correct (S : Scheme) : Prop := ∀ k r d s, S.sign k r d = some s → S.verify (S.pub k) d s = true

/-! ## Signers -/

/-- `sha256Signer.ComputeSigValue`, sha256-signer.go:25-34 -/
def sha256Compute (sha : Bytes → Bytes) (covered : Wire) : Option Bytes := some (sha covered.flatten)

/-- `sha256Signer`, sha256-signer.go:12-34 -/
def sha256Signer (sha : Bytes → Bytes) : Signer := ⟨some (some { typ := sigSha256 }), 32, sha256Compute sha⟩

/-- what the timer gives to an Interest signer: `Nonce()` and `Now()` -/
structure Tick where
  nonce : Bytes
  now : Int

/-- `sha256IntSigner.SigInfo`, sha256-signer.go:47-56: the configuration, and the new `seq` -/
def sha256IntSigInfo (seq : Nat) (t : Tick) : SigConfig × Nat :=
  let seq := (seq + 1) % 2 ^ 64
  ({ typ := sigSha256, nonce := some t.nonce, sigTime := some t.now, seqNum := some seq }, seq)

/-- `sha256IntSigner` with state `seq`, for one packet, sha256-signer.go:42-64 -/
def sha256IntSigner (sha : Bytes → Bytes) (seq : Nat) (t : Tick) : Signer := ⟨some (some (sha256IntSigInfo seq t).1), 32, sha256Compute sha⟩

/-- `hmacSigner.ComputeSigValue`, hmac-signer.go:41-50, and that of `hmacIntSigner`, hmac-signer.go:78-87 -/
def hmacCompute (mac : Bytes → Bytes → Bytes) (key : Bytes) (covered : Wire) : Option Bytes := some (mac key covered.flatten)

/-- `hmacSigner`, hmac-signer.go:14-50.  `cert`: the texts of the times when `forCert` is set. -/
def hmacSigner (mac : Bytes → Bytes → Bytes) (keyName : Option Name) (key : Bytes) (cert : Option (Bytes × Bytes)) : Signer :=
  ⟨some (some { typ := sigHmac, keyName := keyName, notBefore := cert.map (·.1), notAfter := cert.map (·.2) }), 32, hmacCompute mac key⟩

/-- `hmacIntSigner.SigInfo`, hmac-signer.go:64-72: the key itself is the key name; `seq` is not changed -/
def hmacIntSigInfo (key : Bytes) (seq : Nat) (t : Tick) : SigConfig × Nat :=
  ({ typ := sigHmac, keyName := some [⟨8, key⟩], nonce := some t.nonce, sigTime := some t.now, seqNum := some seq }, seq)

/-- `hmacIntSigner`, for one packet, hmac-signer.go:58-87 -/
def hmacIntSigner (mac : Bytes → Bytes → Bytes) (key : Bytes) (seq : Nat) (t : Tick) : Signer :=
  ⟨some (some (hmacIntSigInfo key seq t).1), 32, hmacCompute mac key⟩

/-- `eccSigner.SigInfo`, ecc-signer.go:28-44, and `rsaSigner.SigInfo`, rsa-signer.go:28-44, which is the same (with the type of ECDSA): the
configuration, and the new `seq`.  `forInt`: what the timer gives. -/
def eccSigInfo (keyName : Option Name) (cert : Option (Bytes × Bytes)) (forInt : Option Tick) (seq : Nat) : SigConfig × Nat :=
  match forInt with
  | none => ({ typ := sigEcdsa, keyName := keyName, notBefore := cert.map (·.1), notAfter := cert.map (·.2) }, seq)
  | some t =>
    let seq := (seq + 1) % 2 ^ 64
    ({ typ := sigEcdsa, keyName := keyName, notBefore := cert.map (·.1), notAfter := cert.map (·.2), nonce := some t.nonce, sigTime := some t.now,
       seqNum := some seq }, seq)

/-- `eccSigner.ComputeSigValue`, ecc-signer.go:50-60; `rsaSigner.ComputeSigValue`, rsa-signer.go:50-60 -/
def schemeCompute (S : Scheme) (sha : Bytes → Bytes) (k : S.SK) (r : S.ρ) (covered : Wire) : Option Bytes := S.sign k r (sha covered.flatten)

/-- `eccSigner`, for one packet, ecc-signer.go:16-60; `rsaSigner`, rsa-signer.go:16-60.  `est` is `keyLen`. -/
def eccSigner (S : Scheme) (sha : Bytes → Bytes) (k : S.SK) (r : S.ρ) (est : Nat) (keyName : Option Name) (cert : Option (Bytes × Bytes))
    (forInt : Option Tick) (seq : Nat) : Signer :=
  ⟨some (some (eccSigInfo keyName cert forInt seq).1), est, schemeCompute S sha k r⟩

/-- `rsaSigner` -/
def rsaSigner (S : Scheme) (sha : Bytes → Bytes) (k : S.SK) (r : S.ρ) (est : Nat) (keyName : Option Name) (cert : Option (Bytes × Bytes))
    (forInt : Option Tick) (seq : Nat) : Signer :=
  ⟨some (some (eccSigInfo keyName cert forInt seq).1), est, schemeCompute S sha k r⟩

/-! ## Validators -/

/-- `ndn.Signature`: `SigType()` and `SigValue()` -/
structure Sig where
  typ : Int
  value : Bytes

/-- the `Signature()` of a Data, spec.go:31-37, 87-93, or of an Interest, spec.go:137-143, 181-183 -/
def sigOf (si : Option Codec.Schema.signatureInfo.V) (sv : Option Wire) : Sig := ⟨sigTypeOf si, (sv.getD []).flatten⟩

/-- `Sha256Validate`, known-key-validator.go:16-28 -/
def sha256Validate (sha : Bytes → Bytes) (covered : Wire) (sig : Sig) : Bool :=
  if sig.typ ≠ sigSha256 then false else sha covered.flatten == sig.value

/-- `CheckHmacSig`, hmac-signer.go:94-103 -/
def checkHmacSig (mac : Bytes → Bytes → Bytes) (covered : Wire) (value key : Bytes) : Bool := mac key covered.flatten == value

/-- `HmacValidate`, known-key-validator.go:31-36 -/
def hmacValidate (mac : Bytes → Bytes → Bytes) (covered : Wire) (sig : Sig) (key : Bytes) : Bool :=
  if sig.typ ≠ sigHmac then false else checkHmacSig mac covered sig.value key

/-- `EcdsaValidate`, known-key-validator.go:40-53 -/
def ecdsaValidate (S : Scheme) (sha : Bytes → Bytes) (covered : Wire) (sig : Sig) (pk : S.PK) : Bool :=
  if sig.typ ≠ sigEcdsa then false else S.verify pk (sha covered.flatten) sig.value

/-- `RsaValidate`, known-key-validator.go:57-70 -/
def rsaValidate (S : Scheme) (sha : Bytes → Bytes) (covered : Wire) (sig : Sig) (pk : S.PK) : Bool :=
  if sig.typ ≠ sigRsa then false else S.verify pk (sha covered.flatten) sig.value

/-! ## The numbers of an Interest signer over its lifetime -/

/-- the configurations made by calls of `SigInfo` one after another, first first -/
def sigInfos (info : Nat → Tick → SigConfig × Nat) : Nat → List Tick → List SigConfig
  | _, [] => []
  | seq, t :: ts => (info seq t).1 :: sigInfos info (info seq t).2 ts

end Ndn.Security
