import Verif.Packet.Make
import Verif.Security.Signers

/-!
# Model of the store of keys and certificates, `/repo/pkg/security/pib/sqlite-pib.go` and `tpm-file.go`

A database is the list of the rows of its tables, in the order in which a query without `ORDER BY` gives them, which may be any.  Queries do not fail and
every column has the type that `Scan` expects.  The files of private keys are a function from names of files to contents; `path.Join` is left out.  SHA-256,
base64 and the formats of private keys are parameters.
-/

namespace Ndn.Security

open Ndn Ndn.Packet Ndn.Codec

/-- a row of `identities`, sqlite-pib.go:48 -/
structure IdentRow where
  id : Nat
  name : Bytes
  dflt : Bool
  deriving DecidableEq

/-- a row of `keys`, sqlite-pib.go:69, 136 -/
structure KeyRow where
  id : Nat
  identityId : Nat
  name : Bytes
  bits : Bytes
  dflt : Bool
  deriving DecidableEq

/-- a row of `certificates`, sqlite-pib.go:91, 219 -/
structure CertRow where
  id : Nat
  keyId : Nat
  name : Bytes
  data : Bytes
  dflt : Bool
  deriving DecidableEq

structure Db where
  idents : List IdentRow := []
  keys : List KeyRow := []
  certs : List CertRow := []

/-- `SqliteIdent`, sqlite-pib.go:30-35 -/
structure Ident where
  rowId : Nat
  name : Name
  dflt : Bool
  deriving DecidableEq

/-- `SqliteKey`, sqlite-pib.go:22-28 -/
structure Key where
  rowId : Nat
  name : Name
  bits : Bytes
  dflt : Bool
  deriving DecidableEq

/-- `SqliteCert`, sqlite-pib.go:13-20; `locator = none`: a nil name -/
structure Cert where
  rowId : Nat
  name : Name
  bits : Bytes
  dflt : Bool
  locator : Option Name
  deriving DecidableEq

/-- `SqlitePib.GetIdentity`, sqlite-pib.go:46-65 -/
def Db.getIdentity (db : Db) (name : Name) : Option Ident :=
  match db.idents.filter (fun r => r.name == name.bytes) with
  | [] => none
  | r :: _ => some ⟨r.id, name, r.dflt⟩

/-- `SqlitePib.GetKey`, sqlite-pib.go:67-86 -/
def Db.getKey (db : Db) (name : Name) : Option Key :=
  match db.keys.filter (fun r => r.name == name.bytes) with
  | [] => none
  | r :: _ => some ⟨r.id, name, r.bits, r.dflt⟩

/-- `SqliteIdent.GetKey`, sqlite-pib.go:130-132 -/
def Ident.getKey (db : Db) (_i : Ident) (name : Name) : Option Key := db.getKey name

/-- the certificate of a row under a name, sqlite-pib.go:103-115, 232-243: nothing if it is not a Data (`Signature()` is never nil, spec.go:95-97) -/
def certOf (r : CertRow) (name : Name) : Res (Option Cert) :=
  match readData (r.data.length + 1) (BR.new r.data) with
  | some (.ok (.ok (d, _))) => .ok (some ⟨r.id, name, r.data, r.dflt, keyNameOf d.sigInfo⟩)
  | some (.ok (.error _)) => .ok none
  | some (.err e) => .err e
  | some .panic => .panic
  | none => .panic

/-- `SqlitePib.GetCert`, sqlite-pib.go:88-116 -/
def Db.getCert (db : Db) (name : Name) : Res (Option Cert) :=
  match db.certs.filter (fun r => r.name == name.bytes) with
  | [] => .ok none
  | r :: _ => certOf r name

/-- `SqliteKey.GetCert`, sqlite-pib.go:213-215 -/
def Key.getCert (db : Db) (_k : Key) (name : Name) : Res (Option Cert) := db.getCert name

/-- `NameFromBytes` of a column -/
def columnName (b : Bytes) : Option (Res Name) := nameFromBytes (b.length + 1) b

/-- the loop of sqlite-pib.go:226-249 -/
def findCertLoop (check : Cert → Bool) : List CertRow → Res (Option Cert)
  | [] => .ok none
  | r :: rs =>
    match columnName r.name with
    | some (.ok name) =>
      match certOf r name with
      | .ok (some c) => if check c then .ok (some c) else findCertLoop check rs
      | .ok none => findCertLoop check rs
      | .err e => .err e
      | .panic => .panic
    | some (.err _) => findCertLoop check rs
    | some .panic => .panic
    | none => .panic

/-- `SqliteKey.FindCert`, sqlite-pib.go:217-250, of the key with a row number -/
def Db.findCert (db : Db) (rowId : Nat) (check : Cert → Bool) : Res (Option Cert) := findCertLoop check (db.certs.filter (fun r => r.keyId == rowId))

/-- the loop of sqlite-pib.go:143-161 -/
def identFindLoop (db : Db) (check : Cert → Bool) : List KeyRow → Res (Option Cert)
  | [] => .ok none
  | r :: rs =>
    match columnName r.name with
    | some (.ok _) =>
      match db.findCert r.id check with
      | .ok (some c) => .ok (some c)
      | .ok none => identFindLoop db check rs
      | .err e => .err e
      | .panic => .panic
    | some (.err _) => identFindLoop db check rs
    | some .panic => .panic
    | none => .panic

/-- `SqliteIdent.FindCert`, sqlite-pib.go:134-163 -/
def Db.identFindCert (db : Db) (i : Ident) (check : Cert → Bool) : Res (Option Cert) :=
  identFindLoop db check (db.keys.filter (fun r => r.identityId == i.rowId))

/-- `SqliteCert.Key`, sqlite-pib.go:173-179 -/
def Cert.key (db : Db) (c : Cert) : Option Key := if c.name.length < 2 then none else db.getKey (c.name.take (c.name.length - 2))

/-- `SqliteKey.Identity`, sqlite-pib.go:193-199 -/
def Key.identity (db : Db) (k : Key) : Option Ident := if k.name.length < 2 then none else db.getIdentity (k.name.take (k.name.length - 2))

/-- the name component `self` -/
def selfComp : Component := ⟨8, [115, 101, 108, 102]⟩

/-- the check of sqlite-pib.go:206-210 -/
def isSelf (c : Cert) : Bool :=
  c.name.length > 2 && match c.name[c.name.length - 2]? with
    | some x => x.equal selfComp
    | none => false

/-- `SqliteKey.SelfSignedCert`, sqlite-pib.go:205-211 -/
def Key.selfSignedCert (db : Db) (k : Key) : Res (Option Cert) := db.findCert k.rowId isSelf

/-! ## Private keys -/

/-- `FileTpm`, tpm-file.go:17-19, with what it uses: SHA-256, `base64.StdEncoding.Decode`, `x509.ParseECPrivateKey` and `ParsePKCS1PrivateKey` with the
space for signatures that `NewEccSigner` (ecc-signer.go:63-79) and `NewRsaSigner` (rsa-signer.go:63-78) reckon with -/
structure Tpm (E R : Scheme) where
  files : Bytes → Option Bytes
  sha : Bytes → Bytes
  base64 : Bytes → Option Bytes
  ecKey : Bytes → Option (E.SK × Nat)
  rsaKey : Bytes → Option (R.SK × Nat)

/-- `FileTpm.ToFileName`, tpm-file.go:21-25: hexadecimal, and `.privkey` -/
def toFileName (sha : Bytes → Bytes) (keyName : Bytes) : Bytes := (sha keyName).flatMap (hex2 false) ++ [46, 112, 114, 105, 118, 107, 101, 121]

/-- `FileTpm.GetSigner`, tpm-file.go:27-63; the signer is for one packet, with the randomness given -/
def Tpm.getSigner {E R : Scheme} (t : Tpm E R) (rE : E.ρ) (rR : R.ρ) (keyName locator : Name) : Option Signer :=
  match t.files (toFileName t.sha keyName.bytes) with
  | none => none
  | some text =>
    match t.base64 text with
    | none => none
    | some block =>
      match t.ecKey block with
      | some (k, est) => some (eccSigner E t.sha k rE est (some locator) none none 0)
      | none =>
        match t.rsaKey block with
        | some (k, est) => some (rsaSigner R t.sha k rR est (some locator) none none 0)
        | none => none

/-- `FileTpm.KeyExist`, tpm-file.go:69-74 -/
def Tpm.keyExist {E R : Scheme} (t : Tpm E R) (keyName : Name) : Bool := (t.files (toFileName t.sha keyName.bytes)).isSome

/-- `SqlitePib.GetSignerForCert`, sqlite-pib.go:118-124, and `SqliteCert.AsSigner`, sqlite-pib.go:185-187 -/
def getSignerForCert {E R : Scheme} (t : Tpm E R) (rE : E.ρ) (rR : R.ρ) (certName : Name) : Option Signer :=
  if certName.length < 2 then none else t.getSigner rE rR (certName.take (certName.length - 2)) certName

end Ndn.Security
