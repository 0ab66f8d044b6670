import Verif.Codec.Schemas
import Verif.Schema.Policies
import Verif.Schema.Tree

/-!
# Model of the demonstration of keys, trust and encryption, `/repo/pkg/schema/demosec`

HMAC is an arbitrary function, AES an arbitrary family of block functions.  The encrypted content is parsed from one buffer.  `rand.Read` succeeds; what
it gives is a parameter.  A slice ends where its buffer ends (`inbuf[:n]` panics beyond its length).
-/

namespace Ndn.Schema
open Ndn.Packet Ndn.Security

/-! ## The key store, store.go -/

/-- `DemoHmacKey`, store.go:15-19 -/
structure HmacKey where
  name : Name
  bits : Bytes
  cert : Bytes
  deriving DecidableEq

/-- `DemoHmacKeyStore`, store.go:21-23 -/
abbrev KeyStore := List HmacKey

/-- `GetKey`, store.go:57-70 -/
def KeyStore.getKey (store : KeyStore) (name : Name) : Option HmacKey := List.find? (fun k => name.equal k.name) store

/-- `SaveKey`, store.go:73-80 -/
def KeyStore.saveKey (store : KeyStore) (k : HmacKey) : KeyStore := List.append store [k]

/-- `AddTrustAnchor`, store.go:26-37; the inner `none` is an error.  The type of the signature is not looked at. -/
def KeyStore.addTrustAnchor (mac : Bytes → Bytes → Bytes) (fuel : Nat) (store : KeyStore) (cert : Bytes) : Option (Res (Option KeyStore)) :=
  match readData fuel (BR.new cert) with
  | none => none
  | some .panic => some .panic
  | some (.err e) => some (.err e)
  | some (.ok (.error _)) => some (.ok none)
  | some (.ok (.ok (d, cov))) =>
    let bits := (d.content.getD []).flatten
    if checkHmacSig mac cov (sigOf d.sigInfo d.sigValue).value bits then some (.ok (some (store.saveKey ⟨d.name.getD [], bits, cert⟩)))
    else some (.ok none)

/-- `EnrollKey`, store.go:40-54; `none` is an error.  The signer is given the name of the new key, not that of the signing key (line 45). -/
def KeyStore.enrollKey (mac : Bytes → Bytes → Bytes) (store : KeyStore) (keyName : Name) (bits : Bytes) (signKeyName : Name) : Res (Option KeyStore) :=
  match store.getKey signKeyName with
  | none => .ok none
  | some k =>
    match makeData (some keyName) (some { contentType := some 2, freshness := some 3600000000000 }) (some [bits])
        (some (hmacSigner mac (some keyName) k.bits none)) with
    | .panic => .panic
    | .err _ => .ok none
    | .ok e => .ok (some (store.saveKey ⟨keyName, bits, e.wire.flatten⟩))

/-! ## The policy "signed by", policies.go -/

/-- `SignedByPolicy.Mapping`: the value of a tag, `none` if it is not a text -/
abbrev TagMapping := List (Bytes × Option Bytes)

/-- policies.go:100-105: the value of a tag for the name of the key.  `newV.(string)` panics if the value is not a text. -/
def convertTag (mapping : TagMapping) (k v : Bytes) : Res Bytes :=
  match List.find? (fun e => e.1 == k) mapping with
  | none => .ok v
  | some (_, none) => .panic
  | some (_, some v') => .ok v'

/-- policies.go:98-106: the tags for the name of the key -/
def convertTags (mapping : TagMapping) : Matching → Res Matching
  | [] => .ok []
  | (k, v) :: m => (convertTag mapping k v).bind fun v' => (convertTags mapping m).map ((k, v') :: ·)

/-- `SignedByPolicy.onGetDataSigner`, policies.go:110-123: `keyName` gives the name of the key for tags (`none`: `Apply` returns nil); `none` is nil -/
def signedBySigner (mac : Bytes → Bytes → Bytes) (mapping : TagMapping) (keyName : Matching → Option Name) (store : KeyStore) (target : Option Matching) :
    Res (Option Signer) :=
  match target with
  | none => .panic
  | some m => (convertTags mapping m).map fun m' =>
    (keyName m').bind fun n => (store.getKey n).map fun k => hmacSigner mac (some n) k.bits none

/-- `SignedByPolicy.onValidateData`, policies.go:125-145.  `target` is the matching of `event.Target` (`none`: nil), `keyName` gives the name of the key for
tags (`none`: `Apply` returns nil), `fetch` the content of the Data of this name (`none`: no Data). -/
def signedByOnValidate (mac : Bytes → Bytes → Bytes) (mapping : TagMapping) (keyName : Matching → Option Name) (fetch : Name → Option Wire)
    (target : Option Matching) (e : VEvent) : Res Int :=
  match target with
  | none => .panic
  | some m =>
    match e.covered, e.sig with
    | some cov, some sig =>
      if sig.typ ≠ sigHmac then .ok vrSilence
      else (convertTags mapping m).bind fun m' =>
        match keyName m' with
        | none => .panic
        | some n =>
          match fetch n with
          | none => .ok vrFail
          | some key => .ok (if checkHmacSig mac cov sig.value key.flatten then vrPass else vrFail)
    | _, _ => .ok vrSilence

/-- expressing_point.go:281-282 and policies.go:125-145: a Data with this name comes for the node matched as `n`; `Refine` may return nil -/
def signedByOnData (mac : Bytes → Bytes → Bytes) (mapping : TagMapping) (t : STree) (keyNode : Addr) (pre : Name) (fetch : Name → Option Wire) (n : Matched)
    (name : Name) (e : VEvent) : Res Int :=
  signedByOnValidate mac mapping (fun m => (apply pre t keyNode m).getD none) fetch ((refine t n name).map (·.matching)) e

/-! ## Encryption, encryption.go -/

/-- a block cipher: encryption and decryption of a block with a key -/
structure BlockCipher where
  enc : Bytes → Bytes → Bytes
  dec : Bytes → Bytes → Bytes

/-- `aes.BlockSize` -/
def blockSize : Nat := 16

/-- bytewise exclusive or -/
def xorBytes (a b : Bytes) : Bytes := List.zipWith (· ^^^ ·) a b

/-- `cipher.NewCBCEncrypter(...).CryptBlocks`: `n` blocks -/
def cbcEnc (E : Bytes → Bytes) : Nat → Bytes → Bytes → Bytes
  | 0, _, _ => []
  | n + 1, iv, b =>
    let c := E (xorBytes (b.take blockSize) iv)
    c ++ cbcEnc E n c (b.drop blockSize)

/-- `cipher.NewCBCDecrypter(...).CryptBlocks`: `n` blocks -/
def cbcDec (D : Bytes → Bytes) : Nat → Bytes → Bytes → Bytes
  | 0, _, _ => []
  | n + 1, iv, b => xorBytes (D (b.take blockSize)) iv ++ cbcDec D n (b.take blockSize) (b.drop blockSize)

/-- `EncryptedContent`, tlv.go:6-16 -/
def encryptedContent : Codec.Fields := .cons 0x82 .opt .bin <| .cons 0x84 .opt .bin <| .cons 0x86 .req .nat <| .cons 0x88 .opt .wire .nil

/-- an `EncryptedContent` with these fields -/
def mkEnc (keyId iv : Option Bytes) (l : Nat) (text : Option Wire) : encryptedContent.V := (keyId, iv, l, text, ())

/-- the fields of an `EncryptedContent` -/
def encKeyId (v : encryptedContent.V) : Option Bytes := v.1
def encIv (v : encryptedContent.V) : Option Bytes := v.2.1
def encLen (v : encryptedContent.V) : Nat := v.2.2.1
def encText (v : encryptedContent.V) : Option Wire := v.2.2.2.1

/-- `Encrypt`, encryption.go:71-104: `iv` is what `rand.Read` gives; `none` is nil -/
def encrypt (B : BlockCipher) (ckid keybits iv : Bytes) (content : Wire) : Res (Option Bytes) :=
  if ckid.length ≠ 8 ∨ keybits.length ≠ 32 then .ok none
  else
    let l := content.flatten.length
    let blkn := (l + blockSize - 1) / blockSize
    let inbuf := content.flatten ++ List.replicate (blkn * blockSize - l) 0
    (encryptedContent.encode (mkEnc (some ckid) (some iv) l (some [cbcEnc (B.enc keybits) blkn iv inbuf]))).map some

/-- the lengths of keys for which `aes.NewCipher` returns no error -/
def aesKeyLen (n : Nat) : Bool := n == 16 || n == 24 || n == 32

/-- `Decrypt` after parsing, encryption.go:116-142.  `fetch` gives the content of the Data of a key (`none`: no Data).  The inner `none` is nil.  The second
result is what the wire that was given holds afterwards: `CipherText` is a part of it, and if it is one buffer, `Join` does not copy it (types.go:18-19),
so line 141 decrypts it in place. -/
def decryptValue (B : BlockCipher) (fetch : Bytes → Option Wire) (v : encryptedContent.V) : Res (Option Bytes) × encryptedContent.V :=
  match fetch ((encKeyId v).getD []) with
  | none => (.ok none, v)
  | some key =>
    if !aesKeyLen key.flatten.length then (.ok none, v)
    else
      let iv := (encIv v).getD []
      let inbuf := ((encText v).getD []).flatten
      if iv.length ≠ blockSize then (.panic, v)
      else if inbuf.length % blockSize ≠ 0 then (.ok none, v)
      else
        let out := cbcDec (B.dec key.flatten) (inbuf.length / blockSize) iv inbuf
        (if out.length < encLen v then .panic else .ok (some (out.take (encLen v))),
          mkEnc (encKeyId v) (encIv v) (encLen v) ((encText v).map fun w => if w.length = 1 then [out] else w))

/-- `Decrypt`, encryption.go:106-143 -/
def decrypt (B : BlockCipher) (fetch : Bytes → Option Wire) (fuel : Nat) (encrypted : Bytes) : Option (Res (Option Bytes)) :=
  match encryptedContent.parse true fuel (BR.new encrypted) with
  | none => none
  | some (.panic, _) => some .panic
  | some (.err _, _) => some (.ok none)
  | some (.ok v, _) => some (decryptValue B fetch v).1

end Ndn.Schema
