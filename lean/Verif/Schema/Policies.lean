import Verif.Schema.Express
import Verif.Security.Signers

/-!
# Model of the signer policies, `/repo/pkg/schema/basic_policies.go`

What the policies answer to `OnValidateData` and `OnValidateInt`.  SHA-256 and HMAC are arbitrary functions.  `Apply` adds one new callback for
each application of a policy, so that callbacks of different applications differ.
-/

namespace Ndn.Schema
open Ndn.Packet Ndn.Security

/-- `SigCovered` and `Signature` of an `Event`, event.go:13-49; `none` is nil -/
structure VEvent where
  covered : Option Wire
  sig : Option Sig

/-- the event for a Data, expressing_point.go:279-292; `args.Data.Signature()` is never nil -/
def VEvent.ofData (d : DataV) (cov : Wire) : VEvent := ⟨if cov = [] then none else some cov, some (sigOf d.sigInfo d.sigValue)⟩

/-- the event for an Interest, expressing_point.go:83-97 -/
def VEvent.ofInterest (i : InterestV) (cov : Wire) : VEvent := ⟨if cov = [] then none else some cov, some (sigOf i.sigInfo i.sigValue)⟩

/-- `VrFail`, `VrSilence` and `VrPass`, interface.go:100-109 -/
def vrFail : Int := -2
def vrSilence : Int := 0
def vrPass : Int := 1

/-- `Sha256SignerPolicy.onValidateData`, basic_policies.go:67-79 -/
def sha256OnValidate (sha : Bytes → Bytes) (e : VEvent) : Int :=
  match e.covered, e.sig with
  | some cov, some sig => if sig.typ ≠ sigSha256 then vrSilence else if sig.value = sha cov.flatten then vrPass else vrFail
  | _, _ => vrSilence

/-- `FixedHmacSignerPolicy.onValidateData`, basic_policies.go:213-224, and `FixedHmacIntSignerPolicy.onValidateInt`, basic_policies.go:262-273 -/
def hmacOnValidate (mac : Bytes → Bytes → Bytes) (key : Bytes) (e : VEvent) : Int :=
  match e.covered, e.sig with
  | some cov, some sig => if sig.typ ≠ sigHmac then vrSilence else if checkHmacSig mac cov sig.value key then vrPass else vrFail
  | _, _ => vrSilence

/-- the policies with a validator -/
inductive SignerPolicy where
  | sha256
  | hmac (key : Bytes)

/-- the answer of a policy -/
def SignerPolicy.answer (sha : Bytes → Bytes) (mac : Bytes → Bytes → Bytes) (e : VEvent) : SignerPolicy → Int
  | .sha256 => sha256OnValidate sha e
  | .hmac key => hmacOnValidate mac key e

/-- basic_policies.go:228, 282: the key is missing -/
def SignerPolicy.noKey : SignerPolicy → Bool
  | .sha256 => false
  | .hmac key => key.isEmpty

/-- `Apply`, basic_policies.go:81-94, 226-243, 280-299: the validators of a node to which these policies were applied, in this order.  The key of an
HMAC policy must not be empty. -/
def applyPolicies (sha : Bytes → Bytes) (mac : Bytes → Bytes → Bytes) (ps : List SignerPolicy) (e : VEvent) : Res (Listeners Unit VAns) :=
  if ps.any SignerPolicy.noKey then .panic
  else .ok ⟨List.range ps.length, fun c s => ((ps[c]?).map (SignerPolicy.answer sha mac e), s)⟩

/-- `onGetDataSigner`, basic_policies.go:63-65, 209-211: the signer a policy gives for a Data -/
def SignerPolicy.signer (sha : Bytes → Bytes) (mac : Bytes → Bytes → Bytes) (keyName : Option Name) (cert : Option (Bytes × Bytes)) :
    SignerPolicy → Signer
  | .sha256 => sha256Signer sha
  | .hmac key => hmacSigner mac keyName key cert

end Ndn.Schema
