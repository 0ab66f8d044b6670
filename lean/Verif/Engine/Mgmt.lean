import Verif.Packet.Make
import Verif.Codec.Schemas
import Verif.Codec.Dict
import Verif.Enc.Name
import Verif.Engine.Pit

/-!
# Management commands

`MgmtConfig.MakeCmd` (pkg/ndn/mgmt_2022/mgmt.go:19-40) and `Engine.ExecMgmtCmd`, `RegisterRoute`, `UnregisterRoute`
(pkg/engine/basic/default_engine.go:451-532).
-/

namespace Ndn.Engine
open Ndn.Codec Ndn.Codec.Schema Ndn.Packet

/-- the name of a command, mgmt.go:23-37 -/
def cmdName (isLocal : Bool) (mod cmd params : Bytes) : Name :=
  [⟨8, if isLocal then ascii ['l', 'o', 'c', 'a', 'l', 'h', 'o', 's', 't'] else ascii ['l', 'o', 'c', 'a', 'l', 'h', 'o', 'p']⟩,
   ⟨8, ascii ['n', 'f', 'd']⟩, ⟨8, mod⟩, ⟨8, cmd⟩, ⟨8, params⟩]

/-- `MakeCmd`, mgmt.go:19-40 -/
def makeCmd (sha : Bytes → Bytes) (isLocal : Bool) (signer : Signer) (mod cmd : Bytes) (args : Option controlArgs.V) (config : InterestConfig) :
    Res Encoded :=
  (controlParameters.encode (args, ())).bind fun params =>
    makeInterest sha (some (cmdName isLocal mod cmd params)) (some config) (some []) (some signer)

/-- `MakeCmdDict`, mgmt.go:42-51 -/
def makeCmdDict (sha : Bytes → Bytes) (isLocal : Bool) (signer : Signer) (mod cmd : Bytes) (args : Dict) (config : InterestConfig) :
    Except DErr (Res Encoded) :=
  (controlArgs.fromDict controlArgsKeys args).map fun vv => makeCmd sha isLocal signer mod cmd (some vv) config

/-- the Interest of `ExecMgmtCmd`, default_engine.go:457-461 -/
def execConfig (nonce : Nat) : InterestConfig := { lifetime := some 1000000000, nonce := some nonce }

/-- the arguments of `RegisterRoute` and `UnregisterRoute`, default_engine.go:508-532: only `Name` is set -/
def routeArgs (n : Name) : controlArgs.V :=
  (some n, none, none, none, none, none, none, none, none, none, none, none, none, none, none, none, ())

/-- `RegisterRoute`, default_engine.go:508-519 -/
def registerCmd (sha : Bytes → Bytes) (isLocal : Bool) (signer : Signer) (nonce : Nat) (n : Name) : Res Encoded :=
  makeCmd sha isLocal signer (ascii ['r', 'i', 'b']) (ascii ['r', 'e', 'g', 'i', 's', 't', 'e', 'r']) (some (routeArgs n)) (execConfig nonce)

/-- what the callback sends: `success` is `nil` -/
inductive CmdRes where
  | success
  | nack (reason : Nat)
  | deadline
  | invalidSignature
  | malformed
  | failed (code : Nat) (text : Bytes)
  | improper
deriving DecidableEq

/-- what the callback makes of the content of a Data with a valid signature, default_engine.go:475-492; `none` when the parser does not
return -/
def cmdResponse (fuel : Nat) (content : Bytes) : Option (Res CmdRes) :=
  match controlResponse.parse true fuel (BR.new content) with
  | none => none
  | some (.panic, _) => some .panic
  | some (.err _, _) => some (.ok .malformed)
  | some (.ok v, _) =>
    match (v.1 : Option controlResponseVal.V) with
    | none => some (.ok .improper)
    | some r =>
      let code : Nat := r.1
      some (.ok (if code = 200 then .success else .failed code r.2.1))

/-- the callback, default_engine.go:466-497.  `check` is the `cmdChecker`, applied to what `onPacket` parsed; the content of a Data without one is nil. -/
def cmdAnswer (fuel : Nat) (check : DataV → Wire → Bool) : Outcome → Option (Res CmdRes)
  | .nack r => some (.ok (.nack r))
  | .timeout => some (.ok .deadline)
  | .data _ raw =>
    match readData fuel (BR.new raw) with
    | none => none
    | some .panic => some .panic
    | some (.err _) => some (.ok .malformed)
    | some (.ok (.error _)) => some (.ok .malformed)
    | some (.ok (.ok (v, cov))) => if check v cov then cmdResponse fuel (v.content.getD []).flatten else some (.ok .invalidSignature)

/-! ## The caller, the callback and the channel

`ExecMgmtCmd` waits on an unbuffered channel for what the callback sends; the callback runs with `pitLock` held. -/

/-- where the goroutine of `ExecMgmtCmd` is -/
inductive Caller (M : Type) where
  /-- in `Express`, after the Interest was put into the table -/
  | sending
  /-- `<-ch`, default_engine.go:502 -/
  | waiting
  /-- `Express` returned an error and so did `ExecMgmtCmd`, lines 499-501 -/
  | sendFailed
  /-- returned what it got from the channel; `none` when the channel was closed (a nil error) -/
  | returned (m : Option M)
deriving DecidableEq

/-- who holds `pitLock` -/
inductive Lock (M : Type) where
  | free
  /-- the callback, at `ch <- m` -/
  | offering (m : M)
  /-- the callback, at `close(ch)` -/
  | closing
deriving DecidableEq

structure Exec (M : Type) where
  caller : Caller M
  lock : Lock M
  closed : Bool
  panicked : Bool
deriving DecidableEq

inductive ExecEv (M : Type) where
  /-- `face.Send` returns -/
  | sent (ok : Bool)
  /-- the engine takes the lock and calls the callback -/
  | call (m : M)
  /-- the callback's send -/
  | offer
  /-- the caller receives from a closed channel -/
  | recv
  /-- `close(ch)` and the lock is released -/
  | close

def Exec.new {M : Type} : Exec M := ⟨.sending, .free, false, false⟩

/-- one step; an event that cannot happen changes nothing -/
def Exec.step {M : Type} (s : Exec M) : ExecEv M → Exec M
  | .sent ok =>
    match s.panicked, s.caller with
    | false, .sending => { s with caller := if ok then .waiting else .sendFailed }
    | _, _ => s
  | .call m =>
    match s.panicked, s.lock with
    | false, .free => { s with lock := .offering m }
    | _, _ => s
  | .offer =>
    match s.panicked, s.lock with
    | false, .offering m =>
      if s.closed then { s with panicked := true }
      else match s.caller with
        | .waiting => { s with caller := .returned (some m), lock := .closing }
        | _ => s
    | _, _ => s
  | .recv =>
    match s.panicked, s.caller with
    | false, .waiting => if s.closed then { s with caller := .returned none } else s
    | _, _ => s
  | .close =>
    match s.panicked, s.lock with
    | false, .closing => if s.closed then { s with panicked := true } else { s with closed := true, lock := .free }
    | _, _ => s

/-- the state after a schedule, most recent event first -/
def execAfter {M : Type} : List (ExecEv M) → Exec M
  | [] => .new
  | ev :: evs => (execAfter evs).step ev

/-- the callbacks of a schedule, oldest first -/
def callsOf {M : Type} : List (ExecEv M) → List M
  | [] => []
  | .call m :: evs => match (execAfter evs).panicked, (execAfter evs).lock with
    | false, .free => callsOf evs ++ [m]
    | _, _ => callsOf evs
  | _ :: evs => callsOf evs

end Ndn.Engine
