import Verif.Schema.Hooks
import Verif.Schema.Object

/-!
# Model of functions of nodes that are called by their name, `/repo/pkg/schema/interface.go:347-354`, and of what waits for their results

`Call` looks the function up in the description of the class of the node; the function looks at the number and the types of its arguments and calls the
method.  The tables: expressing_point.go:398-476, leaf_node.go:111-138, rdr/rdr.go:595-660, 684-741, 768-807, svs/sync.go:387-438,
demosec/encryption.go:161-210; a base node has none (base_node.go:411).  What is logged is left out.  `QueryInterface` gives the `impl` of the node, which `Create` of the same
description made.
-/

namespace Ndn.Schema
open Ndn.Codec Ndn.Engine

/-- The value of an `any`: its dynamic type and what it holds.  Pointers and functions are numbers, `none` is the nil of the type; `nil` is an `any` without a type.
`other` stands for the types that no function asks for. -/
inductive Val where
  | nil
  | wire (w : Option Wire)
  | bool (b : Bool)
  | buffers (l : Option (List Bytes))
  | u64 (n : Nat)
  | u64ptr (p : Option Nat)
  | bytes (b : Option Bytes)
  | callback (f : Option Nat)
  | intCfg (p : Option Nat)
  | dataCfg (p : Option Nat)
  | key (ckid keybits : Bytes)
  | other (n : Nat)
  deriving DecidableEq

/-- the type assertions `v, ok := x.(T)`; `schema.Callback` is an alias (event.go:58) -/
def Val.asWire : Val → Option (Option Wire) | .wire w => some w | _ => none
def Val.asBool : Val → Option Bool | .bool b => some b | _ => none
def Val.asBuffers : Val → Option (Option (List Bytes)) | .buffers l => some l | _ => none
def Val.asU64 : Val → Option Nat | .u64 n => some n | _ => none
def Val.asU64ptr : Val → Option (Option Nat) | .u64ptr p => some p | _ => none
def Val.asBytes : Val → Option (Option Bytes) | .bytes b => some b | _ => none
def Val.asCallback : Val → Option (Option Nat) | .callback f => some f | _ => none
def Val.asIntCfg : Val → Option (Option Nat) | .intCfg p => some p | _ => none
def Val.asDataCfg : Val → Option (Option Nat) | .dataCfg p => some p | _ => none
def Val.asKey : Val → Option (Bytes × Bytes) | .key i k => some (i, k) | _ => none

/-- the errors that are returned: interface.go:351, `requires … arguments but got n`, and `ndn.ErrInvalidValue` (ndn.go:260-263) -/
inductive CallErr where
  | noFunc (fn : String)
  | count (n : Nat)
  | invalid (item : String) (v : Val)
  deriving DecidableEq

/-- the methods that are called, with their parameters (without `mNode`) -/
inductive Method where
  /-- `ExpressPoint.NeedCallback`, `ExpressPoint.NeedChan`, `LeafNode.Provide` -/
  | need (cb : Option Nat) (appParam : Option Wire) (cfg : Option Nat) (supress : Bool)
  | needChan (appParam : Option Wire) (cfg : Option Nat) (supress : Bool)
  | provide (content : Option Wire) (cfg : Option Nat)
  /-- those of `SegmentedNode` -/
  | segProvide (content : Option Wire) (needManifest : Bool)
  | segNeed (cb : Option Nat) (manifest : Option (List Bytes))
  | segNeedChan (manifest : Option (List Bytes))
  /-- those of `RdrNode` -/
  | rdrProvide (content : Option Wire)
  | rdrNeed (cb : Option Nat) (version : Option Nat)
  | rdrNeedChan (version : Option Nat)
  /-- those of `GeneralObjNode` -/
  | objProvide (content : Option Wire)
  | objNeed (cb : Option Nat)
  | objNeedChan
  /-- those of `SvsNode` -/
  | newData (content : Option Wire)
  | missing
  | mySequence
  | dataName (nodeId : Option Bytes) (seq : Nat)
  /-- those of `ContentKeyNode` -/
  | genKey
  | encrypt (ckid keybits : Bytes) (content : Option Wire)
  | decrypt (content : Option Wire)
  deriving DecidableEq

/-- what comes of a step: a value, the end of the function with an error, or a panic -/
inductive Got (α : Type) where
  | ok (a : α)
  | err (e : CallErr)
  | panic
  deriving DecidableEq

def Got.bind {α β : Type} : Got α → (α → Got β) → Got β
  | .ok a, f => f a
  | .err e, _ => .err e
  | .panic, _ => .panic

/-- `x, ok := args[k].(T); if !ok && args[k] != nil { return ErrInvalidValue{item, args[shown]} }`, without the second condition if not `nilOk`;
`args[k]` panics if there are not so many.  When the assertion fails `x` is the zero value. -/
def takeArg {α : Type} (as : Val → Option α) (zero : α) (nilOk : Bool) (item : String) (shown : Nat) (args : List Val) (k : Nat) : Got α :=
  match args[k]? with
  | none => .panic
  | some v =>
    match as v with
    | some x => .ok x
    | none =>
      if nilOk && decide (v = .nil) then .ok zero
      else match args[shown]? with
        | none => .panic
        | some s => .err (.invalid item s)

/-- the same inside `if len(args) >= k+1 { … }` -/
def takeOpt {α : Type} (as : Val → Option α) (zero : α) (nilOk : Bool) (item : String) (shown : Nat) (args : List Val) (k : Nat) : Got α :=
  if args.length ≥ k + 1 then takeArg as zero nilOk item shown args k else .ok zero

/-- `ExpressPoint`'s `Need`, expressing_point.go:399-439 -/
def expressNeed (args : List Val) : Got Method :=
  if args.length < 1 ∨ args.length > 4 then .err (.count args.length)
  else
    (takeArg Val.asCallback none false "callback" 0 args 0).bind fun cb =>
    (takeOpt Val.asWire none true "appParam" 0 args 1).bind fun appParam =>
    (takeOpt Val.asIntCfg none true "intConfig" 0 args 2).bind fun cfg =>
    (takeOpt Val.asBool false false "supress" 0 args 3).bind fun supress =>
    .ok (.need cb appParam cfg supress)

/-- `ExpressPoint`'s `NeedChan`, expressing_point.go:440-475 -/
def expressNeedChan (args : List Val) : Got Method :=
  if args.length > 3 then .err (.count args.length)
  else
    (takeOpt Val.asWire none true "appParam" 0 args 0).bind fun appParam =>
    (takeOpt Val.asIntCfg none true "intConfig" 0 args 1).bind fun cfg =>
    (takeOpt Val.asBool false false "supress" 0 args 2).bind fun supress =>
    .ok (.needChan appParam cfg supress)

/-- `LeafNode`'s `Provide`, leaf_node.go:114-137 -/
def leafProvideFn (args : List Val) : Got Method :=
  if args.length < 1 ∨ args.length > 2 then .err (.count args.length)
  else
    (takeArg Val.asWire none true "content" 0 args 0).bind fun content =>
    (takeOpt Val.asDataCfg none true "dataCfg" 0 args 1).bind fun cfg =>
    .ok (.provide content cfg)

/-- `SegmentedNode`'s `Provide`, rdr.go:596-618 -/
def segProvideFn (args : List Val) : Got Method :=
  if args.length < 1 ∨ args.length > 2 then .err (.count args.length)
  else
    (takeArg Val.asWire none true "content" 0 args 0).bind fun content =>
    (takeOpt Val.asBool false true "needManifest" 0 args 1).bind fun needManifest =>
    .ok (.segProvide content needManifest)

/-- `SegmentedNode`'s `Need`, rdr.go:619-641 -/
def segNeedFn (args : List Val) : Got Method :=
  if args.length < 1 ∨ args.length > 2 then .err (.count args.length)
  else
    (takeArg Val.asCallback none false "callback" 0 args 0).bind fun cb =>
    (takeOpt Val.asBuffers none true "manifest" 0 args 1).bind fun manifest =>
    .ok (.segNeed cb manifest)

/-- `SegmentedNode`'s `NeedChan`, rdr.go:642-659 -/
def segNeedChanFn (args : List Val) : Got Method :=
  if args.length > 1 then .err (.count args.length)
  else (takeOpt Val.asBuffers none true "manifest" 0 args 0).bind fun manifest => .ok (.segNeedChan manifest)

/-- `RdrNode`'s `Provide`, rdr.go:685-698 -/
def rdrProvideFn (args : List Val) : Got Method :=
  if args.length ≠ 1 then .err (.count args.length)
  else (takeArg Val.asWire none true "content" 0 args 0).bind fun content => .ok (.rdrProvide content)

/-- `RdrNode`'s `Need`, rdr.go:699-722 -/
def rdrNeedFn (args : List Val) : Got Method :=
  if args.length < 1 ∨ args.length > 2 then .err (.count args.length)
  else
    (takeArg Val.asCallback none false "callback" 0 args 0).bind fun cb =>
    (takeOpt Val.asU64ptr none true "version" 0 args 1).bind fun version =>
    .ok (.rdrNeed cb version)

/-- `RdrNode`'s `NeedChan`, rdr.go:723-740 -/
def rdrNeedChanFn (args : List Val) : Got Method :=
  if args.length > 1 then .err (.count args.length)
  else (takeOpt Val.asU64ptr none true "version" 0 args 0).bind fun version => .ok (.rdrNeedChan version)

/-- `GeneralObjNode`'s `Provide`, rdr.go:769-782 -/
def objProvideFn (args : List Val) : Got Method :=
  if args.length ≠ 1 then .err (.count args.length)
  else (takeArg Val.asWire none true "content" 0 args 0).bind fun content => .ok (.objProvide content)

/-- `GeneralObjNode`'s `Need`, rdr.go:783-797 -/
def objNeedFn (args : List Val) : Got Method :=
  if args.length ≠ 1 then .err (.count args.length)
  else (takeArg Val.asCallback none false "callback" 0 args 0).bind fun cb => .ok (.objNeed cb)

/-- `GeneralObjNode`'s `NeedChan`, rdr.go:798-805 -/
def objNeedChanFn (args : List Val) : Got Method := if args.length > 0 then .err (.count args.length) else .ok .objNeedChan

/-- `SvsNode`'s `NewData`, svs/sync.go:388-401 -/
def newDataFn (args : List Val) : Got Method :=
  if args.length ≠ 1 then .err (.count args.length)
  else (takeArg Val.asWire none true "content" 0 args 0).bind fun content => .ok (.newData content)

/-- `SvsNode`'s `MissingDataChannel`, svs/sync.go:402-409 -/
def missingFn (args : List Val) : Got Method := if args.length ≠ 0 then .err (.count args.length) else .ok .missing

/-- `SvsNode`'s `MySequence`, svs/sync.go:410-417 -/
def mySequenceFn (args : List Val) : Got Method := if args.length ≠ 0 then .err (.count args.length) else .ok .mySequence

/-- `SvsNode`'s `GetDataName`, svs/sync.go:418-437 -/
def dataNameFn (args : List Val) : Got Method :=
  if args.length ≠ 2 then .err (.count args.length)
  else
    (takeArg Val.asBytes none true "nodeId" 0 args 0).bind fun nodeId =>
    (takeArg Val.asU64 0 true "seq" 1 args 1).bind fun seq =>
    .ok (.dataName nodeId seq)

/-- `ContentKeyNode`'s `GenKey`, encryption.go:162-169 -/
def genKeyFn (args : List Val) : Got Method := if args.length > 0 then .err (.count args.length) else .ok .genKey

/-- `ContentKeyNode`'s `Encrypt`, encryption.go:170-192 -/
def encryptFn (args : List Val) : Got Method :=
  if args.length ≠ 2 then .err (.count args.length)
  else
    (takeArg Val.asKey ([], []) true "ck" 0 args 0).bind fun ck =>
    (takeArg Val.asWire none true "content" 1 args 1).bind fun content =>
    .ok (.encrypt ck.1 ck.2 content)

/-- `ContentKeyNode`'s `Decrypt`, encryption.go:193-208 -/
def decryptFn (args : List Val) : Got Method :=
  if args.length ≠ 1 then .err (.count args.length)
  else (takeArg Val.asWire none true "encryptedContent" 0 args 0).bind fun content => .ok (.decrypt content)

/-- the `Functions` of the descriptions; those of a leaf node are those of an expressing point and `Provide`, leaf_node.go:111-114 -/
def functions : Cls → List (String × (List Val → Got Method))
  | .base => []
  | .express => [("Need", expressNeed), ("NeedChan", expressNeedChan)]
  | .leaf => [("Need", expressNeed), ("NeedChan", expressNeedChan), ("Provide", leafProvideFn)]
  | .segmented => [("Provide", segProvideFn), ("Need", segNeedFn), ("NeedChan", segNeedChanFn)]
  | .rdr => [("Provide", rdrProvideFn), ("Need", rdrNeedFn), ("NeedChan", rdrNeedChanFn)]
  | .genObj => [("Provide", objProvideFn), ("Need", objNeedFn), ("NeedChan", objNeedChanFn)]
  | .svs => [("NewData", newDataFn), ("MissingDataChannel", missingFn), ("MySequence", mySequenceFn), ("GetDataName", dataNameFn)]
  | .contentKey => [("GenKey", genKeyFn), ("Encrypt", encryptFn), ("Decrypt", decryptFn)]

/-- `MatchedNode.Call`, interface.go:348-354, up to the method -/
def callFn (c : Cls) (fn : String) (args : List Val) : Got Method :=
  match (functions c).find? fun p => p.1 == fn with
  | none => .err (.noFunc fn)
  | some p => p.2 args

/-! ## Waiting for a result -/

/-- whether a method returns a `chan NeedResult` -/
def Method.isChan : Method → Bool
  | .needChan .. => true
  | .segNeedChan _ => true
  | .rdrNeedChan _ => true
  | .objNeedChan => true
  | _ => false

/-- `m.Call("NeedChan", args…).(chan schema.NeedResult)`: the method whose channel it is; the type assertion panics if it is something else -/
def needChanOf (c : Cls) (args : List Val) : Got Method :=
  match callFn c "NeedChan" args with
  | .ok m => if m.isChan then .ok m else .panic
  | .err _ => .panic
  | .panic => .panic

/-- the wait for the key of `SignedByPolicy.onValidateData`, demosec/policies.go:132-134, for a key node of class `c`: `onAttach` (147-160) accepts every node -/
def keyChan (c : Cls) : Got Method := needChanOf c []

/-- the channel of `NeedChan`, rdr.go:123-139, 358-373, 554-569, expressing_point.go:337-355: what is in it, and whether it is closed.  Its capacity is 1. -/
structure Chan where
  buf : List PipeResult
  closed : Bool
  deriving DecidableEq

/-- the callback of `NeedChan`: `ret <- result; close(ret)`.  `none`: waits for a receiver. -/
def Chan.put (c : Chan) (r : PipeResult) : Option (Res Chan) :=
  if c.closed then some .panic
  else if c.buf.length < 1 then some (.ok ⟨c.buf ++ [r], true⟩)
  else none

/-- what a receiver of the channel gets when nobody calls the callback any more: `ok none` is the zero value of a closed channel, `none` waits forever -/
def Chan.get (c : Chan) : Option (Option PipeResult) :=
  match c.buf with
  | r :: _ => some (some r)
  | [] => if c.closed then some none else none

/-- `SegmentedNode.NeedCallback`, rdr.go:109-121: whether there is an error, and the pipeline that is started -/
def segNeedCallback (pipe : String) (run : Option (Res PipeResult)) : Bool × Option (Option (Res PipeResult)) :=
  if pipe = "SinglePacket" then (false, some run) else (true, none)

/-- `SegmentedNode.NeedChan`, rdr.go:123-139: the channel after the goroutine of the pipeline has ended.  The error of `NeedCallback` is not looked at.
`run` is what the pipeline comes to; `none`: it does not end. -/
def segChan (pipe : String) (run : Option (Res PipeResult)) : Option (Res Chan) :=
  match (segNeedCallback pipe run).2 with
  | none => some (.ok ⟨[], false⟩)
  | some none => none
  | some (some .panic) => some .panic
  | some (some (.err e)) => some (.err e)
  | some (some (.ok r)) => Chan.put ⟨[], false⟩ r

/-- the result of `GeneralObjNode.NeedChan`, rdr.go:488-569, as `objFetch`, but for the property `Pipeline` of the node of the segments: the value that `Need`
returns is not looked at (rdr.go:550).  A malformed manifest is reported as `InterestResultError`, which `Status` has no value for: the second component. -/
def objChan (pipe : String) (net : Name → Nat → Fetched) (manRetries retries fuel : Nat) (base : Name) : Option (Res (Chan × Bool)) :=
  match refineK objTree base (base ++ [manifestComp]), refineK objTree base (base ++ [dataComp]) with
  | some (.leaf, manName), some (.seg, dataName) =>
    match trials (net manName) (toInt manRetries).toNat 0 ⟨.none, [], none⟩ with
    | (false, last, _) => (Chan.put ⟨[], false⟩ ⟨last.status, [], []⟩).map (·.map fun c => (c, false))
    | (true, last, _) =>
      match manifestData.parse true fuel (BR.new last.content.flatten) with
      | none => none
      | some (.panic, _) => some .panic
      | some (.err _, _) => (Chan.put ⟨[], false⟩ ⟨.none, [], []⟩).map (·.map fun c => (c, true))
      | some (.ok v, _) =>
        let ds := digestsOf v
        (segChan pipe (pipeline (fun i j => net (dataName ++ [segComp i] ++ if ds.length = 0 then [] else [⟨1, ds.getD i []⟩]) j) retries ds.length fuel)).map
          (·.map fun c => (c, false))
  | _, _ => some .panic

/-! ## DataFetcher -/

/-- the loop of `DataFetcher`, rdr/pipelines.go:45-52: `n` more trials from trial `j` on, with the number of Interests -/
def fetcherLoop (fetch : Nat → Fetched) : Nat → Nat → Fetched → Fetched × Nat
  | 0, _, result => (result, 0)
  | n + 1, j, _ =>
    let result := fetch j
    if result.status = .data then (result, 1)
    else match fetcherLoop fetch n (j + 1) result with
      | (r, k) => (r, k + 1)

/-- `DataFetcher`, rdr/pipelines.go:42-54, at a node of class `c`.  `net m j` is the result of the `j`-th call of the method `m`; `intConfig` is a parameter
that the function does not use. -/
def dataFetcher (c : Cls) (net : Method → Nat → Fetched) (_intConfig : Option Nat) (maxRetries : Int) : Got (Fetched × Nat) :=
  if maxRetries ≤ 0 then .ok (⟨.none, [], none⟩, 0)
  else (needChanOf c []).bind fun m => .ok (fetcherLoop (net m) maxRetries.toNat 0 ⟨.none, [], none⟩)

end Ndn.Schema
