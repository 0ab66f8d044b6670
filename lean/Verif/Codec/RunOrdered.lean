import Verif.Codec.EmitOrdered
import Verif.Packet.Parse

/-!
# What the parsers that the code generator writes for models with `ordered` do

The meaning of the statements of `EmitOrdered.lean`, as in Go.  What `GenReadFrom` and `GenSkipProcess` of a field do is given by `rd` and `sk`: they get the value of
`startPos`, the first also that of `l`, the state (`value` and `context`) and the reader.
-/

namespace Ndn.Codec.Gen

/-- the variables of `Parse` -/
structure QEnv (σ : Type) where
  /-- is `reader` nil? -/
  nilReader : Bool
  progress : Int
  handled : Bool
  /-- the fields whose `handled_…` is set -/
  flags : List Txt
  err : Option Err
  start : Nat
  typ : Nat
  l : Nat
  st : σ
  r : BR

/-- how a statement ends: at its end, with `break`, with `return` (the result is the state or an error), with a panic, or not at all -/
inductive QOut (σ : Type) where
  | next (e : QEnv σ)
  | brk (e : QEnv σ)
  | ret (x : Except Err σ) (r : BR)
  | panic (r : BR)
  | spin

/-- go on if the end was reached -/
def QOut.andThen {σ : Type} (o : QOut σ) (f : QEnv σ → QOut σ) : QOut σ :=
  match o with
  | .next e => f e
  | o => o

/-- `for { b }`, at most `fuel` rounds -/
def qForever {σ : Type} (b : QEnv σ → QOut σ) : Nat → QEnv σ → QOut σ
  | 0, _ => .spin
  | fuel + 1, e =>
    match b e with
    | .next e' => qForever b fuel e'
    | .brk e' => .next e'
    | o => o

/-- `for ; !handled && progress < n; progress++ { b }`, at most `k` rounds -/
def qFor {σ : Type} (b : QEnv σ → QOut σ) (n : Nat) : Nat → QEnv σ → QOut σ
  | 0, e => if !e.handled && e.progress < n then .spin else .next e
  | k + 1, e =>
    if !e.handled && e.progress < n then
      match b e with
      | .next e' => qFor b n k { e' with progress := e'.progress + 1 }
      | .brk e' => .next e'
      | o => o
    else .next e

/-- `v, err = enc.ReadTLNum(reader)`; `set` puts the number away -/
def qReadNum {σ : Type} (set : QEnv σ → Nat → QEnv σ) (e : QEnv σ) : QOut σ :=
  match BR.readTL e.r with
  | (.ok v, r) => .next { set e v with err := none, r := r }
  | (.err x, r) => .next { e with err := some x, r := r }
  | (.panic, r) => .panic r

/-- `return nil, …` with an error made of `err` -/
def qFail {σ : Type} (f : Err → Err) (e : QEnv σ) : QOut σ :=
  match e.err with
  | some x => .ret (.error (f x)) e.r
  | none => .panic e.r

/-- The statements.  `ic` is `ignoreCritical`; `new` makes `value` a new struct.  A `return nil, err` without error does not occur and is a panic here. -/
def Q.run {σ : Type} (ic : Bool) (new : σ → σ) (rd : Field → Nat → Nat → σ → BR → PR σ) (sk : Field → Nat → σ → BR → Res σ) (fuel : Nat) : Q → QEnv σ → QOut σ
  | .skip, e => .next e
  | .seq a b, e => (a.run ic new rd sk fuel e).andThen (b.run ic new rd sk fuel)
  | .brk, e => .brk e
  | .ifNilReader b, e => if e.nilReader then b.run ic new rd sk fuel e else .next e
  | .declHandled f, e => .next { e with flags := e.flags.filter fun g => g != f }
  | .declProgress, e => .next { e with progress := -1 }
  | .newValue _, e => .next { e with st := new e.st }
  | .declErr, e => .next { e with err := none }
  | .declStart, e => .next { e with start := 0 }
  | .forever b, e => qForever (b.run ic new rd sk fuel) fuel e
  | .setStart, e => .next { e with start := e.r.pos }
  | .ifEnd b, e => if e.start ≥ e.r.buf.length then b.run ic new rd sk fuel e else .next e
  | .declTyp, e => .next { e with typ := 0 }
  | .declL, e => .next { e with l := 0 }
  | .readTyp, e => qReadNum (fun e v => { e with typ := v }) e
  | .readL, e => qReadNum (fun e v => { e with l := v }) e
  | .ifErr b, e => if e.err.isSome then b.run ic new rd sk fuel e else .next e
  | .noErr, e => .next { e with err := none }
  | .retNil, e => .ret (.error .overflow) e.r
  | .retFail0, e => qFail (.failToParse 0) e
  | .retFail, e => qFail (.failToParse e.typ) e
  | .retUnrecognized, e => .ret (.error (.unrecognized e.typ)) e.r
  | .retErr, e => qFail id e
  | .retValue, e => .ret (.ok e.st) e.r
  | .forProgress n b, e => qFor (b.run ic new rd sk fuel) n (n - e.progress).toNat { e with handled := false }
  | .switch b, e => b.run ic new rd sk fuel e
  | .case n b rest, e => if e.typ = n then b.run ic new rd sk fuel e else rest.run ic new rd sk fuel e
  | .dflt b, e => b.run ic new rd sk fuel e
  | .ifNext i b, e => if e.progress + 1 = i then b.run ic new rd sk fuel e else .next e
  | .handled, e => .next { e with handled := true }
  | .handledF f, e => .next { e with flags := f :: e.flags }
  | .ifCritical b, e => if !ic && isCritical e.typ then b.run ic new rd sk fuel e else .next e
  | .skipL, e =>
    match BR.skip (toInt e.l) e.r with
    | (.ok (), r) => .next { e with err := none, r := r }
    | (.err x, r) => .next { e with err := some x, r := r }
    | (.panic, r) => .panic r
  | .ifUnhandled b, e => if e.err.isNone && !e.handled then b.run ic new rd sk fuel e else .next e
  | .switchProgress b, e => b.run ic new rd sk fuel e
  | .caseProgress i b rest, e => if e.progress = (i : Int) - 1 then b.run ic new rd sk fuel e else rest.run ic new rd sk fuel e
  | .ifUnhandledF f b, e => if !e.flags.contains f && e.err.isNone then b.run ic new rd sk fuel e else .next e
  | .read f, e =>
    match rd f e.start e.l e.st e.r with
    | none => .spin
    | some (.ok st, r) => .next { e with st := st, r := r }
    | some (.err x, r) => .next { e with err := some x, r := r }
    | some (.panic, r) => .panic r
  | .skipF f, e =>
    match sk f e.start e.st e.r with
    | .ok st => .next { e with st := st }
    | .err x => .next { e with err := some x }
    | .panic => .panic e.r

/-- how `Parse` ends, as the hand-written model has it -/
def QOut.result {σ : Type} : QOut σ → Option (PR σ)
  | .ret (.ok st) r => some (some (.ok st, r))
  | .ret (.error x) r => some (some (.err x, r))
  | .panic r => some (some (.panic, r))
  | .spin => some none
  | .next _ => none
  | .brk _ => none

end Ndn.Codec.Gen
