import Verif.Codec.SpecialProps
import Verif.Codec.ParsersPacket

/-!
# Running the parser of `Packet`

`Packet` has no `ordered`, but its parsing context holds those of `Interest` and `Data`, which are kept between elements.  `P.exec` has no contexts: its calls give the
same answer each time.  Here calls have the state `σ`.
-/

namespace Ndn.Codec.Gen

/-- how statements end -/
inductive XOut (σ : Type) where
  | next (s : PS) (c : σ)
  | brk (s : PS) (c : σ)
  | ret (g : GV) (e : Option Err) (c : σ)
  | panic
  | stuck

def XOut.bind {σ : Type} : XOut σ → (PS → σ → XOut σ) → XOut σ
  | .next s c, k => k s c
  | o, _ => o

/-- `break` ends a `switch` -/
def XOut.unbrk {σ : Type} : XOut σ → XOut σ
  | .brk s c => .next s c
  | o => o

/-- statements without calls leave the contexts alone -/
def XOut.lift {σ : Type} (c : σ) : Out → XOut σ
  | .next s => .next s c
  | .brk s => .brk s c
  | .ret g e _ => .ret g e c
  | .panic => .panic
  | .stuck => .stuck

/-- a loop without bound -/
def xRounds {σ : Type} (body : PS → σ → XOut σ) : Nat → PS → σ → XOut σ
  | 0, _, _ => .stuck
  | n + 1, s, c =>
    match body s c with
    | .next s' c' => xRounds body n s' c'
    | .brk s' c' => .next s' c'
    | o => o

/-- The statements of `Parse`.  `call f t` is `context.f_context.Parse`.  A call within another block than these, as in sequences, gets stuck. -/
def P.runX {σ : Type} (ic : Bool) (fuel : Nat) (zero : List (Txt × GV)) (call : Txt → Txt → σ → BR → Called × σ) : P → PS → σ → XOut σ
  | .seq a b, s, c => (a.runX ic fuel zero call s c).bind (b.runX ic fuel zero call)
  | .forever b, s, c => xRounds (b.runX ic fuel zero call) fuel s c
  | .scope b, s, c => b.runX ic fuel zero call { s with handled := false } c
  | .always b, s, c => b.runX ic fuel zero call s c
  | .switch b, s, c => (b.runX ic fuel zero call s c).unbrk
  | .case n b rest, s, c => if s.typ = n then b.runX ic fuel zero call s c else rest.runX ic fuel zero call s c
  | .parse f t, s, c =>
    match BR.delegate (toInt s.l) s.rd with
    | (.ok sub, rd) =>
      match call f t c sub with
      | (.ret g e, c') => .next ({ s with err := e, rd := rd }.put f g) c'
      | (.panic, _) => .panic
      | (.stuck, _) => .stuck
    | _ => .panic
  | p, s, c => .lift c (p.exec ⟨fun _ _ => .stuck, ic, fuel, zero⟩ s)

/-- the contexts of Interest and Data: integers and wires -/
structure PacketCtx where
  iints : Txt → Int := fun _ => 0
  iwires : Txt → Wire := fun _ => []
  dints : Txt → Int := fun _ => 0
  dwires : Txt → Wire := fun _ => []

/-- what `Parse` of an ordered model returns.  After an error its context is not used any more. -/
def orderedCall (x : Option (PR CState)) (c : PacketCtx) (upd : CState → PacketCtx) : Called × PacketCtx :=
  match x with
  | some (some (.ok v, _)) => (.ret (.ptr (.struct v.kvs)) none, upd v)
  | some (some (.err e, _)) => (.ret .nil (some e), c)
  | some none => (.stuck, c)
  | _ => (.panic, c)

/-- `context.f_context.Parse` in the parser of Packet -/
def packetCall (ms : List TModel) (ic : Bool) (fuel depth : Nat) (f t : Txt) (c : PacketCtx) (r : BR) : Called × PacketCtx :=
  match ms.find? fun m => m.name == t with
  | none => (.panic, c)
  | some m =>
    if f = t!"Interest" then orderedCall (runOrdered ms ic fuel depth m ⟨[], c.iints, c.iwires⟩ r) c fun v => { c with iints := v.ints, iwires := v.wires }
    else if f = t!"Data" then orderedCall (runOrdered ms ic fuel depth m ⟨[], c.dints, c.dwires⟩ r) c fun v => { c with dints := v.ints, dwires := v.wires }
    else (parseOf ms ic fuel depth t (some r), c)

/-- `Parse` of Packet after `Init` -/
def runPacket (ms : List TModel) (ic : Bool) (fuel depth : Nat) (m : TModel) (r : BR) : XOut PacketCtx :=
  (parseBody m).runX ic fuel (m.fields.map fun f => (f.name, zeroCls f.cls)) (packetCall ms ic fuel depth) (start (some r)) {}

/-! ## The hand-written model -/

/-- a member that is nil or a pointer to a struct whose members stand for an Interest -/
def InterestMember (ms : List TModel) (v : Option Packet.InterestV) (g : GV) : Prop :=
  match v with
  | none => g = .nil
  | some v => ∃ kvs ints wires ctx, g = .ptr (.struct kvs) ∧ InterestStands ms (v, ctx) ⟨kvs, ints, wires⟩

def DataMember (ms : List TModel) (v : Option Packet.DataV) (g : GV) : Prop :=
  match v with
  | none => g = .nil
  | some v => ∃ kvs ints wires ctx, g = .ptr (.struct kvs) ∧ DataStands ms (v, ctx) ⟨kvs, ints, wires⟩

/-- the contexts -/
def CtxStands (s : Packet.PacketSt) (c : PacketCtx) : Prop :=
  c.iwires t!"sigCovered" = s.ictx.sigCovered ∧ c.iwires t!"digestCovered" = s.ictx.digestCovered ∧ c.iints t!"sigCoverStart" = s.ictx.sigCoverStart ∧
  c.iints t!"digestCoverStart" = s.ictx.digestCoverStart ∧ c.dwires t!"sigCovered" = s.dctx.sigCovered ∧ c.dints t!"sigCoverStart" = s.dctx.sigCoverStart

/-- the members of `value`, a Go `Packet`, and of its parsing context stand for what the hand-written model has -/
def PacketStands (ms : List TModel) (s : Packet.PacketSt) (kvs : List (Txt × GV)) (c : PacketCtx) : Prop :=
  Member kvs t!"Interest" (InterestMember ms s.interest) ∧ Member kvs t!"Data" (DataMember ms s.data) ∧
  Member kvs t!"LpPacket" (StandsSome ms (.struct Schema.lpPacket) (.struct t!"LpPacket" true) s.lp) ∧ CtxStands s c

/-- the outcome of `Parse` is that of the hand-written model -/
def SameEnd (ms : List TModel) (o : XOut PacketCtx) : PR Packet.PacketSt → Prop
  | none => o = .stuck
  | some (.panic, _) => o = .panic
  | some (.err e, _) => ∃ c, o = .ret .nil (some e) c
  | some (.ok s, _) => ∃ kvs c, o = .ret (.ptr (.struct kvs)) none c ∧ PacketStands ms s kvs c

end Ndn.Codec.Gen
