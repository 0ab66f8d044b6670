import Verif.Codec.RunSigned
import Verif.Codec.EmitOuter

/-!
# What the statements of the emitted encoder of a model with structs that have `nocopy` do

The meaning of the statements of `Verif/Codec/EmitOuter.lean`.  The inner encoder runs as in `Verif/Codec/RunSigned.lean`, with memory of its own: a copy of the
slices that it is given.  Afterwards what it has written is put back, and the slices that it keeps are turned into slices of the memory of the outer encoder.

Of the members of the inner encoder, only its length is seen in the cells of the outer one.  `Init` of the inner encoder may change the value that it is given;
this is a change of what the member of the outer value points to.
-/

namespace Ndn.Codec.Gen

/-- memory and local variables, and the inner encoders -/
structure OS where
  ns : NS
  sub : Txt → SS

/-- `Init` (`true`) or `EncodeInto` of the encoder of a type with `nocopy` -/
abbrev Inner := Txt → Bool → SS → Res SS

/-- what `subWire[k]` is to the inner encoder; an empty slice is as good as nil -/
def subEntry (blocks : List Bytes) (k : Nat) : Ref → Ref
  | .given b => .given b
  | r => if r.mem blocks = [] then .nil else .own k

/-- `subWire[k]`, `subWire[k + 1]`, … -/
def subEntries (blocks : List Bytes) : Nat → List Ref → List Ref
  | _, [] => []
  | k, r :: l => subEntry blocks k r :: subEntries blocks (k + 1) l

/-- what the inner encoder has written to the slices `wire[wireIdx + 1]`, … is in their blocks -/
def putBack : List Ref → List Bytes → List Bytes → List Bytes
  | .own j :: rs, b :: bs, blocks => putBack rs bs (blocks.set j b)
  | _ :: rs, _ :: bs, blocks => putBack rs bs blocks
  | _, _, blocks => blocks

/-- `wire[wireIdx + i] = subWire[i]`: the slice in the memory of the outer encoder.  That the inner encoder has put its first slice elsewhere, which is a part
of a block, counts as a panic; it never does. -/
def backRef (entries : List Ref) : Ref → Res Ref
  | .own 0 => .panic
  | .own (k + 1) =>
    match entries[k]? with
    | some r => .ok r
    | none => .panic
  | r => .ok r

/-- the same for all entries -/
def backRefs (entries : List Ref) : List Ref → Res (List Ref)
  | [] => .ok []
  | r :: l => (backRef entries r).bind fun r => (backRefs entries l).map fun l => r :: l

/-- a slice that the inner encoder keeps, in the memory of the outer encoder -/
def backPart (buf : Ref) (pos : Nat) (entries : List Ref) (q : Part) : Part :=
  match q.ref with
  | .own 0 => ⟨buf, q.lo + pos, q.hi + pos⟩
  | .own (k + 1) => ⟨(entries[k]?).getD .nil, q.lo, q.hi⟩
  | r => ⟨r, q.lo, q.hi⟩

/-- `wirePlan` and `l` after the loop of fields_struct.go:82-85, for the rest of the inner plan -/
def restPlan : Nat → List Nat → List Nat × Nat
  | n, [] => ([], n)
  | n, a :: l => (n :: (restPlan a l).1, (restPlan a l).2)

/-- a local variable is set -/
def NS.setVar (ns : NS) (v : Var) (g : GV) : NS := { ns with s := { ns.s with vars := upd ns.s.vars v g } }

/-- the end of fields_struct.go:111-136: where the encoder goes on.  `n` is the length of the inner plan, `last` its last entry. -/
def goOn (n last pos : Nat) (ns : NS) : Res NS :=
  NAtom.exec .nextBuf (if 0 < last then { ns with idx := ns.idx + (n - 1) }.setVar .pos (.num (if 1 < n then last else (pos + last) % 2 ^ 64))
    else { ns with idx := ns.idx + n }.setVar .pos (.num 0))

/-- the state at the beginning of the inner `EncodeInto` -/
def subEntryState (ns : NS) (ss : SS) (g : GV) (pos : Nat) (entries : List Ref) : NS :=
  NS.entry g ss.ns.s.cells (ns.s.mem.drop pos :: entries.map (Ref.mem ns.blocks))
    ((if ns.s.mem.drop pos = [] then .nil else .own 0) :: subEntries ns.blocks 1 entries) ss.ns.ownPlan

/-- fields_struct.go:111-136 -/
def subWireExec (inner : Inner) (f t : Txt) (os : OS) : Res OS :=
  let ns := os.ns
  let ss := os.sub f
  let plan := ss.ns.ownPlan
  let entries := (ns.wire.drop (ns.idx + 1)).take (plan.length - 1)
  (fieldOfValue ns.s f).bind fun g =>
    match ns.s.vars .pos, plan.getLast? with
    | .num pos, some last =>
      if pos ≤ ns.s.mem.length ∧ entries.length = plan.length - 1 then
        (inner t false { ss with ns := subEntryState ns ss g pos entries }).bind fun ss' =>
          (ns.through { ns.s with mem := ns.s.mem.take pos ++ ss'.ns.blocks.headD [] }).bind fun ns1 =>
            (backRefs entries (ss'.ns.wire.drop 1)).bind fun refs =>
              (goOn plan.length last pos { ns1 with
                  blocks := putBack entries (ss'.ns.blocks.drop 1) ns1.blocks
                  wire := ns.wire.take (ns.idx + 1) ++ refs ++ ns.wire.drop (ns.idx + plan.length) }).map fun ns2 =>
                { ns := ns2, sub := setAt os.sub f { ss' with covered := fun c => (ss'.covered c).map (backPart ns.buf pos entries) } }
      else .panic
    | _, _ => .panic

def OAtom.exec (inner : Inner) : OAtom → OS → Res OS
  | .init f t, os =>
    (fieldOfValue os.ns.s f).bind fun g =>
      (inner t true { os.sub f with ns := NS.entry g (os.sub f).ns.s.cells [] [] [] }).bind fun ss =>
        match os.ns.s.vars .value, os.ns.s.vars .encoder with
        | .ptr (.struct kvs), .ref p =>
          .ok { ns := { os.ns with s := { os.ns.s with
                  cells := updCell os.ns.s.cells (.key .length :: .key (.enc f) :: p) (ss.ns.s.cells [.key .length])
                  vars := upd os.ns.s.vars .value (.ptr (.struct (setField f (ss.ns.s.vars .value) kvs))) } }
                sub := setAt os.sub f ss }
        | _, _ => .panic
  | .planFirst f, os =>
    match os.ns.s.vars .l, (os.sub f).ns.ownPlan with
    | .num n, a :: _ => .ok { os with ns := os.ns.setVar .l (.num ((n + a) % 2 ^ 64)) }
    | _, _ => .panic
  | .planRest f, os =>
    match os.ns.s.vars .l with
    | .num n =>
      let r := restPlan n ((os.sub f).ns.ownPlan.drop 1)
      .ok { os with ns := { os.ns with plan := os.ns.plan ++ r.1 }.setVar .l (.num r.2) }
    | _ => .panic
  | .planEnd, os =>
    match os.ns.s.vars .l with
    | .num n => .ok (if n = 0 then { os with ns := { os.ns with plan := os.ns.plan ++ [0] } } else os)
    | _ => .panic
  | .subWire f t, os => subWireExec inner f t os

/-- The blocks of these statements declare no variable of `Var`. -/
def OCode.exec (call : Call) (inner : Inner) : OCode → OS → Res OS
  | .done, os => .ok os
  | .plain c k, os => ((c.exec call os.ns).map fun ns => { os with ns := ns }).bind (k.exec call inner)
  | .atom a k, os => (a.exec inner os).bind (k.exec call inner)
  | .cond c b k, os => (c.eval os.ns.s).bind fun t => (if t then b.exec call inner os else .ok os).bind (k.exec call inner)

/-- the methods of the encoders with `nocopy` of the models `ms`; they have no fields that are structs with `nocopy` themselves -/
def innerOf (ms : List TModel) (fuel : Nat) : Inner := fun t isInit ss =>
  match ms.find? fun m => m.name == t with
  | none => .panic
  | some m => (if isInit then initSignedBody m.fields else intoSignedBody m.fields).exec (callOf ms fuel) ss

/-- the state at the beginning of `Init`; the estimated lengths and `needDigest` of the inner encoders are set before -/
def OS.entry (g : GV) (est : Txt → Txt → Nat) (need : Txt → Txt → Bool) : OS :=
  { ns := NS.entry g (fun _ => 0) [] [] [], sub := fun f => SS.entry .nil (est f) (need f) }

/-- the state at the beginning of `EncodeInto`, with the wire that `Encode` makes -/
def OS.again (os : OS) : OS :=
  { os with ns := NS.entry (os.ns.s.vars .value) os.ns.s.cells (os.ns.ownPlan.map fun n => List.replicate n 0) (freshWire 0 os.ns.ownPlan) os.ns.ownPlan }

/-- what the caller of the encoder gets: the wire, `encoder.length`, and `f_wireIdx`, `f_pos` and the covered parts of the inner encoders -/
structure Outer where
  wire : List Piece
  length : Nat
  idx : Txt → Txt → Int
  pos : Txt → Txt → Int
  covered : Txt → Txt → List Bytes

/-- what the caller gets of the states at the ends of `Init` and `EncodeInto` -/
def Outer.ofStates (os os' : OS) : Outer :=
  ⟨os'.ns.wire.map (Ref.piece os'.ns.blocks), os.ns.s.cells [.key .length], fun f => (os'.sub f).idx, fun f => (os'.sub f).at',
    fun f c => ((os'.sub f).covered c).map (Part.bytes os'.ns.blocks)⟩

/-- `Init` and then `Encode`, model.go:108-125, of the encoder of the model called `t` -/
def runOuter (ms : List TModel) (fuel : Nat) (t : Txt) (g : GV) (est : Txt → Txt → Nat) (need : Txt → Txt → Bool) : Res Outer :=
  match ms.find? fun m => m.name == t with
  | none => .panic
  | some m =>
    ((initOuterBody m.fields).exec (callOf ms fuel) (innerOf ms fuel) (OS.entry g est need)).bind fun os =>
      ((intoOuterBody m.fields).exec (callOf ms fuel) (innerOf ms fuel) os.again).map (Outer.ofStates os)

end Ndn.Codec.Gen
