import Verif.Codec.Run
import Verif.Codec.EmitNoCopy

/-!
# What the statements of the emitted encoder of a model with `nocopy` do

The meaning of the statements of `Verif/Codec/EmitNoCopy.lean`.  The buffers that `Encode` makes are blocks of memory.  The entries of the wire are slices of
such blocks, or buffers of the caller.  `buf` is a slice as well; what is written to it is written to its block.  A write to a buffer of the caller counts as
a panic here, so that a run that is not a panic has left the caller's buffers as they were.
-/

namespace Ndn.Codec.Gen

/-- an entry of the wire, and `buf` -/
inductive Ref where
  | nil
  /-- the block with the number -/
  | own (k : Nat)
  /-- a buffer of the caller -/
  | given (b : Bytes)
  deriving DecidableEq, Repr

/-- memory and local variables.  `s.mem` is what is in `buf`. -/
structure NS where
  s : S
  buf : Ref
  blocks : List Bytes
  wire : List Ref
  idx : Nat
  plan : List Nat
  /-- `encoder.wirePlan` -/
  ownPlan : List Nat

/-- the memory that a slice is of -/
def Ref.mem (blocks : List Bytes) : Ref → Bytes
  | .nil => []
  | .own k => (blocks[k]?).getD []
  | .given b => b

/-- what was written to `buf` is in its block -/
def NS.through (ns : NS) (s : S) : Res NS :=
  match ns.buf with
  | .own k => .ok { ns with s := s, blocks := ns.blocks.set k s.mem }
  | _ => if s.mem = ns.s.mem then .ok { ns with s := s } else .panic

/-- `buf = r` -/
def NS.setBuf (ns : NS) (r : Ref) : NS :=
  { ns with buf := r, s := { ns.s with mem := r.mem ns.blocks, vars := upd ns.s.vars .buf (.slice 0) } }

def NAtom.exec : NAtom → NS → Res NS
  | .makePlan, ns => .ok { ns with plan := [] }
  | .pushPlan, ns =>
    match ns.s.vars .l with
    | .num n => .ok { ns with plan := ns.plan ++ [n] }
    | _ => .panic
  | .zeroL _, ns => .ok { ns with s := { ns.s with vars := upd ns.s.vars .l (.num 0) } }
  | .setPlan, ns => .ok { ns with ownPlan := ns.plan }
  | .startIdx, ns => .ok { ns with idx := 0 }
  | .startBuf, ns =>
    match ns.wire[ns.idx]? with
    | some r => .ok (ns.setBuf r)
    | none => .panic
  | .nextIdx, ns => .ok { ns with idx := ns.idx + 1 }
  | .zeroPos, ns => .ok { ns with s := { ns.s with vars := upd ns.s.vars .pos (.num 0) } }
  | .nextBuf, ns =>
    match ns.wire[ns.idx]? with
    | some r => .ok (ns.setBuf r)
    | none => .ok (ns.setBuf .nil)
  | .putW, ns =>
    match ns.s.vars .w with
    | .bytes b => if ns.idx < ns.wire.length then .ok { ns with wire := ns.wire.set ns.idx (.given b) } else .panic
    | _ => .panic

/-- the variables that the statements declare -/
def NCode.decls : NCode → List Var
  | .done => []
  | .plain c k => c.decls ++ k.decls
  | .atom _ k => k.decls
  | .cond _ _ k => k.decls
  | .range _ _ _ k => k.decls

/-- the end of a block: its variables are forgotten -/
def NS.leave (vs : List Var) (ns ns' : NS) : NS := { ns' with s := Gen.leave vs ns.s ns'.s }

/-- the iterations of a loop -/
def nloop (body : GV → NS → Res NS) : List GV → NS → Res NS
  | [], ns => .ok ns
  | g :: l, ns => (body g ns).bind (nloop body l)

def NCode.exec (call : Call) : NCode → NS → Res NS
  | .done, ns => .ok ns
  | .plain c k, ns => ((c.exec call ns.s).bind ns.through).bind (k.exec call)
  | .atom a k, ns => (a.exec ns).bind (k.exec call)
  | .cond c b k, ns =>
    (c.eval ns.s).bind fun t => (if t then (b.exec call ns).map (ns.leave b.decls) else .ok ns).bind (k.exec call)
  | .range named f b k, ns =>
    (fieldOfValue ns.s f).bind fun g => g.elems.bind fun l =>
      (nloop (fun g ns =>
        if named then (b.exec call { ns with s := { ns.s with vars := upd ns.s.vars .w g } }).map (ns.leave (.w :: b.decls))
        else (b.exec call ns).map (ns.leave b.decls)) l ns).bind (k.exec call)

/-- the state at the beginning of a method -/
def NS.entry (g : GV) (cells : Path → Nat) (blocks : List Bytes) (wire : List Ref) (ownPlan : List Nat) : NS :=
  ⟨⟨cells, [], Gen.entry g [] 0⟩, .nil, blocks, wire, 0, [], ownPlan⟩

/-- `Init` of the encoder of `t`, which has just been made -/
def runInitNoCopy (ms : List TModel) (fuel : Nat) (t : Txt) (g : GV) : Res NS :=
  match ms.find? fun m => m.name == t with
  | none => .panic
  | some m => (initNoCopyBody m.fields).exec (callOf ms fuel) (NS.entry g (fun _ => 0) [] [] [])

/-- the wire that `Encode` makes, model.go:110-116: a block for each entry, of which the empty ones are nil -/
def freshWire : Nat → List Nat → List Ref
  | _, [] => []
  | k, n :: l => (if 0 < n then Ref.own k else .nil) :: freshWire (k + 1) l

/-- `EncodeInto` with the wire that `Encode` makes -/
def runIntoNoCopy (ms : List TModel) (fuel : Nat) (t : Txt) (g : GV) (cells : Path → Nat) (plan : List Nat) : Res NS :=
  match ms.find? fun m => m.name == t with
  | none => .panic
  | some m =>
    (intoNoCopyBody m.fields).exec (callOf ms fuel) (NS.entry g cells (plan.map fun n => List.replicate n 0) (freshWire 0 plan) plan)

/-- a buffer of the wire that the caller gets: made by the encoder, or given to it -/
inductive Piece where
  | own (b : Bytes)
  | given (b : Bytes)
  deriving DecidableEq, Repr

/-- the bytes of a buffer -/
def Piece.bytes : Piece → Bytes
  | .own b => b
  | .given b => b

/-- an entry of the wire, to the caller -/
def Ref.piece (blocks : List Bytes) : Ref → Piece
  | .nil => .own []
  | .own k => .own ((blocks[k]?).getD [])
  | .given b => .given b

/-- `Init` and then `Encode`, model.go:108-125, as in `(value *t) Encode`, model.go:258-265: the wire and `encoder.length` -/
def runNoCopy (ms : List TModel) (fuel : Nat) (t : Txt) (g : GV) : Res (List Piece × Nat) :=
  (runInitNoCopy ms fuel t g).bind fun ns =>
    (runIntoNoCopy ms fuel t g ns.s.cells ns.ownPlan).map fun ns' => (ns'.wire.map (Ref.piece ns'.blocks), ns.s.cells [.key .length])

end Ndn.Codec.Gen
