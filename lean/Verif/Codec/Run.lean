import Verif.Codec.Emit

/-!
# What the statements of the emitted encoder do

The meaning of the small language of `Verif/Codec/Emit.lean`, as Go has it.  The members of encoders are cells of memory, found by a path; the buffer is one
piece of memory, of which slices are seen from an offset to the end.  Numbers of type `uint` wrap around at 2^64.  An operation on a value of a wrong type,
which Go's compiler would reject, is a panic here.
-/

namespace Ndn.Codec.Gen

/-- a step from a place in memory to a part of it -/
inductive Acc where
  | key (k : Key)
  | idx (n : Nat)
  deriving DecidableEq, Repr

/-- a place in memory, innermost step first -/
abbrev Path := List Acc

/-- Go values -/
inductive GV where
  /-- unsigned integers, and the `int` that `len` gives -/
  | num (n : Nat)
  /-- `time.Duration` -/
  | dur (d : Int)
  | bool (b : Bool)
  /-- `[]byte` and `string` -/
  | bytes (b : Bytes)
  | name (n : Name)
  | comp (c : Component)
  | wire (w : Wire)
  | nil
  | ptr (g : GV)
  | struct (fs : List (Txt × GV))
  | arr (l : List GV)
  /-- a pointer to an encoder -/
  | ref (p : Path)
  /-- the buffer from an offset on -/
  | slice (off : Nat)

/-- memory and local variables.  The number of the entries of an `f_subencoder` is in its own cell. -/
structure S where
  cells : Path → Nat
  mem : Bytes
  vars : Var → GV

/-- the value of a member of a struct -/
def lookup (f : Txt) : List (Txt × GV) → Option GV
  | [] => none
  | (k, g) :: l => if k = f then some g else lookup f l

/-- `value.f` -/
def fieldOfValue (s : S) (f : Txt) : Res GV :=
  match s.vars .value with
  | .ptr (.struct fs) =>
    match lookup f fs with
    | some g => .ok g
    | none => .panic
  | _ => .panic

/-- `len` -/
def GV.len : GV → Res GV
  | .bytes b => .ok (.num b.length)
  | .name n => .ok (.num (List.length n))
  | .wire w => .ok (.num (List.length w))
  | .arr l => .ok (.num l.length)
  | .nil => .ok (.num 0)
  | _ => .panic

/-- the bits of a type -/
def Ty.bits : Ty → Nat
  | .byte => 8
  | .u16 => 16
  | .u32 => 32
  | .u64 => 64
  | .uint => 64

/-- a conversion -/
def Ty.conv (t : Ty) : GV → Res GV
  | .num n => .ok (.num (n % 2 ^ t.bits))
  | .dur d => .ok (.num (d % 2 ^ t.bits).toNat)
  | _ => .panic

/-- the value of an expression -/
def Ex.eval (s : S) : Ex → Res GV
  | .num n => .ok (.num n)
  | .hex n => .ok (.num n)
  | .sum a b => .ok (.num (a + b))
  | .var v => .ok (s.vars v)
  | .field f => fieldOfValue s f
  | .deref f =>
    (fieldOfValue s f).bind fun g =>
      match g with
      | .ptr g => .ok g
      | _ => .panic
  | .item f v =>
    (fieldOfValue s f).bind fun g =>
      match g, s.vars v with
      | .arr l, .num n =>
        match l[n]? with
        | some g => .ok g
        | none => .panic
      | _, _ => .panic
  | .own k =>
    match s.vars .encoder with
    | .ref p => .ok (.num (s.cells (.key k :: p)))
    | _ => .panic
  | .own2 k k' =>
    match s.vars .encoder with
    | .ref p => .ok (.num (s.cells (.key k' :: .key k :: p)))
    | _ => .panic
  | .len e => (e.eval s).bind GV.len
  | .conv t e => (e.eval s).bind t.conv
  | .millis e =>
    (e.eval s).bind fun g =>
      match g with
      | .dur d => .ok (.dur (d.tdiv 1000000))
      | _ => .panic
  | .size v =>
    match s.vars v with
    | .comp c => .ok (.num c.encLen)
    | _ => .panic

/-- an expression that should be a number -/
def Ex.evalNum (s : S) (e : Ex) : Res Nat :=
  (e.eval s).bind fun g =>
    match g with
    | .num n => .ok n
    | _ => .panic

/-- a change of one variable -/
def upd (vars : Var → GV) (v : Var) (g : GV) : Var → GV := fun u => if u = v then g else vars u

/-- a change of one cell -/
def updCell (cells : Path → Nat) (p : Path) (n : Nat) : Path → Nat := fun q => if q = p then n else cells q

/-- `make([]struct{ … }, n)` at the place `p`: everything below is zero -/
def clear (cells : Path → Nat) (p : Path) (n : Nat) : Path → Nat := fun q => if q = p then n else if p <:+ q then 0 else cells q

/-- the offset of `buf` and the value of `pos` -/
def S.cursor (s : S) : Res (Nat × Nat) :=
  match s.vars .buf, s.vars .pos with
  | .slice off, .num pos => .ok (off, pos)
  | _, _ => .panic

/-- a call of `Init` (`true`) or `EncodeInto` of the encoder of a type: its argument, the place of the encoder, the offset of the buffer -/
abbrev Call := Txt → Bool → GV → Path → Nat → (Path → Nat) → Bytes → Res ((Path → Nat) × Bytes)

/-- writing bytes into memory at a place; a panic if they do not fit -/
def store (mem : Bytes) (at' : Nat) (bs : Bytes) : Res Bytes := if at' + bs.length ≤ mem.length then .ok (splice mem at' bs) else .panic

def Atom.exec (call : Call) : Atom → S → Res S
  | .decl v e, s => (e.eval s).map fun g => { s with vars := upd s.vars v g }
  | .refSub f v, s =>
    match s.vars .encoder, s.vars v with
    | .ref p, .num n =>
      if n < s.cells (.key (.sub f) :: p) then .ok { s with vars := upd s.vars .pseudoEncoder (.ref (.idx n :: .key (.sub f) :: p)) } else .panic
    | _, _ => .panic
  | .pseudo f _ e, s => (e.eval s).map fun g => { s with vars := upd s.vars .pseudoValue (.struct [(f, g)]) }
  | .addr, s => .ok { s with vars := upd s.vars .value (.ptr (s.vars .pseudoValue)) }
  | .inc v e, s =>
    (e.evalNum s).bind fun n =>
      match s.vars v with
      | .num a => .ok { s with vars := upd s.vars v (.num ((a + n) % 2 ^ 64)) }
      | _ => .panic
  | .setKey k e, s =>
    (e.evalNum s).bind fun n =>
      match s.vars .encoder with
      | .ref p => .ok { s with cells := updCell s.cells (.key k :: p) n }
      | _ => .panic
  | .incKey k e, s =>
    (e.evalNum s).bind fun n =>
      match s.vars .encoder with
      | .ref p => .ok { s with cells := updCell s.cells (.key k :: p) ((s.cells (.key k :: p) + n) % 2 ^ 64) }
      | _ => .panic
  | .makeSub f _, s =>
    match s.vars .encoder, s.vars (.count f) with
    | .ref p, .num n => .ok { s with cells := clear s.cells (.key (.sub f) :: p) n }
    | _, _ => .panic
  | .poke next e, s =>
    (e.evalNum s).bind fun n => s.cursor.bind fun (off, pos) =>
      (store s.mem (off + pos + if next then 1 else 0) [UInt8.ofNat n]).map fun mem => { s with mem := mem }
  | .putBE t e, s =>
    (e.evalNum s).bind fun n => s.cursor.bind fun (off, pos) =>
      (store s.mem (off + pos + 1) (be (t.bits / 8) (n % 2 ^ t.bits))).map fun mem => { s with mem := mem }
  | .copy e, s =>
    (e.eval s).bind fun g => s.cursor.bind fun (off, pos) =>
      match g with
      | .bytes b => (putCopy b (s.mem, off + pos)).map fun r => { s with mem := r.1 }
      | _ => .panic
  | .component v, s =>
    s.cursor.bind fun (off, pos) =>
      match s.vars v with
      | .comp c =>
        (putComponent c (s.mem, off + pos)).map fun r =>
          { s with mem := r.1, vars := upd s.vars .pos (.num ((pos + (r.2 - (off + pos))) % 2 ^ 64)) }
      | _ => .panic
  | .init f t, s =>
    (fieldOfValue s f).bind fun g =>
      match s.vars .encoder with
      | .ref p => (call t true g (.key (.enc f) :: p) 0 s.cells s.mem).map fun r => { s with cells := r.1, mem := r.2 }
      | _ => .panic
  | .into f t, s =>
    (fieldOfValue s f).bind fun g => s.cursor.bind fun (off, pos) =>
      match s.vars .encoder with
      | .ref p =>
        if off + pos ≤ s.mem.length then
          (call t false g (.key (.enc f) :: p) (off + pos) s.cells s.mem).map fun r => { s with cells := r.1, mem := r.2 }
        else .panic
      | _ => .panic
  | .use _, s => .ok s

def Cond.eval (s : S) : Cond → Res Bool
  | .notNil f =>
    (fieldOfValue s f).map fun g =>
      match g with
      | .nil => false
      | _ => true
  | .isTrue f =>
    (fieldOfValue s f).bind fun g =>
      match g with
      | .bool b => .ok b
      | _ => .panic
  | .positive e => (e.evalNum s).map fun n => decide (0 < n)

/-- the variables that the statements declare (those of inner blocks are not seen outside) -/
def Code.decls : Code → List Var
  | .done => []
  | .atom a k =>
    match a with
    | .decl v _ => v :: k.decls
    | .refSub _ _ => .pseudoEncoder :: k.decls
    | .pseudo _ _ _ => .pseudoValue :: k.decls
    | .addr => .value :: k.decls
    | _ => k.decls
  | .cond _ _ k => k.decls
  | .switch _ _ _ _ _ _ _ _ k => k.decls
  | .each _ _ _ k => k.decls
  | .items _ _ k => k.decls
  | .times _ _ k => k.decls
  | .block _ k => k.decls

/-- the end of a block: its variables are forgotten -/
def leave (vs : List Var) (s s' : S) : S := { s' with vars := fun v => if v ∈ vs then s.vars v else s'.vars v }

/-- the elements that `range` goes through -/
def GV.elems : GV → Res (List GV)
  | .name n => .ok (List.map .comp n)
  | .wire w => .ok (List.map .bytes w)
  | .arr l => .ok l
  | .nil => .ok []
  | _ => .panic

/-- the iterations of a loop, with the number of each -/
def loop (body : Nat → GV → S → Res S) : Nat → List GV → S → Res S
  | _, [], s => .ok s
  | n, g :: l, s => (body n g s).bind (loop body (n + 1) l)

def Code.exec (call : Call) : Code → S → Res S
  | .done, s => .ok s
  | .atom a k, s => (a.exec call s).bind (k.exec call)
  | .cond c b k, s =>
    (c.eval s).bind fun t => (if t then (b.exec call s).map (leave b.decls s) else .ok s).bind (k.exec call)
  | .switch e b1 b2 b3 c1 c2 c3 c4 k, s =>
    (e.evalNum s).bind fun n =>
      let s0 := { s with vars := upd s.vars .x (.num n) }
      ((if n ≤ b1 then (c1.exec call s0).map (leave (.x :: c1.decls) s)
        else if n ≤ b2 then (c2.exec call s0).map (leave (.x :: c2.decls) s)
        else if n ≤ b3 then (c3.exec call s0).map (leave (.x :: c3.decls) s)
        else (c4.exec call s0).map (leave (.x :: c4.decls) s)) : Res S).bind (k.exec call)
  | .each v e b k, s =>
    (e.eval s).bind fun g => g.elems.bind fun l =>
      (loop (fun _ g s => (b.exec call { s with vars := upd s.vars v g }).map (leave (v :: b.decls) s)) 0 l s).bind (k.exec call)
  | .items e b k, s =>
    (e.eval s).bind fun g => g.elems.bind fun l =>
      (loop (fun n g s => (b.exec call { s with vars := upd (upd s.vars .seqI (.num n)) .seqV g }).map (leave (.seqI :: .seqV :: b.decls) s)) 0 l s).bind
        (k.exec call)
  | .times v b k, s =>
    match s.vars v with
    | .num n =>
      (loop (fun n _ s => (b.exec call { s with vars := upd s.vars .i (.num n) }).map (leave (.i :: b.decls) s)) 0 (List.replicate n .nil) s).bind
        (k.exec call)
    | _ => .panic
  | .block b k, s => ((b.exec call s).map (leave b.decls s)).bind (k.exec call)

/-- the variables at the beginning of a method -/
def entry (g : GV) (p : Path) (off : Nat) : Var → GV :=
  upd (upd (upd (fun _ => .nil) .value g) .encoder (.ref p)) .buf (.slice off)

/-- the methods of the encoders of the models `ms`; `fuel` bounds the depth of the calls -/
def callOf (ms : List TModel) : Nat → Call
  | 0 => fun _ _ _ _ _ _ _ => .panic
  | fuel + 1 => fun t isInit g p off cells mem =>
    match ms.find? fun m => m.name == t with
    | none => .panic
    | some m =>
      ((if isInit then initBody m.fields else intoBody m.fields).exec (callOf ms fuel) ⟨cells, mem, entry g p off⟩).map fun s => (s.cells, s.mem)

/-- `(value *t) Encode`, model.go:258-265, with `Encode` of the encoder, model.go:108-125: the bytes of the one buffer of the wire.  Memory for the buffer
is always found. -/
def runEncode (ms : List TModel) (fuel : Nat) (t : Txt) (g : GV) : Res Bytes :=
  (callOf ms fuel t true g [] 0 (fun _ => 0) []).bind fun r =>
    (callOf ms fuel t false g [] 0 r.1 (List.replicate (r.1 [.key .length]) 0)).map (·.2)

end Ndn.Codec.Gen
