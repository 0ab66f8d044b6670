import Verif.Codec.EmitParse
import Verif.Codec.Run

/-!
# What the statements of the emitted parser do

The meaning of the small language of `Verif/Codec/EmitParse.lean`, as Go has it, on a `BufferReader`.  The contexts hold nothing but other contexts, so they
have no meaning here.  An operation on a value of a wrong type, which Go's compiler would reject, is a panic.  What a pointer points at does not change later.
-/

namespace Ndn.Codec.Gen

/-- the local variables of `Parse`.  `l2` is the inner `l` of the loop over the components of a name; `temp` is `tempVal`. -/
structure PS where
  nilReader : Bool
  rd : BR
  /-- the struct that `value` points at -/
  kvs : List (Txt × GV)
  err : Option Err
  handledF : Txt → Bool
  progress : Int
  startPos : Nat
  typ : Nat
  l : Nat
  handled : Bool
  x : Nat
  temp : GV
  timeInt : Nat
  builder : Bytes
  str : Bytes
  startName : Int
  endName : Int
  j : Nat
  l2 : Nat
  err1 : Option Err
  err2 : Option Err
  err3 : Option Err
  pseudo : List (Txt × GV)

/-- how statements end: with the next one, a `break`, a `return`, a panic, or not within the fuel -/
inductive Out where
  | next (s : PS)
  | brk (s : PS)
  | ret (g : GV) (e : Option Err) (s : PS)
  | panic
  | stuck

/-- then -/
def Out.bind : Out → (PS → Out) → Out
  | .next s, k => k s
  | o, _ => o

/-- what a call gives -/
inductive Called where
  | ret (g : GV) (e : Option Err)
  | panic
  | stuck

/-- `value.f = g` -/
def setKv (f : Txt) (g : GV) : List (Txt × GV) → List (Txt × GV)
  | [] => [(f, g)]
  | (k, x) :: l => if k = f then (k, g) :: l else (k, x) :: setKv f g l

def PS.put (s : PS) (f : Txt) (g : GV) : PS := { s with kvs := setKv f g s.kvs }

/-- the loop of `ReadTLNum`, primitives.go:86-94, with both of the results -/
def beBoth : Nat → Nat → BR → Nat × Option Err × BR
  | 0, val, r => (val, none, r)
  | n + 1, val, r =>
    match BR.readByte r with
    | (.ok x, r') => beBoth n ((val * 256) % 2 ^ 64 + x.toNat) r'
    | (.err e, r') => (val, some (if e = .eof then .unexpectedEof else e), r')
    | (.panic, r') => (val, some .other, r')  -- `ReadByte` does not panic

/-- `ReadTLNum`, primitives.go:68-96, with both of the results: when a byte is missing, the number is what was read of it -/
def tlBoth (r : BR) : Nat × Option Err × BR :=
  match BR.readByte r with
  | (.ok x, r') =>
    if x.toNat ≤ 0xfc then (x.toNat, none, r')
    else if x.toNat = 0xfd then beBoth 2 0 r'
    else if x.toNat = 0xfe then beBoth 4 0 r'
    else beBoth 8 0 r'
  | (.err e, r') => (0, some e, r')
  | (.panic, r') => (0, some .other, r')

/-- the number in a slot -/
def Slot.get (s : PS) : Slot → Option Nat
  | .temp =>
    match s.temp with
    | .num n => some n
    | _ => none
  | .timeInt => some s.timeInt
  | .field f =>
    match lookup f s.kvs with
    | some (.num n) => some n
    | _ => none

def Slot.set (s : PS) (n : Nat) : Slot → PS
  | .temp => { s with temp := .num n }
  | .timeInt => { s with timeInt := n }
  | .field f => s.put f (.num n)

/-- what a call of a method of the reader leaves in `err` -/
def Res.asErr {α : Type} : Res α → Option Err
  | .err e => some e
  | _ => none

/-- `io.ReadFull` into `n` bytes.  The bytes that are read before an error are not kept here. -/
def fillBytes (n : Nat) : RM BR Bytes := fun r =>
  if n = 0 then (.ok [], r)
  else match BR.read n r with
    | (.ok bs, r') => if bs.length = n then (.ok bs, r') else (.err .unexpectedEof, r')
    | (.err e, r') => (.err e, r')
    | (.panic, r') => (.panic, r')

/-- the rounds of `for { … }` -/
def rounds (body : PS → Out) : Nat → PS → Out
  | 0, _ => .stuck
  | n + 1, s =>
    match body s with
    | .next s' => rounds body n s'
    | .brk s' => .next s'
    | o => o

/-- a loop with a bound; the argument of the body is the number of the round -/
def upTo (body : Nat → PS → Out) : Nat → Nat → PS → Out
  | 0, _, s => .next s
  | n + 1, i, s =>
    match body i s with
    | .next s' => upTo body n (i + 1) s'
    | .brk s' => .next s'
    | o => o

/-- the zero value of a Go type -/
def zeroOf (t : Txt) : GV :=
  if t = t!"uint64" ∨ t = t!"uint32" ∨ t = t!"uint16" ∨ t = t!"byte" then .num 0
  else if t = t!"time.Duration" then .dur 0
  else if t = t!"string" then .bytes []
  else if t = t!"bool" then .bool false
  else .nil

/-- the zero value of the field of a struct -/
def zeroCls : Cls → GV
  | .natural o => if o then .nil else .num 0
  | .fixedUint _ o => if o then .nil else .num 0
  | .time o => if o then .nil else .dur 0
  | .string o => if o then .nil else .bytes []
  | .bool => .bool false
  | _ => .nil

/-- what is around the statements: the methods of other contexts, `ignoreCritical`, the rounds that a loop without bound may take, the zero value of the struct -/
structure Env where
  call : Txt → BR → Called
  ic : Bool
  fuel : Nat
  zero : List (Txt × GV)

def P.exec (E : Env) : P → PS → Out
  | .skip, s => .next s
  | .seq a b, s => (a.exec E s).bind (b.exec E)
  | .note _, s => .next s
  | .block b, s => b.exec E s
  | .brk, s => .brk s
  | .ifNilReader b, s => if s.nilReader then b.exec E s else .next s
  | .declHandled f, s => .next { s with handledF := fun g => if g = f then false else s.handledF g }
  | .declProgress, s => .next { s with progress := -1 }
  | .newValue _, s => .next { s with kvs := E.zero }
  | .declErr, s => .next { s with err := none }
  | .declStart, s => .next { s with startPos := 0 }
  | .forever b, s => rounds (b.exec E) E.fuel s
  | .setStart, s => .next { s with startPos := s.rd.pos }
  | .ifEnd b, s => if s.startPos ≥ s.rd.buf.length then b.exec E s else .next s
  | .declTyp, s => .next { s with typ := 0 }
  | .declL, s => .next { s with l := 0 }
  | .readTyp, s => .next { s with typ := (tlBoth s.rd).1, err := (tlBoth s.rd).2.1, rd := (tlBoth s.rd).2.2 }
  | .readL, s => .next { s with l := (tlBoth s.rd).1, err := (tlBoth s.rd).2.1, rd := (tlBoth s.rd).2.2 }
  | .ifErr b, s => if s.err.isSome then b.exec E s else .next s
  | .ifNoErr b, s => if s.err.isNone then b.exec E s else .next s
  | .ifEof b, s => if s.err = some .eof then b.exec E s else .next s
  | .noErr, s => .next { s with err := none }
  | .errEof, s => .next { s with err := some .unexpectedEof }
  | .errOverflow, s => .next { s with err := some .overflow }
  | .errRequired _ _, s => .next { s with err := some .skipRequired }
  | .retNil, s => .ret .nil (some .overflow) s
  | .retFail0, s => .ret .nil (s.err.map (.failToParse 0)) s
  | .retFail, s => .ret .nil (s.err.map (.failToParse s.typ)) s
  | .retUnrecognized, s => .ret .nil (some (.unrecognized s.typ)) s
  | .retErr, s => .ret .nil s.err s
  | .retValue, s => .ret (.ptr (.struct s.kvs)) none s
  | .scope b, s => b.exec E { s with handled := false }
  | .always b, s => b.exec E s
  | .switch b, s =>
    match b.exec E s with
    | .brk s' => .next s'
    | o => o
  | .case n b rest, s => if s.typ = n then b.exec E s else rest.exec E s
  | .dflt b, s => b.exec E s
  | .handled, s => .next { s with handled := true }
  | .handledF f, s => .next { s with handledF := fun g => if g = f then true else s.handledF g }
  | .ifCritical b, s => if !E.ic && (s.typ ≤ 31 || s.typ % 2 == 1) then b.exec E s else .next s
  | .ifUnhandled b, s => if s.err.isNone && !s.handled then b.exec E s else .next s
  | .ifUnhandledF f b, s => if !s.handledF f && s.err.isNone then b.exec E s else .next s
  | .skipL, s =>
    match BR.skip (toInt s.l) s.rd with
    | (.panic, _) => .panic
    | (r, rd) => .next { s with err := Res.asErr r, rd := rd }
  | .skip1, s =>
    match BR.skip 1 s.rd with
    | (.panic, _) => .panic
    | (r, rd) => .next { s with err := Res.asErr r, rd := rd }
  | .declZero v _, s => .next (v.set s 0)
  | .setZero v _, s => .next (v.set s 0)
  | .forL b, s => upTo (fun _ => b.exec E) (toInt s.l).toNat 0 s
  | .declX, s => .next { s with x := 0 }
  | .readX, s =>
    match BR.readByte s.rd with
    | (.ok b, rd) => .next { s with x := b.toNat, err := none, rd := rd }
    | (.err e, rd) => .next { s with x := 0, err := some e, rd := rd }
    | (.panic, _) => .panic
  | .readByteF f, s =>
    match BR.readByte s.rd with
    | (.ok b, rd) => .next ({ s with err := none, rd := rd }.put f (.num b.toNat))
    | (.err e, rd) => .next ({ s with err := some e, rd := rd }.put f (.num 0))
    | (.panic, _) => .panic
  | .shiftIn v t, s =>
    match v.get s with
    | some n => .next (v.set s ((n <<< 8) % 2 ^ t.bits ||| s.x % 2 ^ t.bits))
    | none => .panic
  | .box f, s => .next (s.put f (.ptr s.temp))
  | .backByte f, s =>
    match s.rd.range ((s.rd.pos : Int) - 1) s.rd.pos with
    | some ((b :: _) :: _) => .next (s.put f (.ptr (.num b.toNat)))
    | _ => .panic
  | .declTime, s => .next { s with temp := .dur (wrap64 (toInt s.timeInt * 1000000)) }
  | .setTime f, s => .next (s.put f (.dur (wrap64 (toInt s.timeInt * 1000000))))
  | .make f, s => if s.l > maxAlloc then .panic else .next (s.put f (.bytes (List.replicate s.l 0)))
  | .readFull f, s =>
    match lookup f s.kvs with
    | some (.bytes b) =>
      match fillBytes b.length s.rd with
      | (.ok bs, rd) => .next ({ s with err := none, rd := rd }.put f (.bytes bs))
      | (.err e, rd) => .next { s with err := some e, rd := rd }
      | (.panic, _) => .panic
    | _ => .panic
  | .declBuilder, s => .next { s with builder := [] }
  | .copyN, s =>
    match Ndn.Codec.copyN s.l s.rd with
    | (.ok bs, rd) => .next { s with builder := s.builder ++ bs, err := none, rd := rd }
    | (.err e, rd) => .next { s with err := some e, rd := rd }
    | (.panic, _) => .panic
  | .declStr, s => .next { s with str := s.builder }
  | .boxStr f, s => .next (s.put f (.ptr (.bytes s.str)))
  | .setStr f, s => .next (s.put f (.bytes s.builder))
  | .readWire f, s =>
    match BR.readWire (toInt s.l) s.rd with
    | (.ok w, rd) => .next ({ s with err := none, rd := rd }.put f (.wire w))
    | (.err e, rd) => .next ({ s with err := some e, rd := rd }.put f .nil)
    | (.panic, _) => .panic
  | .makeName f, s =>
    if (s.l / 2 + 1) * 32 > maxAlloc then .panic else .next (s.put f (.name (List.replicate (s.l / 2 + 1) ⟨0, []⟩)))
  | .startName, s => .next { s with startName := s.rd.pos }
  | .endName, s => .next { s with endName := wrap64 (s.startName + toInt s.l) }
  | .overName f b, s =>
    match lookup f s.kvs with
    | some (.name n) => upTo (fun j s => b.exec E { s with j := j }) (List.length n) 0 s
    | _ => .panic
  | .ifPast b, s => if (s.rd.pos : Int) ≥ s.endName then b.exec E s else .next s
  | .cut f, s =>
    match lookup f s.kvs with
    | some (.name n) => if s.j ≤ List.length n then .next (s.put f (.name (List.take s.j n))) else .panic
    | _ => .panic
  | .declErrs, s => .next { s with err1 := none, err3 := none }
  | .compTyp f, s =>
    match lookup f s.kvs with
    | some (.name n) =>
      match (n : List Component)[s.j]? with
      | some c => .next ({ s with err1 := (tlBoth s.rd).2.1, rd := (tlBoth s.rd).2.2 }.put f (.name (List.set n s.j ⟨(tlBoth s.rd).1, c.val⟩)))
      | none => .panic
    | _ => .panic
  | .compLen, s => .next { s with l2 := (tlBoth s.rd).1, err2 := (tlBoth s.rd).2.1, rd := (tlBoth s.rd).2.2 }
  | .compVal f, s =>
    match lookup f s.kvs with
    | some (.name n) =>
      match (n : List Component)[s.j]? with
      | some c =>
        match BR.readBuf (toInt s.l2) s.rd with
        | (.ok b, rd) => .next ({ s with err3 := none, rd := rd }.put f (.name (List.set n s.j ⟨c.typ, b⟩)))
        | (.err e, rd) => .next ({ s with err3 := some e, rd := rd }.put f (.name (List.set n s.j ⟨c.typ, []⟩)))
        | (.panic, _) => .panic
      | none => .panic
    | _ => .panic
  | .ifErrs b, s => if s.err1.isSome || s.err2.isSome || s.err3.isSome then b.exec E s else .next s
  | .ifNotAt b, s => if s.err.isNone && decide ((s.rd.pos : Int) ≠ s.endName) then b.exec E s else .next s
  | .setBool f v, s => .next (s.put f (.bool v))
  | .setNil f, s => .next (s.put f .nil)
  | .parse f t, s =>
    match BR.delegate (toInt s.l) s.rd with
    | (.ok sub, rd) =>
      match E.call t sub with
      | .ret g e => .next ({ s with err := e, rd := rd }.put f g)
      | .panic => .panic
      | .stuck => .stuck
    | _ => .panic
  | .ifNilF f b, s =>
    match lookup f s.kvs with
    | some .nil => b.exec E s
    | some _ => .next s
    | none => .panic
  | .makeSeq f _, s => .next (s.put f (.arr []))
  | .pseudo f t, s => .next { s with pseudo := [(f, zeroOf t)] }
  | .within b, s =>
    match b.exec E { s with kvs := s.pseudo } with
    | .next s' => .next { s' with kvs := s.kvs, pseudo := s'.kvs }
    | .brk s' => .brk { s' with kvs := s.kvs, pseudo := s'.kvs }
    | o => o
  | .appendF f, s =>
    match lookup f s.kvs, lookup f s.pseudo with
    | some (.arr gs), some g => .next (s.put f (.arr (gs ++ [g])))
    | _, _ => .panic
  | .decProgress, s => .next { s with progress := s.progress - 1 }

/-- the variables at the beginning of `Parse`; those that are declared later have any value -/
def start (r : Option BR) : PS :=
  { nilReader := r.isNone, rd := r.getD ⟨[], 0⟩, kvs := [], err := none, handledF := fun _ => true, progress := 0, startPos := 0, typ := 0, l := 0,
    handled := true, x := 0, temp := .nil, timeInt := 0, builder := [], str := [], startName := 0, endName := 0, j := 0, l2 := 0, err1 := none, err2 := none,
    err3 := none, pseudo := [] }

/-- `Parse` of the contexts of the models `ms`, on a reader or nil; `depth` bounds the depth of the calls.  The end of a method without `return` does not exist
in Go; it is a panic here. -/
def parseOf (ms : List TModel) (ic : Bool) (fuel : Nat) : Nat → Txt → Option BR → Called
  | 0, _, _ => .stuck
  | depth + 1, t, r =>
    match ms.find? fun m => m.name == t with
    | none => .panic
    | some m =>
      match (parseBody m).exec ⟨fun t r => parseOf ms ic fuel depth t (some r), ic, fuel, m.fields.map fun f => (f.name, zeroCls f.cls)⟩ (start r) with
      | .ret g e _ => .ret g e
      | .stuck => .stuck
      | _ => .panic

end Ndn.Codec.Gen
