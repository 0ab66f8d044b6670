import Verif.Codec.RunNoCopy
import Verif.Codec.EmitSigned

/-!
# What the statements of the emitted encoder of a model with a signature do

The meaning of the statements of `Verif/Codec/EmitSigned.lean`.  A slice of the wire that the encoder keeps is a part of a block of memory, or of a buffer of
the caller; its bytes are those of that memory at the end.  A buffer of the caller has no capacity beyond its length.

`Init` changes the name of an Interest, `value.NameV`.  Names are values here: that `append` may write into an array that the caller shares with others is
not seen.
-/

namespace Ndn.Codec.Gen

/-- the slice `[lo:hi]` of what an entry of the wire refers to -/
structure Part where
  ref : Ref
  lo : Nat
  hi : Nat
  deriving DecidableEq, Repr

/-- the bytes of a slice -/
def Part.bytes (blocks : List Bytes) (q : Part) : Bytes := ((q.ref.mem blocks).take q.hi).drop q.lo

/-- memory, local variables and the members of the encoder that keep places: of a marker `m`, `encoder.m` is `mark m`, `encoder.m_wireIdx` is `idx m` and
`encoder.m_pos` is `at' m`; of a signature or a name `f`, `encoder.f_wireIdx` is `idx f`, of a name, `encoder.f_pos` is `at' f`; and `encoder.cov` is `covered cov` -/
structure SS where
  ns : NS
  mark : Txt → Int
  idx : Txt → Int
  at' : Txt → Int
  covered : Txt → List Part
  startPos : Int
  /-- `encoder.f_needDigest`, set before `Init` -/
  need : Txt → Bool
  /-- `sigCoverStart` and `sigCoverEnd` -/
  nameFrom : Nat
  nameTo : Nat

/-- a change of one member -/
def setAt {α : Type} (f : Txt → α) (k : Txt) (a : α) : Txt → α := fun j => if j = k then a else f j

/-- `int(n)` of a `uint` -/
def asInt (n : Nat) : Int := if n < 2 ^ 63 then n else n - 2 ^ 64

/-- a local variable of type `uint` (Go's compiler would reject another one, here it counts as 0) -/
def numVar (ss : SS) (v : Var) : Nat :=
  match ss.ns.s.vars v with
  | .num n => n
  | _ => 0

/-- `r[lo:hi]` -/
def sliceRef (blocks : List Bytes) (r : Ref) (lo hi : Int) : Res Part :=
  if 0 ≤ lo ∧ lo ≤ hi ∧ hi ≤ (r.mem blocks).length then .ok ⟨r, lo.toNat, hi.toNat⟩ else .panic

/-- `wire[i]` -/
def entryAt (wire : List Ref) (i : Int) : Res Ref :=
  if 0 ≤ i then
    match wire[i.toNat]? with
    | some r => .ok r
    | none => .panic
  else .panic

/-- `wire[i]`, …, `wire[i + n - 1]`, whole -/
def wholeParts (blocks : List Bytes) (wire : List Ref) (i : Int) : Nat → Res (List Part)
  | 0 => .ok []
  | n + 1 => (entryAt wire i).bind fun r => (wholeParts blocks wire (i + 1) n).map fun l => ⟨r, 0, (r.mem blocks).length⟩ :: l

/-- the parts that signature.go:75-87 appends -/
def coverParts (ss : SS) (m : Txt) : Res (List Part) :=
  let ns := ss.ns
  if ss.idx m = (ns.idx : Int) then (sliceRef ns.blocks ns.buf (ss.mark m) ss.startPos).map fun q => [q]
  else
    (entryAt ns.wire (ss.idx m)).bind fun r => (sliceRef ns.blocks r (ss.mark m) (r.mem ns.blocks).length).bind fun q1 =>
      (wholeParts ns.blocks ns.wire (ss.idx m + 1) ((ns.idx : Int) - (ss.idx m + 1)).toNat).bind fun qs =>
        (sliceRef ns.blocks ns.buf 0 ss.startPos).map fun q2 => q1 :: (qs ++ [q2])

/-- a member of a struct is set -/
def setField (f : Txt) (g : GV) : List (Txt × GV) → List (Txt × GV)
  | [] => []
  | (k, x) :: l => if k = f then (k, g) :: l else (k, x) :: setField f g l

/-- `value.f = …` of a name that is not nil -/
def SS.changeName (ss : SS) (f : Txt) (φ : Name → Name) : Res SS :=
  match ss.ns.s.vars .value with
  | .ptr (.struct kvs) =>
    match lookup f kvs with
    | some (.name n) =>
      .ok { ss with ns := { ss.ns with s := { ss.ns.s with vars := upd ss.ns.s.vars .value (.ptr (.struct (setField f (.name (φ n)) kvs))) } } }
    | _ => .panic
  | _ => .panic

/-- `value.f[:len(value.f)-1]`, if the last component is a `ParametersSha256DigestComponent` -/
def trimDigest (n : Name) : Name :=
  match n.getLast? with
  | some c => if c.typ = 2 then n.dropLast else n
  | none => n

def SAtom.exec : SAtom → SS → Res SS
  | .noIdx f, ss => .ok { ss with idx := setAt ss.idx f (-1) }
  | .markLen f, ss => .ok { ss with mark := setAt ss.mark f (asInt (numVar ss .l)) }
  | .planIdx f, ss => .ok { ss with idx := setAt ss.idx f ss.ns.plan.length }
  | .markIdx f, ss => .ok { ss with idx := setAt ss.idx f ss.ns.idx }
  | .markPos f, ss => .ok { ss with at' := setAt ss.at' f (asInt (numVar ss .pos)) }
  | .startPos, ss => .ok { ss with startPos := asInt (numVar ss .pos) }
  | .cover m cov, ss => (coverParts ss m).map fun l => { ss with covered := setAt ss.covered cov (ss.covered cov ++ l) }
  | .trim f, ss => ss.changeName f trimDigest
  | .addDigest f, ss => if ss.need f then ss.changeName f fun n => n ++ [⟨2, List.replicate 32 0⟩] else .ok ss
  | .nameFrom, ss => .ok { ss with nameFrom := numVar ss .pos }
  | .nameTo, ss => .ok { ss with nameTo := numVar ss .pos }
  | .digestPos f, ss => .ok { ss with at' := setAt ss.at' f ((numVar ss .pos + 2) % 2 ^ 64 : Nat) }
  | .nameWhole f, ss => .ok (if ss.need f then ss else { ss with nameTo := numVar ss .pos })
  | .nameCover cov, ss =>
    (sliceRef ss.ns.blocks ss.ns.buf ss.nameFrom ss.nameTo).map fun q => { ss with covered := setAt ss.covered cov (ss.covered cov ++ [q]) }

/-- the body of a loop over the components of a name -/
def withComp (call : Call) (b : Code) (g : GV) (s : S) : Res S := (b.exec call { s with vars := upd s.vars .c g }).map (leave (.c :: b.decls) s)

/-- The blocks of these statements declare no variable of `Var`; `startPos` is not used behind its block. -/
def SCode.exec (call : Call) : SCode → SS → Res SS
  | .done, ss => .ok ss
  | .plain c k, ss => ((c.exec call ss.ns).map fun ns => { ss with ns := ns }).bind (k.exec call)
  | .atom a k, ss => (a.exec ss).bind (k.exec call)
  | .cond c b k, ss => (c.eval ss.ns.s).bind fun t => (if t then b.exec call ss else .ok ss).bind (k.exec call)
  | .heads f b k, ss =>
    (fieldOfValue ss.ns.s f).bind fun g => g.elems.bind fun l =>
      (((loop (fun _ g s => withComp call b g s) 0 l.dropLast ss.ns.s).bind ss.ns.through).map fun ns => { ss with ns := ns }).bind (k.exec call)
  | .last f a b c k, ss =>
    (fieldOfValue ss.ns.s f).bind fun g => g.elems.bind fun l =>
      (match l.getLast? with
        | none => Res.ok ss
        | some g =>
          (a.exec ss).bind fun ss => (((withComp call b g ss.ns.s).bind ss.ns.through).map fun ns => { ss with ns := ns }).bind c.exec).bind (k.exec call)

/-- the members of an encoder that has just been made, but for the estimated lengths of signatures, which are set before `Init` -/
def estCells (est : Txt → Nat) : Path → Nat
  | [.key (.est f)] => est f
  | _ => 0

/-- the state at the beginning of `Init` -/
def SS.entry (g : GV) (est : Txt → Nat) (need : Txt → Bool) : SS :=
  { ns := NS.entry g (estCells est) [] [] [], mark := fun _ => 0, idx := fun _ => 0, at' := fun _ => 0, covered := fun _ => [], startPos := 0, need := need,
    nameFrom := 0, nameTo := 0 }

/-- `Init` of the encoder of the model -/
def initOf (ms : List TModel) (fuel : Nat) (m : TModel) (g : GV) (est : Txt → Nat) (need : Txt → Bool) : Res SS :=
  (initSignedBody m.fields).exec (callOf ms fuel) (SS.entry g est need)

/-- the state at the beginning of `EncodeInto`, with the value as `Init` has left it, and the wire that `Encode` makes -/
def SS.again (ss : SS) : SS :=
  { ss with ns := NS.entry (ss.ns.s.vars .value) ss.ns.s.cells (ss.ns.ownPlan.map fun n => List.replicate n 0) (freshWire 0 ss.ns.ownPlan) ss.ns.ownPlan }

/-- what the caller of the encoder gets: the wire, and `encoder.length`, `encoder.f_wireIdx`, `encoder.f_pos` and `encoder.cov` -/
structure Signed where
  wire : List Piece
  length : Nat
  idx : Txt → Int
  pos : Txt → Int
  covered : Txt → List Bytes

/-- what the caller gets of the states at the ends of `Init` and `EncodeInto` -/
def Signed.ofStates (ss ss' : SS) : Signed :=
  ⟨ss'.ns.wire.map (Ref.piece ss'.ns.blocks), ss.ns.s.cells [.key .length], ss'.idx, ss'.at', fun c => (ss'.covered c).map (Part.bytes ss'.ns.blocks)⟩

/-- `Init`, with the estimated lengths and `encoder.f_needDigest` set before, and then `Encode`, model.go:108-125 -/
def runModel (ms : List TModel) (fuel : Nat) (m : TModel) (g : GV) (est : Txt → Nat) (need : Txt → Bool) : Res Signed :=
  (initOf ms fuel m g est need).bind fun ss => ((intoSignedBody m.fields).exec (callOf ms fuel) ss.again).map (Signed.ofStates ss)

/-- the encoder of the model called `t` -/
def runSigned (ms : List TModel) (fuel : Nat) (t : Txt) (g : GV) (est : Txt → Nat) (need : Txt → Bool := fun _ => false) : Res Signed :=
  match ms.find? fun m => m.name == t with
  | none => .panic
  | some m => runModel ms fuel m g est need

end Ndn.Codec.Gen
