import Verif.Codec.EmitOrdered
import Verif.Codec.ParseFields
import Verif.Packet.Parse

/-!
# The code that arguments, markers, signatures and Interest names put into a parser, and what it does

Statements that plain fields have, too, are those of `EmitParse.lean` and `RunParse.lean`.
-/

namespace Ndn.Codec.Gen

/-- statements -/
inductive Sp where
  | seq (a b : Sp)
  /-- statements of plain fields -/
  | p (x : P)
  /-- a comment -/
  | note (t : Txt)
  /-- `{ … }` -/
  | block (b : Sp)
  /-- `context.f = int(startPos)`, `context.cov = reader.Range(context.start, startPos)` -/
  | setInt (f : Txt)
  | setRange (cov start : Txt)
  /-- `if err == nil { … }` -/
  | ifOk (b : Sp)
  /-- `coveredPart := reader.Range(context.start, startPos)`, `coveredPart := reader.Range(startName, sigCoverEnd)` -/
  | partFrom (start : Txt)
  | partName
  /-- `context.cov = append(context.cov, coveredPart...)` -/
  | append (cov : Txt)
  /-- `sigCoverEnd := endName`, `sigCoverEnd = startComponent`, `startComponent := reader.Pos()` -/
  | coverEnd
  | coverHere
  | startComp
  /-- `for j := range value.f { … }` -/
  | overName (f : Txt) (b : Sp)
  /-- `if startComponent >= endName { … }` -/
  | ifPastC (b : Sp)
  /-- `if value.f[j].Typ == enc.TypeParametersSha256DigestComponent { … }` -/
  | ifDigest (f : Txt) (b : Sp)
  deriving DecidableEq, Repr

/-- one after the other -/
def Sp.all : Sp → List Sp → Sp
  | a, [] => a
  | a, b :: l => .seq a (Sp.all b l)

/-- the lines of Go -/
def Sp.text : Sp → List Txt
  | .seq a b => a.text ++ b.text
  | .p x => x.text
  | .note t => [t]
  | .block b => [t!"{"] ++ b.text ++ [t!"}"]
  | .setInt f => [t!"context." ++ f ++ t!" = int(startPos)"]
  | .setRange cov start => [t!"context." ++ cov ++ t!" = reader.Range(context." ++ start ++ t!", startPos)"]
  | .ifOk b => [t!"if err == nil {"] ++ b.text ++ [t!"}"]
  | .partFrom start => [t!"coveredPart := reader.Range(context." ++ start ++ t!", startPos)"]
  | .partName => [t!"coveredPart := reader.Range(startName, sigCoverEnd)"]
  | .append cov => [t!"context." ++ cov ++ t!" = append(context." ++ cov ++ t!", coveredPart...)"]
  | .coverEnd => [t!"sigCoverEnd := endName"]
  | .coverHere => [t!"sigCoverEnd = startComponent"]
  | .startComp => [t!"startComponent := reader.Pos()"]
  | .overName f b => [t!"for j := range value." ++ f ++ t!" {"] ++ b.text ++ [t!"}"]
  | .ifPastC b => [t!"if startComponent >= endName {"] ++ b.text ++ [t!"}"]
  | .ifDigest f b => [t!"if value." ++ f ++ t!"[j].Typ == enc.TypeParametersSha256DigestComponent {"] ++ b.text ++ [t!"}"]

/-- the statements that read a component: type, length, value -/
abbrev compRest (f : Txt) : P := P.all [.compTyp f, .compLen, .compVal f, .ifErrs (P.all [.errEof, .brk])]

/-- the body of the loop over the components of the name of an Interest -/
abbrev intRound (f : Txt) : Sp :=
  Sp.all (.p .declErrs) [.startComp, .ifPastC (.p (P.all [.cut f, .brk])), .p (compRest f), .ifDigest f .coverHere]

/-- `GenReadFrom`: fields.go:96-98, markers.go:52-54 and 124-126, signature.go:103-111 and 231-270 -/
def specialRead (f : Txt) : Cls → Option Sp
  | .arg _ => some (.note t!"// base - read")
  | .offset _ => some (.setInt f)
  | .range start cov _ => some (Sp.all (.setInt f) [.setRange cov start])
  | .signature start cov _ => some (Sp.all (.p (.readWire f)) [.ifOk (Sp.all (.partFrom start) [.append cov])])
  | .interestName cov => some (.block (Sp.all (.p (.makeName f)) [.p .startName, .p .endName, .coverEnd, .overName f (intRound f), .p (.ifNotAt .errOverflow),
      .ifOk (Sp.all .partName [.append cov])]))
  | _ => none

/-- `GenSkipProcess`: fields.go:100-102, markers.go:56-58 and 128-133, signature.go:113-115 and 272-274 -/
def specialSkip (f : Txt) : Cls → Option Sp
  | .arg _ => some (.note t!"// base - skip")
  | .offset _ => some (.setInt f)
  | .range start cov _ => some (Sp.all (.setInt f) [.setRange cov start])
  | .signature _ _ _ => some (.p (.setNil f))
  | .interestName _ => some (.p (.setNil f))
  | _ => none

/-! ## What they do -/

/-- the variables: those of plain fields, the integers and wires in `context`, `startComponent`, `sigCoverEnd` and `coveredPart` -/
structure SpState where
  ps : PS
  ints : Txt → Int
  wires : Txt → Wire
  startComp : Nat
  coverEnd : Int
  part : Wire

/-- how statements end -/
inductive SpOut where
  | next (s : SpState)
  | brk (s : SpState)
  | ret
  | panic
  | stuck

/-- then -/
def SpOut.bind : SpOut → (SpState → SpOut) → SpOut
  | .next s, k => k s
  | o, _ => o

/-- a loop with a bound -/
def spUpTo (body : Nat → SpState → SpOut) : Nat → Nat → SpState → SpOut
  | 0, _, s => .next s
  | n + 1, i, s =>
    match body i s with
    | .next s' => spUpTo body n (i + 1) s'
    | .brk s' => .next s'
    | o => o

/-- `context.k = x` -/
def ctxUpd {α : Type} (m : Txt → α) (k : Txt) (x : α) : Txt → α := fun t => if t = k then x else m t

/-- The statements.  `Range` of a part that is not there is nil, an empty wire (readers.go:102-107). -/
def Sp.exec (E : Env) : Sp → SpState → SpOut
  | .seq a b, s => (a.exec E s).bind (b.exec E)
  | .p x, s =>
    match x.exec E s.ps with
    | .next q => .next { s with ps := q }
    | .brk q => .brk { s with ps := q }
    | .ret _ _ _ => .ret
    | .panic => .panic
    | .stuck => .stuck
  | .note _, s => .next s
  | .block b, s => b.exec E s
  | .setInt f, s => .next { s with ints := ctxUpd s.ints f s.ps.startPos }
  | .setRange cov start, s => .next { s with wires := ctxUpd s.wires cov ((s.ps.rd.range (s.ints start) s.ps.startPos).getD []) }
  | .ifOk b, s => if s.ps.err.isNone then b.exec E s else .next s
  | .partFrom start, s => .next { s with part := (s.ps.rd.range (s.ints start) s.ps.startPos).getD [] }
  | .partName, s => .next { s with part := (s.ps.rd.range s.ps.startName s.coverEnd).getD [] }
  | .append cov, s => .next { s with wires := ctxUpd s.wires cov (s.wires cov ++ s.part) }
  | .coverEnd, s => .next { s with coverEnd := s.ps.endName }
  | .coverHere, s => .next { s with coverEnd := s.startComp }
  | .startComp, s => .next { s with startComp := s.ps.rd.pos }
  | .overName f b, s =>
    match lookup f s.ps.kvs with
    | some (.name n) => spUpTo (fun j s => b.exec E { s with ps := { s.ps with j := j } }) (List.length n) 0 s
    | _ => .panic
  | .ifPastC b, s => if (s.startComp : Int) ≥ s.ps.endName then b.exec E s else .next s
  | .ifDigest f b, s =>
    match lookup f s.ps.kvs with
    | some (.name n) =>
      match (n : List Component)[s.ps.j]? with
      | some c => if c.typ = 2 then b.exec E s else .next s
      | none => .panic
    | _ => .panic

end Ndn.Codec.Gen
