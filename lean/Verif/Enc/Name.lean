import Verif.Enc.Reader

/-!
# Model of `/repo/pkg/encoding/name_component.go` and `/repo/pkg/encoding/name_pattern.go`

Strings are byte strings, as in Go.  `range` over a string visits runes, but the loops only compare with ASCII
characters, which never occur inside a multi-byte rune, so visiting bytes is the same.
-/

namespace Ndn

/-- `Component`, name_component.go:291-294.  A nil and an empty `Val` are not distinguished. -/
structure Component where
  typ : Nat
  val : Bytes
  deriving DecidableEq, Repr, Inhabited

/-- `Name`, name_pattern.go:12. -/
abbrev Name := List Component

/-- `ComponentPattern`, name_component.go:251-289: a `Component` or a `Pattern` (pointers to them behave alike). -/
inductive CompPat where
  | comp (c : Component)
  | pat (typ : Nat) (tag : Bytes)
  deriving DecidableEq, Repr

/-- `NamePattern`, name_pattern.go:14. -/
abbrev NamePattern := List CompPat

/-- `Matching`, name_component.go:284: the latest entry for a tag counts. -/
abbrev Matching := List (Bytes × Bytes)

/-! ## Binary form -/

/-- `Component.EncodingLength`, name_component.go:487-490.  (It uses `Nat`, not `TLNum`, for the length.) -/
def Component.encLen (c : Component) : Nat := tlLen c.typ + natLen c.val.length + c.val.length

/-- `Component.EncodeInto` and `Component.Bytes`, name_component.go:492-503: the bytes written. -/
def Component.enc (c : Component) : Bytes := tlEnc c.typ ++ natEnc c.val.length ++ c.val

/-- `Name.EncodingLength`, name_pattern.go:59-65. -/
def Name.encLen (n : Name) : Nat := n.foldl (fun acc c => acc + c.encLen) 0

/-- `Name.EncodeInto`, name_pattern.go:50-56: the bytes written, without the outer TL. -/
def Name.encBody : Name → Bytes
  | [] => []
  | c :: cs => c.enc ++ Name.encBody cs

/-- `Name.Bytes`, name_pattern.go:93-100.  (Again `Nat` for the length.) -/
def Name.bytes (n : Name) : Bytes := tlEnc 7 ++ natEnc (Name.encLen n) ++ Name.encBody n

/-- `ParseComponent`, name_component.go:364-373. -/
def parseComponent (buf : Bytes) : Res (Component × Nat) := do
  let (typ, p1) ← parseTL buf
  let (l, p2) ← parseTL (buf.drop p1)
  let start := p1 + p2
  let stop : Int := wrap64 (start + toInt l)
  let v ← BR.slice buf start stop
  .ok (⟨typ, v⟩, stop.toNat)

/-- `ReadComponent`, name_component.go:375-395, on a `BufferReader`. -/
def readComponent : RM BR Component := do
  let typ ← BR.readTL
  let l ← RM.onErr (fun e => if e = .eof then .unexpectedEof else e) BR.readTL
  let val ← BR.readBuf (toInt l)
  pure ⟨typ, val⟩

/-- `ComponentFromBytes`, name_component.go:505-507. -/
def componentFromBytes (buf : Bytes) : Res Component := (readComponent (BR.new buf)).1

/-- `ReadName`, name_pattern.go:77-90: the loop, with fuel; `none` means that the fuel did not suffice. -/
def readNameLoop : Nat → BR → Option (Res Name × BR)
  | 0, _ => none
  | n + 1, r =>
    match readComponent r with
    | (.ok c, r') =>
      match readNameLoop n r' with
      | none => none
      | some (.ok cs, r'') => some (.ok (c :: cs), r'')
      | some (x, r'') => some (x, r'')
    | (.err e, r') => if e = .eof then some (.ok [], r') else some (.err e, r')
    | (.panic, r') => some (.panic, r')

/-- `NameFromBytes`, name_pattern.go:167-190, with fuel for the loop of `ReadName`. -/
def nameFromBytes (fuel : Nat) (buf : Bytes) : Option (Res Name) :=
  match BR.readTL (BR.new buf) with
  | (.err e, _) => some (.err e)
  | (.panic, _) => some .panic
  | (.ok t, r1) =>
    if t ≠ 7 then some (.err .format)
    else match BR.readTL r1 with
      | (.err e, _) => some (.err e)
      | (.panic, _) => some .panic
      | (.ok l, r2) =>
        match readNameLoop fuel r2 with
        | none => none
        | some (.err e, _) => some (.err e)
        | some (.panic, _) => some .panic
        | some (.ok n, r3) =>
          if toInt l ≠ (r3.buf.length : Int) - r2.pos then some (.err .format) else some (.ok n)

/-! ## Comparison -/

/-- `bytes.Compare` and `strings.Compare`: lexicographic. -/
def bytesCompare : Bytes → Bytes → Int
  | [], [] => 0
  | [], _ :: _ => -1
  | _ :: _, [] => 1
  | a :: as, b :: bs => if a < b then -1 else if b < a then 1 else bytesCompare as bs

/-- `Component.Compare` between components, name_component.go:519-533. -/
def Component.compare (c rc : Component) : Int :=
  if c.typ ≠ rc.typ then (if c.typ < rc.typ then -1 else 1)
  else if c.val.length ≠ rc.val.length then (if c.val.length < rc.val.length then -1 else 1)
  else bytesCompare c.val rc.val

/-- `Component.Equal` between components, name_component.go:574-577. -/
def Component.equal (c rc : Component) : Bool :=
  if c.typ ≠ rc.typ ∨ c.val.length ≠ rc.val.length then false else c.val == rc.val

/-- `Component.Compare` and `Pattern.Compare`, name_component.go:509-534 and 580-598. -/
def CompPat.compare : CompPat → CompPat → Int
  | .comp c, .comp rc => c.compare rc
  | .comp _, .pat _ _ => -1
  | .pat _ _, .comp _ => 1
  | .pat t g, .pat rt rg => if t ≠ rt then (if t < rt then -1 else 1) else bytesCompare g rg

/-- `Component.Equal` and `Pattern.Equal`, name_component.go:562-578 and 600-610. -/
def CompPat.equal : CompPat → CompPat → Bool
  | .comp c, .comp rc => c.equal rc
  | .pat t g, .pat rt rg => t == rt && g == rg
  | _, _ => false

/-- The loop and the final switch of `Name.Compare`, name_pattern.go:192-206, and `NamePattern.Compare`, 208-222,
written over the two lists at once. -/
def listCompare {α : Type} (cmp : α → α → Int) : List α → List α → Int
  | [], [] => 0
  | [], _ :: _ => -1
  | _ :: _, [] => 1
  | a :: as, b :: bs => if cmp a b ≠ 0 then cmp a b else listCompare cmp as bs

/-- `Name.Compare` -/
def Name.compare (n rhs : Name) : Int := listCompare Component.compare n rhs
/-- `NamePattern.Compare` -/
def NamePattern.compare (n rhs : NamePattern) : Int := listCompare CompPat.compare n rhs

/-- The loop `for i := 0; i < len(n); i++ { if !n[i].Equal(rhs[i]) ... }` of `Equal` and `IsPrefix`; an index past the
end of `rhs` cannot happen because the length is checked first. -/
def allEqual {α : Type} (eq : α → α → Bool) : List α → List α → Bool
  | [], _ => true
  | _ :: _, [] => false
  | a :: as, b :: bs => eq a b && allEqual eq as bs

/-- `Name.Equal`, name_pattern.go:224-234. -/
def Name.equal (n rhs : Name) : Bool := if n.length ≠ rhs.length then false else allEqual Component.equal n rhs
/-- `NamePattern.Equal`, name_pattern.go:236-246. -/
def NamePattern.equal (n rhs : NamePattern) : Bool := if n.length ≠ rhs.length then false else allEqual CompPat.equal n rhs
/-- `Name.IsPrefix`, name_pattern.go:248-258. -/
def Name.isPrefix (n rhs : Name) : Bool := if n.length > rhs.length then false else allEqual Component.equal n rhs
/-- `NamePattern.IsPrefix`, name_pattern.go:260-270. -/
def NamePattern.isPrefix (n rhs : NamePattern) : Bool := if n.length > rhs.length then false else allEqual CompPat.equal n rhs

/-! ## Matching -/

/-- `m[tag]` -/
def Matching.get (m : Matching) (tag : Bytes) : Option Bytes := (m.find? (fun e => e.1 == tag)).map (·.2)

/-- `IsMatch`, name_component.go:675-681. -/
def CompPat.isMatch : CompPat → Component → Bool
  | .comp c, v => c.equal v
  | .pat t _, v => t == v.typ

/-- `Match`, name_component.go:653-658. -/
def CompPat.match' : CompPat → Component → Matching → Matching
  | .comp _, _, m => m
  | .pat _ tag, v, m => (tag, v.val) :: m

/-- `FromMatching`, name_component.go:660-673. -/
def CompPat.fromMatching : CompPat → Matching → Res Component
  | .comp c, _ => .ok c
  | .pat t tag, m => match Matching.get m tag with
    | none => .err .notFound
    | some v => .ok ⟨t, v⟩

/-- `NamePattern.Match`, name_pattern.go:272-276; `name[i]` past the end panics. -/
def NamePattern.match' : NamePattern → Name → Matching → Res Matching
  | [], _, m => .ok m
  | _ :: _, [], _ => .panic
  | p :: ps, c :: cs, m => NamePattern.match' ps cs (p.match' c m)

/-- `NamePattern.FromMatching`, name_pattern.go:278-288. -/
def NamePattern.fromMatching : NamePattern → Matching → Res Name
  | [], _ => .ok []
  | p :: ps, m => do
    let c ← p.fromMatching m
    let cs ← NamePattern.fromMatching ps m
    .ok (c :: cs)

/-! ## Text form -/

/-- The formats of component values, name_component.go:48-51. -/
inductive ValFmt where
  | text
  | dec
  | hex
  deriving DecidableEq, Repr

/-- `unicode.IsDigit` on a Latin-1 character. -/
def isDigit (b : UInt8) : Bool := 48 ≤ b && b ≤ 57

/-- `isLegalCompText`, name_component.go:340-342: letters, digits, `-`, `_`, `.`, `~`. -/
def isLegalCompText (b : UInt8) : Bool :=
  isAlphabet b || isDigit b || b == 45 || b == 95 || b == 46 || b == 126

/-- One digit of `fmt.Sprintf("%02X", b)` (`up`) or `%02x`. -/
def hexDigit (up : Bool) (n : Nat) : UInt8 :=
  if n < 10 then UInt8.ofNat (48 + n) else if up then UInt8.ofNat (55 + n) else UInt8.ofNat (87 + n)

/-- `fmt.Sprintf("%02X", b)` / `fmt.Sprintf("%02x", b)` -/
def hex2 (up : Bool) (b : UInt8) : Bytes := [hexDigit up (b.toNat / 16), hexDigit up (b.toNat % 16)]

/-- The value of one hexadecimal digit, either case. -/
def hexVal (b : UInt8) : Option Nat :=
  if 48 ≤ b && b ≤ 57 then some (b.toNat - 48)
  else if 97 ≤ b && b ≤ 102 then some (b.toNat - 87)
  else if 65 ≤ b && b ≤ 70 then some (b.toNat - 55)
  else none

/-- `strconv.ParseUint(s, 16, 8)` on two characters. -/
def parseHex2 (a b : UInt8) : Option UInt8 :=
  match hexVal a, hexVal b with
  | some x, some y => some (UInt8.ofNat (x * 16 + y))
  | _, _ => none

/-- `strconv.FormatUint(n, 10)`, written with fuel (20 digits hold every `uint64`). -/
def decAux : Nat → Nat → Bytes
  | 0, _ => []
  | fuel + 1, n => if n < 10 then [UInt8.ofNat (48 + n)] else decAux fuel (n / 10) ++ [UInt8.ofNat (48 + n % 10)]

/-- `strconv.FormatUint(n, 10)` -/
def formatUint (n : Nat) : Bytes := decAux 20 n

/-- `strconv.ParseUint(s, 10, 64)`: digits only, at least one, value below `2^64`. -/
def parseUint (s : Bytes) : Option Nat :=
  if s = [] ∨ ¬ s.all isDigit then none
  else
    let v := s.foldl (fun acc b => acc * 10 + (b.toNat - 48)) 0
    if v < 2 ^ 64 then some v else none

/-- `compValFmtText.ToString`, name_component.go:69-79. -/
def textToString : Bytes → Bytes
  | [] => []
  | b :: bs => (if isLegalCompText b then [b] else 37 :: hex2 true b) ++ textToString bs

/-- The four characters `%`, `=`, `/`, `\`. -/
def isSpecial (b : UInt8) : Bool := b == 37 || b == 61 || b == 47 || b == 92

/-- `append(val, b)` before continuing with the rest. -/
def consRes (b : UInt8) : Res Bytes → Res Bytes
  | .ok v => .ok (b :: v)
  | x => x

/-- The loop of `compValFmtText.FromString`, name_component.go:94-115 (the first case has `i+2 < len`, the second
not). -/
def textLoop : Bytes → Res Bytes
  | [] => .ok []
  | b :: x :: y :: t =>
    if isLegalCompText b then consRes b (textLoop (x :: y :: t))
    else if b = 37 then
      match parseHex2 x y with
      | none => .err .format
      | some v => consRes v (textLoop t)
    else if isSpecial b then .err .format
    else consRes b (textLoop (x :: y :: t))
  | b :: t =>
    if isLegalCompText b then consRes b (textLoop t)
    else if isSpecial b then .err .format
    else consRes b (textLoop t)

/-- `compValFmtText.FromString`, name_component.go:81-116. -/
def textFromString (s : Bytes) : Res Bytes := if s.any isSpecial then textLoop s else .ok s

/-- `Component.NumberVal` and the loop of `compValFmtDec.ToString`, name_component.go:131-136, 537-543. -/
def numberVal (val : Bytes) : Nat := beVal val % 2 ^ 64

/-- `compValFmtHex.ToString`, name_component.go:167-173. -/
def hexToString : Bytes → Bytes
  | [] => []
  | b :: bs => hex2 false b ++ hexToString bs

/-- `compValFmtHex.FromString`, name_component.go:175-189. -/
def hexFromString : Bytes → Res Bytes
  | [] => .ok []
  | [_] => .err .format
  | x :: y :: t => match hexFromString t with
    | .ok vs => match parseHex2 x y with
      | none => .err .format
      | some v => .ok (v :: vs)
    | e => e

/-- `compValFmt.ToString` -/
def ValFmt.toString : ValFmt → Bytes → Bytes
  | .text, v => textToString v
  | .dec, v => formatUint (numberVal v)
  | .hex, v => hexToString v

/-- `compValFmt.FromString`; for `dec` see name_component.go:139-147. -/
def ValFmt.fromString : ValFmt → Bytes → Res Bytes
  | .text, s => textFromString s
  | .dec, s => match parseUint s with
    | none => .err .format
    | some x => .ok (natEnc x)
  | .hex, s => hexFromString s

/-- ASCII text as bytes. -/
def ascii (s : List Char) : Bytes := s.map (fun c => UInt8.ofNat c.toNat)

/-- `compConvByType`, name_component.go:210-247. -/
def convByType (t : Nat) : Option (Bytes × ValFmt) :=
  if t = 0x01 then some (ascii ['s','h','a','2','5','6','d','i','g','e','s','t'], .hex)
  else if t = 0x02 then some (ascii ['p','a','r','a','m','s','-','s','h','a','2','5','6'], .hex)
  else if t = 0x32 then some (ascii ['s','e','g'], .dec)
  else if t = 0x34 then some (ascii ['o','f','f'], .dec)
  else if t = 0x36 then some (ascii ['v'], .dec)
  else if t = 0x38 then some (ascii ['t'], .dec)
  else if t = 0x3a then some (ascii ['s','e','q'], .dec)
  else none

/-- `compConvByStr`, built by `initComponentConventions`, name_component.go:311-316. -/
def convByStr (s : Bytes) : Option (Nat × ValFmt) :=
  ([0x01, 0x02, 0x32, 0x34, 0x36, 0x38, 0x3a].find? (fun t => (convByType t).map (·.1) == some s)).bind
    (fun t => (convByType t).map (fun x => (t, x.2)))

/-- `Component.String`, name_component.go:344-354. -/
def Component.toStr (c : Component) : Bytes :=
  match convByType c.typ with
  | some (name, f) => name ++ [61] ++ f.toString c.val
  | none => if c.typ ≠ 8 then formatUint c.typ ++ [61] ++ textToString c.val else textToString c.val

/-- `Component.CanonicalString`, name_component.go:356-362. -/
def Component.canonStr (c : Component) : Bytes :=
  if c.typ ≠ 8 then formatUint c.typ ++ [61] ++ textToString c.val else textToString c.val

/-- `Pattern.String`, name_component.go:318-326, and `Component.String`. -/
def CompPat.toStr : CompPat → Bytes
  | .comp c => c.toStr
  | .pat t tag =>
    if t = 8 then [60] ++ tag ++ [62]
    else match convByType t with
      | some (name, _) => [60] ++ name ++ [61] ++ tag ++ [62]
      | none => [60] ++ formatUint t ++ [61] ++ tag ++ [62]

/-- `parseCompTypeFromStr`, name_component.go:397-411; `s[0]` panics on the empty string. -/
def parseCompType (s : Bytes) : Res (Nat × ValFmt) :=
  match s with
  | [] => .panic
  | b :: _ =>
    if isAlphabet b then
      match convByStr s with
      | some x => .ok x
      | none => .err .format
    else match parseUint s with
      | none => .err .format
      | some t => .ok (t, .text)

/-- `strings.Split(s, sep)` for a one-byte separator. -/
def splitOn (sep : UInt8) : Bytes → List Bytes
  | [] => [[]]
  | b :: t =>
    if b = sep then [] :: splitOn sep t
    else match splitOn sep t with
      | [] => [[b]]
      | h :: r => (b :: h) :: r

/-- `ComponentFromStr` / `componentFromStrInto`, name_component.go:413-446.  The loop looks for `=`: none, one, or an
error for more, which is what splitting at `=` tells. -/
def componentFromStr (s : Bytes) : Res Component :=
  match splitOn 61 s with
  | [v] => do
    let val ← textFromString v
    .ok ⟨8, val⟩
  | [t, v] => do
    let (typ, f) ← parseCompType t
    if typ ≤ 0 ∨ toInt typ > 0xffff then .err .format
    else do
      let val ← f.fromString v
      .ok ⟨typ, val⟩
  | _ => .err .format

/-- `ComponentPatternFromStr`, name_component.go:458-485.  (`s[1:len(s)-1]` never panics: the one-character string `"<"`
does not end in `>`.) -/
def compPatFromStr (s : Bytes) : Res CompPat :=
  match s with
  | [] => (componentFromStr s).map .comp
  | b :: _ =>
    if b ≠ 60 then (componentFromStr s).map .comp
    else if s.getLast? ≠ some 62 then .err .format
    else
      match splitOn 61 ((s.drop 1).dropLast) with
      | [tag] => .ok (.pat 8 tag)
      | [t, tag] => do
        let (typ, _) ← parseCompType t
        .ok (.pat typ tag)
      | _ => .err .format

/-- `f` on every element, stopping at the first error or panic (the loops of `NameFromStr` and `NamePatternFromStr`). -/
def mapRes {α β : Type} (f : α → Res β) : List α → Res (List β)
  | [] => .ok []
  | a :: as => do
    let b ← f a
    let bs ← mapRes f as
    .ok (b :: bs)

/-- `Name.String`, name_pattern.go:18-29. -/
def Name.toStr (n : Name) : Bytes :=
  let ret := n.flatMap (fun c => 47 :: c.toStr)
  if ret.length = 0 then [47]
  else match n.getLast? with
    | some c => if c.typ = 8 ∧ c.val.length = 0 then ret ++ [47] else ret
    | none => ret

/-- `NameFromStr`, name_pattern.go:128-145. -/
def nameFromStr (s : Bytes) : Res Name :=
  let strs := splitOn 47 s
  let strs := if strs.head? = some [] then strs.drop 1 else strs
  let strs := if strs.length > 0 ∧ strs.getLast? = some [] then strs.dropLast else strs
  mapRes componentFromStr strs

/-- `NamePatternFromStr`, name_pattern.go:147-165; `strs[len(strs)-1]` panics when nothing is left. -/
def namePatternFromStr (s : Bytes) : Res NamePattern :=
  let strs := splitOn 47 s
  let strs := if strs.head? = some [] then strs.drop 1 else strs
  match strs.getLast? with
  | none => .panic
  | some l =>
    let strs := if l = [] then strs.dropLast else strs
    mapRes compPatFromStr strs

end Ndn
