import Verif.Go.Basic

/-!
# Model of `/repo/pkg/encoding/primitives.go`

TL numbers and natural numbers.  Values of type `uint64` are naturals; the theorems carry `v < 2^64`.
-/

namespace Ndn

/-- `binary.BigEndian.PutUint16/32/64`: the `n` low bytes of `v`, most significant first. -/
def be : Nat → Nat → Bytes
  | 0, _ => []
  | n + 1, v => UInt8.ofNat (v / 256 ^ n) :: be n v

/-- `binary.BigEndian.Uint16/32/64` and the loops `val = val<<8 | x`. -/
def beVal (bs : Bytes) : Nat := bs.foldl (fun acc b => acc * 256 + b.toNat) 0

/-- `TLNum.EncodingLength`, primitives.go:14-25. -/
def tlLen (x : Nat) : Nat :=
  if x ≤ 0xfc then 1 else if x ≤ 0xffff then 3 else if x ≤ 0xffffffff then 5 else 9

/-- `TLNum.EncodeInto`, primitives.go:27-45: the bytes written. -/
def tlEnc (x : Nat) : Bytes :=
  if x ≤ 0xfc then [UInt8.ofNat x]
  else if x ≤ 0xffff then 0xfd :: be 2 x
  else if x ≤ 0xffffffff then 0xfe :: be 4 x
  else 0xff :: be 8 x

/-- `ParseTLNum`, primitives.go:49-65: value and number of bytes; an index out of bounds panics. -/
def parseTL (buf : Bytes) : Res (Nat × Nat) :=
  match buf with
  | [] => .panic
  | x :: rest =>
    if x.toNat ≤ 0xfc then .ok (x.toNat, 1)
    else if x.toNat = 0xfd then if rest.length < 2 then .panic else .ok (beVal (rest.take 2), 3)
    else if x.toNat = 0xfe then if rest.length < 4 then .panic else .ok (beVal (rest.take 4), 5)
    else if rest.length < 8 then .panic else .ok (beVal (rest.take 8), 9)

/-- `Nat.EncodingLength`, primitives.go:98-109. -/
def natLen (x : Nat) : Nat :=
  if x ≤ 0xff then 1 else if x ≤ 0xffff then 2 else if x ≤ 0xffffffff then 4 else 8

/-- `Nat.EncodeInto`, primitives.go:111-128, and `Nat.Bytes`, primitives.go:130-134. -/
def natEnc (x : Nat) : Bytes :=
  if x ≤ 0xff then [UInt8.ofNat x]
  else if x ≤ 0xffff then be 2 x
  else if x ≤ 0xffffffff then be 4 x
  else be 8 x

/-- `ParseNat`, primitives.go:136-150. -/
def parseNat (buf : Bytes) : Res (Nat × Nat) :=
  if buf.length = 1 ∨ buf.length = 2 ∨ buf.length = 4 ∨ buf.length = 8 then .ok (beVal buf, buf.length)
  else .err .format

/-- Writing `bs` into `buf` at `pos`; running past the end panics. -/
def putAt (buf : Bytes) (pos : Nat) (bs : Bytes) : Res Bytes :=
  if pos + bs.length ≤ buf.length then .ok (buf.take pos ++ bs ++ buf.drop (pos + bs.length)) else .panic

/-- `ShrinkLength`, primitives.go:160-174.  `l - TLNum(shrink)` wraps modulo 2^64; `shrink` is non-negative here. -/
def shrinkLength (buf : Bytes) (shrink : Nat) : Res Bytes := do
  let (typ, s1) ← parseTL buf
  let (l, s2) ← parseTL (buf.drop s1)
  let newL := (l + (2 ^ 64 - shrink % 2 ^ 64)) % 2 ^ 64
  let newS2 := tlLen newL
  if newS2 = s2 then
    putAt buf s1 (tlEnc newL)
  else if newS2 ≤ s2 then
    let diff := s2 - newS2
    let b1 ← putAt buf diff (tlEnc typ)
    let b2 ← putAt b1 (diff + s1) (tlEnc newL)
    .ok (b2.drop diff)
  else .panic  -- `buf[diff:]` with negative `diff`

/-- `IsAlphabet`, primitives.go:177-179, on a byte. -/
def isAlphabet (b : UInt8) : Bool := (97 ≤ b && b ≤ 122) || (65 ≤ b && b ≤ 90)

end Ndn
