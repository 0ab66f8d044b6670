/-!
# Go values and outcomes

The vocabulary the model is written in.  Nothing here comes from one file of `/repo`: it is the fragment of Go's
semantics that the modelled functions use.
-/

namespace Ndn

/-- `[]byte`, `Buffer` (`/repo/pkg/encoding/types.go:10`) and `string` (indexed by bytes, as Go does). -/
abbrev Bytes := List UInt8

/-- `enc.Wire` (`/repo/pkg/encoding/types.go:13`): a packet held in several buffers. -/
abbrev Wire := List Bytes

/-- Error values.  Only the distinctions that callers make are kept: `io.EOF` and `io.ErrUnexpectedEOF` are compared
by the code; all the others are just "an error".  (`/repo/pkg/encoding/types.go:45-151`) -/
inductive Err where
  | eof
  | unexpectedEof
  | format
  | overflow
  | incorrectDigest
  | unrecognized (typ : Nat)
  | failToParse (typ : Nat) (e : Err)
  | negativePos
  | outOfRange
  | notFound
  | invalidValue
  | notSupported
  | wrongType
  | skipRequired
  | other
  deriving DecidableEq, Repr

/-- The outcome of a Go call that returns `(value, error)` or panics. -/
inductive Res (α : Type) where
  | ok (a : α)
  | err (e : Err)
  | panic
  deriving DecidableEq, Repr

namespace Res

variable {α β : Type}

def isOk : Res α → Bool
  | ok _ => true
  | _ => false

def bind (x : Res α) (f : α → Res β) : Res β :=
  match x with
  | ok a => f a
  | err e => err e
  | panic => panic

def map (f : α → β) : Res α → Res β
  | ok a => ok (f a)
  | err e => err e
  | panic => panic

/-- change the error, keep values and panics -/
def mapErr (f : Err → Err) : Res α → Res α
  | ok a => ok a
  | err e => err (f e)
  | panic => panic

instance : Monad Res where
  pure := ok
  bind := bind

@[simp] theorem pure_eq (a : α) : (pure a : Res α) = ok a := rfl
@[simp] theorem bind_ok (a : α) (f : α → Res β) : (ok a >>= f) = f a := rfl
@[simp] theorem bind_err (e : Err) (f : α → Res β) : ((err e : Res α) >>= f) = err e := rfl
@[simp] theorem bind_panic (f : α → Res β) : ((panic : Res α) >>= f) = panic := rfl
@[simp] theorem mapErr_ok (f : Err → Err) (a : α) : mapErr f (ok a) = ok a := rfl
@[simp] theorem mapErr_err (f : Err → Err) (e : Err) : mapErr f (err e : Res α) = err (f e) := rfl
@[simp] theorem mapErr_panic (f : Err → Err) : mapErr f (panic : Res α) = panic := rfl

end Res

/-- The function `wrap64` below, together with its defining equation.  `opaque` only keeps the kernel from evaluating
`_ % 2^64` on open terms in unary; the value is given here and nothing is assumed. -/
opaque wrap64Fn : { f : Int → Int // ∀ x, f x = (x + 2 ^ 63) % 2 ^ 64 - 2 ^ 63 } :=
  ⟨fun x => (x + 2 ^ 63) % 2 ^ 64 - 2 ^ 63, fun _ => rfl⟩

/-- Go's `int` is 64 bits: two's complement wrap-around of a mathematical integer. -/
def wrap64 (x : Int) : Int := wrap64Fn.1 x

theorem wrap64_eq (x : Int) : wrap64 x = (x + 2 ^ 63) % 2 ^ 64 - 2 ^ 63 := wrap64Fn.2 x

/-- The conversion `int(l)` of a `uint64` value. -/
def toInt (l : Nat) : Int := wrap64 l

/-- Go slices have a non-negative `int` length. -/
def GoLen (n : Nat) : Prop := n < 2 ^ 63

theorem wrap64_id {x : Int} (h1 : -2 ^ 63 ≤ x) (h2 : x < 2 ^ 63) : wrap64 x = x := by
  rw [wrap64_eq]; omega

theorem toInt_of_lt {l : Nat} (h : l < 2 ^ 63) : toInt l = l := by
  unfold toInt; apply wrap64_id <;> omega

theorem toInt_neg {l : Nat} (h : 2 ^ 63 ≤ l) (h2 : l < 2 ^ 64) : toInt l = l - 2 ^ 64 := by
  unfold toInt; rw [wrap64_eq]; omega

theorem wrap64_lo (x : Int) : -2 ^ 63 ≤ wrap64 x := by rw [wrap64_eq]; omega
theorem wrap64_hi (x : Int) : wrap64 x < 2 ^ 63 := by rw [wrap64_eq]; omega

/-- `Wire.Join` (`/repo/pkg/encoding/types.go:15-33`): the concatenation of the buffers. -/
def Wire.join (w : Wire) : Bytes := w.flatten

/-- `Wire.Length` (`/repo/pkg/encoding/types.go:35-41`). -/
def Wire.byteLen (w : Wire) : Nat := w.foldl (fun acc v => acc + List.length v) 0

theorem foldl_add_length (w : Wire) (n : Nat) :
    w.foldl (fun acc v => acc + List.length v) n = n + w.flatten.length := by
  induction w generalizing n with
  | nil => simp
  | cons a w ih =>
    rw [List.foldl_cons, ih, List.flatten_cons, List.length_append]; omega

theorem Wire.byteLen_eq_join (w : Wire) : Wire.byteLen w = (Wire.join w).length := by
  simp [Wire.byteLen, Wire.join, foldl_add_length]

end Ndn
