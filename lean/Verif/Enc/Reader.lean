import Verif.Enc.Prim

/-!
# Model of `/repo/pkg/encoding/readers.go`

`BufferReader` and `WireReader` as states; every method is a function from a state to an outcome and the new state
(also on error: the caller may continue).
-/

namespace Ndn

/-- A method on a reader of state `σ`. -/
def RM (σ α : Type) := σ → Res α × σ

namespace RM
variable {σ α β : Type}

@[reducible] def run (m : RM σ α) (s : σ) : Res α × σ := m s

def pure (a : α) : RM σ α := fun s => (.ok a, s)

def bind (m : RM σ α) (f : α → RM σ β) : RM σ β := fun s =>
  match m s with
  | (.ok a, s') => f a s'
  | (.err e, s') => (.err e, s')
  | (.panic, s') => (.panic, s')

instance : Monad (RM σ) where
  pure := RM.pure
  bind := RM.bind

def fail (e : Err) : RM σ α := fun s => (.err e, s)
def crash : RM σ α := fun s => (.panic, s)
def get : RM σ σ := fun s => (.ok s, s)
/-- change the error -/
def onErr (f : Err → Err) (m : RM σ α) : RM σ α := fun s =>
  match m s with
  | (.ok a, s') => (.ok a, s')
  | (.err e, s') => (.err (f e), s')
  | (.panic, s') => (.panic, s')

theorem bind_apply (m : RM σ α) (f : α → RM σ β) (s : σ) :
    (m >>= f) s = match m s with
      | (.ok a, s') => f a s'
      | (.err e, s') => (.err e, s')
      | (.panic, s') => (.panic, s') := rfl

@[simp] theorem pure_apply (a : α) (s : σ) : (Pure.pure a : RM σ α) s = (.ok a, s) := rfl
@[simp] theorem fail_apply (e : Err) (s : σ) : (fail e : RM σ α) s = (.err e, s) := rfl
@[simp] theorem crash_apply (s : σ) : (crash : RM σ α) s = (.panic, s) := rfl
@[simp] theorem get_apply (s : σ) : (get : RM σ σ) s = (.ok s, s) := rfl

theorem bind_ok {m : RM σ α} {f : α → RM σ β} {s s' : σ} {a : α} (h : m s = (.ok a, s')) :
    (m >>= f) s = f a s' := by rw [bind_apply, h]
theorem bind_err {m : RM σ α} {f : α → RM σ β} {s s' : σ} {e : Err} (h : m s = (.err e, s')) :
    (m >>= f) s = (.err e, s') := by rw [bind_apply, h]
theorem bind_panic {m : RM σ α} {f : α → RM σ β} {s s' : σ} (h : m s = (.panic, s')) :
    (m >>= f) s = (.panic, s') := by rw [bind_apply, h]

end RM

/-- `ReadTLNum`, primitives.go:68-96: the loop over the `l` value bytes. -/
def readBeLoop {σ : Type} (readByte : RM σ UInt8) : Nat → Nat → RM σ Nat
  | 0, val => pure val
  | n + 1, val => do
    let x ← RM.onErr (fun e => if e = .eof then .unexpectedEof else e) readByte
    readBeLoop readByte n ((val * 256) % 2 ^ 64 + x.toNat)

/-- `ReadTLNum`, primitives.go:68-96, over any `io.ByteReader`. -/
def readTL {σ : Type} (readByte : RM σ UInt8) : RM σ Nat := do
  let x ← readByte
  if x.toNat ≤ 0xfc then pure x.toNat
  else if x.toNat = 0xfd then readBeLoop readByte 2 0
  else if x.toNat = 0xfe then readBeLoop readByte 4 0
  else readBeLoop readByte 8 0

/-! ## BufferReader -/

/-- `BufferReader`, readers.go:8-11.  `pos` never becomes negative (every method guards it). -/
structure BR where
  buf : Bytes
  pos : Nat
  deriving DecidableEq, Repr

namespace BR

/-- `NewBufferReader`, readers.go:118-123. -/
def new (buf : Bytes) : BR := ⟨buf, 0⟩

/-- `BufferReader.ReadByte`, readers.go:22-29. -/
def readByte : RM BR UInt8 := fun r =>
  match r.buf[r.pos]? with
  | none => (.err .eof, r)
  | some b => (.ok b, { r with pos := r.pos + 1 })

/-- `BufferReader.Read`, readers.go:13-20, into a buffer of `n` bytes. -/
def read (n : Nat) : RM BR Bytes := fun r =>
  if r.pos ≥ r.buf.length ∧ n > 0 then (.err .eof, r)
  else (.ok ((r.buf.drop r.pos).take n), { r with pos := r.pos + ((r.buf.drop r.pos).take n).length })

/-- `BufferReader.UnreadByte`, readers.go:31-37. -/
def unreadByte : RM BR Unit := fun r =>
  if r.pos = 0 then (.err .negativePos, r) else (.ok (), { r with pos := r.pos - 1 })

/-- `BufferReader.Skip`, readers.go:61-71.  Negative arguments go back. -/
def skip (n : Int) : RM BR Unit := fun r =>
  let newPos := wrap64 (r.pos + n)
  if newPos < 0 then (.err .negativePos, r)
  else if newPos > r.buf.length then (.err .outOfRange, r)
  else (.ok (), { r with pos := newPos.toNat })

/-- `r.buf[p:q]` for a possibly negative `q`: slicing panics unless `p ≤ q ≤ len` (the capacity of a slice is taken to
be its length). -/
def slice (b : Bytes) (p : Nat) (q : Int) : Res Bytes :=
  if (p : Int) ≤ q ∧ q ≤ b.length then .ok ((b.drop p).take (q.toNat - p)) else .panic

/-- `BufferReader.ReadBuf`, readers.go:85-92. -/
def readBuf (l : Int) : RM BR Bytes := fun r =>
  let q := wrap64 (r.pos + l)
  if q > r.buf.length then (.err .unexpectedEof, r)
  else match slice r.buf r.pos q with
    | .ok bs => (.ok bs, { r with pos := q.toNat })
    | _ => (.panic, { r with pos := q.toNat })

/-- `BufferReader.ReadWire`, readers.go:73-83. -/
def readWire (l : Int) : RM BR Wire := fun r =>
  let q := wrap64 (r.pos + l)
  if r.pos ≥ r.buf.length ∧ l > 0 then (.err .eof, r)
  else if q > r.buf.length then (.err .unexpectedEof, r)
  else match slice r.buf r.pos q with
    | .ok bs => (.ok [bs], { r with pos := q.toNat })
    | _ => (.panic, { r with pos := q.toNat })

/-- `BufferReader.Range`, readers.go:102-107 (`none` is a nil wire). -/
def range (r : BR) (start stop : Int) : Option Wire :=
  if start < 0 ∨ stop > r.buf.length ∨ start > stop then none
  else some [(r.buf.drop start.toNat).take (stop.toNat - start.toNat)]

/-- `BufferReader.Delegate`, readers.go:109-116: the sub-reader's buffer. -/
def delegate (l : Int) : RM BR BR := fun r =>
  if l < 0 ∨ wrap64 (r.pos + l) > r.buf.length then (.ok (BR.new []), r)
  else match slice r.buf r.pos (wrap64 (r.pos + l)) with
    | .ok bs => (.ok (BR.new bs), { r with pos := (wrap64 (r.pos + l)).toNat })
    | _ => (.panic, r)

/-- `BufferReader.Seek`, readers.go:39-59. `whence`: 0 start, 1 current, 2 end. -/
def seek (offset : Int) (whence : Nat) : RM BR Nat := fun r =>
  let go (newPos : Int) : Res Nat × BR :=
    if newPos < 0 then (.err .negativePos, r)
    else if newPos > r.buf.length then (.err .outOfRange, r)
    else (.ok newPos.toNat, { r with pos := newPos.toNat })
  match whence with
  | 0 => go offset
  | 1 => go (wrap64 (r.pos + offset))
  | 2 => go (wrap64 (r.buf.length - offset))
  | _ => (.err .other, r)

end BR

/-- `ReadTLNum` over a `BufferReader`. -/
abbrev BR.readTL : RM BR Nat := Ndn.readTL BR.readByte

end Ndn
