import Verif.Enc.WireReader

/-!
# The stream face (`pkg/engine/basic/transports.go`)

The connection delivers the byte stream in pieces, cut arbitrarily; `bufio.Reader` and `io.ReadFull` of the Go library are modelled too.
When all pieces are consumed, reading gives `io.EOF`.  The face stays running throughout (`Close` is not modelled).
-/

namespace Ndn.Engine

/-- `bufio.NewReader(conn)`: the buffered bytes, and the pieces that `conn.Read` will return, none of them empty -/
structure Conn where
  buf : Bytes := []
  pieces : List Bytes
deriving DecidableEq

/-- the default size of a `bufio.Reader` -/
def bufioSize : Nat := 4096

/-- `conn.Read(p)` with `len(p) = n`: at most one piece, at most `n` bytes -/
def Conn.connRead (n : Nat) : RM Conn Bytes := fun c =>
  match c.pieces with
  | [] => (.err .eof, c)
  | p :: ps => if p.length ≤ n then (.ok p, { c with pieces := ps }) else (.ok (p.take n), { c with pieces := p.drop n :: ps })

/-- `bufio.Reader.ReadByte` -/
def Conn.readByte : RM Conn UInt8 := fun c =>
  match c.buf with
  | b :: t => (.ok b, { c with buf := t })
  | [] => match c.connRead bufioSize with
    | (.ok (b :: t), c') => (.ok b, { c' with buf := t })
    | (.ok [], c') => (.err .eof, c')  -- `io.ErrNoProgress`; no piece is empty
    | (.err e, c') => (.err e, c')
    | (.panic, c') => (.panic, c')

/-- `bufio.Reader.Read(p)` with `len(p) = n > 0`: what is buffered, or one read of the connection (directly into `p` if it is large) -/
def Conn.read (n : Nat) : RM Conn Bytes := fun c =>
  match c.buf with
  | _ :: _ => (.ok (c.buf.take n), { c with buf := c.buf.drop n })
  | [] =>
    if n ≥ bufioSize then c.connRead n
    else match c.connRead bufioSize with
      | (.ok p, c') => (.ok (p.take n), { c' with buf := p.drop n })
      | (.err e, c') => (.err e, c')
      | (.panic, c') => (.panic, c')

/-- `io.ReadFull`: reads until `n` bytes are there; the first argument bounds the number of reads -/
def Conn.readFull : Nat → Nat → RM Conn Bytes
  | _, 0, c => (.ok [], c)
  | 0, _ + 1, c => (.err .eof, c)
  | fuel + 1, n + 1, c =>
    match c.read (n + 1) with
    | (.ok bs, c') =>
      match Conn.readFull fuel (n + 1 - bs.length) c' with
      | (.ok rest, c'') => (.ok (bs ++ rest), c'')
      | (.err .eof, c'') => (.err .unexpectedEof, c'')
      | r => r
    | (.err e, c') => (.err e, c')
    | (.panic, c') => (.panic, c')

/-- what the loop does next -/
inductive Frame where
  | pkt (b : Bytes)
  | err (e : Err)
  /-- `make` panics -/
  | panic

/-- transports.go:28-61: one packet.  An error ends the loop, because the engine's `onError` returns its argument
(default_engine.go:342-346). -/
def Conn.frame (c : Conn) : Frame × Conn :=
  match readTL Conn.readByte c with
  | (.err e, c1) => (.err e, c1)
  | (.panic, c1) => (.panic, c1)
  | (.ok t, c1) => match readTL Conn.readByte c1 with
    | (.err e, c2) => (.err e, c2)
    | (.panic, c2) => (.panic, c2)
    | (.ok l, c2) =>
      let size := wrap64 ((tlEnc t).length + (tlEnc l).length + toInt l)
      if size < 0 ∨ size > maxAlloc then (.panic, c2)
      else if toInt l < 0 then (.panic, c2)  -- `buf[l0+l1:]` is out of range
      else match Conn.readFull (toInt l).toNat (toInt l).toNat c2 with
        | (.ok v, c3) => (.pkt (tlEnc t ++ tlEnc l ++ v), c3)
        | (.err e, c3) => (.err e, c3)
        | (.panic, c3) => (.panic, c3)

/-- how the loop ended -/
inductive End where
  | stopped | err (e : Err) | panic
deriving DecidableEq

/-- transports.go:26-71 `StreamFace.Run`: the packets given to `onPkt`, which tells whether to go on (a nil error).  The first argument bounds the
number of iterations. -/
def Conn.run (onPkt : Bytes → Bool) : Nat → Conn → Option (List Bytes × End)
  | 0, _ => none
  | fuel + 1, c => match c.frame with
    | (.err e, _) => some ([], .err e)
    | (.panic, _) => some ([], .panic)
    | (.pkt b, c') =>
      if onPkt b then (Conn.run onPkt fuel c').map (fun r => (b :: r.1, r.2)) else some ([b], .stopped)

/-- transports.go:103-117 `StreamFace.Send`: the bytes written for one packet (the mutex keeps packets of concurrent calls apart) -/
def sendBytes (pkt : Wire) : Bytes := pkt.flatten

end Ndn.Engine
