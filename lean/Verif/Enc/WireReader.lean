import Verif.Enc.Reader

/-!
# Model of `WireReader` (`/repo/pkg/encoding/readers.go:125-327`)

`accSz` is not stored: every reader the code builds has `accSz[i]` equal to the total size of the first `i` segments
(`NewWireReader`, lines 315-327; `Delegate` line 304 takes a prefix of both), so it is computed.
-/

namespace Ndn

/-- The largest slice `make([]byte, n)` can allocate on 64-bit Linux (`runtime.maxAlloc`); above it `make` panics. -/
def maxAlloc : Nat := 281474976710656 -- 2 ^ 48

/-- `WireReader`, readers.go:127-132.  `pos` is signed: `UnreadByte` can make it -1. -/
structure WR where
  wire : Wire
  seg : Nat
  pos : Int
  deriving DecidableEq, Repr

namespace WR

/-- `NewWireReader`, readers.go:315-327. -/
def new (w : Wire) : WR := ⟨w, 0, 0⟩

/-- `r.accSz[i]` -/
def accSz (r : WR) (i : Nat) : Nat := (r.wire.take i).flatten.length

/-- `WireReader.nextSeg`, readers.go:134-140. -/
def nextSeg (r : WR) : Bool × WR :=
  let r' := match r.wire[r.seg]? with
    | some s => if r.pos ≥ s.length then { r with seg := r.seg + 1, pos := 0 } else r
    | none => r
  (decide (r'.seg < r'.wire.length), r')

/-- `b[p:q]` with signed bounds. -/
def slice (b : Bytes) (p q : Int) : Res Bytes :=
  if 0 ≤ p ∧ p ≤ q ∧ q ≤ b.length then .ok ((b.drop p.toNat).take (q.toNat - p.toNat)) else .panic

/-- `WireReader.ReadByte`, readers.go:151-158. -/
def readByte : RM WR UInt8 := fun r =>
  match nextSeg r with
  | (false, r') => (.err .eof, r')
  | (true, r') =>
    match r'.wire[r'.seg]? with
    | none => (.panic, r')
    | some s => if r'.pos < 0 then (.panic, r') else
      match s[r'.pos.toNat]? with
      | none => (.panic, r')
      | some b => (.ok b, { r' with pos := r'.pos + 1 })

/-- `WireReader.UnreadByte`, readers.go:160-170. -/
def unreadByte : RM WR Unit := fun r =>
  if r.pos = 0 then
    if r.seg = 0 then (.err .negativePos, r)
    else match r.wire[r.seg - 1]? with
      | none => (.panic, r)
      | some s => (.ok (), { r with seg := r.seg - 1, pos := (s.length : Int) - 1 })
  else (.ok (), { r with pos := r.pos - 1 })

/-- `WireReader.Read`, readers.go:142-149, into a buffer of `n` bytes. -/
def read (n : Nat) : RM WR Bytes := fun r =>
  match nextSeg r with
  | (b, r') =>
    if b = false ∧ n > 0 then (.err .eof, r')
    else match r'.wire[r'.seg]? with
      | none => (.panic, r')
      | some s => match slice s r'.pos s.length with
        | .ok bs => (.ok (bs.take n), { r' with pos := r'.pos + (bs.take n).length })
        | _ => (.panic, r')

/-- The loop of `ReadWire`, readers.go:177-191, over the segments that are left (`segs = r.wire[r.seg:]`). -/
def readWireLoop : (segs : List Bytes) → (seg : Nat) → (pos : Int) → (l : Int) → Res Wire × Nat × Int
  | segs, seg, pos, l =>
    if l ≤ 0 then (.ok [], seg, pos)
    else match segs with
      | [] => (.err .unexpectedEof, seg, pos)
      | s :: rest =>
        if wrap64 (pos + l) > s.length then
          match slice s pos s.length with
          | .ok part =>
            match readWireLoop rest (seg + 1) 0 (l - (s.length - pos)) with
            | (.ok w, st) => (.ok (part :: w), st)
            | (x, st) => (x, st)
          | _ => (.panic, seg, pos)
        else match slice s pos (wrap64 (pos + l)) with
          | .ok part => (.ok [part], seg, pos + l)
          | _ => (.panic, seg, pos)

/-- `WireReader.ReadWire`, readers.go:172-193. -/
def readWire (l : Int) : RM WR Wire := fun r =>
  match nextSeg r with
  | (b, r') =>
    if b = false ∧ l > 0 then (.err .eof, r')
    else match readWireLoop (r'.wire.drop r'.seg) r'.seg r'.pos l with
      | (res, seg, pos) => (res, { r' with seg := seg, pos := pos })

/-- `WireReader.ReadBuf`, readers.go:195-225.  The copying loop is the same walk as in `ReadWire`; the copied pieces
are joined. (`cur -= l` on line 219 has no effect because the loop ends there.) -/
def readBuf (l : Int) : RM WR Bytes := fun r =>
  match nextSeg r with
  | (b, r') =>
    if b = false ∧ l > 0 then (.err .unexpectedEof, r')
    else match r'.wire[r'.seg]? with
      | none => (.panic, r')
      | some s =>
        if wrap64 (r'.pos + l) ≤ s.length then
          match slice s r'.pos (wrap64 (r'.pos + l)) with
          | .ok bs => (.ok bs, { r' with pos := r'.pos + l })
          | _ => (.panic, r')
        else if l < 0 ∨ l > maxAlloc then (.panic, r')
        else match readWireLoop (r'.wire.drop r'.seg) r'.seg r'.pos l with
          | (.ok w, seg, pos) => (.ok w.flatten, { r' with seg := seg, pos := pos })
          | (.err e, seg, pos) => (.err e, { r' with seg := seg, pos := pos })
          | (.panic, seg, pos) => (.panic, { r' with seg := seg, pos := pos })

/-- `WireReader.Pos`, readers.go:227-229. -/
def posOf (r : WR) : Int := r.pos + r.accSz r.seg

/-- `WireReader.Length`, readers.go:231-233. -/
def length (r : WR) : Nat := r.accSz r.wire.length

/-- The search loop of `Range`, readers.go:239-249: `(startSeg, startPos, endSeg, endPos)`. -/
def rangeLoop (r : WR) (start stop : Int) : Nat × Int × Nat × Int :=
  (List.range r.wire.length).foldl (fun (st : Nat × Int × Nat × Int) i =>
    let (ss, sp, es, ep) := st
    let a : Int := r.accSz i
    let b : Int := r.accSz (i + 1)
    let (ss, sp) := if a ≤ start ∧ b > start then (i, start - a) else (ss, sp)
    let (es, ep) := if a < stop ∧ b ≥ stop then (i, stop - a) else (es, ep)
    (ss, sp, es, ep)) (0, 0, 0, 0)

/-- `WireReader.Range`, readers.go:235-261.  `.err` stands for the nil wire.  Line 256 writes `ret[i]` where
`ret[i-startSeg]` is meant; it is modelled as written. -/
def range (r : WR) (start stop : Int) : Res Wire :=
  if start < 0 ∨ stop > r.length ∨ start > stop then .err .outOfRange
  else
    let (ss, sp, es, ep) := rangeLoop r start stop
    if ss = es then do
      match r.wire[ss]? with
      | none => .panic
      | some s => do
        let b ← slice s sp ep
        .ok [b]
    else
      -- `make(Wire, endSeg-startSeg+1)` panics for a negative size
      if (es : Int) - ss + 1 < 0 then .panic
      else
        let n := es + 1 - ss
        match r.wire[ss]?, r.wire[es]? with
        | some s, some e => do
          let first ← slice s sp s.length
          if n = 0 then .panic else
          let ret0 : Wire := (List.replicate n []).set 0 first
          let ret1 ← (List.range' (ss + 1) (es - (ss + 1))).foldlM (fun (ret : Wire) i =>
            if i < ret.length then .ok (ret.set i (r.wire[i]?.getD [])) else (.panic : Res Wire)) ret0
          let last ← slice e 0 ep
          .ok (ret1.set (es - ss) last)
        | _, _ => .panic

/-- The loop of `Skip` and `Delegate`, readers.go:268-274 and 292-298, over the segments from `r.seg` on.
`none` = ran off the end (`seg` has become `len(wire)`); an empty list at entry is an index panic. -/
def walk : (segs : List Bytes) → (seg : Nat) → (pos : Int) → Res (Option (Nat × Int)) × Nat × Int
  | [], seg, pos => (.panic, seg, pos)
  | s :: rest, seg, pos =>
    if pos > s.length then
      if rest = [] then (.ok none, seg + 1, pos - s.length) else walk rest (seg + 1) (pos - s.length)
    else (.ok (some (seg, pos)), seg, pos)

/-- `WireReader.Skip`, readers.go:263-276. -/
def skip (n : Int) : RM WR Unit := fun r =>
  if n < 0 then (.err .other, r)
  else match walk (r.wire.drop r.seg) r.seg (wrap64 (r.pos + n)) with
    | (.ok (some _), seg, pos) => (.ok (), { r with seg := seg, pos := pos })
    | (.ok none, seg, pos) => (.err .eof, { r with seg := seg, pos := pos })
    | (_, seg, pos) => (.panic, { r with seg := seg, pos := pos })

end WR

/-- A `ParseReader`: one of the two implementations. -/
inductive Rd where
  | b (r : BR)
  | w (r : WR)
  deriving DecidableEq, Repr

namespace WR

/-- `WireReader.Delegate`, readers.go:278-313. -/
def delegate (l : Int) : RM WR Rd := fun r =>
  if l < 0 ∨ r.seg ≥ r.wire.length then (.ok (.b (BR.new [])), r)
  else match r.wire[r.seg]? with
    | none => (.panic, r)
    | some s =>
      if wrap64 (r.pos + l) ≤ s.length then
        match slice s r.pos (wrap64 (r.pos + l)) with
        | .ok bs => (.ok (.b (BR.new bs)), { r with pos := r.pos + l })
        | _ => (.panic, r)
      else
        match walk (r.wire.drop r.seg) r.seg (wrap64 (r.pos + l)) with
        | (.ok none, seg, pos) => (.ok (.b (BR.new [])), { r with seg := seg, pos := pos })
        | (.ok (some _), seg, pos) =>
          match r.wire[seg]? with
          | none => (.panic, r)
          | some last =>
            if pos = last.length then
              (.ok (.w ⟨r.wire.take (seg + 1), r.seg, r.pos⟩), { r with seg := seg, pos := pos })
            else
              match slice s r.pos s.length, slice last 0 pos with
              | .ok first, .ok lastPart =>
                (.ok (.w (WR.new (((r.wire.drop r.seg).take (seg + 1 - r.seg)).set 0 first |>.set (seg - r.seg) lastPart))),
                  { r with seg := seg, pos := pos })
              | _, _ => (.panic, r)
        | (_, seg, pos) => (.panic, { r with seg := seg, pos := pos })

end WR

namespace Rd

/-- Lift a pair of methods to a `ParseReader`. -/
def lift {α : Type} (f : RM BR α) (g : RM WR α) : RM Rd α := fun r =>
  match r with
  | .b r => match f r with | (a, r') => (a, .b r')
  | .w r => match g r with | (a, r') => (a, .w r')

def readByte : RM Rd UInt8 := lift BR.readByte WR.readByte
def readBuf (l : Int) : RM Rd Bytes := lift (BR.readBuf l) (WR.readBuf l)
def readWire (l : Int) : RM Rd Wire := lift (BR.readWire l) (WR.readWire l)
def skip (l : Int) : RM Rd Unit := lift (BR.skip l) (WR.skip l)
def delegate (l : Int) : RM Rd Rd := fun r =>
  match r with
  | .b r => match BR.delegate l r with
    | (.ok r2, r') => (.ok (.b r2), .b r')
    | (.err e, r') => (.err e, .b r')
    | (.panic, r') => (.panic, .b r')
  | .w r => match WR.delegate l r with | (a, r') => (a, .w r')
/-- `Length() - Pos()` -/
def remaining : RM Rd Int := fun r =>
  match r with
  | .b r => (.ok ((r.buf.length : Int) - r.pos), .b r)
  | .w r => (.ok ((r.length : Int) - r.posOf), .w r)

/-- `ReadTLNum` on any `ParseReader`. -/
abbrev readTL : RM Rd Nat := Ndn.readTL Rd.readByte

end Rd

end Ndn
