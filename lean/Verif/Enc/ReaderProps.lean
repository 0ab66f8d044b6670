import Verif.Enc.ReaderRun

/-!
# Properties C06, C07, C08: the readers
-/

namespace Ndn

/-! ## C06 -/

/-- C06 (adaptive clients): what any client of a `BufferReader` sees is what `Prog.spec` says about the plain bytes;
the reader never panics, keeps its buffer and stays inside it.  `Adm` only limits lengths to `2^62` and excludes
over-long `Delegate`s (those are property C08). -/
theorem C06_buffer_reader_client {α : Type} (bs : Bytes) (hbs : bs.length < 2 ^ 62) (p : Prog α)
    (ha : p.Adm True (2 ^ 62) bs) :
    (∀ a t, p.spec bs = some (a, t) →
      p.run (.b (BR.new bs)) = (.ok a, .b ⟨bs, bs.length - t.length⟩) ∧ bs.drop (bs.length - t.length) = t) ∧
    (p.spec bs = none → ∃ e pos, p.run (.b (BR.new bs)) = (.err e, .b ⟨bs, pos⟩) ∧ pos ≤ bs.length) := by
  obtain ⟨h1, h2⟩ := Prog.run_b (Nat.le_refl _) p (BR.new bs) (BR.Good.new hbs) ha
  refine ⟨fun a t h => ?_, fun h => ?_⟩
  · obtain ⟨⟨b, p'⟩, hr, hb, ht, hg⟩ := h1 a t h
    simp only [BR.new_buf] at hb
    subst hb
    have hp : p' = b.length - t.length := by
      have := hg.1
      rw [← ht, BR.rest_length]; simp only at this ⊢; omega
    subst hp
    exact ⟨hr, ht⟩
  · obtain ⟨e, ⟨b, p'⟩, hr, hb, hg⟩ := h2 h
    simp only [BR.new_buf] at hb
    subst hb
    exact ⟨e, p', hr, hg.1⟩

/-- A client that reads a length byte, then that many bytes in a sub-reader, and answers them. -/
def lengthPrefixed : Prog Bytes :=
  .readByte fun b => .within b.toNat (.remaining fun n => .readWire n.toNat fun bs => .ret bs) fun bs => .ret bs

example : lengthPrefixed.Adm True (2 ^ 62) [2, 7, 8, 9] := by
  intro b t h
  injection h with h1 h2; subst h1; subst h2
  refine ⟨by decide, by decide, ?_, fun _ _ _ => trivial⟩
  exact ⟨by decide, by decide, fun _ => trivial⟩
example : lengthPrefixed.spec [2, 7, 8, 9] = some ([7, 8], [9]) := by rfl

/-- One call on a `BufferReader`, with any arguments the API allows. -/
inductive BCall where
  | readByte
  | read (n : Nat)
  | readBuf (l : Nat)
  | readWire (l : Nat)
  | skip (n : Nat)
  | delegate (l : Nat)
  | unreadByte
  | seek (off : Int) (whence : Nat)

/-- Replace the result by the bytes that were read. -/
def seen {α : Type} (f : α → Bytes) (x : Res α × BR) : Res Bytes × BR := (x.1.map f, x.2)

/-- Execute one call; the answer is the bytes it gives to the caller (for `Delegate`, the bytes of the sub-reader). -/
def BCall.exec : BCall → BR → Res Bytes × BR
  | .readByte, r => seen (fun b => [b]) (BR.readByte r)
  | .read n, r => BR.read n r
  | .readBuf l, r => BR.readBuf l r
  | .readWire l, r => seen List.flatten (BR.readWire l r)
  | .skip n, r => seen (fun _ => []) (BR.skip n r)
  | .delegate l, r => seen BR.buf (BR.delegate l r)
  | .unreadByte, r => seen (fun _ => []) (BR.unreadByte r)
  | .seek o w, r => seen (fun _ => []) (BR.seek o w r)

/-- Does the call hand out bytes? -/
def BCall.reads : BCall → Bool
  | .skip _ | .unreadByte | .seek _ _ => false
  | _ => true

/-- Lengths that cannot overflow an `int` when added to a position. -/
def BCall.Small : BCall → Prop
  | .read l | .readBuf l | .readWire l | .skip l | .delegate l => l ≤ 2 ^ 62
  | _ => True

theorem BCall.step (c : BCall) (r : BR) (hg : r.Good) (hc : c.Small) :
    (c.exec r).1 ≠ .panic ∧ (c.exec r).2.Good ∧ (c.exec r).2.buf = r.buf ∧
    (∀ e, (c.exec r).1 = .err e → (c.exec r).2 = r) ∧
    (∀ bs, (c.exec r).1 = .ok bs → c.reads = true →
      r.pos ≤ (c.exec r).2.pos ∧ bs = (r.buf.drop r.pos).take ((c.exec r).2.pos - r.pos)) := by
  have h1 := hg.1
  have h2 := hg.2
  cases c with
  | readByte =>
    simp only [BCall.exec, seen]
    cases hr : r.rest with
    | nil => rw [BR.readByte_nil hr]; simp [Res.map, hg]
    | cons b t =>
      rw [BR.readByte_cons hr]
      have hl : 1 ≤ r.rest.length := by rw [hr]; simp
      refine ⟨by simp [Res.map], hg.adv hl, rfl, by simp [Res.map], ?_⟩
      intro bs h _
      simp only [Res.map, Res.ok.injEq] at h
      refine ⟨by simp, ?_⟩
      have : r.buf.drop r.pos = b :: t := hr
      rw [this, ← h]; simp
  | read n =>
    simp only [BCall.exec, BR.read]
    split
    · simp [hg]
    · refine ⟨by simp, ⟨?_, h2⟩, rfl, by simp, ?_⟩
      · simp only [List.length_take, List.length_drop]; omega
      · intro bs h _
        simp only [Res.ok.injEq] at h
        refine ⟨by simp, ?_⟩
        rw [← h]
        simp only [Nat.add_sub_cancel_left]
        apply List.ext_getElem
        · simp
        · intro i _ _; simp
  | readBuf l =>
    simp only [BCall.exec]
    by_cases hl : l ≤ r.rest.length
    · rw [BR.readBuf_ok hg hl]
      refine ⟨by simp, hg.adv hl, rfl, by simp, ?_⟩
      intro bs h _
      simp only [Res.ok.injEq] at h
      exact ⟨by simp, by simp [← h, BR.rest]⟩
    · have hc' : l ≤ 2 ^ 62 := hc
      rw [BR.readBuf_err (l := l) hg (by omega) hc']; simp [hg]
  | readWire l =>
    simp only [BCall.exec, seen]
    by_cases hl : l ≤ r.rest.length
    · rw [BR.readWire_ok hg hl]
      refine ⟨by simp [Res.map], hg.adv hl, rfl, by simp [Res.map], ?_⟩
      intro bs h _
      simp only [Res.map, Res.ok.injEq] at h
      exact ⟨by simp, by simp [← h, BR.rest]⟩
    · obtain ⟨e, he⟩ := BR.readWire_err (l := l) hg (by omega) hc
      rw [he]; simp [hg, Res.map]
  | skip l =>
    simp only [BCall.exec, seen]
    by_cases hl : l ≤ r.rest.length
    · rw [BR.skip_ok hg hl]
      exact ⟨by simp [Res.map], hg.adv hl, rfl, by simp [Res.map], by simp [BCall.reads]⟩
    · have hc' : l ≤ 2 ^ 62 := hc
      rw [BR.skip_err (l := l) hg (by omega) hc']; simp [hg, Res.map]
  | delegate l =>
    simp only [BCall.exec, seen]
    by_cases hl : l ≤ r.rest.length
    · rw [BR.delegate_ok hg hl]
      refine ⟨by simp [Res.map], hg.adv hl, rfl, by simp [Res.map], ?_⟩
      intro bs h _
      simp only [Res.map, Res.ok.injEq] at h
      exact ⟨by simp, by simp [← h, BR.rest]⟩
    · have hc' : l ≤ 2 ^ 62 := hc
      rw [BR.delegate_over (l := l) hg (by omega) hc']
      refine ⟨by simp [Res.map], hg, rfl, by simp [Res.map], ?_⟩
      intro bs h _
      simp only [Res.map, Res.ok.injEq] at h
      simp [← h]
  | unreadByte =>
    simp only [BCall.exec, seen, BR.unreadByte]
    split
    · simp [Res.map, hg]
    · refine ⟨by simp [Res.map], ⟨?_, h2⟩, rfl, by simp [Res.map], by simp [BCall.reads]⟩
      simp only; omega
  | seek o w =>
    have key : ∀ (newPos : Int),
        let x : Res Nat × BR := if newPos < 0 then (.err .negativePos, r)
          else if newPos > r.buf.length then (.err .outOfRange, r)
          else (.ok newPos.toNat, { r with pos := newPos.toNat })
        x.1 ≠ .panic ∧ x.2.Good ∧ x.2.buf = r.buf ∧ (∀ e, x.1 = .err e → x.2 = r) := by
      intro newPos
      simp only
      split
      · simp [hg]
      · split
        · simp [hg]
        · exact ⟨by simp, ⟨by simp only; omega, h2⟩, rfl, by simp⟩
    have fin : ∀ (x : Res Nat × BR), (x.1 ≠ .panic ∧ x.2.Good ∧ x.2.buf = r.buf ∧ (∀ e, x.1 = .err e → x.2 = r)) →
        (seen (fun _ => []) x).1 ≠ .panic ∧ (seen (fun _ => []) x).2.Good ∧ (seen (fun _ => []) x).2.buf = r.buf ∧
        (∀ e, (seen (fun _ => []) x).1 = .err e → (seen (fun _ => []) x).2 = r) := by
      intro x hx
      obtain ⟨x1, x2⟩ := x
      cases x1 <;> simp_all [seen, Res.map]
    have hs : (BR.seek o w r).1 ≠ .panic ∧ (BR.seek o w r).2.Good ∧ (BR.seek o w r).2.buf = r.buf ∧
        (∀ e, (BR.seek o w r).1 = .err e → (BR.seek o w r).2 = r) := by
      unfold BR.seek
      match w with
      | 0 => exact key o
      | 1 => exact key _
      | 2 => exact key _
      | _ + 3 => simp [hg]
    obtain ⟨a, b, c, d⟩ := fin _ hs
    exact ⟨a, b, c, d, by simp [BCall.reads]⟩

/-- C06 (call sequences): after any sequence of calls on a fresh `BufferReader`, the position is inside the unchanged
buffer; the next call does not panic, a failing call leaves the reader as it was, and a successful reading call
answers exactly the bytes between the old and the new position. -/
theorem C06_buffer_reader_calls (bs : Bytes) (hbs : bs.length < 2 ^ 62) (calls : List BCall)
    (hc : ∀ c ∈ calls, c.Small) (next : BCall) (hn : next.Small) :
    let r := calls.foldl (fun r c => (c.exec r).2) (BR.new bs)
    r.pos ≤ bs.length ∧ r.buf = bs ∧ (next.exec r).1 ≠ .panic ∧
    (∀ e, (next.exec r).1 = .err e → (next.exec r).2 = r) ∧
    (∀ out, (next.exec r).1 = .ok out → next.reads = true →
      r.pos ≤ (next.exec r).2.pos ∧ out = (bs.drop r.pos).take ((next.exec r).2.pos - r.pos)) := by
  have inv : ∀ (calls : List BCall) (r : BR), r.Good → r.buf = bs → (∀ c ∈ calls, c.Small) →
      (calls.foldl (fun r c => (c.exec r).2) r).Good ∧ (calls.foldl (fun r c => (c.exec r).2) r).buf = bs := by
    intro calls
    induction calls with
    | nil => intro r h1 h2 _; exact ⟨h1, h2⟩
    | cons c cs ih =>
      intro r h1 h2 hc
      obtain ⟨_, hg, hb, _⟩ := c.step r h1 (hc c (by simp))
      exact ih _ hg (hb.trans h2) (fun c hm => hc c (by simp [hm]))
  obtain ⟨hg, hb⟩ := inv calls (BR.new bs) (BR.Good.new hbs) rfl hc
  obtain ⟨s1, s2, s3, s4, s5⟩ := next.step _ hg hn
  refine ⟨Nat.le_trans hg.1 (Nat.le_of_eq (congrArg List.length hb)), hb, s1, s4, ?_⟩
  rw [hb] at s5
  exact s5

example : (∀ c ∈ [BCall.readByte, .skip 1, .delegate 9, .seek (-3) 1], c.Small) ∧ (BCall.readBuf 2).Small := by
  constructor
  · intro c hc; simp at hc; rcases hc with rfl | rfl | rfl | rfl <;> simp [BCall.Small]
  · simp [BCall.Small]

/-- C06 (`Range`): exactly the asked bytes, or nil when the bounds are wrong. -/
theorem C06_range (r : BR) (start stop : Nat) :
    (start ≤ stop ∧ stop ≤ r.buf.length → ∃ w, r.range start stop = some w ∧
      w.flatten.length = stop - start ∧ ∃ pre post, r.buf = pre ++ w.flatten ++ post ∧ pre.length = start) ∧
    (¬(start ≤ stop ∧ stop ≤ r.buf.length) → r.range start stop = none) := by
  constructor
  · intro h
    refine ⟨[(r.buf.drop start).take (stop - start)], ?_, ?_, r.buf.take start, r.buf.drop stop, ?_, ?_⟩
    · unfold BR.range; rw [if_neg (by omega)]; simp
    · simp; omega
    · simp only [List.flatten_cons, List.flatten_nil, List.append_nil]
      have : r.buf.drop stop = (r.buf.drop start).drop (stop - start) := by rw [List.drop_drop]; congr 1; omega
      rw [this, List.append_assoc, List.take_append_drop, List.take_append_drop]
    · simp; omega
  · intro h
    unfold BR.range; rw [if_pos (by omega)]

/-- C06, the limit of the property: with a negative length (which `int(l)` produces from a 64-bit length field above
`2^63`) `ReadBuf` panics instead of failing. -/
theorem C06_readBuf_negative_panics (r : BR) (hg : r.Good) (l : Int) (h1 : -2 ^ 62 ≤ l) (h2 : l < 0) :
    (BR.readBuf l r).1 = .panic := by
  have := hg.1
  have := hg.2
  unfold BR.readBuf BR.slice
  simp only
  rw [wrap64_id (by omega) (by omega), if_neg (by omega), if_neg (by omega)]

/-! ## C07 -/

/-- C07 (partial): if no buffer except possibly the first is empty, no client can tell a `WireReader` over `w` from a
`BufferReader` over the joined bytes, and neither panics.  Missing from the full property, because the code fails
there: empty buffers in the middle, zero-length reads at the very end, over-long `Delegate`s, `Range`, and the absolute
value of `Pos` in a sub-reader (only `Length() - Pos()` is observed). -/
theorem C07_wire_reader_partial {α : Type} (first : Bytes) (others : Wire) (hne : ∀ s ∈ others, s ≠ [])
    (hlen : (first :: others).flatten.length < 2 ^ 62) (p : Prog α)
    (ha : p.Adm False maxAlloc (Wire.join (first :: others))) :
    let rw := p.run (.w (WR.new (first :: others)))
    let rb := p.run (.b (BR.new (Wire.join (first :: others))))
    rw.1 ≠ .panic ∧ rb.1 ≠ .panic ∧ (∀ a, rw.1 = .ok a ↔ rb.1 = .ok a) ∧
      (∀ a, rw.1 = .ok a → rw.2.rest = rb.2.rest) := by
  have hgw : Rd.Good (.w (WR.new (first :: others))) :=
    ⟨⟨first, others, rfl, by simp [WR.new], by simp [WR.new], hne⟩, hlen⟩
  have hgb : Rd.Good (.b (BR.new (Wire.join (first :: others)))) := BR.Good.new hlen
  have hrw : Rd.rest (.w (WR.new (first :: others))) = Wire.join (first :: others) := by
    simp [Rd.rest, WR.rest, WR.new, Wire.join]
  obtain ⟨w1, w2⟩ := Prog.run_good p _ hgw (by rw [hrw]; exact ha)
  obtain ⟨b1, b2⟩ := Prog.run_good p (.b (BR.new (Wire.join (first :: others)))) hgb ha
  rw [hrw] at w1 w2
  simp only [Rd.rest, BR.rest_new] at b1 b2
  cases hs : p.spec (Wire.join (first :: others)) with
  | none =>
    obtain ⟨e, r, h⟩ := w2 hs
    obtain ⟨e', r', h'⟩ := b2 hs
    simp [h, h']
  | some x =>
    obtain ⟨a, t⟩ := x
    obtain ⟨r, h, ht⟩ := w1 a t hs
    obtain ⟨r', h', ht'⟩ := b1 a t hs
    simp only [h, h']
    refine ⟨by simp, by simp, fun _ => trivial, fun _ _ => ?_⟩
    rw [ht]; exact ht'.symm

example : lengthPrefixed.Adm False maxAlloc (Wire.join [[2, 7], [8, 9]]) := by
  intro b t h
  injection h with h1 h2; subst h1; subst h2
  refine ⟨by unfold maxAlloc; decide, by decide, ?_, fun _ _ _ => trivial⟩
  exact ⟨by unfold maxAlloc; decide, by decide, fun _ => trivial⟩

/-- C07 fails for empty buffers: two consecutive empty buffers make `ReadByte` panic although bytes remain. -/
theorem C07_empty_segment_violated :
    (WR.readByte (WR.new [[], [], [5]])).1 = .panic ∧ (BR.readByte (BR.new (Wire.join [[], [], [5]]))).1 = .ok 5 := by
  decide

/-- C07 fails for a zero-length read at the end: `ReadBuf(0)` panics, while a `BufferReader` returns no bytes. -/
theorem C07_zero_read_violated :
    (WR.readBuf 0 ⟨[[5]], 0, 1⟩).1 = .panic ∧ (BR.readBuf 0 ⟨[5], 1⟩).1 = .ok [] := by
  constructor
  · rfl
  · have : wrap64 (((1 : Nat) : Int) + 0) = 1 := wrap64_id (by omega) (by omega)
    unfold BR.readBuf; simp only [this]; rfl

/-- C07 fails for `Range`: the middle buffers go to the wrong place, so bytes are lost. -/
theorem C07_range_violated :
    (WR.new [[1], [2], [3], [4]]).range 1 4 = .ok [[2], [], [4]] ∧
    (BR.new (Wire.join [[1], [2], [3], [4]])).range 1 4 = some [[2, 3, 4]] := by
  decide

/-- C07 fails for `Range`: it can also panic, -/
theorem C07_range_panics : (WR.new [[1], [2], [3], [4], [5], [6]]).range 2 6 = .panic := by decide

/-- and the empty range at the end gives the first buffer cut at zero... or a panic when it has a wrong start. -/
theorem C07_range_end_violated : (WR.new [[1, 2], [3]]).range 3 3 ≠ .ok [[]] := by decide

/-! ## C08 -/

/-- C08 (partial): when at least `l` bytes remain, `Delegate(l)` on either reader gives a reader in working order over
exactly the next `l` bytes and leaves the reader after them, as `Skip(l)` does.  Missing: the over-long case, where the
code does not fail (`C08_overlong_violated`). -/
theorem C08_delegate_partial (r : Rd) (hg : r.Good) (l : Nat) (hl : l ≤ r.rest.length) :
    ∃ sub r' r'', Rd.delegate l r = (.ok sub, r') ∧ sub.Good ∧ sub.rest = r.rest.take l ∧ r'.rest = r.rest.drop l ∧
      Rd.skip l r = (.ok (), r'') ∧ r''.rest = r'.rest := by
  cases r with
  | b r =>
    simp only [Rd.rest, Rd.Good] at *
    refine ⟨_, _, _, Rd.delegate_b (BR.delegate_ok hg hl), BR.Good.new ?_, rfl, BR.rest_adv _ _, Rd.lift_b (BR.skip_ok hg hl), rfl⟩
    have := hg.2
    rw [List.length_take, BR.rest_length]; omega
  | w r =>
    simp only [Rd.rest, Rd.Good] at *
    obtain ⟨r'', hs, _, hr''⟩ := WR.skip_ok hg hl
    rcases WR.delegate_ok hg hl with ⟨r', h1, h2, h3⟩ | ⟨r2, r', h1, h2, h3, h4, h5⟩
    · refine ⟨_, _, _, Rd.delegate_w h1, BR.Good.new ?_, rfl, h3, Rd.lift_w hs, by simp only; rw [hr'', h3]⟩
      have := hg.rest_small
      rw [List.length_take]; omega
    · exact ⟨_, _, _, Rd.delegate_w h1, h2, h3, h5, Rd.lift_w hs, by simp only; rw [hr'', h5]⟩

example : (Rd.b (BR.new [1, 2, 3])).Good ∧ 2 ≤ (Rd.b (BR.new [1, 2, 3])).rest.length := ⟨by constructor <;> decide, by decide⟩
example : (Rd.w ⟨[[1], [2, 3], [4]], 0, 1⟩).Good ∧ 2 ≤ (Rd.w ⟨[[1], [2, 3], [4]], 0, 1⟩).rest.length :=
  ⟨⟨⟨[1], [[2, 3], [4]], rfl, by decide, by decide, by decide⟩, by decide⟩, by decide⟩

/-- C08 fails when fewer than `l` bytes remain: for *every* buffer and every such length, `BufferReader.Delegate`
succeeds with an empty reader and does not move, where `Skip` fails. -/
theorem C08_overlong_violated (r : BR) (hg : r.Good) (l : Nat) (hl : r.rest.length < l) (hm : l ≤ 2 ^ 62) :
    BR.delegate l r = (.ok (BR.new []), r) ∧ ∃ e, (BR.skip l r).1 = .err e := by
  constructor
  · exact BR.delegate_over (l := l) hg hl hm
  · exact ⟨.outOfRange, by rw [BR.skip_err (l := l) hg hl hm]⟩

example : (BR.new [1, 2, 3]).Good ∧ (BR.new [1, 2, 3]).rest.length < 4 := ⟨by constructor <;> decide, by decide⟩

end Ndn
