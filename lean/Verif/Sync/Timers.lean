import Verif.Go.Basic

/-!
# The delays of SVS

`pkg/sync/svs.go`: the two delays to which the ticker is set.  What `rand.Int64N` draws is an argument.  `time.Duration` is an
`int64` of nanoseconds.  The suppression delay is computed with `float64`; its arithmetic is a parameter (`FloatArith`), so the operations
are those of the code in its order, and how they round is said apart, in `Sync/TimersProps`.

`getSyncIntv` and `getAggIntv` of the other implementation are in `Schema/SvsLife`.
-/

namespace Ndn.Sync

/-- the `int64` that is congruent to `x` -/
def i64 (x : Int) : Int := Int.bmod x (2 ^ 64)

/-- `rand.Int64N(n)` of `math/rand/v2`: panics unless `n > 0`; otherwise a number in `[0, n)`, each being the draw of some `r` -/
def int64N (n : Int) (r : Nat) : Res Int :=
  if n ≤ 0 then .panic else .ok ((r : Int) % n)

/-- `getPeriodicTimeout`, svs.go:363-369; `p`: `s.periodicTimeout` -/
def periodicTimeout (p : Int) (r : Nat) : Res Int := do
  let jitter := p.tdiv 10
  let min := i64 (p - jitter)
  let max := i64 (p + jitter)
  let d ← int64N (i64 (max - min)) r
  .ok (i64 (d + min))

/-- the operations of `float64` that the code uses: conversion from `int64`, subtraction, multiplication, division, `math.Pow(math.E, x)`, and conversion to `int64` -/
structure FloatArith (α : Type) where
  ofInt : Int → α
  sub : α → α → α
  mul : α → α → α
  div : α → α → α
  powE : α → α
  toInt : α → Int

/-- `getSuppresionTimeout`, svs.go:371-384; `c`: `s.suppressionPeriod` -/
def suppressionTimeout {α : Type} (A : FloatArith α) (c : Int) (r : Nat) : Res Int := do
  let cf := A.ofInt c
  let d ← int64N c r
  let v := A.ofInt d
  let f := A.ofInt 10
  .ok (A.toInt (A.mul cf (A.sub (A.ofInt 1) (A.powE (A.div (A.sub v cf) (A.div cf f))))))

/-- `time.Ticker.Reset`: panics unless the delay is positive; otherwise the ticker ticks after this delay -/
def tickerReset (d : Int) : Res Int := if d ≤ 0 then .panic else .ok d

/-- `periodicTimeout` of `NewSvSync`, svs.go:61: `30 * time.Second` -/
def defaultPeriodic : Int := 30000000000

/-- `suppressionPeriod` of `NewSvSync`, svs.go:62: `200 * time.Millisecond` -/
def defaultSuppression : Int := 200000000

/-- the call in `enterSteadyState`, svs.go:360 -/
def steadyReset (r : Nat) : Res Int := do tickerReset (← periodicTimeout defaultPeriodic r)

/-- the call in `onReceiveStateVector`, svs.go:244 -/
def suppressionReset {α : Type} (A : FloatArith α) (r : Nat) : Res Int := do
  tickerReset (← suppressionTimeout A defaultSuppression r)

end Ndn.Sync
