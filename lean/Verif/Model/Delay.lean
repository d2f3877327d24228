import Verif.Base.Rust

/-!
# Frame delays (src/animation.rs)

A `std::time::Duration` is its total number of nanoseconds (at most `u64::MAX` seconds plus 999 999 999 ns).
-/

namespace Verif

/-- `struct Ratio` / `struct Delay` (src/animation.rs:68-70, 281-284). -/
structure Delay where
  numer : Nat
  denom : Nat
  deriving DecidableEq, Repr

namespace Delay

/-- `from_numer_denom_ms` (src/animation.rs:141-145) through `Ratio::new` (288-294). -/
def fromNumerDenomMs (numerator denominator : Nat) : R Delay := do
  assertR (denominator != 0)
  .ok ⟨numerator, denominator⟩

/-- `numer_denom_ms` (src/animation.rs:192-194). -/
def numerDenomMs (d : Delay) : Nat × Nat := (d.numer, d.denom)

/-- `compare_fraction` (src/animation.rs:219-221): u64 products. -/
def compareFraction (a b : Nat × Nat) : R Ordering := do
  let x ← mulC 64 a.1 b.2
  let y ← mulC 64 b.1 a.2
  .ok (compare x y)

/-- `abs_diff_nom` (src/animation.rs:224-231). -/
def absDiffNom (a b : Nat × Nat) : R Nat := do
  let c0 ← mulC 64 a.1 b.2
  let c1 ← mulC 64 a.2 b.1
  subC (max c0 c1) (min c0 c1)

/-- Whether the new Farey fraction replaces the guess (src/animation.rs:269-283): the `match` over the integral
parts, then over the fractional parts. Integer division by zero panics. -/
def closer (nDiff nDen gDiff gDen : Nat) : R Bool := do
  assertR (nDen != 0)
  assertR (gDen != 0)
  match compare (nDiff / nDen) (gDiff / gDen) with
  | .lt => .ok true
  | .gt => .ok false
  | .eq => do
    let c ← compareFraction (nDiff % nDen, nDen) (gDiff % gDen, gDen)
    .ok (c == .lt)

/-- The `loop` of `closest_bounded_fraction` (src/animation.rs:240-287). `fuel` bounds the number of iterations;
running out of it counts as a panic (it is shown never to happen). -/
def fareyLoop (denomBound : Nat) (exact : Nat × Nat) : Nat → Nat × Nat → Nat × Nat → Nat × Nat → R (Nat × Nat)
  | 0, _, _, _ => panicR
  | fuel + 1, lower, upper, guess => do
    if (← compareFraction guess exact) == .eq then return guess
    if (← subC denomBound lower.2) < upper.2 then return guess
    let next := (← addC 64 lower.1 upper.1, ← addC 64 lower.2 upper.2)
    let less := (← compareFraction exact next) == .lt
    let upper' := if less then next else upper
    let lower' := if less then lower else next
    let gDiff ← absDiffNom guess exact
    let nDiff ← absDiffNom next exact
    let better ← closer nDiff next.2 gDiff guess.2
    fareyLoop denomBound exact fuel lower' upper' (if better then next else guess)

/-- `closest_bounded_fraction` (src/animation.rs:208-294). The final `as u32` casts truncate. -/
def closestBoundedFraction (denomBound nom denom : Nat) : R (Nat × Nat) := do
  assertR (decide (0 < denom))
  assertR (decide (0 < denomBound))
  assertR (decide (nom < denom))
  let two ← mulC 32 nom 2
  let g ← fareyLoop denomBound (nom, denom) (denomBound + 1) (0, 1) (1, 1) (if two > denom then 1 else 0, 1)
  .ok (g.1 % 2 ^ 32, g.2 % 2 ^ 32)

/-- `from_saturating_duration` (src/animation.rs:162-185); `nanos` is the duration. -/
def fromSaturatingDuration (nanos : Nat) : R Delay := do
  let millisBound := 2 ^ 32 - 1
  let millis := min (nanos / 1000000) millisBound
  let submillis := nanos % 1000000
  let maxB := if millis > 0 then (millisBound + 1) / (millis + 1) % 2 ^ 32 else millisBound
  let (a, b) ← closestBoundedFraction maxB submillis 1000000
  let bm ← mulC 32 b millis
  let n ← addC 32 a bm
  fromNumerDenomMs n b

/-- `From<Delay> for Duration` (src/animation.rs:270-278): the resulting number of nanoseconds. -/
def toDuration (d : Delay) : R Nat := do
  assertR (d.denom != 0)
  let ms := d.numer / d.denom
  let rest := d.numer % d.denom
  let p ← mulC 64 rest 1000000
  let nanos := p / d.denom
  .ok (ms * 1000000 + nanos)

/-- `Ord::cmp` of `Ratio` (src/animation.rs:316-335); `PartialEq` (302-306) is `cmp == Equal`. -/
def cmp (x y : Delay) : R Ordering := do
  let l ← mulC 64 x.numer y.denom
  let r ← mulC 64 y.numer x.denom
  .ok (compare l r)

end Delay
end Verif
