import Mathlib.Data.Rat.Floor
import Mathlib.Algebra.BigOperators.Group.Finset.Piecewise

/-!
# What resampling means
-/

namespace Verif

/-- The centre of output index `o`, in input coordinates, when an axis of length `len` is sampled at `newLen` points:
input index `i` covers the interval `[i, i + 1]`. -/
def centre (len newLen o : Nat) : ℚ := (o + 1 / 2) * (len / newLen)

/-- `s` is an index whose interval contains the centre of `o`, up to a relative error of `2^-21` in the position. -/
def NearestIndex (len newLen o s : Nat) : Prop :=
  s < len ∧ s ≤ centre len newLen o * (1 + 1 / 2 ^ 21) ∧ centre len newLen o * (1 - 1 / 2 ^ 21) ≤ s + 1

/-- How much a filter is stretched: by the shrink factor, and not at all when enlarging. -/
def scale (len newLen : Nat) : ℚ := max 1 (len / newLen)

/-- The position of input index `i` relative to the centre of output index `o`, in units of the stretched filter. -/
def offset (len newLen o i : Nat) : ℚ := (i + 1 / 2 - centre len newLen o) / scale len newLen

/-- Input index `i` is within reach of output index `o` for a filter of support `s`: less than a pixel beyond it. -/
def Reach (s : ℚ) (len newLen o i : Nat) : Prop :=
  |(i : ℚ) + 1 / 2 - centre len newLen o| ≤ s * scale len newLen + 5 / 8

/-- The weighted mean of `v 0, …, v (n - 1)`. -/
def weighted (n : Nat) (a v : Nat → ℚ) : ℚ := (∑ i ∈ Finset.range n, a i * v i) / ∑ i ∈ Finset.range n, a i

/-- The triangle filter: weights fall off linearly and reach zero one (stretched) pixel from the centre. -/
def tent (len newLen o i : Nat) : ℚ := max 0 (1 - |offset len newLen o i|)

/-- Bilinear resampling in exact arithmetic: triangle weights in both directions. -/
def tentMean (w nw x h nh y : Nat) (v : Nat → Nat → ℚ) : ℚ :=
  weighted w (tent w nw x) fun i => weighted h (tent h nh y) fun j => v i j

/-- Bilinear interpolation at `(x, y)` in a `w × h` grid of values at integer coordinates: the four neighbours, weighted by
the areas opposite to them. Beyond the last column or row the last one is repeated. -/
def bilinear (w h : Nat) (v : Nat → Nat → ℚ) (x y : ℚ) : ℚ :=
  let i := ⌊x⌋.toNat
  let j := ⌊y⌋.toNat
  let a := x - i
  let b := y - j
  (1 - a) * (1 - b) * v i j + (1 - a) * b * v i (min (j + 1) (h - 1)) +
    a * (1 - b) * v (min (i + 1) (w - 1)) j + a * b * v (min (i + 1) (w - 1)) (min (j + 1) (h - 1))

/-- The sum of the nine neighbours of `(x, y)` weighted by a 3×3 kernel, whose entry `k i j` belongs to the neighbour in
column `x - 1 + i` and row `y - 1 + j`. -/
def conv3 (k : Nat → Nat → ℤ) (v : Nat → Nat → ℤ) (x y : Nat) : ℤ :=
  ∑ j ∈ Finset.range 3, ∑ i ∈ Finset.range 3, k i j * v (x - 1 + i) (y - 1 + j)

/-- The same for a kernel of fractions. -/
def conv3Q (k : Nat → Nat → ℚ) (v : Nat → Nat → ℚ) (x y : Nat) : ℚ :=
  ∑ j ∈ Finset.range 3, ∑ i ∈ Finset.range 3, k i j * v (x - 1 + i) (y - 1 + j)

/-- The sum of the entries of a 3×3 kernel, or one if that is zero. -/
def gain3 (k : Nat → Nat → ℤ) : ℤ :=
  if ∑ j ∈ Finset.range 3, ∑ i ∈ Finset.range 3, k i j = 0 then 1 else ∑ j ∈ Finset.range 3, ∑ i ∈ Finset.range 3, k i j

/-- Input index `i` meets the span `[o·len/newLen, (o+1)·len/newLen]` of output index `o`, or is next to it, up to a relative
error of `2^-21` in the positions. -/
def Covers (len newLen o i : Nat) : Prop :=
  i < len ∧ o * (len / newLen : ℚ) * (1 - 1 / 2 ^ 21) ≤ i + 1 ∧ i < (o + 1) * (len / newLen : ℚ) * (1 + 1 / 2 ^ 21) + 1

/-- The sum of the values in the rectangle of `nx` columns from `x` and `ny` rows from `y`. -/
def blockSum (v : Nat → Nat → Nat) (x nx y ny : Nat) : Nat :=
  ∑ j ∈ Finset.range ny, ∑ i ∈ Finset.range nx, v (x + i) (y + j)

/-- The quotient rounded to the nearest integer, halves upwards. -/
def roundedMean (sum n : Nat) : ℤ := ⌊(sum / n : ℚ) + 1 / 2⌋

end Verif
