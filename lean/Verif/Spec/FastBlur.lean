import Verif.Spec.Sample

/-!
# Box blurs
-/

namespace Verif

/-- The mean, rounded down, of the `2r + 1` values around index `x` of a row of `n` values; beyond the ends of the row its first
and last value are repeated. -/
def boxMean (r n : Nat) (v : Nat → Nat) (x : Nat) : Nat :=
  (∑ d ∈ Finset.range (2 * r + 1), v (min (x + d - r) (n - 1))) / (2 * r + 1)

/-- A box blur of a `w × h` picture: means along the rows, then along the columns. -/
def boxBlur (r w h : Nat) (v : Nat → Nat → Nat) : Nat → Nat → Nat :=
  fun x y => boxMean r h (fun j => boxMean r w (fun i => v i j) x) y

/-- The mean of the `2r + 1` values around index `x` of a row of `n` values; beyond the ends of the row its first and last value
are repeated. -/
def boxMeanQ (r n : Nat) (v : Nat → ℚ) (x : Nat) : ℚ :=
  (∑ d ∈ Finset.range (2 * r + 1), v (min (x + d - r) (n - 1))) / (2 * r + 1 : ℕ)

/-- A box blur of a `w × h` picture, not rounded: means along the rows, then along the columns. -/
def boxBlurQ (r w h : Nat) (v : Nat → Nat → ℚ) : Nat → Nat → ℚ :=
  fun x y => boxMeanQ r h (fun j => boxMeanQ r w (fun i => v i j) x) y

/-- The variance of a box filter of radius `r`, that is, of the uniform distribution on `-r, …, r`. -/
def boxVariance (r : Nat) : ℚ := (∑ d ∈ Finset.range (2 * r + 1), ((d : ℚ) - r) ^ 2) / (2 * r + 1 : ℕ)

end Verif
