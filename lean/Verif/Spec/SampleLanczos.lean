import Verif.Spec.Sample
import Mathlib.Analysis.SpecialFunctions.Trigonometric.Sinc

/-!
# What Lanczos resampling means
-/

namespace Verif

/-- The Lanczos kernel with three lobes: `sinc` cut off by the middle of a stretched `sinc`. Mathlib's `Real.sinc x` is `sin x / x`, and 1
at zero. -/
noncomputable def lanczosR (t : ℝ) : ℝ := if |t| < 3 then Real.sinc (Real.pi * t) * Real.sinc (Real.pi * t / 3) else 0

/-- A weighted mean with real weights. -/
noncomputable def weightedR (n : Nat) (a v : Nat → ℝ) : ℝ :=
  (∑ i ∈ Finset.range n, a i * v i) / ∑ i ∈ Finset.range n, a i

/-- Lanczos resampling in exact arithmetic. -/
noncomputable def lanczosMean (w nw x h nh y : Nat) (v : Nat → Nat → ℝ) : ℝ :=
  weightedR w (fun i => lanczosR (offset w nw x i)) fun i => weightedR h (fun j => lanczosR (offset h nh y j)) fun j => v i j

end Verif
