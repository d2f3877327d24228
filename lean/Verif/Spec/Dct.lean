import Mathlib.Analysis.SpecialFunctions.Trigonometric.Basic

/-!
# The discrete cosine transform of a block (ITU-T T.81, A.3.3)

This file does not refer to the model of the encoder.
-/

namespace Verif
namespace JpegSpec

open Finset

/-- `C(0) = 1/√2`, and `C(u) = 1` for the others. -/
noncomputable def dctScale (u : ℕ) : ℝ := if u = 0 then 1 / √2 else 1

/-- The coefficient in row `v` and column `u` of the transform of the samples `s (8 * y + x)`, which are first shifted by 128 to
be centred at zero (T.81, A.3.1 and A.3.3). -/
noncomputable def dct (s : ℕ → ℝ) (v u : ℕ) : ℝ :=
  1 / 4 * dctScale u * dctScale v * ∑ y ∈ range 8, ∑ x ∈ range 8,
    (s (8 * y + x) - 128) * Real.cos ((2 * x + 1) * u * Real.pi / 16) * Real.cos ((2 * y + 1) * v * Real.pi / 16)

end JpegSpec
end Verif
