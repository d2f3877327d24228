import Verif.Spec.JpegFile

/-!
# The samples of a JPEG file

What a decoder shows for the coefficients of a file: the inverse cosine transform of the coefficients multiplied by the quantisation table
(T.81, A.3.3 and A.3.4), and for colours the conversion of JFIF files (T.871, clause 7). Rounding to integers is left out.
-/

namespace Verif
namespace JpegSpec

open Finset

/-- The sample in row `y` and column `x` of a block for the coefficients `c`. -/
noncomputable def idct (c : ℕ → ℕ → ℝ) (y x : ℕ) : ℝ :=
  128 + 1 / 4 * ∑ v ∈ range 8, ∑ u ∈ range 8,
    dctScale u * dctScale v * c v u * Real.cos ((2 * x + 1) * u * Real.pi / 16) * Real.cos ((2 * y + 1) * v * Real.pi / 16)

/-- The sample of the component `k` in column `x` and row `y` that a decoder shows. -/
noncomputable def Decoded.sample (d : Decoded) (k x y : Nat) : ℝ :=
  let block := (d.mcus.getD (y / 8 * ((d.width + 7) / 8) + x / 8) []).getD k []
  let table := (d.components.getD k (0, [])).2
  idct (fun v u => (block.getD (8 * v + u) 0 : ℝ) * (table.getD (8 * v + u) 0 : ℝ)) (y % 8) (x % 8)

/-- The red, green and blue that a decoder shows for `y`, `cb`, `cr`. -/
noncomputable def redOf (y _cb cr : ℝ) : ℝ := y + 1.402 * (cr - 128)

noncomputable def greenOf (y cb cr : ℝ) : ℝ := y - 0.114 * 1.772 / 0.587 * (cb - 128) - 0.299 * 1.402 / 0.587 * (cr - 128)

noncomputable def blueOf (y cb _cr : ℝ) : ℝ := y + 1.772 * (cb - 128)

/-- The root of the sum of squares of the largest errors of the coefficients of a block under a quantisation table: half an entry for the rounding to multiples
of it, and 4/3 for the precision of the transform. -/
noncomputable def tableError (table : List Nat) : ℝ := √ (∑ k ∈ range 64, ((table.getD k 0 : ℝ) / 2 + 4 / 3) ^ 2)

end JpegSpec
end Verif
