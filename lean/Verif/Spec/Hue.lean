import Mathlib.Data.Rat.Floor

/-!
# Hue rotation, exactly

The matrix of the CSS filter `hue-rotate`, for the cosine `c` and the sine `s` of the angle.
-/

namespace Verif

/-- The exact entry `a + b cos + d sin`. -/
def hueEntry (a b d : ℚ) (c s : ℚ) : ℚ := a + b * c + d * s

/-- The coefficients `(a, b, d)` of the nine entries (the CSS `hue-rotate` matrix). -/
def hueCoef : List (ℚ × ℚ × ℚ) :=
  [(213 / 1000, 787 / 1000, -(213 / 1000)), (715 / 1000, -(715 / 1000), -(715 / 1000)), (72 / 1000, -(72 / 1000), 928 / 1000),
   (213 / 1000, -(213 / 1000), 143 / 1000), (715 / 1000, 285 / 1000, 140 / 1000), (72 / 1000, -(72 / 1000), -(283 / 1000)),
   (213 / 1000, -(213 / 1000), -(787 / 1000)), (715 / 1000, -(715 / 1000), 715 / 1000), (72 / 1000, 928 / 1000, 72 / 1000)]

/-- The exact matrix entry number `i`. -/
def hueExact (i : ℕ) (c s : ℚ) : ℚ :=
  hueEntry (hueCoef.getD i (0, 0, 0)).1 (hueCoef.getD i (0, 0, 0)).2.1 (hueCoef.getD i (0, 0, 0)).2.2 c s

/-- The exact new channel number `i`. -/
def hueRowExact (i : ℕ) (c s r g b : ℚ) : ℚ :=
  hueExact (3 * i) c s * r + hueExact (3 * i + 1) c s * g + hueExact (3 * i + 2) c s * b

end Verif
