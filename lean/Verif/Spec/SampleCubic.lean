import Verif.Spec.Sample

/-!
# What bicubic resampling means
-/

namespace Verif

/-- The Catmull-Rom kernel: the piecewise cubic that interpolates samples at integer positions with the tangent of a
sample given by its two neighbours. -/
def cubic (t : ℚ) : ℚ :=
  if |t| ≤ 1 then 3 / 2 * |t| ^ 3 - 5 / 2 * |t| ^ 2 + 1
  else if |t| ≤ 2 then -1 / 2 * |t| ^ 3 + 5 / 2 * |t| ^ 2 - 4 * |t| + 2
  else 0

/-- Bicubic resampling in exact arithmetic: Catmull-Rom weights in both directions. -/
def cubicMean (w nw x h nh y : Nat) (v : Nat → Nat → ℚ) : ℚ :=
  weighted w (fun i => cubic (offset w nw x i)) fun i => weighted h (fun j => cubic (offset h nh y j)) fun j => v i j

end Verif
