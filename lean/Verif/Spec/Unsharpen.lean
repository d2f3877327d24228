import Verif.Spec.Sample

/-!
# Unsharp masking
-/

namespace Verif

/-- A sample `c` of a picture whose blurred version has `d` there: differences above the threshold are doubled, within the range of
the samples. -/
def sharpened (largest threshold c d : ℤ) : ℤ := if |c - d| ≤ threshold then c else max 0 (min largest (c + (c - d)))

end Verif
