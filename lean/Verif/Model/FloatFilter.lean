import Verif.Model.FloatImage
import Verif.Model.Sample

/-!
# `unsharpen` on `f32` samples
-/

namespace Verif
open GenericImageView GenericImage

/-- The closure of `unsharpen` (src/imageops/sample.rs:1044-1057) for `f32` samples: through `i32`, with overflow checks; the maximum
is 1 (src/imageops/sample.rs:1035-1036, src/traits.rs:68). -/
def unsharpenSampleF (threshold : Int) (c d : Fl) : R Fl := do
  let ic ← unwrapR c.castI32
  let id ← unwrapR d.castI32
  let diff ← addI32 ic (-id)
  let diffAbs : Int := diff.natAbs
  if 2 ^ 31 ≤ diffAbs then panicR
  else if threshold < diffAbs then do
    let e := clampZ (← addI32 ic diff) 0 1
    .ok (f32.ofRat e)
  else .ok c

/-- `unsharpen` (src/imageops/sample.rs:1027-1064) for `f32` samples. -/
def unsharpenF {I : Type} {ch : Nat} [GenericImageView I (Pix Fl ch)] (L : Libm) (image : I) (sigma : Fl)
    (threshold : Int) : R (ImageBuffer Fl ch) := do
  let tmp ← blur L Samp.float image sigma
  forRange (heightOf image) (fun y tmp =>
    forRange (widthOf image) (fun x tmp => do
      let a ← getPixel image x y
      let b ← tmp.getPixel x y
      let p ← (List.finRange ch).mapM fun c => unsharpenSampleF threshold (a c) (b c)
      tmp.putPixel x y (← fromSlice ch p)) tmp) tmp

end Verif
