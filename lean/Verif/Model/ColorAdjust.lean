import Verif.Model.Sample

/-!
# `contrast`, `huerotate` and the gradients (src/imageops/colorops.rs, src/imageops/mod.rs)

`f32`/`f64` values are `Fl`; the library functions `cos` and `sin` on `f64` are parameters.
-/

namespace Verif
open GenericImageView GenericImage

/-! ## Contrast -/

/-- `((100.0 + contrast) / 100.0).powi(2)` (src/imageops/colorops.rs:100, 131); `powi(2)` is one multiplication. -/
def contrastPercent (contrast : Fl) : Fl :=
  let t := ((Fl.fin 100).add f32 contrast).div f32 (.fin 100)
  t.mul f32 t

/-- The closure of `contrast` and `contrast_in_place` (src/imageops/colorops.rs:104-109, 137-142); `max` is
`S::DEFAULT_MAX_VALUE` as `f32`. -/
def contrastSample {α : Type} (S : Samp α) (percent : Fl) (b : α) : R α :=
  let max := S.toF32 S.max
  let c := S.toF32 b
  let d := (((((c.div f32 max).sub f32 (.fin (1 / 2))).mul f32 percent).add f32 (.fin (1 / 2)))).mul f32 max
  let e := clampF d (.fin 0) max
  unwrapR (S.cast e)

/-- `contrast_in_place` (src/imageops/colorops.rs:122-148); all channels, `Pixel::map`. -/
def contrastInPlace {D α : Type} {n : Nat} [GenericImage D (Pix α n)] (S : Samp α) (contrast : Fl) (image : D) :
    R D :=
  let width := widthOf image
  let height := heightOf image
  let percent := contrastPercent contrast
  forRange height (fun y d => forRange width (fun x d => do
    let p ← getPixel d x y
    putPixel d x y (← mapPixel (contrastSample S percent) p)) d) image

/-- `contrast` (src/imageops/colorops.rs:88-115). -/
def contrastCopy {I α : Type} {n : Nat} [GenericImageView I (Pix α n)] (S : Samp α) (contrast : Fl) (image : I) :
    R (ImageBuffer α n) := do
  let out ← ImageBuffer.new n S.zero (widthOf image) (heightOf image)
  let percent := contrastPercent contrast
  overPixels image (mapPixel (contrastSample S percent)) out

/-! ## Hue rotation -/

/-- `f64::cos`, `f64::sin` and `f64::to_radians`, not modelled further. -/
structure Trig where
  cos : Fl → Fl
  sin : Fl → Fl
  toRadians : Fl → Fl

/-- An `f64` literal: the float nearest to the decimal number. -/
def lit64 (q : ℚ) : Fl := f64.ofRat q

/-- `let matrix: [f64; 9] = …` (src/imageops/colorops.rs:234-247, 298-311). -/
def hueMatrix (cosv sinv : Fl) : List Fl :=
  let c := fun k => cosv.mul f64 (lit64 k)
  let s := fun k => sinv.mul f64 (lit64 k)
  [ (((lit64 (213 / 1000)).add f64 (c (787 / 1000))).sub f64 (s (213 / 1000))),
    (((lit64 (715 / 1000)).sub f64 (c (715 / 1000))).sub f64 (s (715 / 1000))),
    (((lit64 (72 / 1000)).sub f64 (c (72 / 1000))).add f64 (s (928 / 1000))),
    (((lit64 (213 / 1000)).sub f64 (c (213 / 1000))).add f64 (s (143 / 1000))),
    (((lit64 (715 / 1000)).add f64 (c (285 / 1000))).add f64 (s (140 / 1000))),
    (((lit64 (72 / 1000)).sub f64 (c (72 / 1000))).sub f64 (s (283 / 1000))),
    (((lit64 (213 / 1000)).sub f64 (c (213 / 1000))).sub f64 (s (787 / 1000))),
    (((lit64 (715 / 1000)).sub f64 (c (715 / 1000))).add f64 (s (715 / 1000))),
    (((lit64 (72 / 1000)).add f64 (c (928 / 1000))).add f64 (s (72 / 1000))) ]

/-- `matrix[3 * i] * r + matrix[3 * i + 1] * g + matrix[3 * i + 2] * b` (src/imageops/colorops.rs:264-266,
332-334). -/
def hueRow (matrix : List Fl) (i : Nat) (r g b : Fl) : Fl :=
  (((matrix.getD (3 * i) .nan).mul f64 r).add f64 ((matrix.getD (3 * i + 1) .nan).mul f64 g)).add f64
    ((matrix.getD (3 * i + 2) .nan).mul f64 b)

/-- The treatment of one pixel in `huerotate` and `huerotate_in_place` (src/imageops/colorops.rs:249-276,
316-345), for unsigned integer samples: `channels4`, the matrix, `clamp` to `255.0` and `from_channels`. -/
def huePixel {n : Nat} (T : Prim) (matrix : List Fl) (p : Pix Nat n) : R (Pix Nat n) := do
  let k := channels4 (Samp.uint T) p
  let v := fun c => Fl.ofNat f64 (k c)
  let r := v 0
  let g := v 1
  let b := v 2
  let max := Fl.fin 255
  let out := fun x => unwrapR ((clampF x (.fin 0) max).castU T.bits)
  let nr ← out (hueRow matrix 0 r g b)
  let ng ← out (hueRow matrix 1 r g b)
  let nb ← out (hueRow matrix 2 r g b)
  let na ← out (v 3)
  .ok (fromChannels4 (Samp.uint T) (px4 nr ng nb na))

/-- `let angle…; let cosv…; let sinv…; let matrix…` (src/imageops/colorops.rs:230-247, 294-311). -/
def hueMatrixOf (trig : Trig) (value : Int) : List Fl :=
  let angle := f64.ofRat value
  hueMatrix (trig.cos (trig.toRadians angle)) (trig.sin (trig.toRadians angle))

/-- `huerotate_in_place` (src/imageops/colorops.rs:288-348). -/
def huerotateInPlace {D : Type} {n : Nat} [GenericImage D (Pix Nat n)] (trig : Trig) (T : Prim) (value : Int)
    (image : D) : R D :=
  let width := widthOf image
  let height := heightOf image
  let matrix := hueMatrixOf trig value
  forRange height (fun y d => forRange width (fun x d => do
    let pixel ← getPixel d x y
    putPixel d x y (← huePixel T matrix pixel)) d) image

/-- `huerotate` (src/imageops/colorops.rs:221-279). Simplified: `enumerate_pixels_mut` over the new image visits
the coordinates row by row and `*pixel = outpixel` is `put_pixel`. -/
def huerotate {I : Type} {n : Nat} [GenericImageView I (Pix Nat n)] (trig : Trig) (T : Prim) (value : Int)
    (image : I) : R (ImageBuffer Nat n) := do
  let width := widthOf image
  let height := heightOf image
  let out ← ImageBuffer.new n 0 width height
  let matrix := hueMatrixOf trig value
  forRange height (fun y out => forRange width (fun x out => do
    let p ← getPixel image x y
    out.putPixel x y (← huePixel T matrix p)) out) out

/-! ## Gradients -/

/-- `Lerp::Ratio` (src/traits.rs:150-168): `f32` for `u8` and `u16`, `f64` for `u32`. There is no instance for
`u64`. -/
def lerpFmt : Prim → Fmt
  | .u8 => f32
  | .u16 => f32
  | .u32 => f64
  | .u64 => f64

/-- `Lerp::lerp` (src/traits.rs:134-147) for unsigned integers. -/
def lerp (T : Prim) (a b : Nat) (ratio : Fl) : R Nat :=
  let F := lerpFmt T
  let a := Fl.ofNat F a
  let b := Fl.ofNat F b
  let res := a.add F ((b.sub F a).mul F ratio)
  if (Fl.ofNat F T.max).lt res then .ok T.max
  else if res.lt (.fin 0) then .ok 0
  else unwrapR (res.castU T.bits)

/-- `f32`'s own `lerp` (src/traits.rs:165-167). -/
def lerpF32 (a b ratio : Fl) : Fl := a.add f32 ((b.sub f32 a).mul f32 ratio)

/-- `start.map2(stop, |a, b| …)` of the gradients (src/imageops/mod.rs:289-293, 322-326); `len` is the height or
the width. -/
def gradientPixel {n : Nat} (T : Prim) (start stop : Pix Nat n) (y len : Nat) : R (Pix Nat n) :=
  seqFin fun c => do
    let F := lerpFmt T
    let yf := Fl.ofNat F y
    let height := Fl.ofNat F (← subC len 1)
    lerp T (start c) (stop c) (yf.div F height)

/-- `vertical_gradient` (src/imageops/mod.rs:282-299). -/
def verticalGradient {D : Type} {n : Nat} [GenericImage D (Pix Nat n)] (T : Prim) (img : D)
    (start stop : Pix Nat n) : R D :=
  forRange (heightOf img) (fun y d => do
    let pixel ← gradientPixel T start stop y (heightOf d)
    forRange (widthOf d) (fun x d => putPixel d x y pixel) d) img

/-- `horizontal_gradient` (src/imageops/mod.rs:315-332). -/
def horizontalGradient {D : Type} {n : Nat} [GenericImage D (Pix Nat n)] (T : Prim) (img : D)
    (start stop : Pix Nat n) : R D :=
  forRange (widthOf img) (fun x d => do
    let pixel ← gradientPixel T start stop x (widthOf d)
    forRange (heightOf d) (fun y d => putPixel d x y pixel) d) img

end Verif
