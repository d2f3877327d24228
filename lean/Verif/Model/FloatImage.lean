import Verif.Model.ColorAdjust

/-!
# Colour operations on `f32` samples

The operations of src/color.rs and src/imageops/colorops.rs for pixels whose samples are `f32`. `contrast` is the generic model
of `Verif/Model/ColorAdjust.lean` with `Samp.float`. `FromPrimitive<f32> for f32` is the identity (src/color.rs:429-433).
-/

namespace Verif
open GenericImageView GenericImage

/-- `NumCast::from(a)` from `f32` to `i32` (num-traits): truncation when the truncated value is in range, otherwise `None`. -/
def Fl.castI32 : Fl → Option Int
  | .fin q => if -2 ^ 31 ≤ q ∧ q < 2 ^ 31 then some (if 0 ≤ q then ⌊q⌋ else ⌈q⌉) else none
  | _ => none

/-- `NumCast::from(a)` from `f64` to `f32`, that is `a as f32`: rounds to nearest. It never fails. -/
def Fl.toF32 : Fl → Fl
  | .fin q => f32.ofRat q
  | a => a

/-- `DEFAULT_MAX_VALUE - v` (src/color.rs:871-873, 881-882, 892-894, 902-906); the maximum is 1.0 (src/traits.rs:68). -/
def invertSampleF (v : Fl) : Fl := (Fl.fin 1).sub f32 v

/-- `Invert::invert` (src/color.rs:868-914). -/
def invertPixelF : (m : PixelType) → Pix Fl m.ch → R (Pix Fl m.ch)
  | .lumaA, p => .ok (px2 (invertSampleF (p 0)) (p 1))
  | .luma, p => .ok (px1 (invertSampleF (p 0)))
  | .rgba, p => .ok (px4 (invertSampleF (p 0)) (invertSampleF (p 1)) (invertSampleF (p 2)) (p 3))
  | .rgb, p => .ok (px3 (invertSampleF (p 0)) (invertSampleF (p 1)) (invertSampleF (p 2)))

/-- The closure of `brighten` (src/imageops/colorops.rs:169-174, 204-209): through `i32`, where the maximum is 1. -/
def brightenSampleF (value : Int) (b : Fl) : R Fl := do
  let c ← unwrapR b.castI32
  let d := clampInt (← addI32 c value) 0 1
  .ok (f32.ofRat d)

/-- `brighten_in_place` (src/imageops/colorops.rs:188-213), `alphas` = alpha channels of the pixel type. -/
def brightenInPlaceF {D : Type} {n : Nat} [GenericImage D (Pix Fl n)] (alphas : Nat) (value : Int) (image : D) : R D :=
  let width := widthOf image
  let height := heightOf image
  forRange height (fun y d => forRange width (fun x d => do
    let p ← getPixel d x y
    putPixel d x y (← mapWithAlpha alphas (brightenSampleF value) .ok p)) d) image

/-- `brighten` (src/imageops/colorops.rs:155-181). -/
def brightenF {I : Type} {n : Nat} [GenericImageView I (Pix Fl n)] (alphas : Nat) (value : Int) (image : I) :
    R (ImageBuffer Fl n) := do
  let out ← ImageBuffer.new n (.fin 0) (widthOf image) (heightOf image)
  overPixels image (mapWithAlpha alphas (brightenSampleF value) .ok) out

/-- The treatment of one pixel in `huerotate` and `huerotate_in_place` (src/imageops/colorops.rs:249-276, 316-345). The
conversion of a sample to `f64` is exact. -/
def huePixelF {n : Nat} (matrix : List Fl) (p : Pix Fl n) : Pix Fl n :=
  let k := channels4 Samp.float p
  let r := k 0
  let g := k 1
  let b := k 2
  let max := Fl.fin 255
  let out := fun x => (clampF x (.fin 0) max).toF32
  fromChannels4 Samp.float
    (px4 (out (hueRow matrix 0 r g b)) (out (hueRow matrix 1 r g b)) (out (hueRow matrix 2 r g b)) (out (k 3)))

/-- `huerotate_in_place` (src/imageops/colorops.rs:288-348). -/
def huerotateInPlaceF {D : Type} {n : Nat} [GenericImage D (Pix Fl n)] (trig : Trig) (value : Int) (image : D) : R D :=
  let width := widthOf image
  let height := heightOf image
  let matrix := hueMatrixOf trig value
  forRange height (fun y d => forRange width (fun x d => do
    let pixel ← getPixel d x y
    putPixel d x y (huePixelF matrix pixel)) d) image

/-- `huerotate` (src/imageops/colorops.rs:221-279). Simplified: `enumerate_pixels_mut` over the new image visits
the coordinates row by row and `*pixel = outpixel` is `put_pixel`. -/
def huerotateF {I : Type} {n : Nat} [GenericImageView I (Pix Fl n)] (trig : Trig) (value : Int) (image : I) :
    R (ImageBuffer Fl n) := do
  let width := widthOf image
  let height := heightOf image
  let out ← ImageBuffer.new n (.fin 0) width height
  let matrix := hueMatrixOf trig value
  forRange height (fun y out => forRange width (fun x out => do
    let p ← getPixel image x y
    out.putPixel x y (huePixelF matrix p)) out) out

/-- `f32::MAX` -/
def maxFinite32 : ℚ := (2 - 1 / 2 ^ 23) * 2 ^ 127

/-- `Enlargeable::clamp_from` for `f32` (src/traits.rs:76-84). -/
def clampFromF64 (n : Fl) : Fl :=
  if (Fl.fin maxFinite32).lt n then .fin maxFinite32
  else if n.lt (.fin (-maxFinite32)) then .fin (-maxFinite32)
  else n.toF32

/-- `rgb_to_luma` (src/color.rs:535-540); the larger type of `f32` is `f64` (src/traits.rs:123-125). -/
def rgbToLumaF (r g b : Fl) : Fl :=
  let l := (((Fl.fin 2126).mul f64 r).add f64 ((Fl.fin 7152).mul f64 g)).add f64 ((Fl.fin 722).mul f64 b)
  clampFromF64 (l.div f64 (.fin 10000))

/-- `to_luma` followed by `into_color` (src/color.rs:563-572, 734-743) for `Rgb<f32>`: the body of the loop in
`grayscale_with_type` (src/imageops/colorops.rs:37-42). -/
def grayPixelRgbF (p : Pix Fl 3) : Pix Fl 3 :=
  let l := rgbToLumaF (p 0) (p 1) (p 2)
  px3 l l l

/-- `to_luma_alpha` followed by `into_color` (src/color.rs:612-622, 665-677) for `Rgba<f32>`: the body of the loop in
`grayscale_with_type_alpha` (src/imageops/colorops.rs:57-62). -/
def grayPixelRgbaF (p : Pix Fl 4) : Pix Fl 4 :=
  let l := rgbToLumaF (p 0) (p 1) (p 2)
  px4 l l l (p 3)

/-- `DynamicImage::grayscale` of an `ImageRgb32F` (src/dynimage.rs:729-731). -/
def grayscaleRgbF {I : Type} [GenericImageView I (Pix Fl 3)] (image : I) : R (ImageBuffer Fl 3) := do
  let out ← ImageBuffer.new 3 (.fin 0) (widthOf image) (heightOf image)
  overPixels image (fun p => .ok (grayPixelRgbF p)) out

/-- `DynamicImage::grayscale` of an `ImageRgba32F` (src/dynimage.rs:732-734). -/
def grayscaleRgbaF {I : Type} [GenericImageView I (Pix Fl 4)] (image : I) : R (ImageBuffer Fl 4) := do
  let out ← ImageBuffer.new 4 (.fin 0) (widthOf image) (heightOf image)
  overPixels image (fun p => .ok (grayPixelRgbaF p)) out

/-! ## Blending -/

/-- `x.to_f32().unwrap() / max_t` with `max_t = 1.0` (src/color.rs:755-766, 802-817). -/
def unitF (x : Fl) : Fl := x.div f32 (.fin 1)

/-- One colour channel of the blend: premultiply, composite, unmultiply and cast back
(src/color.rs:772-782, 826-852). -/
def blendChannelF (bg bg_a fg fg_a alpha_final : Fl) : Fl :=
  let bg_x_a := bg.mul f32 bg_a
  let fg_x_a := fg.mul f32 fg_a
  let out_x_a := fg_x_a.add f32 (bg_x_a.mul f32 ((Fl.fin 1).sub f32 fg_a))
  let out_x := out_x_a.div f32 alpha_final
  (Fl.fin 1).mul f32 out_x

/-- `Blend for LumaA<T>` (src/color.rs:753-784); returns the new `*self`. -/
def blendLumaAF (self other : Pix Fl 2) : Pix Fl 2 :=
  let bg_a := unitF (self 1)
  let fg_a := unitF (other 1)
  let alpha_final := alphaFinal bg_a fg_a
  if alpha_final = .fin 0 then self
  else px2 (blendChannelF (unitF (self 0)) bg_a (unitF (other 0)) fg_a alpha_final) ((Fl.fin 1).mul f32 alpha_final)

/-- `Blend for Rgba<T>` (src/color.rs:792-854); returns the new `*self`. -/
def blendRgbaF (self other : Pix Fl 4) : Pix Fl 4 :=
  if other 3 = .fin 0 then self
  else if other 3 = .fin 1 then other
  else
    let bg_a := unitF (self 3)
    let fg_a := unitF (other 3)
    let alpha_final := alphaFinal bg_a fg_a
    if alpha_final = .fin 0 then self
    else px4
      (blendChannelF (unitF (self 0)) bg_a (unitF (other 0)) fg_a alpha_final)
      (blendChannelF (unitF (self 1)) bg_a (unitF (other 1)) fg_a alpha_final)
      (blendChannelF (unitF (self 2)) bg_a (unitF (other 2)) fg_a alpha_final)
      ((Fl.fin 1).mul f32 alpha_final)

end Verif
