import Verif.Model.Dynamic
import Verif.Model.FloatDyn
import Verif.Model.FloatOps
import Verif.Model.FloatImage
import Verif.Model.ImageOps

/-!
# Composing onto a `DynamicImage` (src/dynimage.rs, src/imageops/mod.rs)
-/

namespace Verif

/-- `GenericImage::blend_pixel` of `ImageBuffer` (src/buffer.rs:1215-1217): `get_pixel_mut(x, y).blend(&p)`; `blend` returns the new pixel. -/
def ImageBuffer.blendAt {ch : Nat} (b : ImageBuffer Nat ch) (blend : Pix Nat ch → Pix Nat ch → R (Pix Nat ch)) (x y : Nat) (p : Pix Nat ch) :
    R (ImageBuffer Nat ch) := do
  let a ← b.getPixel x y
  b.putPixel x y (← blend a p)

/-- `Blend` for `Rgba<f32>` (src/color.rs:792-854) on bit patterns: the three early returns keep the patterns of one of the pixels. -/
def blendBitsRgba (self other : Pix Nat 4) : R (Pix Nat 4) :=
  let s : Pix Fl 4 := fun k => ofBits32 (self k)
  let o : Pix Fl 4 := fun k => ofBits32 (other k)
  if o 3 = .fin 0 then .ok self
  else if o 3 = .fin 1 then .ok other
  else if alphaFinal (unitF (s 3)) (unitF (o 3)) = .fin 0 then .ok self
  else .ok fun k => toBits32 (blendRgbaF s o k)

namespace DynamicImage

/-- `GenericImage::blend_pixel` (src/dynimage.rs:1144-1163). -/
def blendPixel (x y : Nat) (pixel : Pix Nat 4) : DynamicImage → R DynamicImage
  | luma8 b => do .ok (luma8 (← b.blendAt (Verif.blendPixel .u8 .luma) x y (← fromColor .u8 .u8 .rgba .luma pixel)))
  | lumaA8 b => do .ok (lumaA8 (← b.blendAt (Verif.blendPixel .u8 .lumaA) x y (← fromColor .u8 .u8 .rgba .lumaA pixel)))
  | rgb8 b => do .ok (rgb8 (← b.blendAt (Verif.blendPixel .u8 .rgb) x y (← fromColor .u8 .u8 .rgba .rgb pixel)))
  | rgba8 b => do .ok (rgba8 (← b.blendAt (Verif.blendPixel .u8 .rgba) x y pixel))
  | luma16 b => do
    .ok (luma16 (← b.blendAt (Verif.blendPixel .u16 .luma) x y
      (← fromColor .u8 .u16 .luma .luma (← fromColor .u8 .u8 .rgba .luma pixel))))
  | lumaA16 b => do
    .ok (lumaA16 (← b.blendAt (Verif.blendPixel .u16 .lumaA) x y
      (← fromColor .u8 .u16 .lumaA .lumaA (← fromColor .u8 .u8 .rgba .lumaA pixel))))
  | rgb16 b => do
    .ok (rgb16 (← b.blendAt (Verif.blendPixel .u16 .rgb) x y
      (← fromColor .u8 .u16 .rgb .rgb (← fromColor .u8 .u8 .rgba .rgb pixel))))
  | rgba16 b => do .ok (rgba16 (← b.blendAt (Verif.blendPixel .u16 .rgba) x y (← fromColor .u8 .u16 .rgba .rgba pixel)))
  | rgb32F b => do .ok (rgb32F (← b.blendAt (fun _ p => .ok p) x y (← storeBits .rgb pixel)))
  | rgba32F b => do .ok (rgba32F (← b.blendAt blendBitsRgba x y (← storeBits .rgba pixel)))

/-- `GenericImageView for DynamicImage` (src/dynimage.rs:1113-1123), pixels `Rgba<u8>`. -/
instance : GenericImageView DynamicImage (Pix Nat 4) where
  dims d := (d.width, d.height)
  getPixel d x y := d.getPixel viewBits x y

/-- `GenericImage for DynamicImage` (src/dynimage.rs:1126-1170). -/
instance : GenericImage DynamicImage (Pix Nat 4) where
  putPixel d x y p := d.putPixel storeBits x y p

/-- `imageops::overlay` (src/imageops/mod.rs:221-242) with a `DynamicImage` at the bottom: pixels are blended as `Rgba<u8>`. -/
def overlayOn {I : Type} [GenericImageView I (Pix Nat 4)] (bottom : DynamicImage) (top : I) (x y : Int) : R DynamicImage :=
  overlay (blendRgba .u8) bottom top x y

end DynamicImage
end Verif
