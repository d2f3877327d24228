import Verif.Model.Color
import Verif.Model.Affine
import Verif.Model.ImageOps
import Verif.Model.Metadata

/-!
# `DynamicImage` (src/dynimage.rs)

Samples of `f32` images are represented by their 32-bit patterns (natural numbers); float arithmetic enters
only through function parameters.
-/

namespace Verif
open GenericImageView GenericImage

/-- `enum DynamicImage` (src/dynimage.rs:51-81). -/
inductive DynamicImage
  | luma8 (b : ImageBuffer Nat 1)
  | lumaA8 (b : ImageBuffer Nat 2)
  | rgb8 (b : ImageBuffer Nat 3)
  | rgba8 (b : ImageBuffer Nat 4)
  | luma16 (b : ImageBuffer Nat 1)
  | lumaA16 (b : ImageBuffer Nat 2)
  | rgb16 (b : ImageBuffer Nat 3)
  | rgba16 (b : ImageBuffer Nat 4)
  | rgb32F (b : ImageBuffer Nat 3)
  | rgba32F (b : ImageBuffer Nat 4)
  deriving DecidableEq

namespace DynamicImage

/-- `color` (src/dynimage.rs:680-693). -/
def color : DynamicImage → ColorType
  | luma8 _ => .L8
  | lumaA8 _ => .La8
  | rgb8 _ => .Rgb8
  | rgba8 _ => .Rgba8
  | luma16 _ => .L16
  | lumaA16 _ => .La16
  | rgb16 _ => .Rgb16
  | rgba16 _ => .Rgba16
  | rgb32F _ => .Rgb32F
  | rgba32F _ => .Rgba32F

/-- The first form of `dynamic_map!` (src/dynimage.rs:84-98): apply an operation to the buffer and rewrap it
in the same variant. The in-place operations (second form, 100-113, with `ref mut`) have the same effect. -/
def mapBuf (f : {ch : Nat} → ImageBuffer Nat ch → R (ImageBuffer Nat ch)) : DynamicImage → R DynamicImage
  | luma8 b => do .ok (luma8 (← f b))
  | lumaA8 b => do .ok (lumaA8 (← f b))
  | rgb8 b => do .ok (rgb8 (← f b))
  | rgba8 b => do .ok (rgba8 (← f b))
  | luma16 b => do .ok (luma16 (← f b))
  | lumaA16 b => do .ok (lumaA16 (← f b))
  | rgb16 b => do .ok (rgb16 (← f b))
  | rgba16 b => do .ok (rgba16 (← f b))
  | rgb32F b => do .ok (rgb32F (← f b))
  | rgba32F b => do .ok (rgba32F (← f b))

/-- The second form of `dynamic_map!` (src/dynimage.rs:100-113). -/
def useBuf {β : Type} (f : {ch : Nat} → ImageBuffer Nat ch → β) : DynamicImage → β
  | luma8 b => f b
  | lumaA8 b => f b
  | rgb8 b => f b
  | rgba8 b => f b
  | luma16 b => f b
  | lumaA16 b => f b
  | rgb16 b => f b
  | rgba16 b => f b
  | rgb32F b => f b
  | rgba32F b => f b

/-- `width` (src/dynimage.rs:697-699). -/
def width (d : DynamicImage) : Nat := d.useBuf fun b => b.width
/-- `height` (src/dynimage.rs:703-705). -/
def height (d : DynamicImage) : Nat := d.useBuf fun b => b.height

/-- `crop` (src/dynimage.rs:422-424) and `crop_imm` (428-430). -/
def crop (d : DynamicImage) (x y width height : Nat) : R DynamicImage :=
  d.mapBuf fun p => do (← cropImm p x y width height).toImage 0

/-- `flipv` (src/dynimage.rs:890-892). -/
def flipv (d : DynamicImage) : R DynamicImage := d.mapBuf fun p => Verif.flipVertical 0 p
/-- `flipv_in_place` (src/dynimage.rs:895-897). -/
def flipvInPlace (d : DynamicImage) : R DynamicImage := d.mapBuf fun p => flipVerticalInPlace p
/-- `fliph` (src/dynimage.rs:903-905). -/
def fliph (d : DynamicImage) : R DynamicImage := d.mapBuf fun p => Verif.flipHorizontal 0 p
/-- `fliph_in_place` (src/dynimage.rs:908-910). -/
def fliphInPlace (d : DynamicImage) : R DynamicImage := d.mapBuf fun p => flipHorizontalInPlace p
/-- `rotate90` (src/dynimage.rs:914-916). -/
def rotate90 (d : DynamicImage) : R DynamicImage := d.mapBuf fun p => Verif.rotate90 0 p
/-- `rotate180` (src/dynimage.rs:922-924). -/
def rotate180 (d : DynamicImage) : R DynamicImage := d.mapBuf fun p => Verif.rotate180 0 p
/-- `rotate180_in_place` (src/dynimage.rs:927-929). -/
def rotate180InPlace (d : DynamicImage) : R DynamicImage := d.mapBuf fun p => Verif.rotate180InPlace p
/-- `rotate270` (src/dynimage.rs:933-935). -/
def rotate270 (d : DynamicImage) : R DynamicImage := d.mapBuf fun p => Verif.rotate270 0 p

/-- `apply_orientation` (src/dynimage.rs:959-979). -/
def applyOrientation (image : DynamicImage) : Orientation → R DynamicImage
  | .NoTransforms => .ok image
  | .Rotate90 => image.rotate90
  | .Rotate180 => image.rotate180InPlace
  | .Rotate270 => image.rotate270
  | .FlipHorizontal => image.fliphInPlace
  | .FlipVertical => image.flipvInPlace
  | .Rotate90FlipH => do (← image.rotate90).fliphInPlace
  | .Rotate270FlipH => do (← image.rotate270).fliphInPlace

/-- `invert` (src/dynimage.rs:740-742); `finv m p` inverts a float pixel. -/
def invert (finv : (m : PixelType) → Pix Nat m.ch → R (Pix Nat m.ch)) : DynamicImage → R DynamicImage
  | luma8 b => do .ok (luma8 (← Verif.invert (invertPixel .u8 .luma) b))
  | lumaA8 b => do .ok (lumaA8 (← Verif.invert (invertPixel .u8 .lumaA) b))
  | rgb8 b => do .ok (rgb8 (← Verif.invert (invertPixel .u8 .rgb) b))
  | rgba8 b => do .ok (rgba8 (← Verif.invert (invertPixel .u8 .rgba) b))
  | luma16 b => do .ok (luma16 (← Verif.invert (invertPixel .u16 .luma) b))
  | lumaA16 b => do .ok (lumaA16 (← Verif.invert (invertPixel .u16 .lumaA) b))
  | rgb16 b => do .ok (rgb16 (← Verif.invert (invertPixel .u16 .rgb) b))
  | rgba16 b => do .ok (rgba16 (← Verif.invert (invertPixel .u16 .rgba) b))
  | rgb32F b => do .ok (rgb32F (← Verif.invert (finv .rgb) b))
  | rgba32F b => do .ok (rgba32F (← Verif.invert (finv .rgba) b))

/-- `to_rgb8`, `to_rgb16`, `to_rgba8`, `to_rgba16`, `to_luma8`, `to_luma16`, `to_luma_alpha8`,
`to_luma_alpha16` (src/dynimage.rs:227-291): conversion to pixels `m` over samples `T`; `fc s` converts a
float pixel of type `s`. -/
def toType (T : Prim) (m : PixelType) (fc : (s : PixelType) → Pix Nat s.ch → R (Pix Nat m.ch)) :
    DynamicImage → R (ImageBuffer Nat m.ch)
  | luma8 b => b.convert 0 (fromColor .u8 T .luma m)
  | lumaA8 b => b.convert 0 (fromColor .u8 T .lumaA m)
  | rgb8 b => b.convert 0 (fromColor .u8 T .rgb m)
  | rgba8 b => b.convert 0 (fromColor .u8 T .rgba m)
  | luma16 b => b.convert 0 (fromColor .u16 T .luma m)
  | lumaA16 b => b.convert 0 (fromColor .u16 T .lumaA m)
  | rgb16 b => b.convert 0 (fromColor .u16 T .rgb m)
  | rgba16 b => b.convert 0 (fromColor .u16 T .rgba m)
  | rgb32F b => b.convert 0 (fc .rgb)
  | rgba32F b => b.convert 0 (fc .rgba)

/-- `into_rgb8` (src/dynimage.rs:302-307). -/
def intoRgb8 (fc : (s : PixelType) → Pix Nat s.ch → R (Pix Nat 3)) : DynamicImage → R (ImageBuffer Nat 3)
  | rgb8 x => .ok x
  | x => x.toType .u8 .rgb fc

/-- `into_rgba8` (src/dynimage.rs:338-343). -/
def intoRgba8 (fc : (s : PixelType) → Pix Nat s.ch → R (Pix Nat 4)) : DynamicImage → R (ImageBuffer Nat 4)
  | rgba8 x => .ok x
  | x => x.toType .u8 .rgba fc

/-- `into_luma8` (src/dynimage.rs:374-379). -/
def intoLuma8 (fc : (s : PixelType) → Pix Nat s.ch → R (Pix Nat 1)) : DynamicImage → R (ImageBuffer Nat 1)
  | luma8 x => .ok x
  | x => x.toType .u8 .luma fc

/-- `into_luma_alpha8` (src/dynimage.rs:398-403). -/
def intoLumaAlpha8 (fc : (s : PixelType) → Pix Nat s.ch → R (Pix Nat 2)) :
    DynamicImage → R (ImageBuffer Nat 2)
  | lumaA8 x => .ok x
  | x => x.toType .u8 .lumaA fc

/-- `GenericImageView::get_pixel` (src/dynimage.rs:1120-1122): `to_rgba` then `into_color` to 8 bit; `ff`
does both for a float pixel. -/
def getPixel (ff : (s : PixelType) → Pix Nat s.ch → R (Pix Nat 4)) (x y : Nat) : DynamicImage → R (Pix Nat 4)
  | luma8 b => do fromColor .u8 .u8 .rgba .rgba (← fromColor .u8 .u8 .luma .rgba (← b.getPixel x y))
  | lumaA8 b => do fromColor .u8 .u8 .rgba .rgba (← fromColor .u8 .u8 .lumaA .rgba (← b.getPixel x y))
  | rgb8 b => do fromColor .u8 .u8 .rgba .rgba (← fromColor .u8 .u8 .rgb .rgba (← b.getPixel x y))
  | rgba8 b => do fromColor .u8 .u8 .rgba .rgba (← fromColor .u8 .u8 .rgba .rgba (← b.getPixel x y))
  | luma16 b => do fromColor .u16 .u8 .rgba .rgba (← fromColor .u16 .u16 .luma .rgba (← b.getPixel x y))
  | lumaA16 b => do fromColor .u16 .u8 .rgba .rgba (← fromColor .u16 .u16 .lumaA .rgba (← b.getPixel x y))
  | rgb16 b => do fromColor .u16 .u8 .rgba .rgba (← fromColor .u16 .u16 .rgb .rgba (← b.getPixel x y))
  | rgba16 b => do fromColor .u16 .u8 .rgba .rgba (← fromColor .u16 .u16 .rgba .rgba (← b.getPixel x y))
  | rgb32F b => do ff .rgb (← b.getPixel x y)
  | rgba32F b => do ff .rgba (← b.getPixel x y)

/-- `GenericImage::put_pixel` (src/dynimage.rs:1127-1142); `fp s` converts the pixel to a float pixel. -/
def putPixel (fp : (s : PixelType) → Pix Nat 4 → R (Pix Nat s.ch)) (x y : Nat) (pixel : Pix Nat 4) :
    DynamicImage → R DynamicImage
  | luma8 b => do .ok (luma8 (← b.putPixel x y (← fromColor .u8 .u8 .rgba .luma pixel)))
  | lumaA8 b => do .ok (lumaA8 (← b.putPixel x y (← fromColor .u8 .u8 .rgba .lumaA pixel)))
  | rgb8 b => do .ok (rgb8 (← b.putPixel x y (← fromColor .u8 .u8 .rgba .rgb pixel)))
  | rgba8 b => do .ok (rgba8 (← b.putPixel x y pixel))
  | luma16 b => do
    .ok (luma16 (← b.putPixel x y (← fromColor .u8 .u16 .luma .luma (← fromColor .u8 .u8 .rgba .luma pixel))))
  | lumaA16 b => do
    .ok (lumaA16 (← b.putPixel x y
      (← fromColor .u8 .u16 .lumaA .lumaA (← fromColor .u8 .u8 .rgba .lumaA pixel))))
  | rgb16 b => do
    .ok (rgb16 (← b.putPixel x y (← fromColor .u8 .u16 .rgb .rgb (← fromColor .u8 .u8 .rgba .rgb pixel))))
  | rgba16 b => do .ok (rgba16 (← b.putPixel x y (← fromColor .u8 .u16 .rgba .rgba pixel)))
  | rgb32F b => do .ok (rgb32F (← b.putPixel x y (← fp .rgb pixel)))
  | rgba32F b => do .ok (rgba32F (← b.putPixel x y (← fp .rgba pixel)))

end DynamicImage
end Verif
