import Verif.Model.DynOps
import Verif.Model.FloatOps
import Verif.Model.FloatImage
import Verif.Model.FloatThumbnail
import Verif.Model.FloatFilter

/-!
# The `f32` variants of `DynamicImage` (src/dynimage.rs, src/color.rs)

`DynamicImage` holds the samples of `ImageRgb32F` and `ImageRgba32F` as 32-bit patterns; here is what the patterns mean and what the operations that are
parameters in `Model/Dynamic` and `Model/DynOps` do with them. Simplified: the values have one zero and one NaN, so that a pattern written by an
operation is the positive zero or the canonical NaN where the program may keep the sign of a zero or the payload of a NaN.
-/

namespace Verif
open GenericImageView

/-- `f32::from_bits` (the IEEE 754 binary32 format of `f32` samples, src/color.rs, src/traits.rs:68): sign, exponent field, fraction. -/
def ofBits32 (n : Nat) : Fl :=
  let neg : Bool := decide (n / 2 ^ 31 % 2 = 1)
  let e := n / 2 ^ 23 % 256
  let m := n % 2 ^ 23
  if e = 255 then (if m = 0 then .inf neg else .nan)
  else
    let a : Nat := if e = 0 then m else (2 ^ 23 + m) * 2 ^ (e - 1)
    let q : ℚ := (a : ℚ) / 2 ^ 149
    .fin (if neg then -q else q)

/-- The exponent field and fraction of `n / 2^149`. -/
def magnitude32 (n : Nat) : Nat :=
  if n < 2 ^ 23 then n
  else
    let e := Nat.log2 n - 23
    e * 2 ^ 23 + n / 2 ^ e

/-- `f32::to_bits` of a value of type `f32` (IEEE 754 binary32, as `ofBits32`). -/
def toBits32 : Fl → Nat
  | .nan => 0x7fc00000
  | .inf neg => if neg then 0xff800000 else 0x7f800000
  | .fin q => (if q < 0 then 2 ^ 31 else 0) + magnitude32 ⌊|q| * 2 ^ 149⌋.toNat

/-- A buffer of bit patterns as a buffer of values. -/
def decodeBuf {ch : Nat} (b : ImageBuffer Nat ch) : ImageBuffer Fl ch := ⟨b.width, b.height, b.data.map ofBits32⟩
/-- A buffer of values as a buffer of bit patterns. -/
def encodeBuf {ch : Nat} (b : ImageBuffer Fl ch) : ImageBuffer Nat ch := ⟨b.width, b.height, b.data.map toBits32⟩

/-- The functions of `imageops` that the operations stand for, on `f32` buffers (src/dynimage.rs:763-884). -/
def BufOp.onFloat (L : Libm) (trig : Trig) (m : PixelType) (b : ImageBuffer Fl m.ch) : BufOp → R (ImageBuffer Fl m.ch)
  | .resize nw nh filter => Verif.resize L Samp.float b nw nh filter
  | .thumbnail nw nh => thumbnailF b nw nh
  | .blur sigma => Verif.blur L Samp.float b sigma
  | .fastBlur sigma => Verif.fastBlur L Samp.float b sigma
  | .unsharpen sigma threshold => unsharpenF L b sigma threshold
  | .filter3x3 kernel => Verif.filter3x3 Samp.float b kernel
  | .contrast c => contrastCopy Samp.float c b
  | .brighten value => brightenF m.alphas value b
  | .huerotate value => huerotateF trig value b

/-- `grayscale` on the `f32` variants (src/dynimage.rs:729-734). -/
def grayFloat : (m : PixelType) → ImageBuffer Fl m.ch → R (ImageBuffer Fl m.ch)
  | .rgb, b => grayscaleRgbF b
  | .rgba, b => grayscaleRgbaF b
  | _, _ => panicR

/-- The operations on `f32` buffers of bit patterns. -/
def OpEnv.std (L : Libm) (trig : Trig) : OpEnv where
  libm := L
  trig := trig
  float op m b := do .ok (encodeBuf (← op.onFloat L trig m (decodeBuf b)))
  gray m b := do .ok (encodeBuf (← grayFloat m (decodeBuf b)))

/-- `DEFAULT_MAX_VALUE - v` (src/color.rs:892-894, 902-906) on bit patterns. -/
def invertBits32 (v : Nat) : Nat := toBits32 (invertSampleF (ofBits32 v))

/-- `Invert::invert` (src/color.rs:868-914) of an `f32` pixel of bit patterns. -/
def invertBits : (m : PixelType) → Pix Nat m.ch → R (Pix Nat m.ch)
  | .lumaA, p => .ok (px2 (invertBits32 (p 0)) (p 1))
  | .luma, p => .ok (px1 (invertBits32 (p 0)))
  | .rgba, p => .ok (px4 (invertBits32 (p 0)) (invertBits32 (p 1)) (invertBits32 (p 2)) (p 3))
  | .rgb, p => .ok (px3 (invertBits32 (p 0)) (invertBits32 (p 1)) (invertBits32 (p 2)))

/-- `FromColor` (src/color.rs:562-585, 599-622, 636-662, 697-721) from `Rgb<f32>` and `Rgba<f32>` to unsigned integer samples. `DynamicImage` has no
grey `f32` variants. -/
def fromColorFloat (T : Prim) : (s d : PixelType) → Pix Fl s.ch → R (Pix Nat d.ch)
  | .rgb, .luma, p => do .ok (px1 (← uintOfF32 T (rgbToLumaF (p 0) (p 1) (p 2))))
  | .rgba, .luma, p => do .ok (px1 (← uintOfF32 T (rgbToLumaF (p 0) (p 1) (p 2))))
  | .rgb, .lumaA, p => do .ok (px2 (← uintOfF32 T (rgbToLumaF (p 0) (p 1) (p 2))) T.max)
  | .rgba, .lumaA, p => do .ok (px2 (← uintOfF32 T (rgbToLumaF (p 0) (p 1) (p 2))) (← uintOfF32 T (p 3)))
  | .rgba, .rgba, p => do .ok (px4 (← uintOfF32 T (p 0)) (← uintOfF32 T (p 1)) (← uintOfF32 T (p 2)) (← uintOfF32 T (p 3)))
  | .rgb, .rgba, p => do .ok (px4 (← uintOfF32 T (p 0)) (← uintOfF32 T (p 1)) (← uintOfF32 T (p 2)) T.max)
  | .rgb, .rgb, p => do .ok (px3 (← uintOfF32 T (p 0)) (← uintOfF32 T (p 1)) (← uintOfF32 T (p 2)))
  | .rgba, .rgb, p => do .ok (px3 (← uintOfF32 T (p 0)) (← uintOfF32 T (p 1)) (← uintOfF32 T (p 2)))
  | _, _, _ => panicR

/-- The conversion of an `f32` pixel of bit patterns by `to_rgb8` and the others (src/dynimage.rs:227-291). -/
def convertBits (T : Prim) (d s : PixelType) (p : Pix Nat s.ch) : R (Pix Nat d.ch) := fromColorFloat T s d fun k => ofBits32 (p k)

/-- `to_rgba` on an `f32` pixel (src/color.rs:314-318, 636-648, 652-662): alpha is 1.0 when the pixel has none. -/
def toRgbaFloat : (s : PixelType) → Pix Fl s.ch → Pix Fl 4
  | .rgba, p => p
  | .rgb, p => px4 (p 0) (p 1) (p 2) (.fin 1)
  | .lumaA, p => px4 (p 0) (p 0) (p 0) (p 1)
  | .luma, p => px4 (p 0) (p 0) (p 0) (.fin 1)

/-- `get_pixel` (src/dynimage.rs:1120-1122) on an `f32` pixel of bit patterns: `to_rgba().into_color()`. -/
def viewBits (s : PixelType) (p : Pix Nat s.ch) : R (Pix Nat 4) := fromColorFloat .u8 .rgba .rgba (toRgbaFloat s fun k => ofBits32 (p k))

/-- `put_pixel` (src/dynimage.rs:1139-1140): the pixel that is written to an `f32` variant: `pixel.to_rgb().into_color()` and `pixel.into_color()`. -/
def storeBits : (s : PixelType) → Pix Nat 4 → R (Pix Nat s.ch)
  | .rgb, p => .ok (px3 (toBits32 (f32OfUint .u8 (p 0))) (toBits32 (f32OfUint .u8 (p 1))) (toBits32 (f32OfUint .u8 (p 2))))
  | .rgba, p => .ok (px4 (toBits32 (f32OfUint .u8 (p 0))) (toBits32 (f32OfUint .u8 (p 1))) (toBits32 (f32OfUint .u8 (p 2)))
      (toBits32 (f32OfUint .u8 (p 3))))
  | _, _ => panicR

/-- `FromColor` (src/color.rs:636-746) from unsigned integer samples to `Rgb<f32>` and `Rgba<f32>`, as bit patterns. -/
def floatOfColor (S : Prim) : (s d : PixelType) → Pix Nat s.ch → R (Pix Nat d.ch)
  | .rgb, .rgb, p => .ok (px3 (toBits32 (f32OfUint S (p 0))) (toBits32 (f32OfUint S (p 1))) (toBits32 (f32OfUint S (p 2))))
  | .rgba, .rgb, p => .ok (px3 (toBits32 (f32OfUint S (p 0))) (toBits32 (f32OfUint S (p 1))) (toBits32 (f32OfUint S (p 2))))
  | .lumaA, .rgb, p => .ok (px3 (toBits32 (f32OfUint S (p 0))) (toBits32 (f32OfUint S (p 0))) (toBits32 (f32OfUint S (p 0))))
  | .luma, .rgb, p => .ok (px3 (toBits32 (f32OfUint S (p 0))) (toBits32 (f32OfUint S (p 0))) (toBits32 (f32OfUint S (p 0))))
  | .rgba, .rgba, p => .ok (px4 (toBits32 (f32OfUint S (p 0))) (toBits32 (f32OfUint S (p 1))) (toBits32 (f32OfUint S (p 2)))
      (toBits32 (f32OfUint S (p 3))))
  | .rgb, .rgba, p => .ok (px4 (toBits32 (f32OfUint S (p 0))) (toBits32 (f32OfUint S (p 1))) (toBits32 (f32OfUint S (p 2))) (toBits32 (.fin 1)))
  | .lumaA, .rgba, p => .ok (px4 (toBits32 (f32OfUint S (p 0))) (toBits32 (f32OfUint S (p 0))) (toBits32 (f32OfUint S (p 0)))
      (toBits32 (f32OfUint S (p 1))))
  | .luma, .rgba, p => .ok (px4 (toBits32 (f32OfUint S (p 0))) (toBits32 (f32OfUint S (p 0))) (toBits32 (f32OfUint S (p 0))) (toBits32 (.fin 1)))
  | _, _, _ => panicR

/-- `FromColor` between `Rgb<f32>` and `Rgba<f32>` (src/color.rs:636-662, 697-721), where `from_primitive` is the identity (src/color.rs:429-433). -/
def floatOfFloat : (s d : PixelType) → Pix Nat s.ch → R (Pix Nat d.ch)
  | .rgb, .rgb, p => .ok (px3 (p 0) (p 1) (p 2))
  | .rgba, .rgb, p => .ok (px3 (p 0) (p 1) (p 2))
  | .rgba, .rgba, p => .ok (px4 (p 0) (p 1) (p 2) (p 3))
  | .rgb, .rgba, p => .ok (px4 (p 0) (p 1) (p 2) (toBits32 (.fin 1)))
  | _, _, _ => panicR

/-- `to_rgb32f` and `to_rgba32f` (src/dynimage.rs:239-241, 257-259); `m` is `rgb` or `rgba`. -/
def DynamicImage.toFloat (m : PixelType) : DynamicImage → R (ImageBuffer Nat m.ch)
  | luma8 b => b.convert 0 (floatOfColor .u8 .luma m)
  | lumaA8 b => b.convert 0 (floatOfColor .u8 .lumaA m)
  | rgb8 b => b.convert 0 (floatOfColor .u8 .rgb m)
  | rgba8 b => b.convert 0 (floatOfColor .u8 .rgba m)
  | luma16 b => b.convert 0 (floatOfColor .u16 .luma m)
  | lumaA16 b => b.convert 0 (floatOfColor .u16 .lumaA m)
  | rgb16 b => b.convert 0 (floatOfColor .u16 .rgb m)
  | rgba16 b => b.convert 0 (floatOfColor .u16 .rgba m)
  | rgb32F b => b.convert 0 (floatOfFloat .rgb m)
  | rgba32F b => b.convert 0 (floatOfFloat .rgba m)

end Verif
