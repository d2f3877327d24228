import Verif.Model.DecoderToImage
import Verif.Model.Flat

/-!
# Making a `DynamicImage` and getting its buffer back (src/dynimage.rs, src/buffer.rs)

The ten functions of a family (`as_rgb8`, `as_rgba8`, ...) are one table here, indexed by the colour type in their name.
-/

namespace Verif
namespace DynamicImage

/-- `new` (src/dynimage.rs:142-156) and `new_luma8` ... `new_rgba32f` (160-218) that it calls. The zero of `f32` has the
bit pattern 0. -/
def new (w h : Nat) : ColorType → R DynamicImage
  | .L8 => do .ok (luma8 (← ImageBuffer.new 1 0 w h))
  | .La8 => do .ok (lumaA8 (← ImageBuffer.new 2 0 w h))
  | .Rgb8 => do .ok (rgb8 (← ImageBuffer.new 3 0 w h))
  | .Rgba8 => do .ok (rgba8 (← ImageBuffer.new 4 0 w h))
  | .L16 => do .ok (luma16 (← ImageBuffer.new 1 0 w h))
  | .La16 => do .ok (lumaA16 (← ImageBuffer.new 2 0 w h))
  | .Rgb16 => do .ok (rgb16 (← ImageBuffer.new 3 0 w h))
  | .Rgba16 => do .ok (rgba16 (← ImageBuffer.new 4 0 w h))
  | .Rgb32F => do .ok (rgb32F (← ImageBuffer.new 3 0 w h))
  | .Rgba32F => do .ok (rgba32F (← ImageBuffer.new 4 0 w h))

/-- `Default for DynamicImage` (src/dynimage.rs:1171-1175) through `Default for ImageBuffer` (src/buffer.rs:1093-1100). -/
def default : DynamicImage := rgba8 ⟨0, 0, []⟩

/-- `From<GrayImage>` ... `From<Rgba32FImage>` for `DynamicImage` (src/dynimage.rs:1040-1098). -/
def ofBuffer : (c : ColorType) → ImageBuffer Nat c.channelCount → DynamicImage
  | .L8, image => luma8 image
  | .La8, image => lumaA8 image
  | .Rgb8, image => rgb8 image
  | .Rgba8, image => rgba8 image
  | .L16, image => luma16 image
  | .La16, image => lumaA16 image
  | .Rgb16, image => rgb16 image
  | .Rgba16, image => rgba16 image
  | .Rgb32F, image => rgb32F image
  | .Rgba32F, image => rgba32F image

/-- `From<ImageBuffer<Luma<f32>, _>>` (src/dynimage.rs:1100-1104): `convert` with `from_color` of a grey pixel
(src/color.rs:724-731); `from_primitive` from `f32` to `f32` is the identity (429-433). -/
def ofLuma32F (image : ImageBuffer Nat 1) : R DynamicImage := do
  .ok (rgb32F (← image.convert 0 fun p => .ok (px3 (p 0) (p 0) (p 0))))

/-- `From<ImageBuffer<LumaA<f32>, _>>` (src/dynimage.rs:1106-1110). -/
def ofLumaA32F (image : ImageBuffer Nat 2) : R DynamicImage := do
  .ok (rgba32F (← image.convert 0 fun p => .ok (px4 (p 0) (p 0) (p 0) (p 1))))

/-- `as_rgb8` ... `as_luma_alpha16` (src/dynimage.rs:434-439, 451-456, 468-473, 485-490, 502-507, 519-524, 536-541,
553-558, 570-575, 587-592). -/
def asType : (c : ColorType) → DynamicImage → Option (ImageBuffer Nat c.channelCount)
  | .Rgb8, rgb8 p => some p
  | .Rgba8, rgba8 p => some p
  | .L8, luma8 p => some p
  | .La8, lumaA8 p => some p
  | .Rgb16, rgb16 p => some p
  | .Rgba16, rgba16 p => some p
  | .Rgb32F, rgb32F p => some p
  | .Rgba32F, rgba32F p => some p
  | .L16, luma16 p => some p
  | .La16, lumaA16 p => some p
  | _, _ => none

/-- `as_mut_rgb8` ... `as_mut_luma_alpha16` (src/dynimage.rs:442-447, ..., 595-600), followed by any change `f` of the
buffer through the reference: the image afterwards, `none` when no reference is handed out. -/
def asMutType : (c : ColorType) → (ImageBuffer Nat c.channelCount → ImageBuffer Nat c.channelCount) →
    DynamicImage → Option DynamicImage
  | .Rgb8, f, rgb8 p => some (rgb8 (f p))
  | .Rgba8, f, rgba8 p => some (rgba8 (f p))
  | .L8, f, luma8 p => some (luma8 (f p))
  | .La8, f, lumaA8 p => some (lumaA8 (f p))
  | .Rgb16, f, rgb16 p => some (rgb16 (f p))
  | .Rgba16, f, rgba16 p => some (rgba16 (f p))
  | .Rgb32F, f, rgb32F p => some (rgb32F (f p))
  | .Rgba32F, f, rgba32F p => some (rgba32F (f p))
  | .L16, f, luma16 p => some (luma16 (f p))
  | .La16, f, lumaA16 p => some (lumaA16 (f p))
  | _, _, _ => none

/-- `into_rgb8` ... `into_luma_alpha16` (src/dynimage.rs:302-415) and the `From<DynamicImage>` of the buffer types
(src/buffer.rs:1436-1488) that call them; `toC` is the function `to_rgb8` ... of the same name. -/
def intoType : (c : ColorType) → (DynamicImage → R (ImageBuffer Nat c.channelCount)) → DynamicImage →
    R (ImageBuffer Nat c.channelCount)
  | .Rgb8, _, rgb8 x => .ok x
  | .Rgb16, _, rgb16 x => .ok x
  | .Rgb32F, _, rgb32F x => .ok x
  | .Rgba8, _, rgba8 x => .ok x
  | .Rgba16, _, rgba16 x => .ok x
  | .Rgba32F, _, rgba32F x => .ok x
  | .L8, _, luma8 x => .ok x
  | .L16, _, luma16 x => .ok x
  | .La8, _, lumaA8 x => .ok x
  | .La16, _, lumaA16 x => .ok x
  | _, toC, x => toC x

/-- `Clone::clone_from` (src/dynimage.rs:121-135) with `clone_from` of the buffers (src/buffer.rs:1164-1168): the image
afterwards. -/
def cloneFrom : DynamicImage → DynamicImage → DynamicImage
  | luma8 p1, luma8 p2 => luma8 { p1 with data := p2.data, width := p2.width, height := p2.height }
  | lumaA8 p1, lumaA8 p2 => lumaA8 { p1 with data := p2.data, width := p2.width, height := p2.height }
  | rgb8 p1, rgb8 p2 => rgb8 { p1 with data := p2.data, width := p2.width, height := p2.height }
  | rgba8 p1, rgba8 p2 => rgba8 { p1 with data := p2.data, width := p2.width, height := p2.height }
  | luma16 p1, luma16 p2 => luma16 { p1 with data := p2.data, width := p2.width, height := p2.height }
  | lumaA16 p1, lumaA16 p2 => lumaA16 { p1 with data := p2.data, width := p2.width, height := p2.height }
  | rgb16 p1, rgb16 p2 => rgb16 { p1 with data := p2.data, width := p2.width, height := p2.height }
  | rgba16 p1, rgba16 p2 => rgba16 { p1 with data := p2.data, width := p2.width, height := p2.height }
  | rgb32F p1, rgb32F p2 => rgb32F { p1 with data := p2.data, width := p2.width, height := p2.height }
  | rgba32F p1, rgba32F p2 => rgba32F { p1 with data := p2.data, width := p2.width, height := p2.height }
  | _, source => source

/-- `as_flat_samples_u8` (src/dynimage.rs:604-612). -/
def asFlatSamplesU8 : DynamicImage → Option (R (FlatSamples Nat))
  | luma8 p => some p.intoFlatSamples
  | lumaA8 p => some p.intoFlatSamples
  | rgb8 p => some p.intoFlatSamples
  | rgba8 p => some p.intoFlatSamples
  | _ => none

/-- `as_flat_samples_u16` (src/dynimage.rs:616-624). -/
def asFlatSamplesU16 : DynamicImage → Option (R (FlatSamples Nat))
  | luma16 p => some p.intoFlatSamples
  | lumaA16 p => some p.intoFlatSamples
  | rgb16 p => some p.intoFlatSamples
  | rgba16 p => some p.intoFlatSamples
  | _ => none

/-- `as_flat_samples_f32` (src/dynimage.rs:628-634). -/
def asFlatSamplesF32 : DynamicImage → Option (R (FlatSamples Nat))
  | rgb32F p => some p.intoFlatSamples
  | rgba32F p => some p.intoFlatSamples
  | _ => none

end DynamicImage
end Verif
