import Verif.Model.Dynamic
import Verif.Model.LoadRect

/-!
# From a decoder to an image (src/dynimage.rs)
-/

namespace Verif

/-- `bytemuck::cast_slice` from bytes to samples of `sz` bytes (`le`: on a little-endian machine). -/
def samplesOf (le : Bool) (sz : Nat) (bytes : List UInt8) : List Nat :=
  (chunksExact sz bytes).map fun c => if le then leNat c else beNat c

/-- `bytemuck::cast_slice` from samples of `sz` bytes to bytes. -/
def bytesOf (le : Bool) (sz : Nat) (samples : List Nat) : List UInt8 :=
  samples.flatMap fun v => if le then leBytes sz v else beBytes sz v

/-- `size_of` of the samples of a colour type: `u8`, `u16` or `f32`. -/
def ColorType.sampleSize : ColorType → Nat
  | .L8 | .La8 | .Rgb8 | .Rgba8 => 1
  | .L16 | .La16 | .Rgb16 | .Rgba16 => 2
  | .Rgb32F | .Rgba32F => 4

namespace DynamicImage

/-- `ImageBuffer::from_raw(w, h, buf)` for the pixel type that belongs to the colour type, as in the arms of
`decoder_to_image` (src/dynimage.rs:1178-1240). -/
def fromSamples (c : ColorType) (w h : Nat) (buf : List Nat) : Option DynamicImage :=
  match c with
  | .Rgb8 => (ImageBuffer.fromRaw 3 w h buf).map rgb8
  | .Rgba8 => (ImageBuffer.fromRaw 4 w h buf).map rgba8
  | .L8 => (ImageBuffer.fromRaw 1 w h buf).map luma8
  | .La8 => (ImageBuffer.fromRaw 2 w h buf).map lumaA8
  | .Rgb16 => (ImageBuffer.fromRaw 3 w h buf).map rgb16
  | .Rgba16 => (ImageBuffer.fromRaw 4 w h buf).map rgba16
  | .Rgb32F => (ImageBuffer.fromRaw 3 w h buf).map rgb32F
  | .Rgba32F => (ImageBuffer.fromRaw 4 w h buf).map rgba32F
  | .L16 => (ImageBuffer.fromRaw 1 w h buf).map luma16
  | .La16 => (ImageBuffer.fromRaw 2 w h buf).map lumaA16

/-- `decoder_to_image` (src/dynimage.rs:1178-1240) for a decoder with the given dimensions and colour type;
`readImage n` is the result of `read_image` on a buffer of `n` bytes. -/
def ofDecoder (le : Bool) (w h : Nat) (c : ColorType) (readImage : Nat → R (List UInt8)) : R DynamicImage := do
  let buf ← decoderToVec (totalBytes w h c.bytesPerPixel) c.sampleSize readImage
  match fromSamples c w h (samplesOf le c.sampleSize buf) with
  | some image => .ok image
  | none => errR .dimensionMismatch

/-- `as_bytes` (src/dynimage.rs:638-645) and `into_bytes` (661-676): the whole container. -/
def asBytes (le : Bool) (d : DynamicImage) : List UInt8 :=
  bytesOf le d.color.sampleSize (d.useBuf fun b => b.data)

/-- `inner_bytes` (src/dynimage.rs:648-655): the samples that belong to the image. This is what is handed to the encoders. -/
def innerBytes (le : Bool) (d : DynamicImage) : List UInt8 :=
  bytesOf le d.color.sampleSize (d.useBuf fun {ch} b => b.data.take (b.width * b.height * ch))

end DynamicImage
end Verif
