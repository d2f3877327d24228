import Verif.Model.Buffer
import Verif.Model.Color
import Verif.Model.DecoderToImage

/-!
# Encoders that hand the image to a crate: QOI, WebP and AVIF (src/codecs/qoi.rs, webp/encoder.rs, avif/encoder.rs)

The crates' encoders are parameters.
-/

namespace Verif.CrateEnc
open Verif

/-- `QoiEncoder::write_image` (src/codecs/qoi.rs:69-102); `encode` is `qoi::encode_to_vec(buf, width, height)`, `sink` the outcome of
`write_all` and `flush`. -/
def qoiWrite (encode : List UInt8 → Nat → Nat → Option (List UInt8)) (sink : List UInt8 → R Unit)
    (buf : List UInt8) (width height : Nat) (color : ExtendedColorType) : R Unit :=
  if ¬ (color = .Rgba8 ∨ color = .Rgb8) then errR .encoding
  else do
    let expected ← color.bufferSize width height
    assertR (decide (expected = buf.length))
    match encode buf width height with
    | none => errR .encoding
    | some data => sink data

/-- `image_webp::ColorType`. -/
inductive WebpColor where
  | l8 | la8 | rgb8 | rgba8
  deriving DecidableEq

/-- `WebPEncoder::encode` (src/codecs/webp/encoder.rs:48-81) and `write_image` (86-94); `encode` is the outcome of the crate's encoder, with its
errors mapped by `from_webp_encode` (103-108). -/
def webpWrite (encode : List UInt8 → Nat → Nat → WebpColor → R Unit)
    (buf : List UInt8) (width height : Nat) (color : ExtendedColorType) : R Unit := do
  let expected ← color.bufferSize width height
  assertR (decide (expected = buf.length))
  match color with
  | .L8 => encode buf width height .l8
  | .La8 => encode buf width height .la8
  | .Rgb8 => encode buf width height .rgb8
  | .Rgba8 => encode buf width height .rgba8
  | _ => errR .unsupported

/-- `enum RgbColor` (src/codecs/avif/encoder.rs:51-54): what is handed to `ravif`. -/
inductive RgbColor where
  | rgb8 (data : List Nat) (width height : Nat)
  | rgba8 (data : List Nat) (width height : Nat)
  deriving DecidableEq

/-- `try_from_raw` (src/codecs/avif/encoder.rs:149-159). -/
def tryFromRaw (ch : Nat) (data : List Nat) (width height : Nat) : R (ImageBuffer Nat ch) :=
  match ImageBuffer.fromRaw ch width height data with
  | some b => .ok b
  | none => errR .dimensionMismatch

/-- `convert_into` (src/codecs/avif/encoder.rs:162-175). -/
def convertInto (S : Prim) (s : PixelType) (image : ImageBuffer Nat s.ch) : R RgbColor := do
  let out ← image.convert 0 (fromColor S .u8 s .rgba)
  .ok (.rgba8 out.data image.width image.height)

/-- `cast_buffer::<u16>` (src/codecs/avif/encoder.rs:179-210): borrowed when aligned, copied otherwise; in both cases a length that is not a
multiple of 2 is an error. -/
def castBuffer (le : Bool) (buf : List UInt8) : R (List Nat) :=
  if buf.length % 2 ≠ 0 then errR .dimensionMismatch else .ok (samplesOf le 2 buf)

/-- `encode_as_img` (src/codecs/avif/encoder.rs:141-285). `pixels().len()` is the number of pixels. -/
def encodeAsImg (le : Bool) (data : List UInt8) (width height : Nat) (color : ExtendedColorType) : R RgbColor :=
  let bytes := data.map (·.toNat)
  match color with
  | .Rgb8 => do
    let img ← tryFromRaw 3 bytes width height
    if (← img.pixels).length = 0 then errR .dimensionMismatch
    .ok (.rgb8 bytes width height)
  | .Rgba8 => do
    let img ← tryFromRaw 4 bytes width height
    if (← img.pixels).length = 0 then errR .dimensionMismatch
    .ok (.rgba8 bytes width height)
  | .L8 => do convertInto .u8 .luma (← tryFromRaw 1 bytes width height)
  | .La8 => do convertInto .u8 .lumaA (← tryFromRaw 2 bytes width height)
  | .L16 => do convertInto .u16 .luma (← tryFromRaw 1 (← castBuffer le data) width height)
  | .La16 => do convertInto .u16 .lumaA (← tryFromRaw 2 (← castBuffer le data) width height)
  | .Rgb16 => do convertInto .u16 .rgb (← tryFromRaw 3 (← castBuffer le data) width height)
  | .Rgba16 => do convertInto .u16 .rgba (← tryFromRaw 4 (← castBuffer le data) width height)
  | _ => errR .unsupported

/-- `AvifEncoder::write_image` (src/codecs/avif/encoder.rs:103-132); `encode` is `encode_rgb` or `encode_rgba` of `ravif`. -/
def avifWrite (le : Bool) (encode : RgbColor → Option (List UInt8)) (sink : List UInt8 → R Unit)
    (data : List UInt8) (width height : Nat) (color : ExtendedColorType) : R Unit := do
  let expected ← color.bufferSize width height
  assertR (decide (expected = data.length))
  let img ← encodeAsImg le data width height color
  match encode img with
  | none => errR .encoding
  | some file => sink file

/-- `new_with_speed_quality` (src/codecs/avif/encoder.rs:66-78): the speed and quality the crate is given. -/
def avifSettings (speed quality : Nat) : Nat × Nat := (min speed 10, min quality 100)

end Verif.CrateEnc
