import Verif.Model.Color
import Verif.Model.Limits
import Verif.Model.LoadRect

/-!
# The JPEG decoder (src/codecs/jpeg/decoder.rs)

The `zune_jpeg` crate is a parameter: the size and colour space in the headers, and what it decodes for given options.
-/

namespace Verif.JpegDec
open Verif

/-- `zune_core::colorspace::ColorSpace`. -/
inductive ColorSpace where
  | rgb | rgba | ycbcr | luma | lumaA | ycck | cmyk | bgr | bgra | argb | hsl | hsv | unknown
  deriving DecidableEq

/-- `zune_jpeg::errors::DecodeErrors`, as far as it is distinguished. -/
inductive JpegErr where
  | unsupported | largeDimensions | other
  deriving DecidableEq

/-- `from_jpeg` (src/codecs/jpeg/decoder.rs:185-197). -/
def JpegErr.toErr : JpegErr → Err
  | .unsupported => .unsupported
  | .largeDimensions => .limitsDimension
  | .other => .decoding

/-- The crate: what `decode_headers` finds (size and colour space), and the outcome of `decode_into` for an output colour space, the
largest width and height, and the length of the buffer. -/
structure Crate where
  headers : Except JpegErr (Nat × Nat × ColorSpace)
  decode : ColorSpace → Nat → Nat → Nat → Except JpegErr (List UInt8)

/-- `struct JpegDecoder` (src/codecs/jpeg/decoder.rs:15-25). -/
structure Decoder where
  crate : Crate
  colorSpace : ColorSpace
  width : Nat
  height : Nat
  limits : Limits

/-- `new` (src/codecs/jpeg/decoder.rs:29-57) after reading the input (an error of the reader is an I/O error). -/
def new (c : Crate) : R Decoder :=
  match c.headers with
  | .error e => errR e.toErr
  | .ok (w, h, cs) => do
    assertR (decide (w < 2 ^ 16))
    assertR (decide (h < 2 ^ 16))
    .ok ⟨c, cs, w, h, .noLimits⟩

/-- `to_supported_color_space` (src/codecs/jpeg/decoder.rs:155-162). -/
def toSupported : ColorSpace → ColorSpace
  | .rgb => .rgb
  | .rgba => .rgba
  | .luma => .luma
  | .lumaA => .lumaA
  | _ => .rgb

/-- `color_type` (src/codecs/jpeg/decoder.rs:65-67) and `ColorType::from_jpeg` (139-152). -/
def Decoder.colorType (d : Decoder) : R ColorType :=
  match toSupported d.colorSpace with
  | .rgb => .ok .Rgb8
  | .rgba => .ok .Rgba8
  | .luma => .ok .L8
  | .lumaA => .ok .La8
  | _ => panicR

/-- `set_limits` (src/codecs/jpeg/decoder.rs:125-131). -/
def Decoder.setLimits (d : Decoder) (l : Limits) : R Decoder := do
  l.checkDimensions d.width d.height
  .ok { d with limits := l }

/-- `read_image` (src/codecs/jpeg/decoder.rs:105-123) on a buffer of `len` bytes, with `new_zune_decoder` (164-182). -/
def Decoder.readImage (d : Decoder) (len : Nat) : R (List UInt8) := do
  let c ← d.colorType
  if len ≠ totalBytes d.width d.height c.bytesPerPixel then errR .decoding
  else
    match d.crate.decode (toSupported d.colorSpace) (d.limits.maxImageWidth.getD (2 ^ 64 - 1))
        (d.limits.maxImageHeight.getD (2 ^ 64 - 1)) len with
    | .ok bytes => .ok bytes
    | .error e => errR e.toErr

end Verif.JpegDec
