import Verif.Base.Cursor
import Verif.Model.Format
import Verif.Model.Limits
import Verif.Model.DecoderToImage

/-!
# `ImageReader` (src/image_reader/image_reader_type.rs)

The codecs are a parameter: what a decoder for a given format says about its input (`Decoder`). How many
bytes each `read` of the underlying reader delivers, and whether it fails, is an arbitrary schedule.
-/

namespace Verif
open ImageFormat

/-- What the rest of the crate sees of an `ImageDecoder` (src/image.rs:629-734): dimensions, colour type,
`set_limits`, and `read_image` on a buffer of the given length, under the limits set before. -/
structure Decoder where
  width : Nat
  height : Nat
  color : ColorType
  setLimits : Limits → R Unit
  readImage : Limits → Nat → R (List UInt8)

/-- The default `set_limits` (src/image.rs:716-721; `check_support` accepts everything,
src/image_reader/mod.rs:74-76); those of GIF, PNG, JPEG and TIFF make the same checks
(src/codecs/gif.rs:102-111, src/codecs/png.rs:206-214, src/codecs/jpeg/decoder.rs:125-131,
src/codecs/tiff.rs:223-241). -/
def defaultSetLimits (width height : Nat) (l : Limits) : R Unit := l.checkDimensions width height

/-- The cargo features that guard the arms of `make_decoder`: those of `reading_enabled`, and two
that occur only here (`dds`, `avif-native`). -/
structure Features where
  feature : ImageFormat.Feature → Bool
  dds : Bool
  avifNative : Bool

/-- The default features (Cargo.toml:67-70). -/
def Features.default : Features :=
  { feature := fun x => match x with
      | .pcx => false
      | _ => true
    dds := true
    avifNative := false }

/-- The arms of `make_decoder` (src/image_reader/image_reader_type.rs:139-188): whether there is a decoder. -/
def readDispatched (fs : Features) : ImageFormat → Bool
  | Avif => fs.avifNative | Png => fs.feature .png | Gif => fs.feature .gif | Jpeg => fs.feature .jpeg
  | WebP => fs.feature .webp | Tiff => fs.feature .tiff | Tga => fs.feature .tga | Dds => fs.dds
  | Bmp => fs.feature .bmp | Ico => fs.feature .ico | Hdr => fs.feature .hdr | OpenExr => fs.feature .exr
  | Pnm => fs.feature .pnm | Farbfeld => fs.feature .ff | Qoi => fs.feature .qoi | Pcx => fs.feature .pcx

/-- `struct ImageReader` (src/image_reader/image_reader_type.rs:61-68). -/
structure ImageReader where
  inner : Cursor
  format : Option ImageFormat
  limits : Limits

namespace ImageReader

/-- `new` (src/image_reader/image_reader_type.rs:81-87). -/
def new (inner : Cursor) : ImageReader := ⟨inner, none, Limits.default⟩

/-- `with_format` (src/image_reader/image_reader_type.rs:93-99). -/
def withFormat (inner : Cursor) (format : ImageFormat) : ImageReader := ⟨inner, some format, Limits.default⟩

/-- `set_format` (src/image_reader/image_reader_type.rs:107-109). -/
def setFormat (r : ImageReader) (format : ImageFormat) : ImageReader := { r with format := some format }

/-- `clear_format` (src/image_reader/image_reader_type.rs:115-117). -/
def clearFormat (r : ImageReader) : ImageReader := { r with format := none }

/-- `limits` (src/image_reader/image_reader_type.rs:125-127); `no_limits` (118-120) sets `Limits.noLimits`. -/
def setLimits (r : ImageReader) (l : Limits) : ImageReader := { r with limits := l }

/-- `io::copy(&mut inner.take(limit), ..)` of the standard library: read until the end of the data or
until `limit` bytes have been read. `sched` says what each `read` does: fail, or deliver at most that
many bytes (at least one unless at the end); when it is used up, reads deliver all they can. -/
def copyTake (limit : Nat) (c : Cursor) : List (Option Nat) → R (List UInt8 × Cursor)
  | [] => .ok (c.rest.take limit, { c with pos := c.pos + min limit c.rest.length })
  | none :: _ => if limit = 0 then .ok ([], c) else errR .io
  | some k :: s =>
    let n := min (max 1 k) (min limit c.rest.length)
    if n = 0 then .ok ([], c)
    else do
      let (more, c') ← copyTake (limit - n) { c with pos := c.pos + n } s
      .ok (c.rest.take n ++ more, c')

/-- `guess_format` (src/image_reader/image_reader_type.rs:233-246). -/
def guessFormat (r : ImageReader) (sched : List (Option Nat)) : R (Option ImageFormat × ImageReader) := do
  let cur := r.inner.pos
  let (start, c) ← copyTake 16 r.inner sched
  let (_, c) ← c.seekStart cur
  .ok (guessFrom start magicBytes, { r with inner := c })

/-- `with_guessed_format` (src/image_reader/image_reader_type.rs:226-231). -/
def withGuessedFormat (r : ImageReader) (sched : List (Option Nat)) : R ImageReader := do
  let (format, r) ← r.guessFormat sched
  .ok { r with format := format.or r.format }

/-- `require_format` (src/image_reader/image_reader_type.rs:276-283). -/
def requireFormat (r : ImageReader) : R ImageFormat :=
  match r.format with
  | some f => .ok f
  | none => errR .unsupported

/-- `make_decoder` (src/image_reader/image_reader_type.rs:139-188); only the PNG decoder is given the limits. -/
def makeDecoder (fs : Features) (codec : ImageFormat → Cursor → Option Limits → R Decoder) (format : ImageFormat)
    (inner : Cursor) (limits : Limits) : R Decoder :=
  if readDispatched fs format then codec format inner (if format = Png then some limits else none)
  else errR .unsupported

/-- `into_decoder` (src/image_reader/image_reader_type.rs:191-196). -/
def intoDecoder (fs : Features) (codec : ImageFormat → Cursor → Option Limits → R Decoder) (r : ImageReader) : R Decoder := do
  let dec ← makeDecoder fs codec (← r.requireFormat) r.inner r.limits
  dec.setLimits r.limits
  .ok dec

/-- `into_dimensions` (src/image_reader/image_reader_type.rs:253-255). -/
def intoDimensions (fs : Features) (codec : ImageFormat → Cursor → Option Limits → R Decoder) (r : ImageReader) :
    R (Nat × Nat) := do
  let dec ← r.intoDecoder fs codec
  .ok (dec.width, dec.height)

/-- `decode` (src/image_reader/image_reader_type.rs:262-274). -/
def decode (le : Bool) (fs : Features) (codec : ImageFormat → Cursor → Option Limits → R Decoder) (r : ImageReader) :
    R DynamicImage := do
  let format ← r.requireFormat
  let dec ← makeDecoder fs codec format r.inner r.limits
  let limits ← r.limits.reserve (totalBytes dec.width dec.height dec.color.bytesPerPixel)
  dec.setLimits limits
  DynamicImage.ofDecoder le dec.width dec.height dec.color (dec.readImage limits)

end ImageReader

/-- `load` (src/image_reader/free_functions.rs:21-25). -/
def load (le : Bool) (fs : Features) (codec : ImageFormat → Cursor → Option Limits → R Decoder) (inner : Cursor)
    (format : ImageFormat) : R DynamicImage :=
  ((ImageReader.new inner).setFormat format).decode le fs codec

end Verif
