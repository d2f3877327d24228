import Verif.Model.Webp
import Verif.Model.Tiff
import Verif.Model.JpegDecoder

/-!
# Decoders in a box (src/image.rs)

`ImageReader::into_decoder` returns a `Box<dyn ImageDecoder>`, used through `impl ImageDecoder for Box<T>`. A decoder is the
table of its trait methods on a state; methods that take `&mut self` return the new state.
-/

namespace Verif.Boxed
open Verif

/-- The methods of `trait ImageDecoder` (src/image.rs:629-734). `readImage` takes the length of the buffer. -/
structure Methods (σ : Type) where
  dimensions : σ → Nat × Nat
  colorType : σ → R ColorType
  originalColorType : σ → R ExtendedColorType
  iccProfile : σ → R (Option (List UInt8)) × σ
  exifMetadata : σ → R (Option (List UInt8)) × σ
  orientation : σ → R Orientation × σ
  totalBytes : σ → R Nat
  readImage : σ → Nat → R (List UInt8)
  setLimits : σ → Limits → R Unit × σ

/-- The default `orientation` (src/image.rs:660-665), for an `exif_metadata`. -/
def defaultOrientation {σ : Type} (exif : σ → R (Option (List UInt8)) × σ) (s : σ) : R Orientation × σ :=
  match exif s with
  | (.error e, s) => (.error e, s)
  | (.ok chunk, s) => (.ok ((chunk.bind Orientation.fromExifChunk).getD .NoTransforms), s)

/-- `impl ImageDecoder for Box<T>` (src/image.rs:736-767): it does not have `orientation`, which is therefore the
default one. -/
def boxed {σ : Type} (d : Methods σ) : Methods σ where
  dimensions := d.dimensions
  colorType := d.colorType
  originalColorType := d.originalColorType
  iccProfile := d.iccProfile
  exifMetadata := d.exifMetadata
  orientation := defaultOrientation d.exifMetadata
  totalBytes := d.totalBytes
  readImage := d.readImage
  setLimits := d.setLimits

/-! ## The decoders that say something about the orientation -/

/-- State of a WebP or JPEG decoder: the EXIF chunk the crate finds and the cached orientation; the other methods are
those of `rest`, and do not touch the cache. -/
structure ExifState (σ : Type) where
  rest : σ
  exif : Except Err (Option (List UInt8))
  cached : Option Orientation

/-- `WebPDecoder` and `JpegDecoder` as `ImageDecoder` (src/codecs/webp/decoder.rs:39-92, src/codecs/jpeg/decoder.rs:60-137). -/
def exifMethods {σ : Type} (m : Methods σ) : Methods (ExifState σ) where
  dimensions s := m.dimensions s.rest
  colorType s := m.colorType s.rest
  originalColorType s := m.originalColorType s.rest
  iccProfile s := ((m.iccProfile s.rest).1, { s with rest := (m.iccProfile s.rest).2 })
  exifMetadata s := ((Webp.exifMetadata s.exif s.cached).1, { s with cached := (Webp.exifMetadata s.exif s.cached).2 })
  orientation s := ((Webp.orientation s.exif s.cached).1, { s with cached := (Webp.orientation s.exif s.cached).2 })
  totalBytes s := m.totalBytes s.rest
  readImage s := m.readImage s.rest
  setLimits s l := ((m.setLimits s.rest l).1, { s with rest := (m.setLimits s.rest l).2 })

/-- `TiffDecoder` as `ImageDecoder` (src/codecs/tiff.rs:190-297): it has no `exif_metadata`, whose default is `Ok(None)`
(src/image.rs:652-654). `icc` is what the crate says about the profile; an error of `set_limits` leaves the decoder as it
was. -/
def tiffMethods (le : Bool) (icc : Tiff.Decoder → Option (List UInt8)) : Methods Tiff.Decoder where
  dimensions d := (d.width, d.height)
  colorType d := .ok d.colorType
  originalColorType d := .ok d.originalColorType
  iccProfile d := (.ok (icc d), d)
  exifMetadata d := (.ok none, d)
  orientation d := (d.orientation, d)
  totalBytes d := .ok (totalBytes d.width d.height d.colorType.bytesPerPixel)
  readImage d len := d.readImage le (List.replicate len 0)
  setLimits d l := match d.setLimits l with
    | .ok d' => (.ok (), d')
    | .error e => (.error e, d)

end Verif.Boxed
