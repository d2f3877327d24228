import Verif.Model.Buffer
import Verif.Model.Color
import Verif.Model.Delay
import Verif.Model.LoadRect
import Verif.Model.Metadata

/-!
# WebP (src/codecs/webp)

The `image_webp` crate is a parameter: what it says of the file, and the outcome of every call of `read_frame`.
-/

namespace Verif.Webp
open Verif

/-- `image_webp::DecodingError`, as far as it is distinguished. -/
inductive WebpErr where
  | io | noMoreFrames | other
  deriving DecidableEq

/-- `from_webp_decode` (src/codecs/webp/decoder.rs:143-148). -/
def WebpErr.toErr : WebpErr → Err
  | .io => .io
  | _ => .decoding

/-- What is used of `image_webp::WebPDecoder`: `frames k` is the outcome of the k-th call of `read_frame`: the bytes written to the
buffer (RGBA or RGB) and the duration in milliseconds. -/
structure Crate where
  width : Nat
  height : Nat
  hasAlpha : Bool
  numFrames : Nat
  frames : Nat → Except WebpErr (List Nat × Nat)
  image : Except WebpErr (List UInt8)

/-- `color_type` (src/codecs/webp/decoder.rs:44-50). -/
def Crate.colorType (c : Crate) : ColorType := if c.hasAlpha then .Rgba8 else .Rgb8

/-- `read_image` (src/codecs/webp/decoder.rs:52-58) on a buffer of `len` bytes. -/
def Crate.readImage (c : Crate) (len : Nat) : R (List UInt8) := do
  assertR (decide (len = totalBytes c.width c.height c.colorType.bytesPerPixel))
  match c.image with
  | .ok bytes => .ok bytes
  | .error e => errR e.toErr

/-- `animation::Frame::from_parts`. -/
structure Frame where
  buffer : ImageBuffer Nat 4
  left : Nat
  top : Nat
  delay : Delay

/-- `FramesInner` (src/codecs/webp/decoder.rs:96-99); `calls` counts the calls of `read_frame`. -/
structure Iter where
  crate : Crate
  current : Nat
  calls : Nat

/-- `into_frames` (src/codecs/webp/decoder.rs:95-139). -/
def Crate.intoFrames (c : Crate) : Iter := ⟨c, 0, 0⟩

/-- `next` (src/codecs/webp/decoder.rs:103-132). The frame has the size of the canvas, so that all of the new image is written. -/
def Iter.next (s : Iter) : R (Option (Except Err Frame) × Iter) :=
  if s.current = s.crate.numFrames then .ok (none, s)
  else do
    let s := { s with current := ← addC 32 s.current 1 }
    let result := s.crate.frames s.calls
    let s := { s with calls := s.calls + 1 }
    if s.crate.hasAlpha then do
      let img ← ImageBuffer.new 4 (0 : Nat) s.crate.width s.crate.height
      match result with
      | .ok (data, delay) =>
        let img : ImageBuffer Nat 4 := { img with data := data }
        .ok (some (.ok ⟨img, 0, 0, ← Delay.fromNumerDenomMs delay 1⟩), s)
      | .error .noMoreFrames => .ok (none, s)
      | .error e => .ok (some (.error e.toErr), s)
    else do
      let img ← ImageBuffer.new 3 (0 : Nat) s.crate.width s.crate.height
      match result with
      | .ok (data, delay) => do
        let img : ImageBuffer Nat 3 := { img with data := data }
        let img ← img.convert 0 (fromColor .u8 .u8 .rgb .rgba)
        .ok (some (.ok ⟨img, 0, 0, ← Delay.fromNumerDenomMs delay 1⟩), s)
      | .error .noMoreFrames => .ok (none, s)
      | .error e => .ok (some (.error e.toErr), s)

/-- The first `n` calls of `next`. -/
def Iter.take : Nat → Iter → R (List (Option (Except Err Frame)))
  | 0, _ => .ok []
  | n + 1, s => do
    let (item, s) ← s.next
    .ok (item :: (← Iter.take n s))

/-! ## Metadata of JPEG and WebP -/

/-- `exif_metadata` (src/codecs/webp/decoder.rs:70-83, src/codecs/jpeg/decoder.rs:79-95): the result and the new cached orientation; `exif` is what
the crate finds. -/
def exifMetadata (exif : Except Err (Option (List UInt8))) (cached : Option Orientation) :
    R (Option (List UInt8)) × Option Orientation :=
  match exif with
  | .error e => (errR e, cached)
  | .ok chunk => (.ok chunk, some ((chunk.bind Orientation.fromExifChunk).getD .NoTransforms))

/-- `orientation` (src/codecs/webp/decoder.rs:85-91, src/codecs/jpeg/decoder.rs:97-103). -/
def orientation (exif : Except Err (Option (List UInt8))) (cached : Option Orientation) :
    R Orientation × Option Orientation :=
  match cached with
  | some o => (.ok o, cached)
  | none =>
    match exifMetadata exif cached with
    | (.error e, cached) => (.error e, cached)
    | (.ok _, cached) => (unwrapR cached, cached)

end Verif.Webp
