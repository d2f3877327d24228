import Verif.Model.Farbfeld
import Verif.Model.Hdr
import Verif.Model.FloatDyn
import Verif.Model.DecoderToImage

/-!
# `read_image` into the caller's buffer: farbfeld, Radiance HDR, QOI (src/codecs/farbfeld.rs, hdr/decoder.rs, qoi.rs)

The `qoi` crate is a parameter.
-/

namespace Verif

namespace Farbfeld

/-- `read_image` (src/codecs/farbfeld.rs:207-211) into `buf`: its new contents. -/
def Reader.readImage (le : Bool) (r : Reader) (buf : List UInt8) : R (List UInt8) := do
  assertR (decide (buf.length = totalBytes r.width r.height 8))
  let (d, _) ← r.readExact le buf.length
  .ok d

end Farbfeld

namespace Hdr

/-- `bytemuck::cast_slice` of the three floats of a pixel: the bytes of their bit patterns in the order of the machine. -/
def pixelBytes (le : Bool) (p : RgbF) : List UInt8 := bytesOf le 4 [toBits32 p.r, toBits32 p.g, toBits32 p.b]

/-- `read_image` (src/codecs/hdr/decoder.rs:305-316) into `buf`: its new contents. -/
def Decoder.readImage (le : Bool) (d : Decoder) (buf : List UInt8) : R (List UInt8) := do
  assertR (decide (buf.length = totalBytes d.width d.height 12))
  let _ ← mulC 64 d.width d.height
  let img ← d.readTransform Rgbe.toHdr
  forList img.zipIdx (fun (data, i) buf => do
    let start ← mulC 64 i 12
    assertR (decide (start ≤ buf.length))
    assertR (decide (12 ≤ buf.length - start))
    .ok (overwrite buf start (pixelBytes le data))) buf

end Hdr

namespace Qoi

/-- What is used of `qoi::Header`. -/
structure Header where
  width : Nat
  height : Nat
  rgba : Bool
  deriving DecidableEq

/-- The crate on streams of type `F`: `from_stream` reads the header and leaves the rest of the stream, `decode_to_buf` returns the new contents of
the buffer; `none` is a `qoi::Error`. -/
structure Crate (F : Type) where
  fromStream : F → Option (Header × F)
  decodeToBuf : Header → F → List UInt8 → Option (List UInt8)

/-- `struct QoiDecoder` (src/codecs/qoi.rs:10-12). -/
structure Decoder (F : Type) where
  header : Header
  rest : F

/-- `new` (src/codecs/qoi.rs:19-22); `decoding_error` is src/codecs/qoi.rs:47-49. -/
def new {F : Type} (c : Crate F) (reader : F) : R (Decoder F) :=
  match c.fromStream reader with
  | none => errR .decoding
  | some (h, rest) => .ok ⟨h, rest⟩

/-- `dimensions` (src/codecs/qoi.rs:26-28). -/
def Decoder.dimensions {F : Type} (d : Decoder F) : Nat × Nat := (d.header.width, d.header.height)

/-- `color_type` (src/codecs/qoi.rs:30-35). -/
def Decoder.colorType {F : Type} (d : Decoder F) : ColorType := if d.header.rgba then .Rgba8 else .Rgb8

/-- `read_image` (src/codecs/qoi.rs:37-40) into `buf`: its new contents. -/
def Decoder.readImage {F : Type} (c : Crate F) (d : Decoder F) (buf : List UInt8) : R (List UInt8) :=
  match c.decodeToBuf d.header d.rest buf with
  | none => errR .decoding
  | some out => .ok out

end Qoi
end Verif
