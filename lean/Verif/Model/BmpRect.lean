import Verif.Model.Bmp
import Verif.Model.LoadRect

/-!
# Reading a rectangle of a BMP file
-/

namespace Verif
namespace Bmp

/-- `<BmpDecoder as ImageDecoderRect>::read_rect` (src/codecs/bmp/decoder.rs:1353-1377): `load_rect` with the whole image as its only scanline.
`scratch n` is what the buffer of `n` bytes that `load_rect` passes to `read_image_data` contains before. The reader is put back to where it was
(its position is kept with the decoder, which is returned unchanged; `stream_position` and `seek` of a reader on bytes in memory do not fail),
and `read_image_data` seeks to the pixels first, so it does not depend on the position. -/
def readRect (d : Decoder) (scratch : Nat → List UInt8) (x y width height : Nat) (buf : List UInt8) (rowPitch : Nat) : R (List UInt8) := do
  let (out, _) ← loadRect d.width d.height d.colorType.bytesPerPixel x y width height buf rowPitch d
    (totalBytes d.width d.height d.colorType.bytesPerPixel) (fun d _ => .ok d)
    (fun d n => do
      let out ← readImageData d (scratch n)
      .ok (out, d))
  .ok out

end Bmp
end Verif
