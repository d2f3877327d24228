import Verif.Props.JpegFile

/-!
# C44: where JPEG files are wrong

The claim of C44 for everything that the interface accepts would also cover images without pixels, images with 16-bit samples, and
encoders that are used a second time. It is false of them.
-/

namespace Verif
namespace Jpeg

open JpegSpec

set_option maxRecDepth 100000 in
/-- An image without pixels is encoded without an error, to a file that is not a valid JPEG file (its height or width is zero). -/
theorem C44_empty_false : ∃ e', encode (newWithQuality 75) [] 0 0 .L8 = .ok e' ∧ decodeFile e'.writer.w = none := by
  refine ⟨_, rfl, ?_⟩
  decide +kernel

/-- The second of two files that an encoder writes. -/
def secondFile (image : List Nat) : R (Option Decoded) := do
  let e ← encode (newWithQuality 75) image 1 1 .L8
  let e2 ← encode e image 1 1 .L8
  .ok (decodeFile (e2.writer.w.drop e.writer.w.length))

set_option maxRecDepth 100000 in
/-- An encoder that is used twice (`encode` takes `&mut self`) writes an undecodable second file: bits that were left over when the
end of the first file was padded are written in front of the data of the second one. -/
theorem C44_again_false : secondFile [200] = .ok none := by decide +kernel

/-- The file of an image of one pixel with three 16-bit samples. -/
def file16 (image : List Nat) : R (Option Decoded) := do
  let b ← unwrapR (ImageBuffer.fromRaw 3 1 1 image)
  let e ← encodeImage .u16 .rgb (newWithQuality 75) b
  .ok (decodeFile e.writer.w)

set_option maxRecDepth 100000 in
/-- `encode_image` accepts images with 16-bit samples, but samples above 255 make it panic, and smaller ones give a file whose header
announces three components although the data contain one. -/
theorem C44_16bit_false : file16 [300, 300, 300] = panicR ∧ file16 [10, 20, 30] = .ok none := by
  constructor <;> decide +kernel

end Jpeg
end Verif
