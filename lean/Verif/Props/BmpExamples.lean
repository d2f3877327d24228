import Verif.Props.BmpRle

/-!
# BMP: concrete files

Evaluating the 256 palette entries in the kernel takes a while, so these examples are in a file of their own.
-/

namespace Verif
namespace Bmp

/-- An RLE8 image of 3 by 2 pixels with a palette of two colours: a run of two, an end of line, a delta, an absolute run. -/
def rleFile : List UInt8 :=
  [66, 77] ++ leBytes 4 0 ++ leBytes 4 0 ++ leBytes 4 62 ++ leBytes 4 40 ++ leBytes 4 3 ++ leBytes 4 2 ++ leBytes 2 1 ++
  leBytes 2 8 ++ leBytes 4 1 ++ leBytes 4 0 ++ leBytes 4 0 ++ leBytes 4 0 ++ leBytes 4 2 ++ leBytes 4 0 ++
  [1, 2, 3, 0, 4, 5, 6, 0] ++ [2, 1, 0, 2, 1, 1, 0, 1]

/-- The header announces RLE8 and the data draw the image: the hypotheses of C42 are met. -/
example : (do
    let d ← Decoder.new rleFile
    let b ← d.readImage (List.replicate 18 0)
    Except.ok (d.imageType, d.width, d.height, b)) =
    (.ok (.RLE8, 3, 2, [0, 0, 0, 0, 0, 0, 0, 0, 0, 6, 5, 4, 6, 5, 4, 0, 0, 0]) : R _) := by decide +kernel

end Bmp
end Verif
