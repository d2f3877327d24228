import Verif.Model.Image

/-!
# The transparency mask of an icon

The AND mask of a Windows icon: one bit per pixel, most significant bit first, rows padded to a multiple of four bytes, the bottom row
first; a bit that is set makes the pixel transparent.
-/

namespace Verif
namespace Ico

/-- The length of a row of the mask in bytes: `width` bits, padded to 32 bits. -/
def maskStride (width : Nat) : Nat := (width + 31) / 32 * 4

/-- The bit of the mask for column `col` of its row `row`. -/
def maskBit (mask : List UInt8) (stride col row : Nat) : Bool := (mask.getD (row * stride + col / 8) 0).toNat.testBit (7 - col % 8)

/-- The RGBA pixels `px` of an image of `width` columns with alpha 0 at the pixels `(x, y)` for which `hidden x y` holds, and
everything else as it is. -/
def cleared (width : Nat) (hidden : Nat → Nat → Bool) (px : List UInt8) : List UInt8 :=
  px.mapIdx fun i v => if i % 4 = 3 ∧ hidden (i / 4 % width) (i / 4 / width) = true then 0 else v

/-- The pixels after the mask: the first row of the mask belongs to the last row of the image. -/
def masked (width height : Nat) (mask px : List UInt8) : List UInt8 :=
  cleared width (fun x y => maskBit mask (maskStride width) x (height - 1 - y)) px

example : masked 2 2 [0x40, 0, 0, 0, 0x80, 0, 0, 0] [1, 2, 3, 4, 5, 6, 7, 8, 9, 10, 11, 12, 13, 14, 15, 16] =
    [1, 2, 3, 0, 5, 6, 7, 8, 9, 10, 11, 12, 13, 14, 15, 0] := by decide +kernel

end Ico
end Verif
