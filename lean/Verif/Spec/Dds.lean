import Verif.Spec.S3tc
import Verif.Model.Dxt

/-!
# What a DDS file is, and what its pixels are

The layout is that of the description of `DDS_HEADER`: a magic number, a header of 124 bytes whose fields are little-endian words,
possibly an extra header of 20 bytes, and the blocks of the image from left to right and from top to bottom.
-/

namespace Verif
namespace Dds

/-- The little-endian word at an offset. -/
def u32At (file : List UInt8) (i : Nat) : Nat := leNat ((file.drop i).take 4)

/-- The four bytes at an offset. -/
def tagAt (file : List UInt8) (i : Nat) : List UInt8 := (file.drop i).take 4

/-- The extra header is plausible: a known format, a texture of 1, 2 or 3 dimensions, known flags, no array of volumes. -/
def ExtraValid (file : List UInt8) : Prop :=
  148 ≤ file.length ∧ u32At file 128 ≤ 132 ∧ (2 ≤ u32At file 132 ∧ u32At file 132 ≤ 4) ∧
    (u32At file 136 = 0 ∨ u32At file 136 = 4) ∧ (u32At file 132 = 4 → u32At file 140 = 1) ∧ u32At file 144 ≤ 4

/-- The file uses this compression, and its blocks start at this offset. -/
def Uses (file : List UInt8) (v : Dxt.Variant) (off : Nat) : Prop :=
  (off = 128 ∧ ((tagAt file 84 = [68, 88, 84, 49] ∧ v = .DXT1) ∨ (tagAt file 84 = [68, 88, 84, 51] ∧ v = .DXT3) ∨
    (tagAt file 84 = [68, 88, 84, 53] ∧ v = .DXT5))) ∨
  (off = 148 ∧ tagAt file 84 = [68, 88, 49, 48] ∧ ExtraValid file ∧
    ((70 ≤ u32At file 128 ∧ u32At file 128 ≤ 72 ∧ v = .DXT1) ∨ (73 ≤ u32At file 128 ∧ u32At file 128 ≤ 75 ∧ v = .DXT3) ∨
      (76 ≤ u32At file 128 ∧ u32At file 128 ≤ 78 ∧ v = .DXT5)))

/-- The flags of the header: capabilities, height, width and pixel format are present (bits 0, 1, 2, 12); pitch, mipmaps, linear
size and depth (bits 3, 17, 19, 23) may be. -/
def FlagsValid (f : Nat) : Prop :=
  (∀ i, i = 0 ∨ i = 1 ∨ i = 2 ∨ i = 12 → f.testBit i = true) ∧
    (∀ i, f.testBit i = true → i = 0 ∨ i = 1 ∨ i = 2 ∨ i = 12 ∨ i = 3 ∨ i = 17 ∨ i = 19 ∨ i = 23)

/-- The headers are those of an image of this width, height, compression and offset of the blocks. -/
structure HeaderValid (file : List UInt8) (w h : Nat) (v : Dxt.Variant) (off : Nat) : Prop where
  present : 128 ≤ file.length
  magic : file.take 4 = [68, 68, 83, 32]
  size : u32At file 4 = 124
  flags : FlagsValid (u32At file 8)
  height : h = u32At file 12
  width : w = u32At file 16
  pfSize : u32At file 76 = 32
  compressed : (u32At file 80).testBit 2 = true
  uses : Uses file v off
  aligned : w % 4 = 0 ∧ h % 4 = 0
  fits : w * h * v.colorType.bytesPerPixel < 2 ^ 64

/-- A complete file: the blocks of the image are all there. -/
structure Valid (file : List UInt8) (w h : Nat) (v : Dxt.Variant) (off : Nat) : Prop extends HeaderValid file w h v off where
  complete : off + w / 4 * (h / 4) * v.encodedBytes ≤ file.length

end Dds

namespace Dxt
open S3tc

/-- The bytes of a block that hold the colours. -/
def colourBytes (v : Variant) (b : List UInt8) : List UInt8 := if v = .DXT1 then b else b.drop 8

/-- `out` are the pixels of the image whose blocks are in `data`, `n` blocks wide and `m` blocks high: colours are less than 4/3 away
from the exact ones, explicit alpha is exact, interpolated alpha is the exact value rounded down. -/
structure Shows (v : Variant) (n m : Nat) (data out : List UInt8) : Prop where
  length : out.length = 4 * n * (4 * m) * v.colorType.bytesPerPixel
  colour : ∀ x y c, x < 4 * n → y < 4 * m → c < 3 → ∃ a, out[(y * (4 * n) + x) * v.colorType.bytesPerPixel + c]? = some a ∧
    |(a.toNat : ℚ) - colour (decide (v = .DXT1))
      (colourBytes v (data.drop ((y / 4 * n + x / 4) * v.encodedBytes) |>.take v.encodedBytes)) (x % 4) (y % 4) c| < 4 / 3
  alpha3 : v = .DXT3 → ∀ x y, x < 4 * n → y < 4 * m → ∃ a, out[(y * (4 * n) + x) * 4 + 3]? = some a ∧
    (a.toNat : ℚ) = alpha4 (data.drop ((y / 4 * n + x / 4) * 16) |>.take 16) (x % 4) (y % 4)
  alpha5 : v = .DXT5 → ∀ x y, x < 4 * n → y < 4 * m → ∃ a, out[(y * (4 * n) + x) * 4 + 3]? = some a ∧
    (a.toNat : ℚ) ≤ alpha8 (data.drop ((y / 4 * n + x / 4) * 16) |>.take 16) (x % 4) (y % 4) ∧
    alpha8 (data.drop ((y / 4 * n + x / 4) * 16) |>.take 16) (x % 4) (y % 4) - 1 < (a.toNat : ℚ)

end Dxt
end Verif
