import Verif.Base.Bytes
import Verif.Proofs.Tga

/-!
# What a TGA file shows

Written from the Truevision TGA 2.0 description of the file format, on the bytes of the file; nothing here refers to the
decoder. `Tga.Packets` is the description of run-length packets.
-/

namespace Verif
namespace TgaSpec

/-- The little-endian number in the `n` bytes at `pos`. -/
def num (file : List UInt8) (pos n : Nat) : Nat := leNat ((file.drop pos).take n)

/-- Length of the image id that follows the 18 header bytes. -/
def idLength (file : List UInt8) : Nat := num file 0 1
/-- 0: no colour map; 1: a colour map is present. -/
def mapType (file : List UInt8) : Nat := num file 1 1
/-- 1 colour-mapped, 2 true-colour, 3 grey-scale; the same plus 8 when run-length packed. -/
def imageType (file : List UInt8) : Nat := num file 2 1
/-- The index that the first entry of the colour map stands for. -/
def mapFirst (file : List UInt8) : Nat := num file 3 2
/-- The number of entries of the colour map. -/
def mapCount (file : List UInt8) : Nat := num file 5 2
/-- Bits per entry of the colour map. -/
def mapBits (file : List UInt8) : Nat := num file 7 1
/-- Width in pixels. -/
def width (file : List UInt8) : Nat := num file 12 2
/-- Height in pixels. -/
def height (file : List UInt8) : Nat := num file 14 2
/-- Bits per stored pixel. -/
def depth (file : List UInt8) : Nat := num file 16 1
/-- Image descriptor: bits 0-3 number of alpha bits, bit 4 right-to-left, bit 5 top-to-bottom. -/
def descriptor (file : List UInt8) : Nat := num file 17 1

/-- The number of alpha bits. -/
def alphaBits (file : List UInt8) : Nat := descriptor file % 16
/-- Columns are stored from right to left. -/
def rightToLeft (file : List UInt8) : Prop := descriptor file / 16 % 2 = 1
/-- Rows are stored from top to bottom (otherwise from bottom to top). -/
def topDown (file : List UInt8) : Prop := descriptor file / 32 % 2 = 1
instance (file) : Decidable (rightToLeft file) := inferInstanceAs (Decidable (_ = _))
instance (file) : Decidable (topDown file) := inferInstanceAs (Decidable (_ = _))

/-- The image types of the format. -/
def Known (file : List UInt8) : Prop := imageType file = 1 ∨ imageType file = 2 ∨ imageType file = 3 ∨
  imageType file = 9 ∨ imageType file = 10 ∨ imageType file = 11
/-- The stored pixels are indices into the colour map. -/
def Mapped (file : List UInt8) : Prop := imageType file = 1 ∨ imageType file = 9
/-- The stored pixels are shades of grey. -/
def Grey (file : List UInt8) : Prop := imageType file = 3 ∨ imageType file = 11
/-- The data are run-length packets. -/
def Packed (file : List UInt8) : Prop := imageType file = 9 ∨ imageType file = 10 ∨ imageType file = 11
instance (file) : Decidable (Mapped file) := inferInstanceAs (Decidable (_ ∨ _))
instance (file) : Decidable (Grey file) := inferInstanceAs (Decidable (_ ∨ _))
instance (file) : Decidable (Packed file) := inferInstanceAs (Decidable (_ ∨ _))
instance (file) : Decidable (Known file) := inferInstanceAs (Decidable (_ ∨ _))

/-- Bytes per entry of the colour map. -/
def entryBytes (file : List UInt8) : Nat := (mapBits file + 7) / 8
/-- Bytes per stored pixel. -/
def pixelBytes (file : List UInt8) : Nat := (depth file + 7) / 8
/-- Position of the colour map. -/
def mapStart (file : List UInt8) : Nat := 18 + idLength file
/-- Position of the image data. -/
def dataStart (file : List UInt8) : Nat :=
  mapStart file + if mapType file = 1 then entryBytes file * mapCount file else 0

/-- `raw` are the stored pixels of the image, in the order of the file: the bytes at the start of the data, or what the
packets there denote (the last packet may go on beyond the image). -/
def Stored (file raw : List UInt8) : Prop :=
  raw.length = width file * height file * pixelBytes file ∧
  if Packed file then
    ∃ enc rest more, file.drop (dataStart file) = enc ++ rest ∧ Tga.Packets (pixelBytes file) enc (raw ++ more)
  else raw <+: file.drop (dataStart file)

/-- The `k`-th group of `n` bytes. -/
def group (n k : Nat) (l : List UInt8) : List UInt8 := (l.drop (k * n)).take n

/-- Stored colours are blue, green, red, and possibly alpha; images have red, green, blue, alpha. -/
def inOrder : List UInt8 → List UInt8
  | [b, g, r] => [r, g, b]
  | [b, g, r, a] => [r, g, b, a]
  | p => p

/-- The entry for index `i` in the colour map. -/
def entry (file : List UInt8) (i : Nat) : List UInt8 := group (entryBytes file) (i - mapFirst file) (file.drop (mapStart file))

/-- The colour that the stored pixel `p` stands for. -/
def colour (file p : List UInt8) : List UInt8 :=
  if Mapped file then inOrder (entry file (leNat p)) else inOrder p

/-- The position among the stored pixels of the pixel in column `x` and row `y` from the top left corner. -/
def place (file : List UInt8) (x y : Nat) : Nat :=
  (if topDown file then y else height file - 1 - y) * width file + (if rightToLeft file then width file - 1 - x else x)

/-- The bytes of the pixel in column `x` and row `y` of the image. -/
def pixel (file raw : List UInt8) (x y : Nat) : List UInt8 :=
  colour file (group (pixelBytes file) (place file x y) raw)

end TgaSpec
end Verif
