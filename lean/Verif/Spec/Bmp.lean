import Verif.Base.Bytes

/-!
# What an uncompressed BMP file says

Written from the file format, without reference to the decoder: where in a file the width, the height, the palette, the masks and the pixels
are, and which colour a pixel has. All numbers are little-endian; the file header takes 14 bytes, then follows a header whose first field is its
size: 12 bytes (with 16-bit sizes), or 40 and more.
-/

namespace Verif
namespace BmpSpec

/-- The number in the `n` bytes at `pos`. -/
def num (file : List UInt8) (pos n : Nat) : Nat := leNat ((file.drop pos).take n)

/-- The byte at `pos`. -/
def byteAt (file : List UInt8) (pos : Nat) : UInt8 := file.getD pos 0

/-- Where the pixels begin. -/
def dataOffset (file : List UInt8) : Nat := num file 10 4
/-- The size of the second header. -/
def headerSize (file : List UInt8) : Nat := num file 14 4
/-- The short header. -/
def core (file : List UInt8) : Bool := decide (headerSize file = 12)
/-- The width. -/
def width (file : List UInt8) : Nat := if core file then num file 18 2 else num file 18 4
/-- The height as it is stored. -/
def rawHeight (file : List UInt8) : Nat := if core file then num file 20 2 else num file 22 4
/-- A negative height, in two's complement, means that the rows are stored from the top; otherwise they are stored from the bottom. -/
def topDown (file : List UInt8) : Bool := !core file && decide (2 ^ 31 ≤ rawHeight file)
/-- The height. -/
def height (file : List UInt8) : Nat := if topDown file then 2 ^ 32 - rawHeight file else rawHeight file
/-- The number of planes. -/
def planes (file : List UInt8) : Nat := if core file then num file 22 2 else num file 26 2
/-- The number of bits of a pixel. -/
def bits (file : List UInt8) : Nat := if core file then num file 24 2 else num file 28 2
/-- The compression: 0 for none, 3 for bit fields, 1 and 2 for run-length encoding. -/
def compression (file : List UInt8) : Nat := if core file then 0 else num file 30 4

/-- The number of colours of the palette; 0 in the file means all. -/
def colours (file : List UInt8) : Nat := if core file ∨ num file 46 4 = 0 then 2 ^ bits file else num file 46 4
/-- The size of an entry of the palette. -/
def entrySize (file : List UInt8) : Nat := if core file then 3 else 4
/-- A colour of the palette, which follows the headers: blue, green, red. Colours that are not there are black. -/
def colour (file : List UInt8) (i : Nat) : List UInt8 :=
  if i < colours file then
    let at_ := 14 + headerSize file + entrySize file * i
    [byteAt file (at_ + 2), byteAt file (at_ + 1), byteAt file at_]
  else [0, 0, 0]

/-- The masks of the bit fields: red, green, blue, alpha (headers of 56 bytes and more have the last). -/
def mask (file : List UInt8) (k : Nat) : Nat := if k < 3 ∨ 56 ≤ headerSize file then num file (54 + 4 * k) 4 else 0

/-- A row takes a multiple of four bytes. -/
def stride (file : List UInt8) : Nat := (bits file * width file + 31) / 32 * 4

/-- The number stored for the pixel in column `x` of a row: whole bytes, or bits of a byte, the most significant first. -/
def inRow (bits : Nat) (row : List UInt8) (x : Nat) : Nat :=
  if bits < 8 then (row.getD (x * bits / 8) 0).toNat / 2 ^ (8 - bits - x * bits % 8) % 2 ^ bits
  else leNat ((row.drop (x * (bits / 8))).take (bits / 8))

/-- The row `y` from the top. -/
def rowAt (file : List UInt8) (y : Nat) : List UInt8 :=
  (file.drop (dataOffset file + (if topDown file then y else height file - 1 - y) * stride file)).take (stride file)

/-- The number stored for a pixel. -/
def stored (file : List UInt8) (x y : Nat) : Nat := inRow (bits file) (rowAt file y) x

/-- The mask with `len` ones from bit `shift` on. -/
def ones (shift len : Nat) : Nat := (2 ^ len - 1) * 2 ^ shift

/-- `b` is the sample under a mask of contiguous ones: scaled to 0..255 and rounded to nearest, or the eight highest bits when there are more
than eight. -/
def Sample (mask v : Nat) (b : UInt8) : Prop :=
  ∃ s l, 1 ≤ l ∧ mask = ones s l ∧
    (l ≤ 8 → 2 * b.toNat * (2 ^ l - 1) ≤ 2 * (255 * (v / 2 ^ s % 2 ^ l)) + (2 ^ l - 1) ∧
      2 * (255 * (v / 2 ^ s % 2 ^ l)) ≤ 2 * b.toNat * (2 ^ l - 1) + (2 ^ l - 1)) ∧
    (8 < l → b.toNat = v / 2 ^ s % 2 ^ l / 2 ^ (l - 8))

/-- The image has an alpha channel. -/
def hasAlpha (file : List UInt8) : Bool := decide (compression file = 3 ∧ mask file 3 ≠ 0)

/-- The number of samples of a pixel. -/
def channels (file : List UInt8) : Nat := if hasAlpha file then 4 else 3

/-- `p` are the samples of a pixel for which `v` is stored. -/
def Shows (file : List UInt8) (v : Nat) (p : List UInt8) : Prop :=
  if compression file = 3 then
    ∃ r g b, Sample (mask file 0) v r ∧ Sample (mask file 1) v g ∧ Sample (mask file 2) v b ∧
      if mask file 3 = 0 then p = [r, g, b] else ∃ a, Sample (mask file 3) v a ∧ p = [r, g, b, a]
  else if bits file ≤ 8 then p = colour file v
  else if bits file = 16 then ∃ r g b, Sample (ones 10 5) v r ∧ Sample (ones 5 5) v g ∧ Sample (ones 0 5) v b ∧ p = [r, g, b]
  else p = [UInt8.ofNat (v / 2 ^ 16), UInt8.ofNat (v / 2 ^ 8), UInt8.ofNat v]

/-- `p` are the samples of the pixel in column `x` and row `y`. -/
def Pixel (file : List UInt8) (x y : Nat) (p : List UInt8) : Prop := Shows file (stored file x y) p

/-- A mask that is empty, or a run of ones within the pixel. -/
def MaskOk (bits mask : Nat) : Prop := ∃ s l, s + l ≤ bits ∧ mask = ones s l

/-- The headers of a file with uncompressed pixels. -/
structure Header (file : List UInt8) : Prop where
  magic : file.take 2 = [0x42, 0x4D]
  size : headerSize file = 12 ∨ headerSize file = 40 ∨ headerSize file = 52 ∨ headerSize file = 56 ∨ headerSize file = 108 ∨ headerSize file = 124
  present : (if core file then 26 else 54) ≤ file.length
  width : 1 ≤ width file ∧ width file ≤ 65535
  height : 1 ≤ height file ∧ if topDown file then height file < 2 ^ 31 else height file ≤ 65535
  planes : planes file = 1
  depth : (compression file = 0 ∧ (bits file = 1 ∨ bits file = 4 ∨ bits file = 8 ∨ bits file = 24 ∨
      (core file = false ∧ (bits file = 2 ∨ bits file = 16 ∨ bits file = 32)))) ∨ (compression file = 3 ∧ (bits file = 16 ∨ bits file = 32))
  palette : bits file ≤ 8 → colours file ≤ 2 ^ bits file ∧ 14 + headerSize file + colours file * entrySize file ≤ file.length
  masks : compression file = 3 → (if headerSize file < 56 then 66 else 70) ≤ file.length ∧
    (∀ k, k < 3 → mask file k ≠ 0) ∧ ∀ k, k < 4 → MaskOk (bits file) (mask file k)

/-- All the rows are there. -/
def Complete (file : List UInt8) : Prop := dataOffset file + height file * stride file ≤ file.length

end BmpSpec
end Verif
