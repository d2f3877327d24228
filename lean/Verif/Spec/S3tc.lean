import Verif.Base.Bytes
import Mathlib.Data.Rat.Defs
import Mathlib.Algebra.Order.Field.Rat

/-!
# S3 texture compression: what a block means

From the description of the OpenGL extension `EXT_texture_compression_s3tc`. A block stands for 4×4 pixels, addressed by column
and row; `b` are the bytes of the block. All values are exact, on the scale from 0 to 255.
-/

namespace Verif
namespace S3tc

/-- The byte at an index. -/
def byteAt (b : List UInt8) (i : Nat) : Nat := (b.getD i 0).toNat

/-- The value between 0 and 255 that a field of `n` bits stands for. -/
def unorm (n v : Nat) : ℚ := v * 255 / (2 ^ n - 1)

/-- Red, green and blue (0, 1, 2) of a 5:6:5 colour. -/
def rgb565 (v : Nat) : Nat → ℚ
  | 0 => unorm 5 (v / 2048)
  | 1 => unorm 6 (v / 32 % 64)
  | _ => unorm 5 (v % 32)

/-- The two colours of a colour block of eight bytes. -/
def endpoint (b : List UInt8) (k : Nat) : Nat := byteAt b (2 * k) + 256 * byteAt b (2 * k + 1)

/-- The two-bit code of a pixel: each row of codes is a byte, the first pixel in the lowest bits. -/
def code (b : List UInt8) (px py : Nat) : Nat := byteAt b (4 + py) / 4 ^ px % 4

/-- Channel `c` of the pixel in column `px` and row `py` of a colour block. `punch` tells whether blocks whose first colour is
not greater than the second have a third colour halfway and black. -/
def colour (punch : Bool) (b : List UInt8) (px py c : Nat) : ℚ :=
  let e0 := rgb565 (endpoint b 0) c
  let e1 := rgb565 (endpoint b 1) c
  let four := !punch || decide (endpoint b 0 > endpoint b 1)
  match code b px py with
  | 0 => e0
  | 1 => e1
  | 2 => if four then (2 * e0 + e1) / 3 else (e0 + e1) / 2
  | _ => if four then (e0 + 2 * e1) / 3 else 0

/-- Explicit alpha (DXT3): four bits for each pixel, the first pixel of a byte in the low half. -/
def alpha4 (b : List UInt8) (px py : Nat) : ℚ := unorm 4 (byteAt b (2 * py + px / 2) / 16 ^ (px % 2) % 16)

/-- The three-bit alpha code (DXT5) of a pixel: bytes 2 to 7 are a little-endian number that holds the codes of the 16 pixels. -/
def alphaCode (b : List UInt8) (px py : Nat) : Nat := leNat ((b.drop 2).take 6) / 8 ^ (4 * py + px) % 8

/-- Interpolated alpha (DXT5). -/
def alpha8 (b : List UInt8) (px py : Nat) : ℚ :=
  let a0 : ℚ := byteAt b 0
  let a1 : ℚ := byteAt b 1
  let k := alphaCode b px py
  if k = 0 then a0
  else if k = 1 then a1
  else if byteAt b 0 > byteAt b 1 then ((8 - k) * a0 + (k - 1) * a1) / 7
  else if k = 6 then 0
  else if k = 7 then 255
  else ((6 - k) * a0 + (k - 1) * a1) / 5

end S3tc
end Verif
