import Verif.Model.Color
import Verif.Model.LoadRect

/-!
# PCX (src/codecs/pcx.rs)

The `pcx` crate is a parameter: the size, the length of the palette if there is one, the rows (what the i-th call of
`next_row_rgb` or `next_row_paletted` writes to its slice, or an error), and what `read_palette` writes.
-/

namespace Verif.Pcx
open Verif

/-- What is used of `pcx::Reader`. -/
structure Crate where
  width : Nat
  height : Nat
  paletteLength : Option Nat
  planes : Nat
  bitDepth : Nat
  row : Nat → Except Unit (List UInt8)
  palette : Except Unit (List UInt8)

/-- `from_pcx_decode` (src/codecs/pcx.rs:41-45). -/
def mapErr {α : Type} : Except Unit α → R α
  | .ok a => .ok a
  | .error _ => errR .io

/-- `original_color_type` (src/codecs/pcx.rs:76-99); `None` for `Unknown(bit_depth)`. `is_paletted` is whether there is a
palette. -/
def Crate.originalColorType (c : Crate) : R (Option ExtendedColorType) :=
  if c.paletteLength.isSome then .ok none
  else match c.planes, c.bitDepth with
    | 1, 1 => .ok (some .L1)
    | 1, 2 => .ok (some .L2)
    | 1, 4 => .ok (some .L4)
    | 1, 8 => .ok (some .L8)
    | 3, 1 => .ok (some .Rgb1)
    | 3, 2 => .ok (some .Rgb2)
    | 3, 4 => .ok (some .Rgb4)
    | 3, 8 => .ok (some .Rgb8)
    | 4, 1 => .ok (some .Rgba1)
    | 4, 2 => .ok (some .Rgba2)
    | 4, 4 => .ok (some .Rgba4)
    | 4, 8 => .ok (some .Rgba8)
    | _, _ => panicR

/-- `&mut buf[offset..offset + n]` filled by the crate with the given bytes. -/
def fillRow (buf : List UInt8) (offset n : Nat) (bytes : List UInt8) : R (List UInt8) := do
  assertR (decide (offset + n ≤ buf.length))
  .ok (overwrite buf offset (bytes.take n))

/-- `palette[i]`. -/
def palAt (palette : List UInt8) (i : Nat) : R UInt8 := unwrapR palette[i]?

/-- `buf[i] = v`. -/
def setAt (buf : List UInt8) (i : Nat) (v : UInt8) : R (List UInt8) := do
  assertR (decide (i < buf.length))
  .ok (buf.set i v)

/-- The body of the loop over the pixels of a paletted image (src/codecs/pcx.rs:138-145). -/
def putPixel (palBuf palette : List UInt8) (width i j : Nat) (buf : List UInt8) : R (List UInt8) := do
  let pixel := (← unwrapR palBuf[i * width + j]?).toNat
  let offset := i * width * 3 + j * 3
  let buf ← setAt buf offset (← palAt palette (pixel * 3))
  let buf ← setAt buf (offset + 1) (← palAt palette (pixel * 3 + 1))
  setAt buf (offset + 2) (← palAt palette (pixel * 3 + 2))

/-- `read_image` (src/codecs/pcx.rs:101-152). Sizes are 16-bit, so the arithmetic in `usize` does not overflow. -/
def Crate.readImage (c : Crate) (buf : List UInt8) : R (List UInt8) := do
  assertR (decide (buf.length = totalBytes c.width c.height 3))
  match c.paletteLength with
  | none =>
    forRange c.height (fun i buf => do
      let offset := i * 3 * c.width
      fillRow buf offset (c.width * 3) (← mapErr (c.row i))) buf
  | some n => do
    let palBuf ← forRange c.height (fun i palBuf => do
      let offset := i * c.width
      fillRow palBuf offset c.width (← mapErr (c.row i))) (List.replicate (c.height * c.width) 0)
    let palette ← fillRow (List.replicate (3 * n) 0) 0 (3 * n) (← mapErr c.palette)
    forRange c.height (fun i buf => forRange c.width (fun j buf => putPixel palBuf palette c.width i j buf) buf) buf

end Verif.Pcx
