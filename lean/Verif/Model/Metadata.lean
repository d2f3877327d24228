import Verif.Base.Bytes

/-!
# Image metadata (src/metadata.rs)
-/

namespace Verif

/-- `enum Orientation` (src/metadata.rs:14-31). -/
inductive Orientation
  | NoTransforms | Rotate90 | Rotate180 | Rotate270 | FlipHorizontal | FlipVertical | Rotate90FlipH
  | Rotate270FlipH
  deriving DecidableEq, Repr

namespace Orientation

/-- `from_exif` (src/metadata.rs:36-48). -/
def fromExif : Nat → Option Orientation
  | 1 => some .NoTransforms
  | 2 => some .FlipHorizontal
  | 3 => some .Rotate180
  | 4 => some .FlipVertical
  | 5 => some .Rotate90FlipH
  | 6 => some .Rotate90
  | 7 => some .Rotate270FlipH
  | 8 => some .Rotate270
  | _ => none

/-- `to_exif` (src/metadata.rs:52-63). -/
def toExif : Orientation → Nat
  | .NoTransforms => 1
  | .FlipHorizontal => 2
  | .Rotate180 => 3
  | .FlipVertical => 4
  | .Rotate90FlipH => 5
  | .Rotate90 => 6
  | .Rotate270FlipH => 7
  | .Rotate270 => 8

/-- One read of the cursor, `reader.read_uN::<E>().ok()?` at position `pos`; `be` selects big-endian.
Reading past the end of the slice fails. -/
def readAt (be : Bool) (chunk : List UInt8) (pos n : Nat) : Option Nat :=
  if pos + n ≤ chunk.length then
    let b := (chunk.drop pos).take n
    some (if be then beNat b else leNat b)
  else none

/-- The loop over the entries (src/metadata.rs:76-85 and 91-100), with `left` entries to go at position
`pos`. -/
def exifEntries (be : Bool) (chunk : List UInt8) : Nat → Nat → Option Orientation
  | 0, _ => none
  | left + 1, pos => do
    let tag ← readAt be chunk pos 2
    let format ← readAt be chunk (pos + 2) 2
    let count ← readAt be chunk (pos + 4) 4
    let value ← readAt be chunk (pos + 8) 2
    let _padding ← readAt be chunk (pos + 10) 2
    if tag = 0x112 ∧ format = 3 ∧ count = 1 then fromExif (min value 255)
    else exifEntries be chunk left (pos + 12)

/-- `from_exif_chunk` (src/metadata.rs:65-105). -/
def fromExifChunk (chunk : List UInt8) : Option Orientation :=
  if chunk.length < 4 then none
  else
    let magic := chunk.take 4
    if magic = [0x49, 0x49, 42, 0] then do
      let ifdOffset ← readAt false chunk 4 4
      let entries ← readAt false chunk ifdOffset 2
      exifEntries false chunk entries (ifdOffset + 2)
    else if magic = [0x4d, 0x4d, 0, 42] then do
      let ifdOffset ← readAt true chunk 4 4
      let entries ← readAt true chunk ifdOffset 2
      exifEntries true chunk entries (ifdOffset + 2)
    else none

end Orientation
end Verif
