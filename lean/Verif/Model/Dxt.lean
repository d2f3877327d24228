import Verif.Model.Tga
import Verif.Model.Utils
import Verif.Model.LoadRect

/-!
# S3 texture compression and DDS files (src/codecs/dxt.rs, src/codecs/dds.rs)

A reader is the list of the remaining bytes. The arithmetic on `u16` in this file cannot overflow (all operands come from
bytes); `as u8` truncates (`UInt8.ofNat`).
-/

namespace Verif
namespace Dxt

/-- `DxtVariant` (src/codecs/dxt.rs:20-30) -/
inductive Variant
  | DXT1 | DXT3 | DXT5
  deriving DecidableEq

/-- `decoded_bytes_per_block` (src/codecs/dxt.rs:35-40) -/
def Variant.decodedBytes : Variant → Nat
  | DXT1 => 48
  | DXT3 | DXT5 => 64

/-- `encoded_bytes_per_block` (src/codecs/dxt.rs:43-48) -/
def Variant.encodedBytes : Variant → Nat
  | DXT1 => 8
  | DXT3 | DXT5 => 16

/-- `color_type` (src/codecs/dxt.rs:51-56) -/
def Variant.colorType : Variant → ColorType
  | DXT1 => .Rgb8
  | DXT3 | DXT5 => .Rgba8

/-- `struct DxtDecoder` (src/codecs/dxt.rs:60-66) -/
structure Decoder where
  inner : List UInt8
  widthBlocks : Nat
  heightBlocks : Nat
  variant : Variant
  row : Nat

/-- `DxtDecoder::new` (src/codecs/dxt.rs:76-99) -/
def Decoder.new (r : List UInt8) (width height : Nat) (variant : Variant) : R Decoder :=
  if width % 4 ≠ 0 ∨ height % 4 ≠ 0 then errR .dimensionMismatch
  else .ok ⟨r, width / 4, height / 4, variant, 0⟩

/-- `dest[off..off + src.len()].copy_from_slice(src)` -/
def copyAt (dest : List UInt8) (off : Nat) (src : List UInt8) : R (List UInt8) :=
  if off + src.length ≤ dest.length then .ok (overwrite dest off src) else panicR

/-- `enc565_decode` (src/codecs/dxt.rs:161-170) -/
def enc565 (value : Nat) : List UInt8 :=
  let red := value / 2 ^ 11 % 32
  let green := value / 2 ^ 5 % 64
  let blue := value % 32
  [UInt8.ofNat (red * 0xFF / 0x1F), UInt8.ofNat (green * 0xFF / 0x3F), UInt8.ofNat (blue * 0xFF / 0x1F)]

/-- `alpha_table_dxt5` (src/codecs/dxt.rs:179-193) -/
def alphaTable (alpha0 alpha1 : UInt8) : List UInt8 :=
  if alpha0 > alpha1 then
    [alpha0, alpha1] ++ (List.range 6).map fun k =>
      UInt8.ofNat (((8 - (k + 2)) * alpha0.toNat + ((k + 2) - 1) * alpha1.toNat) / 7)
  else
    [alpha0, alpha1] ++ ((List.range 4).map fun k =>
      UInt8.ofNat (((6 - (k + 2)) * alpha0.toNat + ((k + 2) - 1) * alpha1.toNat) / 5)) ++ [0, 0xFF]

/-- The table of four colours (src/codecs/dxt.rs:212-229) for the 16-bit colours of a block. -/
def colorTable (color0 color1 : Nat) (isDxt1 : Bool) : List (List UInt8) :=
  let c0 := enc565 color0
  let c1 := enc565 color1
  if color0 > color1 ∨ isDxt1 = false then
    [c0, c1,
      List.zipWith (fun (a b : UInt8) => UInt8.ofNat ((a.toNat * 2 + b.toNat + 1) / 3)) c0 c1,
      List.zipWith (fun (a b : UInt8) => UInt8.ofNat ((a.toNat + b.toNat * 2 + 1) / 3)) c0 c1]
  else
    [c0, c1, List.zipWith (fun (a b : UInt8) => UInt8.ofNat ((a.toNat + b.toNat + 1) / 2)) c0 c1, [0, 0, 0]]

/-- `decode_dxt_colors` (src/codecs/dxt.rs:197-237): the new contents of `dest`. -/
def decodeColors (source dest : List UInt8) (isDxt1 : Bool) : R (List UInt8) := do
  assertR (decide (source.length = 8 ∧ (dest.length = 48 ∨ dest.length = 64)))
  let pitch := dest.length / 16
  let color0 := leNat (source.take 2)
  let color1 := leNat ((source.drop 2).take 2)
  let table := leNat (source.drop 4)
  let colors := colorTable color0 color1 isDxt1
  forRange 16 (fun i dest => do
    let c ← unwrapR colors[table / 2 ^ (i * 2) % 4]?
    copyAt dest (i * pitch) c) dest

/-- `decode_dxt5_block` (src/codecs/dxt.rs:240-259) -/
def decodeBlock5 (source dest : List UInt8) : R (List UInt8) := do
  assertR (decide (source.length = 16 ∧ dest.length = 64))
  let table := leNat ((source.drop 2).take 6)
  let a0 ← unwrapR source[0]?
  let a1 ← unwrapR source[1]?
  let alphas := alphaTable a0 a1
  let dest ← forRange 16 (fun i dest => do
    let a ← unwrapR alphas[table / 2 ^ (i * 3) % 8]?
    copyAt dest (i * 4 + 3) [a]) dest
  decodeColors ((source.drop 8).take 8) dest false

/-- `decode_dxt3_block` (src/codecs/dxt.rs:262-278) -/
def decodeBlock3 (source dest : List UInt8) : R (List UInt8) := do
  assertR (decide (source.length = 16 ∧ dest.length = 64))
  let table := leNat (source.take 8)
  let dest ← forRange 16 (fun i dest => copyAt dest (i * 4 + 3) [UInt8.ofNat (table / 2 ^ (i * 4) % 16 * 0x11)]) dest
  decodeColors ((source.drop 8).take 8) dest false

/-- `decode_dxt1_block` (src/codecs/dxt.rs:281-284) -/
def decodeBlock1 (source dest : List UInt8) : R (List UInt8) := do
  assertR (decide (source.length = 8 ∧ dest.length = 48))
  decodeColors source dest true

/-- The block decoder of a variant. -/
def Variant.decodeBlock : Variant → List UInt8 → List UInt8 → R (List UInt8)
  | DXT1 => decodeBlock1
  | DXT3 => decodeBlock3
  | DXT5 => decodeBlock5

/-- The body of the loop over the blocks of a row (src/codecs/dxt.rs:296-304, 317-325, 338-346): `x` is the number of the
block, `n` the number of blocks. The four lines of the decoded block go to four lines of the output. -/
def placeBlock (v : Variant) (n x : Nat) (block : List UInt8) (st : List UInt8 × List UInt8) : R (List UInt8 × List UInt8) := do
  let decoded ← v.decodeBlock block st.1
  let line := v.decodedBytes / 4
  let dest ← forRange 4 (fun l dest => copyAt dest ((n * l + x) * line) ((decoded.drop (l * line)).take line)) st.2
  .ok (decoded, dest)

/-- `decode_dxt1_row`, `decode_dxt3_row`, `decode_dxt5_row` (src/codecs/dxt.rs:288-347), which differ in the sizes only: the
new contents of `dest`. -/
def decodeRow (v : Variant) (source dest : List UInt8) : R (List UInt8) := do
  assertR (decide (source.length % v.encodedBytes = 0))
  let n := source.length / v.encodedBytes
  assertR (decide (n * v.decodedBytes ≤ dest.length))
  let chunks := chunksOf v.encodedBytes source
  let (_, dest) ← forRange chunks.length (fun x st => do
    let block ← unwrapR chunks[x]?
    placeBlock v n x block st) (List.replicate v.decodedBytes 0, dest)
  .ok dest

/-- `scanline_bytes` (src/codecs/dxt.rs:101-103) -/
def Decoder.scanlineBytes (d : Decoder) : Nat := d.variant.decodedBytes * d.widthBlocks

/-- `read_scanline` (src/codecs/dxt.rs:105-124): the new contents of `buf` and the decoder. -/
def Decoder.readScanline (d : Decoder) (buf : List UInt8) : R (List UInt8 × Decoder) := do
  assertR (decide (buf.length = d.scanlineBytes))
  let (src, inner) ← readExact (d.variant.encodedBytes * d.widthBlocks) d.inner
  let buf ← decodeRow d.variant src buf
  let row ← addC 32 d.row 1
  .ok (buf, { d with inner := inner, row := row })

/-- `dimensions` (src/codecs/dxt.rs:130-132) -/
def Decoder.dimensions (d : Decoder) : Nat × Nat := (d.widthBlocks * 4, d.heightBlocks * 4)

/-- `read_image` (src/codecs/dxt.rs:138-146) into `buf`: its new contents. -/
def Decoder.readImage (d : Decoder) (buf : List UInt8) : R (List UInt8) := do
  assertR (decide (buf.length = totalBytes d.dimensions.1 d.dimensions.2 d.variant.colorType.bytesPerPixel))
  let (out, _) ← forList (chunksOf (max d.scanlineBytes 1) buf) (fun chunk (st : List UInt8 × Decoder) => do
    let (chunk, d) ← st.2.readScanline chunk
    .ok (st.1 ++ chunk, d)) ([], d)
  .ok out

end Dxt

namespace Dds

/-- `PixelFormat::from_reader` (src/codecs/dds.rs:119-138): the flags and the four character code, which are all that is
used. -/
def readPixelFormat (s : List UInt8) : R (Nat × List UInt8 × List UInt8) := do
  let (size, s) ← readLE 4 s
  if size ≠ 32 then errR .decoding
  else do
    let (flags, s) ← readLE 4 s
    let (fourcc, s) ← readExact 4 s
    let (_, s) ← readLE 4 s
    let (_, s) ← readLE 4 s
    let (_, s) ← readLE 4 s
    let (_, s) ← readLE 4 s
    let (_, s) ← readLE 4 s
    .ok (flags, fourcc, s)

/-- The fields of `struct Header` (src/codecs/dds.rs:84-94) that are used. -/
structure Header where
  height : Nat
  width : Nat
  flags : Nat
  fourcc : List UInt8

/-- `REQUIRED_FLAGS` (src/codecs/dds.rs:148-148) -/
def requiredFlags : Nat := 0x1 ||| 0x2 ||| 0x4 ||| 0x1000
/-- `VALID_FLAGS` (src/codecs/dds.rs:149-149) -/
def validFlags : Nat := 0x1 ||| 0x2 ||| 0x4 ||| 0x8 ||| 0x1000 ||| 0x20000 ||| 0x80000 ||| 0x00800000

/-- `Header::from_reader` (src/codecs/dds.rs:142-185); `!VALID_FLAGS` is the complement of a `u32`. -/
def readHeader (s : List UInt8) : R (Header × List UInt8) := do
  let (size, s) ← readLE 4 s
  if size ≠ 124 then errR .decoding
  else do
    let (flags, s) ← readLE 4 s
    if flags &&& (requiredFlags ||| (2 ^ 32 - 1 - validFlags)) ≠ requiredFlags then errR .decoding
    else do
      let (height, s) ← readLE 4 s
      let (width, s) ← readLE 4 s
      let (_, s) ← readLE 4 s
      let (_, s) ← readLE 4 s
      let (_, s) ← readLE 4 s
      let (_, s) ← readExact (4 * 11) s
      let (pflags, fourcc, s) ← readPixelFormat s
      let (_, s) ← readLE 4 s
      let (_, s) ← readLE 4 s
      let (_, s) ← readExact (4 + 4 + 4) s
      .ok (⟨height, width, pflags, fourcc⟩, s)

/-- `DX10Header::from_reader` and `validate` (src/codecs/dds.rs:189-239): the format. -/
def readDx10 (s : List UInt8) : R (Nat × List UInt8) := do
  let (format, s) ← readLE 4 s
  let (dimension, s) ← readLE 4 s
  let (misc, s) ← readLE 4 s
  let (array, s) ← readLE 4 s
  let (misc2, s) ← readLE 4 s
  if format > 132 then errR .decoding
  else if dimension < 2 ∨ dimension > 4 then errR .decoding
  else if misc ≠ 0 ∧ misc ≠ 4 then errR .decoding
  else if dimension = 4 ∧ array ≠ 1 then errR .decoding
  else if misc2 > 4 then errR .decoding
  else .ok (format, s)

/-- The choice of the variant (src/codecs/dds.rs:261-293). -/
def readVariant (fourcc : List UInt8) (s : List UInt8) : R (Dxt.Variant × List UInt8) :=
  if fourcc = [68, 88, 84, 49] then .ok (.DXT1, s)
  else if fourcc = [68, 88, 84, 51] then .ok (.DXT3, s)
  else if fourcc = [68, 88, 84, 53] then .ok (.DXT5, s)
  else if fourcc = [68, 88, 49, 48] then do
    let (format, s) ← readDx10 s
    if 70 ≤ format ∧ format ≤ 72 then .ok (.DXT1, s)
    else if 73 ≤ format ∧ format ≤ 75 then .ok (.DXT3, s)
    else if 76 ≤ format ∧ format ≤ 78 then .ok (.DXT5, s)
    else errR .unsupported
  else errR .unsupported

/-- `DdsDecoder::new` (src/codecs/dds.rs:250-325). -/
def new (s : List UInt8) : R Dxt.Decoder := do
  let (magic, s) ← readExact 4 s
  if magic ≠ [68, 68, 83, 32] then errR .decoding
  else do
    let (h, s) ← readHeader s
    if h.flags &&& 4 ≠ 0 then do
      let (variant, s) ← readVariant h.fourcc s
      if ← checkDimensionOverflow h.width h.height variant.colorType.bytesPerPixel then errR .unsupported
      else Dxt.Decoder.new s h.width h.height variant
    else errR .unsupported

/-- Decoding a file: `new`, then `read_image` (src/codecs/dds.rs:337-339) into a zeroed buffer of `total_bytes`: dimensions, colour
type and bytes. -/
def decode (file : List UInt8) : R (Nat × Nat × ColorType × List UInt8) := do
  let d ← new file
  let buf ← d.readImage (List.replicate (totalBytes d.dimensions.1 d.dimensions.2 d.variant.colorType.bytesPerPixel) 0)
  .ok (d.dimensions.1, d.dimensions.2, d.variant.colorType, buf)

end Dds
end Verif
