import Verif.Base.Cursor
import Verif.Model.Tga
import Verif.Model.Utils
import Verif.Model.LoadRect

/-!
# BMP (src/codecs/bmp)

The encoder writes to a writer that never fails. The decoder reads from a `Cursor` (contents and position); while pixel
data are read the reader is the list of the remaining bytes.
-/

namespace Verif
namespace Bmp

/-- `[u8; 3]` in the order red, green, blue. -/
abbrev Rgb := UInt8 × UInt8 × UInt8

/-! ## Encoder -/

/-- `get_pixel_info` (src/codecs/bmp/encoder.rs:293-319): DIB header size, written pixel size, number of palette colours
(`as u32` truncates). -/
def pixelInfo (c : ExtendedColorType) (palette : Option (List Rgb)) : R (Nat × Nat × Nat) :=
  let colors := (match palette with | some p => p.length | none => 256) % 2 ^ 32
  match c with
  | .Rgb8 => .ok (40, 3, 0)
  | .Rgba8 => .ok (108, 4, 0)
  | .L8 => .ok (40, 1, colors)
  | .La8 => .ok (40, 1, colors)
  | _ => errR .io

/-- `write_row_pad` (src/codecs/bmp/encoder.rs:266-272): the bytes written. -/
def rowPad (n : Nat) : List UInt8 := List.replicate n 0

/-- `for row in (0..height).rev()`: the rows from the bottom up, each followed by the padding; `f row` is what is written
for the row that starts at byte `row * yStride` (src/codecs/bmp/encoder.rs:173-184, 201-213, 243-261). -/
def encodeRows (height pad : Nat) (f : Nat → R (List UInt8)) : R (List UInt8) :=
  forRangeRev height (fun row out => do
    let d ← f row
    .ok (out ++ d ++ rowPad pad)) []

/-- `&image[start..][..len]` -/
def slice (image : List UInt8) (start len : Nat) : R (List UInt8) :=
  if start + len ≤ image.length then .ok ((image.drop start).take len) else panicR

/-- One pixel of `encode_rgb` (src/codecs/bmp/encoder.rs:176-182) -/
def bgrPixel : List UInt8 → R (List UInt8)
  | r :: g :: b :: _ => .ok [b, g, r]
  | _ => panicR

/-- One pixel of `encode_rgba` (src/codecs/bmp/encoder.rs:204-211) -/
def bgraPixel : List UInt8 → R (List UInt8)
  | r :: g :: b :: a :: _ => .ok [b, g, r, a]
  | _ => panicR

/-- `encode_rgb` and `encode_rgba` (src/codecs/bmp/encoder.rs:161-216); the arithmetic is on `usize`. -/
def encodeColor (px : List UInt8 → R (List UInt8)) (image : List UInt8) (width height pad bpp : Nat) : R (List UInt8) :=
  encodeRows height pad fun row => do
    let line ← slice image (row * (width * bpp)) (width * bpp)
    let out ← (chunksExact bpp line).mapM px
    .ok out.flatten

/-- The palette that `encode_gray` writes (src/codecs/bmp/encoder.rs:228-238) -/
def paletteBytes : Option (List Rgb) → List UInt8
  | some p => p.flatMap fun (r, g, b) => [b, g, r, 0]
  | none => (List.range 256).flatMap fun v => [UInt8.ofNat v, UInt8.ofNat v, UInt8.ofNat v, 0]

/-- `encode_gray` (src/codecs/bmp/encoder.rs:218-264); the arithmetic is on `u32`. -/
def encodeGray (image : List UInt8) (width height pad bpp : Nat) (palette : Option (List Rgb)) : R (List UInt8) := do
  let yStride ← mulC 32 width bpp
  let rows ← encodeRows height pad fun row => do
    let rowStart ← mulC 32 row yStride
    if bpp = 1 then slice image rowStart yStride
    else forRange width (fun col out => do
      let c ← mulC 32 col bpp
      let p ← addC 32 rowStart c
      let b ← unwrapR image[p]?
      .ok (out ++ [b])) []
  .ok (paletteBytes palette ++ rows)

/-- The file header and the DIB header (src/codecs/bmp/encoder.rs:99-138) -/
def headerBytes (fileSize dib width height px imageSize colors : Nat) : List UInt8 :=
  [66, 77] ++ leBytes 4 fileSize ++ leBytes 2 0 ++ leBytes 2 0 ++ leBytes 4 (14 + dib + colors * 4) ++
  leBytes 4 dib ++ leBytes 4 width ++ leBytes 4 height ++ leBytes 2 1 ++ leBytes 2 (px * 8) ++
  leBytes 4 (if 108 ≤ dib then 3 else 0) ++ leBytes 4 imageSize ++ leBytes 4 0 ++ leBytes 4 0 ++ leBytes 4 colors ++
  leBytes 4 0 ++
  (if 108 ≤ dib then
    leBytes 4 (0xff * 2 ^ 16) ++ leBytes 4 (0xff * 2 ^ 8) ++ leBytes 4 0xff ++ leBytes 4 (0xff * 2 ^ 24) ++
    leBytes 4 0x73524742 ++ (List.range 12).flatMap fun _ => leBytes 4 0
  else [])

/-- The `match c` that writes the image data (src/codecs/bmp/encoder.rs:140-156) -/
def encodeData (image : List UInt8) (width height pad : Nat) (c : ExtendedColorType) (palette : Option (List Rgb)) :
    R (List UInt8) :=
  match c with
  | .Rgb8 => encodeColor bgrPixel image width height pad 3
  | .Rgba8 => encodeColor bgraPixel image width height pad 4
  | .L8 => encodeGray image width height pad 1 palette
  | .La8 => encodeGray image width height pad 2 palette
  | _ => errR .io

/-- `encode_with_palette` (src/codecs/bmp/encoder.rs:48-159): the file. -/
def encodeWithPalette (image : List UInt8) (width height : Nat) (c : ExtendedColorType) (palette : Option (List Rgb)) :
    R (List UInt8) :=
  if palette.isSome ∧ c ≠ .L8 ∧ c ≠ .La8 then errR .io
  else do
    let expected ← c.bufferSize width height
    assertR (expected == image.length)
    let (dib, px, colors) ← pixelInfo c palette
    let rowBytes ← mulC 32 width px
    let pad := (4 - rowBytes % 4) % 4
    match (checkedMul 32 width height).bind fun v => checkedMul 32 v px with
    | none => errR .dimensionMismatch
    | some v => do
      let padding ← mulC 32 height pad
      match checkedAdd 32 v padding with
      | none => errR .dimensionMismatch
      | some imageSize => do
        let paletteSize ← mulC 32 colors 4
        match (checkedAdd 32 14 dib).bind fun v => (checkedAdd 32 v paletteSize).bind fun v => checkedAdd 32 v imageSize with
        | none => errR .encoding
        | some fileSize => do
          let data ← encodeData image width height pad c palette
          .ok (headerBytes fileSize dib width height px imageSize colors ++ data)

/-- `encode` and `write_image` (src/codecs/bmp/encoder.rs:31-39, 277-285) -/
def encode (image : List UInt8) (width height : Nat) (c : ExtendedColorType) : R (List UInt8) :=
  encodeWithPalette image width height c none

/-! ## Bit fields -/

/-- `u32::trailing_zeros` -/
def trailingZeros (m : Nat) : Nat := ((List.range 32).find? fun i => m.testBit i).getD 32
/-- `u32::count_ones` -/
def countOnes (m : Nat) : Nat := ((List.range 32).filter fun i => m.testBit i).length

/-- `struct Bitfield` (src/codecs/bmp/decoder.rs:401-404) -/
structure Bitfield where
  shift : Nat
  len : Nat
  deriving DecidableEq

/-- `Bitfield::from_mask` (src/codecs/bmp/decoder.rs:407-424) for a `u32` mask -/
def Bitfield.fromMask (mask maxLen : Nat) : R Bitfield :=
  if mask = 0 then .ok ⟨0, 0⟩
  else
    let shift := trailingZeros mask
    let len := trailingZeros (2 ^ 32 - 1 - mask / 2 ^ shift)
    if len ≠ countOnes mask then errR .decoding
    else if len + shift > maxLen then errR .decoding
    else if len > 8 then .ok ⟨shift + (len - 8), 8⟩
    else .ok ⟨shift, len⟩

/-- `LOOKUP_TABLE_3_BIT_TO_8_BIT` (src/codecs/bmp/decoder.rs:23-23) -/
def table3 : List UInt8 := [0, 36, 73, 109, 146, 182, 219, 255]
/-- `LOOKUP_TABLE_4_BIT_TO_8_BIT` (src/codecs/bmp/decoder.rs:24-26) -/
def table4 : List UInt8 := [0, 17, 34, 51, 68, 85, 102, 119, 136, 153, 170, 187, 204, 221, 238, 255]
/-- `LOOKUP_TABLE_5_BIT_TO_8_BIT` (src/codecs/bmp/decoder.rs:27-30) -/
def table5 : List UInt8 := [0, 8, 16, 25, 33, 41, 49, 58, 66, 74, 82, 90, 99, 107, 115, 123, 132, 140, 148, 156, 165, 173,
  181, 189, 197, 206, 214, 222, 230, 239, 247, 255]
/-- `LOOKUP_TABLE_6_BIT_TO_8_BIT` (src/codecs/bmp/decoder.rs:31-36) -/
def table6 : List UInt8 := [0, 4, 8, 12, 16, 20, 24, 28, 32, 36, 40, 45, 49, 53, 57, 61, 65, 69, 73, 77, 81, 85, 89, 93,
  97, 101, 105, 109, 113, 117, 121, 125, 130, 134, 138, 142, 146, 150, 154, 158, 162, 166, 170,
  174, 178, 182, 186, 190, 194, 198, 202, 206, 210, 215, 219, 223, 227, 231, 235, 239, 243, 247,
  251, 255]

/-- `Bitfield::read` (src/codecs/bmp/decoder.rs:426-439); `& (2^n - 1)` is the remainder modulo `2^n`. -/
def Bitfield.read (f : Bitfield) (data : Nat) : R UInt8 :=
  let data := data / 2 ^ f.shift
  match f.len with
  | 1 => .ok (UInt8.ofNat (data % 2 * 0xff))
  | 2 => .ok (UInt8.ofNat (data % 4 * 0x55))
  | 3 => unwrapR table3[data % 8]?
  | 4 => unwrapR table4[data % 16]?
  | 5 => unwrapR table5[data % 32]?
  | 6 => unwrapR table6[data % 64]?
  | 7 => .ok (UInt8.ofNat (data % 128 * 2 ||| data % 128 / 64))
  | 8 => .ok (UInt8.ofNat (data % 256))
  | _ => panicR

/-- `struct Bitfields` (src/codecs/bmp/decoder.rs:443-448) -/
structure Bitfields where
  r : Bitfield
  g : Bitfield
  b : Bitfield
  a : Bitfield
  deriving DecidableEq

/-- `R5_G5_B5_COLOR_MASK` (src/codecs/bmp/decoder.rs:38-43) -/
def mask555 : Bitfields := ⟨⟨10, 5⟩, ⟨5, 5⟩, ⟨0, 5⟩, ⟨0, 0⟩⟩
/-- `R8_G8_B8_COLOR_MASK` (src/codecs/bmp/decoder.rs:44-49) -/
def mask888 : Bitfields := ⟨⟨24, 8⟩, ⟨16, 8⟩, ⟨8, 8⟩, ⟨0, 0⟩⟩
/-- `R8_G8_B8_A8_COLOR_MASK` (src/codecs/bmp/decoder.rs:50-55) -/
def mask8888 : Bitfields := ⟨⟨16, 8⟩, ⟨8, 8⟩, ⟨0, 8⟩, ⟨24, 8⟩⟩

/-- `Bitfields::from_mask` (src/codecs/bmp/decoder.rs:451-468) -/
def Bitfields.fromMask (r g b a maxLen : Nat) : R Bitfields := do
  let r ← Bitfield.fromMask r maxLen
  let g ← Bitfield.fromMask g maxLen
  let b ← Bitfield.fromMask b maxLen
  let a ← Bitfield.fromMask a maxLen
  if r.len = 0 ∨ g.len = 0 ∨ b.len = 0 then errR .decoding else .ok ⟨r, g, b, a⟩

/-! ## Decoder: metadata -/

/-- `enum ImageType` (src/codecs/bmp/decoder.rs:66-76) -/
inductive ImageType
  | Palette | RGB16 | RGB24 | RGB32 | RGBA32 | RLE8 | RLE4 | Bitfields16 | Bitfields32
  deriving DecidableEq

/-- `enum BMPHeaderType` (src/codecs/bmp/decoder.rs:79-86) -/
inductive HeaderType
  | Core | Info | V2 | V3 | V4 | V5
  deriving DecidableEq

/-- `struct BmpDecoder` (src/codecs/bmp/decoder.rs:472-491) after `read_metadata`; `width` and `height` are not negative
then. -/
structure Decoder where
  reader : Cursor
  headerType : HeaderType
  indexedColor : Bool
  width : Nat
  height : Nat
  dataOffset : Nat
  topDown : Bool
  addAlpha : Bool
  imageType : ImageType
  bitCount : Nat
  colorsUsed : Nat
  palette : Option (List Rgb)
  bitfields : Option Bitfields

/-- `read_u16::<LittleEndian>`, `read_u32::<LittleEndian>` -/
def readU (n : Nat) (c : Cursor) : R (Nat × Cursor) := do
  let (b, c) ← c.readExact n
  .ok (leNat b, c)

/-- The `i32` with the bits of a `u32`. -/
def toI32 (v : Nat) : Int := if v < 2 ^ 31 then v else v - 2 ^ 32

/-- `num_bytes` and `check_for_overflow` (src/codecs/bmp/decoder.rs:238-262) -/
def checkForOverflow (width height : Int) (channels : Nat) : R Unit :=
  if width ≤ 0 ∨ height ≤ 0 then errR .unsupported
  else match (checkedMul 64 channels width.toNat).bind fun n => checkedMul 64 n height.toNat with
    | some _ => .ok ()
    | none => errR .unsupported

/-- `num_channels` (src/codecs/bmp/decoder.rs:926-934) -/
def numChannels (indexed addAlpha : Bool) : Nat := if indexed then 1 else if addAlpha then 4 else 3

/-- What the header readers find. -/
structure Info where
  width : Nat
  height : Nat
  topDown : Bool
  bitCount : Nat
  imageType : ImageType
  colorsUsed : Nat

/-- `read_bitmap_core_header` (src/codecs/bmp/decoder.rs:584-611) -/
def readCoreHeader (addAlpha : Bool) (c : Cursor) : R (Info × Cursor) := do
  let (width, c) ← readU 2 c
  let (height, c) ← readU 2 c
  checkForOverflow width height (numChannels false addAlpha)
  let (planes, c) ← readU 2 c
  if planes ≠ 1 then errR .decoding
  else do
    let (bitCount, c) ← readU 2 c
    let ty ← (if bitCount = 1 ∨ bitCount = 4 ∨ bitCount = 8 then .ok .Palette
      else if bitCount = 24 then .ok .RGB24
      else errR .decoding)
    .ok (⟨width, height, false, bitCount, ty, 0⟩, c)

/-- The `match image_type_u32` of `read_bitmap_info_header` (src/codecs/bmp/decoder.rs:654-732) -/
def imageTypeOf (addAlpha : Bool) (compression bitCount : Nat) : R ImageType :=
  if compression = 0 then
    if bitCount = 1 ∨ bitCount = 2 ∨ bitCount = 4 ∨ bitCount = 8 then .ok .Palette
    else if bitCount = 16 then .ok .RGB16
    else if bitCount = 24 then .ok .RGB24
    else if bitCount = 32 then .ok (if addAlpha then .RGBA32 else .RGB32)
    else errR .decoding
  else if compression = 1 then if bitCount = 8 then .ok .RLE8 else errR .decoding
  else if compression = 2 then if bitCount = 4 then .ok .RLE4 else errR .decoding
  else if compression = 3 then
    if bitCount = 16 then .ok .Bitfields16 else if bitCount = 32 then .ok .Bitfields32 else errR .decoding
  else if compression = 4 ∨ compression = 5 ∨ (11 ≤ compression ∧ compression ≤ 13) then errR .unsupported
  else errR .decoding

/-- `read_bitmap_info_header` (src/codecs/bmp/decoder.rs:617-748) -/
def readInfoHeader (addAlpha : Bool) (c : Cursor) : R (Info × Cursor) := do
  let (width, c) ← readU 4 c
  let (height, c) ← readU 4 c
  let width := toI32 width
  let height := toI32 height
  if width < 0 then errR .decoding
  else if width > 0xFFFF ∨ height > 0xFFFF then errR .decoding
  else if height = -2 ^ 31 then errR .decoding
  else do
    let topDown := decide (height < 0)
    let height := height.natAbs
    checkForOverflow width height (numChannels false addAlpha)
    let (planes, c) ← readU 2 c
    if planes ≠ 1 then errR .decoding
    else do
      let (bitCount, c) ← readU 2 c
      let (compression, c) ← readU 4 c
      if topDown = true ∧ compression ≠ 0 ∧ compression ≠ 3 then errR .decoding
      else do
        let ty ← imageTypeOf addAlpha compression bitCount
        let (_, c) ← readU 4 c
        let (_, c) ← readU 4 c
        let (_, c) ← readU 4 c
        let (colorsUsed, c) ← readU 4 c
        let (_, c) ← readU 4 c
        .ok (⟨width.toNat, height, topDown, bitCount, ty, colorsUsed⟩, c)

/-- `read_bitmasks` (src/codecs/bmp/decoder.rs:750-777): the fields and whether there is an alpha channel. -/
def readBitmasks (ht : HeaderType) (ty : ImageType) (c : Cursor) : R (Option Bitfields × Bool × Cursor) := do
  let (r, c) ← readU 4 c
  let (g, c) ← readU 4 c
  let (b, c) ← readU 4 c
  let (a, c) ← (match ht with
    | .V3 | .V4 | .V5 => readU 4 c
    | _ => .ok (0, c))
  match ty with
  | .Bitfields16 => do
    let f ← Bitfields.fromMask r g b a 16
    .ok (some f, decide (a ≠ 0), c)
  | .Bitfields32 => do
    let f ← Bitfields.fromMask r g b a 32
    .ok (some f, decide (a ≠ 0), c)
  | _ => .ok (none, false, c)

/-- `bytes_per_color` (src/codecs/bmp/decoder.rs:873-878) -/
def bytesPerColor : HeaderType → Nat
  | .Core => 3
  | _ => 4

/-- `get_palette_size` (src/codecs/bmp/decoder.rs:857-871) -/
def paletteSize (colorsUsed bitCount : Nat) : R Nat :=
  if colorsUsed = 0 then .ok (2 ^ bitCount)
  else if colorsUsed > 2 ^ bitCount then errR .decoding
  else .ok colorsUsed

/-- `read_palette` (src/codecs/bmp/decoder.rs:880-919): always 256 entries. -/
def readPalette (ht : HeaderType) (colorsUsed bitCount : Nat) (c : Cursor) : R (List Rgb × Cursor) := do
  let bpc := bytesPerColor ht
  let size ← paletteSize colorsUsed bitCount
  let maxLength := 256 * bpc
  let length := size * bpc
  let (buf, c) ← c.readExact (min length maxLength)
  let c ← (if length > maxLength then do
      let (_, c) ← c.seekCurrent (length - maxLength : Nat)
      .ok c
    else .ok c)
  let buf := buf ++ List.replicate (maxLength - buf.length) 0
  let p ← (List.range 256).mapM fun i => do
    let b ← unwrapR buf[bpc * i]?
    let g ← unwrapR buf[bpc * i + 1]?
    let r ← unwrapR buf[bpc * i + 2]?
    .ok (r, g, b)
  .ok (p, c)

/-- `read_file_header` (src/codecs/bmp/decoder.rs:560-579): the data offset. -/
def readFileHeader (c : Cursor) : R (Nat × Cursor) := do
  let (signature, c) ← c.readExact 2
  if signature ≠ [66, 77] then errR .decoding
  else do
    let (_, c) ← readU 4 c
    let (_, c) ← readU 4 c
    readU 4 c

/-- The header type for a header size (src/codecs/bmp/decoder.rs:786-807) -/
def headerTypeOf (size : Nat) : R HeaderType :=
  if size = 12 then .ok .Core
  else if size = 40 then .ok .Info
  else if size = 52 then .ok .V2
  else if size = 56 then .ok .V3
  else if size = 108 then .ok .V4
  else if size = 124 then .ok .V5
  else if size < 12 then errR .decoding
  else errR .unsupported

/-- `read_metadata` (src/codecs/bmp/decoder.rs:779-842) -/
def readMetadata (noFileHeader addAlpha : Bool) (c : Cursor) : R Decoder := do
  let (offset, c) ← (if noFileHeader then .ok (0, c) else readFileHeader c)
  let headerOffset := c.pos
  let (size, c) ← readU 4 c
  let headerEnd := headerOffset + size
  let ht ← headerTypeOf size
  let (info, c) ← (match ht with
    | .Core => readCoreHeader addAlpha c
    | _ => readInfoHeader addAlpha c)
  let (fields, alpha, c) ← (match info.imageType with
    | .Bitfields16 | .Bitfields32 => readBitmasks ht info.imageType c
    | _ => .ok (none, false, c))
  let (_, c) ← c.seekStart headerEnd
  let (palette, c) ← (match info.imageType with
    | .Palette | .RLE4 | .RLE8 => do
      let (p, c) ← readPalette ht info.colorsUsed info.bitCount c
      .ok (some p, c)
    | _ => .ok (none, c))
  .ok ⟨c, ht, false, info.width, info.height, if noFileHeader then c.pos else offset, info.topDown, addAlpha || alpha,
    info.imageType, info.bitCount, info.colorsUsed, palette, fields⟩

/-- `BmpDecoder::new` (src/codecs/bmp/decoder.rs:526-530) -/
def Decoder.new (file : List UInt8) : R Decoder := readMetadata false false ⟨file, 0⟩

/-- `new_without_file_header` (src/codecs/bmp/decoder.rs:535-540) -/
def Decoder.newWithoutFileHeader (file : List UInt8) : R Decoder := readMetadata true false ⟨file, 0⟩

/-- `new_with_ico_format` and `read_metadata_in_ico_format` (src/codecs/bmp/decoder.rs:543-547, 846-855) -/
def Decoder.newWithIcoFormat (c : Cursor) : R Decoder := do
  let d ← readMetadata true true c
  .ok { d with height := d.height / 2 }

/-- `set_indexed_color` (src/codecs/bmp/decoder.rs:551-553) -/
def Decoder.setIndexedColor (d : Decoder) (b : Bool) : Decoder := { d with indexedColor := b }

/-- `num_channels` (src/codecs/bmp/decoder.rs:926-934) -/
def Decoder.channels (d : Decoder) : Nat := numChannels d.indexedColor d.addAlpha

/-- `color_type` (src/codecs/bmp/decoder.rs:1332-1340) -/
def Decoder.colorType (d : Decoder) : ColorType :=
  if d.indexedColor then .L8 else if d.addAlpha then .Rgba8 else .Rgb8

/-! ## Decoder: pixels -/

/-- The row loop of `with_rows` (src/codecs/bmp/decoder.rs:283-291): `f` gets a row and the reader and returns both. -/
def rowLoop (rows : List (List UInt8)) (f : List UInt8 → List UInt8 → R (List UInt8 × List UInt8)) (s : List UInt8) :
    R (List (List UInt8) × List UInt8) :=
  forList rows (fun row (st : List (List UInt8) × List UInt8) => do
    let (row, s) ← f row st.2
    .ok (st.1 ++ [row], s)) ([], s)

/-- `with_rows` (src/codecs/bmp/decoder.rs:266-293): the new contents of the buffer and the reader. `chunks_mut` panics for
size 0. -/
def withRows (buf : List UInt8) (width height channels : Nat) (topDown : Bool)
    (f : List UInt8 → List UInt8 → R (List UInt8 × List UInt8)) (s : List UInt8) : R (List UInt8 × List UInt8) := do
  let rowWidth ← unwrapR (checkedMul 64 channels width)
  let full ← unwrapR (checkedMul 64 rowWidth height)
  assertR (decide (buf.length = full))
  assertR (decide (rowWidth ≠ 0))
  let rows := chunksOf rowWidth buf
  if topDown then do
    let (rows, s) ← rowLoop rows f s
    .ok (rows.flatten, s)
  else do
    let (rows, s) ← rowLoop rows.reverse f s
    .ok (rows.reverse.flatten, s)

/-- A pixel iterator `ChunksMut`: the pixels that it has passed and those to come. -/
structure PixIter where
  done : List (List UInt8)
  rest : List (List UInt8)

/-- The bytes of a row behind a pixel iterator. -/
def PixIter.bytes (it : PixIter) : List UInt8 := (it.done ++ it.rest).flatten

/-- `pixel[0] = rgb[0]; pixel[1] = rgb[1]; pixel[2] = rgb[2];` (src/codecs/bmp/decoder.rs:304-306) -/
def setPixel (pixel : List UInt8) (c : Rgb) : R (List UInt8) :=
  match pixel with
  | _ :: _ :: _ :: t => .ok (c.1 :: c.2.1 :: c.2.2 :: t)
  | _ => panicR

/-- The common part of the `set_*_pixel_run` functions (src/codecs/bmp/decoder.rs:295-398): one pixel for each index, until
the pixels of the row are exhausted (`false`). -/
def setRun (palette : List Rgb) : List Nat → PixIter → R (Bool × PixIter)
  | [], it => .ok (true, it)
  | i :: is, it =>
    match it.rest with
    | [] => .ok (false, it)
    | p :: ps => do
      let c ← unwrapR palette[i]?
      let p ← setPixel p c
      setRun palette is ⟨it.done ++ [p], ps⟩

/-- The indices of `set_8bit_pixel_run` (src/codecs/bmp/decoder.rs:295-312) -/
def indices8 (b : List UInt8) : List Nat := b.map UInt8.toNat
/-- The indices of `set_4bit_pixel_run` (src/codecs/bmp/decoder.rs:314-341) -/
def indices4 (b : List UInt8) : List Nat := b.flatMap fun i => [i.toNat / 16, i.toNat % 16]
/-- The indices of `set_2bit_pixel_run` (src/codecs/bmp/decoder.rs:344-373) -/
def indices2 (b : List UInt8) : List Nat :=
  b.flatMap fun i => [i.toNat / 64 % 4, i.toNat / 16 % 4, i.toNat / 4 % 4, i.toNat % 4]
/-- The indices of `set_1bit_pixel_run` (src/codecs/bmp/decoder.rs:375-398) -/
def indices1 (b : List UInt8) : List Nat := b.flatMap fun i => (List.range 8).map fun k => i.toNat / 2 ^ (7 - k) % 2

/-- `chunks_mut(n)` over a row -/
def pixels (n : Nat) (row : List UInt8) : R PixIter := do
  assertR (decide (n ≠ 0))
  .ok ⟨[], chunksOf n row⟩

/-- The row of a palette image (src/codecs/bmp/decoder.rs:971-994) -/
def paletteRow (d : Decoder) (palette : List Rgb) (rowBytes : Nat) (row s : List UInt8) : R (List UInt8 × List UInt8) := do
  let (indices, s) ← readExact rowBytes s
  if d.indexedColor then do
    assertR (decide (d.width ≤ indices.length))
    assertR (decide (row.length = d.width))
    .ok (indices.take d.width, s)
  else do
    let it ← pixels d.channels row
    let (_, it) ← (if d.bitCount = 1 then setRun palette (indices1 indices) it
      else if d.bitCount = 2 then setRun palette ((indices2 indices).take d.width) it
      else if d.bitCount = 4 then setRun palette ((indices4 indices).take d.width) it
      else if d.bitCount = 8 then setRun palette ((indices8 indices).take d.width) it
      else panicR)
    .ok (it.bytes, s)

/-- `buf.chunks_exact_mut(4).for_each(|c| c[3] = 0xFF)` (src/codecs/bmp/decoder.rs:962-962) -/
def fillAlpha (buf : List UInt8) : List UInt8 :=
  (chunksExact 4 buf).flatMap (fun c => c.set 3 0xFF) ++ buf.drop (buf.length / 4 * 4)

/-- `read_palettized_pixel_data` (src/codecs/bmp/decoder.rs:949-998); the `i32` arithmetic does not overflow for widths up
to 65535. -/
def readPalettized (d : Decoder) (buf : List UInt8) : R (List UInt8) := do
  let rowBytes := (d.bitCount * d.width + 31) / 32 * 4
  let palette ← unwrapR d.palette
  let s := d.reader.bytes.drop d.dataOffset
  let buf := if d.channels = 4 then fillAlpha buf else buf
  let (buf, _) ← withRows buf d.width d.height d.channels d.topDown (paletteRow d palette rowBytes) s
  .ok buf

/-- A pixel made of bit fields (src/codecs/bmp/decoder.rs:1026-1036, 1063-1073) -/
def fieldsPixel (f : Bitfields) (channels data : Nat) (pixel : List UInt8) : R (List UInt8) := do
  let r ← f.r.read data
  let g ← f.g.read data
  let b ← f.b.read data
  let p ← setPixel pixel (r, g, b)
  if channels = 4 then do
    let a ← (if f.a.len ≠ 0 then f.a.read data else .ok 0xFF)
    assertR (decide (3 < p.length))
    .ok (p.set 3 a)
  else .ok p

/-- The pixels of a row, each from `n` bytes of the reader by `f`. -/
def pixelLoop (n : Nat) (f : List UInt8 → List UInt8 → R (List UInt8)) (ps : List (List UInt8)) (s : List UInt8) :
    R (List UInt8 × List UInt8) :=
  forList ps (fun p (st : List UInt8 × List UInt8) => do
    let (b, s) ← readExact n st.2
    let p ← f b p
    .ok (st.1 ++ p, s)) ([], s)

/-- `read_16_bit_pixel_data` (src/codecs/bmp/decoder.rs:1000-1042) -/
def read16 (d : Decoder) (f : Bitfields) (buf : List UInt8) : R (List UInt8) := do
  let pad := d.width % 2 * 2
  let s := d.reader.bytes.drop d.dataOffset
  let (buf, _) ← withRows buf d.width d.height d.channels d.topDown (fun row s => do
    let it ← pixels d.channels row
    let (row, s) ← pixelLoop 2 (fun b p => fieldsPixel f d.channels (leNat b) p) it.rest s
    let (_, s) ← readExact pad s
    .ok (row, s)) s
  .ok buf

/-- `read_32_bit_pixel_data` (src/codecs/bmp/decoder.rs:1045-1079) -/
def read32 (d : Decoder) (f : Bitfields) (buf : List UInt8) : R (List UInt8) := do
  let s := d.reader.bytes.drop d.dataOffset
  let (buf, _) ← withRows buf d.width d.height d.channels d.topDown (fun row s => do
    let it ← pixels d.channels row
    pixelLoop 4 (fun b p => fieldsPixel f d.channels (leNat b) p) it.rest s) s
  .ok buf

/-- `enum FormatFullBytes` (src/codecs/bmp/decoder.rs:89-94) -/
inductive FullFormat
  | RGB24 | RGB32 | RGBA32 | Format888
  deriving DecidableEq

/-- The number of bytes of a pixel in the file (src/codecs/bmp/decoder.rs:1105-1125) -/
def FullFormat.size : FullFormat → Nat
  | RGB24 => 3
  | _ => 4

/-- A pixel from its bytes (src/codecs/bmp/decoder.rs:1105-1125): for `Format888` the first byte is skipped, for `RGB32` the
last. -/
def fullPixel (fmt : FullFormat) (channels : Nat) (b pixel : List UInt8) : R (List UInt8) := do
  let c := if fmt = .Format888 then b.drop 1 else b
  let p ← setPixel pixel (c.getD 2 0, c.getD 1 0, c.getD 0 0)
  if fmt = .RGBA32 then do
    assertR (decide (3 < p.length))
    .ok (p.set 3 (c.getD 3 0))
  else if channels = 4 then do
    assertR (decide (3 < p.length))
    .ok (p.set 3 0xFF)
  else .ok p

/-- `read_full_byte_pixel_data` (src/codecs/bmp/decoder.rs:1082-1132) -/
def readFull (d : Decoder) (fmt : FullFormat) (buf : List UInt8) : R (List UInt8) := do
  let pad := if fmt = .RGB24 then (4 - d.width * 3 % 4) % 4 else 0
  let s := d.reader.bytes.drop d.dataOffset
  let (buf, _) ← withRows buf d.width d.height d.channels d.topDown (fun row s => do
    let it ← pixels d.channels row
    let (row, s) ← pixelLoop fmt.size (fullPixel fmt d.channels) it.rest s
    let (_, s) ← readExact pad s
    .ok (row, s)) s
  .ok buf

/-! ## Run-length encoded pixels -/

/-- `enum RLEInsn` (src/codecs/bmp/decoder.rs:493-499) -/
inductive Insn
  | endOfFile
  | endOfRow
  | delta (x y : Nat)
  | absolute (n : Nat) (indices : List UInt8)
  | run (n : Nat) (index : UInt8)

/-- Reading an instruction (src/codecs/bmp/decoder.rs:1152-1183) -/
def readInsn (rle4 : Bool) (s : List UInt8) : R (Insn × List UInt8) := do
  let (control, s) ← readU8 s
  if control = 0 then do
    let (op, s) ← readU8 s
    if op = 0 then .ok (.endOfRow, s)
    else if op = 1 then .ok (.endOfFile, s)
    else if op = 2 then do
      let (x, s) ← readU8 s
      let (y, s) ← readU8 s
      .ok (.delta x y, s)
    else
      let length := if rle4 then (op + 1) / 2 else op
      let length := length + length % 2
      let (b, s) ← readExact length s
      .ok (.absolute op b, s)
  else do
    let (b, s) ← readExact 1 s
    .ok (.run control (b.getD 0 0), s)

/-- `p.fill(0)` for the rest of the pixels (src/codecs/bmp/decoder.rs:1186-1194) -/
def PixIter.clear (it : PixIter) : PixIter :=
  ⟨it.done ++ it.rest.map (fun p => List.replicate p.length (0 : UInt8)), []⟩

/-- `for _ in 0..n { pixel_iter.next().ok_or(..)?.fill(0) }` (src/codecs/bmp/decoder.rs:1219-1230) -/
def PixIter.skip : Nat → PixIter → R PixIter
  | 0, it => .ok it
  | n + 1, it =>
    match it.rest with
    | [] => errR .decoding
    | p :: ps => PixIter.skip n ⟨it.done ++ [List.replicate p.length (0 : UInt8)], ps⟩

/-- The state of `read_rle_data` (src/codecs/bmp/decoder.rs:1139-1150): finished rows, the pixels of the current row, the
rows that remain, `x`. -/
structure Rle where
  rows : List (List UInt8)
  cur : PixIter
  left : List (List UInt8)
  x : Nat

/-- The indices of an instruction (src/codecs/bmp/decoder.rs:1237-1259, 1266-1288): `length` indices from the bytes of an
absolute run or from the repeated byte of a pixel run. -/
def insnIndices (rle4 : Bool) (bytes : List UInt8) (n : Nat) : List Nat :=
  ((if rle4 then indices4 bytes else indices8 bytes)).take n

/-- The handling of `Delta` (src/codecs/bmp/decoder.rs:1195-1232) -/
def deltaStep (channels : Nat) (dx dy : Nat) (st : Rle) : R Rle := do
  let st ← (if dy > 0 then
      match st.left.drop (dy - 1) with
      | [] => errR .decoding
      | row :: left => do
        let skipped := (st.left.take (dy - 1)).map fun r => List.replicate r.length (0 : UInt8)
        let it ← pixels channels row
        let it ← it.skip st.x
        .ok ⟨st.rows ++ [st.cur.clear.bytes] ++ skipped, it, left, st.x⟩
    else .ok st)
  let it ← st.cur.skip dx
  .ok { st with cur := it, x := st.x + dx }

/-- The loops of `read_rle_data` (src/codecs/bmp/decoder.rs:1147-1293), one iteration per instruction: the rows in the order
in which they are visited. The fuel is the number of remaining bytes plus one; every instruction reads at least two. -/
def rleLoop (rle4 : Bool) (palette : List Rgb) (channels : Nat) : Nat → Rle → List UInt8 → R (List (List UInt8))
  | 0, _, _ => panicR
  | fuel + 1, st, s => do
    let (insn, s) ← readInsn rle4 s
    match insn with
    | .endOfFile => .ok (st.rows ++ [st.cur.clear.bytes] ++ st.left.map fun r => List.replicate r.length (0 : UInt8))
    | .endOfRow =>
      match st.left with
      | [] => .ok (st.rows ++ [st.cur.clear.bytes])
      | row :: left => do
        let it ← pixels channels row
        rleLoop rle4 palette channels fuel ⟨st.rows ++ [st.cur.clear.bytes], it, left, 0⟩ s
    | .delta dx dy => do
      let st ← deltaStep channels dx dy st
      rleLoop rle4 palette channels fuel st s
    | .absolute n b => do
      let (ok, it) ← setRun palette (insnIndices rle4 b n) st.cur
      if ok then rleLoop rle4 palette channels fuel { st with cur := it, x := st.x + n } s else errR .decoding
    | .run n i => do
      let (ok, it) ← setRun palette (insnIndices rle4 (List.replicate n i) n) st.cur
      if ok then rleLoop rle4 palette channels fuel { st with cur := it, x := st.x + n } s else errR .decoding

/-- `read_rle_data` with `rows` (src/codecs/bmp/decoder.rs:936-947, 1134-1296): the new contents of the buffer. -/
def readRle (d : Decoder) (rle4 : Bool) (buf : List UInt8) : R (List UInt8) := do
  let s := d.reader.bytes.drop d.dataOffset
  let palette ← unwrapR d.palette
  let stride := d.width * d.channels
  assertR (decide (stride ≠ 0))
  let rows := chunksOf stride buf
  let rows := if d.topDown then rows else rows.reverse
  match rows with
  | [] => .ok buf
  | row :: left => do
    let it ← pixels d.channels row
    let out ← rleLoop rle4 palette d.channels (s.length + 1) ⟨[], it, left, 0⟩ s
    .ok (if d.topDown then out else out.reverse).flatten

/-- `read_image_data` (src/codecs/bmp/decoder.rs:1300-1324) -/
def readImageData (d : Decoder) (buf : List UInt8) : R (List UInt8) :=
  match d.imageType with
  | .Palette => readPalettized d buf
  | .RGB16 => read16 d mask555 buf
  | .RGB24 => readFull d .RGB24 buf
  | .RGB32 => readFull d .RGB32 buf
  | .RGBA32 => readFull d .RGBA32 buf
  | .RLE8 => readRle d false buf
  | .RLE4 => readRle d true buf
  | .Bitfields16 => match d.bitfields with
    | some f => read16 d f buf
    | none => errR .decoding
  | .Bitfields32 => match d.bitfields with
    | some f =>
      if f = mask888 then readFull d .Format888 buf
      else if f = mask8888 then readFull d .RGBA32 buf
      else read32 d f buf
    | none => errR .decoding

/-- `read_image` (src/codecs/bmp/decoder.rs:1342-1345) into `buf` -/
def Decoder.readImage (d : Decoder) (buf : List UInt8) : R (List UInt8) := do
  assertR (decide (buf.length = totalBytes d.width d.height d.colorType.bytesPerPixel))
  readImageData d buf

/-- `new`, then `read_image` into a zeroed buffer of `total_bytes` (as `decoder_to_vec` does, src/image.rs:612-626). -/
def decode (file : List UInt8) : R (Nat × Nat × ColorType × List UInt8) := do
  let d ← Decoder.new file
  let buf ← d.readImage (List.replicate (totalBytes d.width d.height d.colorType.bytesPerPixel) 0)
  .ok (d.width, d.height, d.colorType, buf)

end Bmp
end Verif
