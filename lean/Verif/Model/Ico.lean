import Verif.Model.Bmp

/-!
# ICO files (src/codecs/ico)

The images inside an ICO file are BMP images without a file header, or PNG files. The PNG decoder is a parameter (`Png`).

The ICO decoder needs the position of the reader after the BMP pixels. `Bmp.readImageData` returns the pixels only;
`Bmp.readImageDataEnd` below is the same function with the rest of the reader (`Verif.Bmp.readImageDataEnd_fst` in Proofs/Ico shows
that they agree).
-/

namespace Verif
namespace Bmp

/-- `read_palettized_pixel_data` (src/codecs/bmp/decoder.rs:949-998) with the rest of the reader. -/
def readPalettizedEnd (d : Decoder) (buf : List UInt8) : R (List UInt8 × List UInt8) := do
  let rowBytes := (d.bitCount * d.width + 31) / 32 * 4
  let palette ← unwrapR d.palette
  let s := d.reader.bytes.drop d.dataOffset
  let buf := if d.channels = 4 then fillAlpha buf else buf
  withRows buf d.width d.height d.channels d.topDown (paletteRow d palette rowBytes) s

/-- `read_16_bit_pixel_data` (src/codecs/bmp/decoder.rs:1000-1042) with the rest of the reader. -/
def read16End (d : Decoder) (f : Bitfields) (buf : List UInt8) : R (List UInt8 × List UInt8) := do
  let pad := d.width % 2 * 2
  let s := d.reader.bytes.drop d.dataOffset
  withRows buf d.width d.height d.channels d.topDown (fun row s => do
    let it ← pixels d.channels row
    let (row, s) ← pixelLoop 2 (fun b p => fieldsPixel f d.channels (leNat b) p) it.rest s
    let (_, s) ← readExact pad s
    .ok (row, s)) s

/-- `read_32_bit_pixel_data` (src/codecs/bmp/decoder.rs:1045-1079) with the rest of the reader. -/
def read32End (d : Decoder) (f : Bitfields) (buf : List UInt8) : R (List UInt8 × List UInt8) := do
  let s := d.reader.bytes.drop d.dataOffset
  withRows buf d.width d.height d.channels d.topDown (fun row s => do
    let it ← pixels d.channels row
    pixelLoop 4 (fun b p => fieldsPixel f d.channels (leNat b) p) it.rest s) s

/-- `read_full_byte_pixel_data` (src/codecs/bmp/decoder.rs:1082-1132) with the rest of the reader. -/
def readFullEnd (d : Decoder) (fmt : FullFormat) (buf : List UInt8) : R (List UInt8 × List UInt8) := do
  let pad := if fmt = .RGB24 then (4 - d.width * 3 % 4) % 4 else 0
  let s := d.reader.bytes.drop d.dataOffset
  withRows buf d.width d.height d.channels d.topDown (fun row s => do
    let it ← pixels d.channels row
    let (row, s) ← pixelLoop fmt.size (fullPixel fmt d.channels) it.rest s
    let (_, s) ← readExact pad s
    .ok (row, s)) s

/-- The loops of `read_rle_data` (src/codecs/bmp/decoder.rs:1147-1293) with the rest of the reader. -/
def rleLoopEnd (rle4 : Bool) (palette : List Rgb) (channels : Nat) :
    Nat → Rle → List UInt8 → R (List (List UInt8) × List UInt8)
  | 0, _, _ => panicR
  | fuel + 1, st, s => do
    let (insn, s) ← readInsn rle4 s
    match insn with
    | .endOfFile => .ok (st.rows ++ [st.cur.clear.bytes] ++ st.left.map fun r => List.replicate r.length (0 : UInt8), s)
    | .endOfRow =>
      match st.left with
      | [] => .ok (st.rows ++ [st.cur.clear.bytes], s)
      | row :: left => do
        let it ← pixels channels row
        rleLoopEnd rle4 palette channels fuel ⟨st.rows ++ [st.cur.clear.bytes], it, left, 0⟩ s
    | .delta dx dy => do
      let st ← deltaStep channels dx dy st
      rleLoopEnd rle4 palette channels fuel st s
    | .absolute n b => do
      let (ok, it) ← setRun palette (insnIndices rle4 b n) st.cur
      if ok then rleLoopEnd rle4 palette channels fuel { st with cur := it, x := st.x + n } s else errR .decoding
    | .run n i => do
      let (ok, it) ← setRun palette (insnIndices rle4 (List.replicate n i) n) st.cur
      if ok then rleLoopEnd rle4 palette channels fuel { st with cur := it, x := st.x + n } s else errR .decoding

/-- `read_rle_data` with `rows` (src/codecs/bmp/decoder.rs:936-947, 1134-1296) with the rest of the reader. -/
def readRleEnd (d : Decoder) (rle4 : Bool) (buf : List UInt8) : R (List UInt8 × List UInt8) := do
  let s := d.reader.bytes.drop d.dataOffset
  let palette ← unwrapR d.palette
  let stride := d.width * d.channels
  assertR (decide (stride ≠ 0))
  let rows := chunksOf stride buf
  let rows := if d.topDown then rows else rows.reverse
  match rows with
  | [] => .ok (buf, s)
  | row :: left => do
    let it ← pixels d.channels row
    let (out, s) ← rleLoopEnd rle4 palette d.channels (s.length + 1) ⟨[], it, left, 0⟩ s
    .ok ((if d.topDown then out else out.reverse).flatten, s)

/-- `read_image_data` (src/codecs/bmp/decoder.rs:1300-1324) with the rest of the reader. -/
def readImageDataEnd (d : Decoder) (buf : List UInt8) : R (List UInt8 × List UInt8) :=
  match d.imageType with
  | .Palette => readPalettizedEnd d buf
  | .RGB16 => read16End d mask555 buf
  | .RGB24 => readFullEnd d .RGB24 buf
  | .RGB32 => readFullEnd d .RGB32 buf
  | .RGBA32 => readFullEnd d .RGBA32 buf
  | .RLE8 => readRleEnd d false buf
  | .RLE4 => readRleEnd d true buf
  | .Bitfields16 => match d.bitfields with
    | some f => read16End d f buf
    | none => errR .decoding
  | .Bitfields32 => match d.bitfields with
    | some f =>
      if f = mask888 then readFullEnd d .Format888 buf
      else if f = mask8888 then readFullEnd d .RGBA32 buf
      else read32End d f buf
    | none => errR .decoding

end Bmp

namespace Ico

/-- The fields of `struct DirEntry` (src/codecs/ico/decoder.rs:119-141) that are used. -/
structure DirEntry where
  width : Nat
  height : Nat
  bitsPerPixel : Nat
  imageLength : Nat
  imageOffset : Nat
  deriving DecidableEq

/-- `read_entry` (src/codecs/ico/decoder.rs:164-191); the struct expression reads the fields in the order in which they are written. -/
def readEntry (c : Cursor) : R (DirEntry × Cursor) := do
  let (width, c) ← Bmp.readU 1 c
  let (height, c) ← Bmp.readU 1 c
  let (_, c) ← Bmp.readU 1 c
  let (_, c) ← Bmp.readU 1 c
  let (planes, c) ← Bmp.readU 2 c
  if planes > 256 then errR .decoding
  else do
    let (bits, c) ← Bmp.readU 2 c
    if bits > 256 then errR .decoding
    else do
      let (length, c) ← Bmp.readU 4 c
      let (offset, c) ← Bmp.readU 4 c
      .ok (⟨width, height, bits, length, offset⟩, c)

/-- `read_entries` (src/codecs/ico/decoder.rs:157-162) -/
def readEntries (c : Cursor) : R (List DirEntry × Cursor) := do
  let (_, c) ← Bmp.readU 2 c
  let (_, c) ← Bmp.readU 2 c
  let (count, c) ← Bmp.readU 2 c
  forRange count (fun _ (st : List DirEntry × Cursor) => do
    let (e, c) ← readEntry st.2
    .ok (st.1 ++ [e], c)) ([], c)

/-- `real_width` (src/codecs/ico/decoder.rs:216-221) -/
def DirEntry.realWidth (e : DirEntry) : Nat := if e.width = 0 then 256 else e.width
/-- `real_height` (src/codecs/ico/decoder.rs:223-228) -/
def DirEntry.realHeight (e : DirEntry) : Nat := if e.height = 0 then 256 else e.height

/-- `score > best_score` for pairs of numbers, which Rust compares lexicographically (src/codecs/ico/decoder.rs:207-207) -/
def scoreGt (a b : Nat × Nat) : Bool := decide (a.1 > b.1 ∨ (a.1 = b.1 ∧ a.2 > b.2))

/-- The score of an entry (src/codecs/ico/decoder.rs:197-200, 203-206); the products are at most `256 * 256`. -/
def DirEntry.score (e : DirEntry) : Nat × Nat := (e.bitsPerPixel, e.realWidth * e.realHeight)

/-- `best_entry` (src/codecs/ico/decoder.rs:194-213): starts with the last entry, then goes through the others. -/
def bestEntry (entries : List DirEntry) : R DirEntry :=
  match entries.getLast? with
  | none => errR .decoding
  | some last => do
    let (best, _) ← forList entries.dropLast (fun e (st : DirEntry × (Nat × Nat)) =>
      .ok (if scoreGt e.score st.2 then (e, e.score) else st)) (last, last.score)
    .ok best

/-- `matches_dimensions` (src/codecs/ico/decoder.rs:230-233) -/
def DirEntry.matchesDimensions (e : DirEntry) (width height : Nat) : Bool :=
  decide (e.realWidth = min width 256) && decide (e.realHeight = min height 256)

/-- `PNG_SIGNATURE` (src/codecs/png.rs:26-26) -/
def pngSignature : List UInt8 := [137, 80, 78, 71, 13, 10, 26, 10]

/-- The PNG decoder, which this model does not contain: `PngDecoder::new`, `dimensions`, `color_type` and `read_image`. -/
structure Png where
  State : Type
  new : Cursor → R State
  dimensions : State → Nat × Nat
  colorType : State → ColorType
  readImage : State → List UInt8 → R (List UInt8)

/-- `enum InnerDecoder` (src/codecs/ico/decoder.rs:113-116) -/
inductive Inner (P : Png)
  | bmp (d : Bmp.Decoder)
  | png (p : P.State)

/-- `is_png` (src/codecs/ico/decoder.rs:240-248) -/
def DirEntry.isPng (e : DirEntry) (c : Cursor) : R (Bool × Cursor) := do
  let (_, c) ← c.seekStart e.imageOffset
  let (sig, c) ← c.readExact 8
  .ok (decide (sig = pngSignature), c)

/-- `decoder` (src/codecs/ico/decoder.rs:250-259) -/
def DirEntry.decoder (P : Png) (e : DirEntry) (c : Cursor) : R (Inner P) := do
  let (isPng, c) ← e.isPng c
  let (_, c) ← c.seekStart e.imageOffset
  if isPng then do
    let p ← P.new c
    .ok (.png p)
  else do
    let d ← Bmp.Decoder.newWithIcoFormat c
    .ok (.bmp d)

/-- `struct IcoDecoder` (src/codecs/ico/decoder.rs:108-111) -/
structure Decoder (P : Png) where
  entry : DirEntry
  inner : Inner P

/-- `IcoDecoder::new` (src/codecs/ico/decoder.rs:145-154) -/
def Decoder.new (P : Png) (file : List UInt8) : R (Decoder P) := do
  let (entries, c) ← readEntries ⟨file, 0⟩
  let entry ← bestEntry entries
  let inner ← entry.decoder P c
  .ok ⟨entry, inner⟩

/-- `dimensions` (src/codecs/ico/decoder.rs:263-268) -/
def Decoder.dimensions {P : Png} (d : Decoder P) : Nat × Nat :=
  match d.inner with
  | .bmp b => (b.width, b.height)
  | .png p => P.dimensions p

/-- `color_type` (src/codecs/ico/decoder.rs:270-275) -/
def Decoder.colorType {P : Png} (d : Decoder P) : ColorType :=
  match d.inner with
  | .bmp b => b.colorType
  | .png p => P.colorType p

/-- `buf[i] = v` -/
def setAt (buf : List UInt8) (i : Nat) (v : UInt8) : R (List UInt8) :=
  if i < buf.length then .ok (buf.set i v) else panicR

/-- The bits of a byte of the mask (src/codecs/ico/decoder.rs:348-357): `x` and `buf`. Once `x >= width` the loop is left, and here
the iterations that remain do nothing. -/
def maskByte (width height y : Nat) (byte : Nat) (st : Nat × List UInt8) : R (Nat × List UInt8) :=
  forRange 8 (fun i st =>
    if st.1 ≥ width then .ok st
    else do
      let buf ← (if byte.testBit (7 - i) then do
          let h ← subC height y
          let h ← subC h 1
          let a ← mulC 32 h width
          let b ← addC 32 a st.1
          setAt st.2 (b * 4 + 3) 0
        else .ok st.2)
      .ok (st.1 + 1, buf)) st

/-- A row of the mask (src/codecs/ico/decoder.rs:343-359): `buf` and the reader. -/
def maskRow (width height rowBytes y : Nat) (st : List UInt8 × List UInt8) : R (List UInt8 × List UInt8) := do
  let (_, buf, s) ← forRange rowBytes (fun _ (st : Nat × List UInt8 × List UInt8) => do
    let (byte, s) ← readU8 st.2.2
    let (x, buf) ← maskByte width height y byte (st.1, st.2.1)
    .ok (x, buf, s)) (0, st)
  .ok (buf, s)

/-- The loop that reads and applies the mask (src/codecs/ico/decoder.rs:341-360). -/
def applyMask (width height rowBytes : Nat) (buf s : List UInt8) : R (List UInt8 × List UInt8) :=
  forRange height (fun y st => maskRow width height rowBytes y st) (buf, s)

/-- The position of the reader when `rest` remains of the pixel data: `stream_position` (src/codecs/ico/decoder.rs:324-324). -/
def imageEnd (d : Bmp.Decoder) (rest : List UInt8) : Nat :=
  d.dataOffset + ((d.reader.bytes.drop d.dataOffset).length - rest.length)

/-- The branch of `read_image` for BMP images (src/codecs/ico/decoder.rs:306-371). -/
def readBmp (e : DirEntry) (d : Bmp.Decoder) (buf : List UInt8) : R (List UInt8) :=
  if e.matchesDimensions d.width d.height = false then errR .decoding
  else if d.colorType ≠ .Rgba8 then errR .unsupported
  else do
    let (buf, rest) ← Bmp.readImageDataEnd d buf
    let imageEnd := imageEnd d rest
    let dataEnd := e.imageOffset + e.imageLength
    let w31 ← addC 32 d.width 31
    let maskRowBytes ← mulC 32 (w31 / 32) 4
    let maskLength ← mulC 64 maskRowBytes d.height
    let all ← addC 64 imageEnd maskLength
    if dataEnd ≥ all then do
      let (buf, _) ← applyMask d.width d.height maskRowBytes buf rest
      .ok buf
    else if dataEnd = imageEnd then .ok buf
    else errR .decoding

/-- `read_image` (src/codecs/ico/decoder.rs:277-373). -/
def Decoder.readImage {P : Png} (d : Decoder P) (buf : List UInt8) : R (List UInt8) := do
  assertR (decide (buf.length = totalBytes d.dimensions.1 d.dimensions.2 d.colorType.bytesPerPixel))
  match d.inner with
  | .png p =>
    if d.entry.imageLength < 8 then errR .decoding
    else if d.entry.matchesDimensions (P.dimensions p).1 (P.dimensions p).2 = false then errR .decoding
    else if P.colorType p ≠ .Rgba8 then errR .decoding
    else P.readImage p buf
  | .bmp b => readBmp d.entry b buf

/-- Decoding a file: `new`, then `read_image` into a zeroed buffer of `total_bytes` (as `decoder_to_vec` does, src/image.rs:612-626). -/
def decode (P : Png) (file : List UInt8) : R (Nat × Nat × ColorType × List UInt8) := do
  let d ← Decoder.new P file
  let buf ← d.readImage (List.replicate (totalBytes d.dimensions.1 d.dimensions.2 d.colorType.bytesPerPixel) 0)
  .ok (d.dimensions.1, d.dimensions.2, d.colorType, buf)

/-! ## Encoder -/

/-- `struct IcoFrame` (src/codecs/ico/encoder.rs:24-32) -/
structure Frame where
  encoded : List UInt8
  width : Nat
  height : Nat
  color : ExtendedColorType

/-- `with_encoded` (src/codecs/ico/encoder.rs:38-68); `as u8` truncates. -/
def Frame.withEncoded (encoded : List UInt8) (width height : Nat) (color : ExtendedColorType) : R Frame :=
  if ¬ (1 ≤ width ∧ width ≤ 256) then errR .parameter
  else if ¬ (1 ≤ height ∧ height ≤ 256) then errR .parameter
  else .ok ⟨encoded, width % 256, height % 256, color⟩

/-- `write_icondir` (src/codecs/ico/encoder.rs:157-165) -/
def iconDir (n : Nat) : List UInt8 := leBytes 2 0 ++ leBytes 2 1 ++ leBytes 2 n

/-- `write_direntry` (src/codecs/ico/encoder.rs:167-191) -/
def dirEntry (width height : Nat) (color : ExtendedColorType) (start size : Nat) : List UInt8 :=
  leBytes 1 width ++ leBytes 1 height ++ leBytes 1 0 ++ leBytes 1 0 ++ leBytes 2 0 ++ leBytes 2 color.bitsPerPixel ++
    leBytes 4 size ++ leBytes 4 start

/-- `encode_images` (src/codecs/ico/encoder.rs:97-126): the bytes written. -/
def encodeImages (images : List Frame) : R (List UInt8) :=
  if ¬ (1 ≤ images.length ∧ images.length ≤ 65535) then errR .parameter
  else do
    let offset := 6 + 16 * images.length
    let (out, _) ← forList images (fun f (st : List UInt8 × Nat) => do
      let offset ← addC 32 st.2 (f.encoded.length % 2 ^ 32)
      .ok (st.1 ++ dirEntry f.width f.height f.color st.2 (f.encoded.length % 2 ^ 32), offset)) (iconDir images.length, offset)
    .ok (out ++ (images.map Frame.encoded).flatten)

/-- `as_png` (src/codecs/ico/encoder.rs:73-84) with the PNG encoder `png`. -/
def Frame.asPng (png : List UInt8 → Nat → Nat → ExtendedColorType → R (List UInt8)) (buf : List UInt8) (width height : Nat)
    (color : ExtendedColorType) : R Frame := do
  let data ← png buf width height color
  Frame.withEncoded data width height color

/-- `write_image` (src/codecs/ico/encoder.rs:137-154) with the PNG encoder `png`. -/
def writeImage (png : List UInt8 → Nat → Nat → ExtendedColorType → R (List UInt8)) (buf : List UInt8) (width height : Nat)
    (color : ExtendedColorType) : R (List UInt8) := do
  let expected ← color.bufferSize width height
  assertR (decide (expected = buf.length))
  let image ← Frame.asPng png buf width height color
  encodeImages [image]

end Ico
end Verif
