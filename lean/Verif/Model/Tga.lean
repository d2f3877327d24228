import Verif.Base.Bytes
import Verif.Model.Buffer
import Verif.Model.Color

/-!
# TGA (src/codecs/tga)

Readers are the list of the remaining bytes, writers the list of written bytes.
-/

namespace Verif

/-- `slice.chunks(n)`: the last chunk may be shorter (`n > 0` is checked by callers). -/
def chunksOf {α : Type} (n : Nat) (l : List α) : List (List α) :=
  (List.range ((l.length + n - 1) / n)).map fun k => (l.drop (k * n)).take n

/-- `r.take(n).read_to_end(&mut v)`: as many bytes as there are, at most `n`. -/
def readUpTo (n : Nat) (s : List UInt8) : List UInt8 × List UInt8 := (s.take n, s.drop n)

namespace Tga

/-- `enum ImageType` (src/codecs/tga/header.rs:9-20). -/
inductive ImageType
  | NoImageData | RawColorMap | RawTrueColor | RawGrayScale | RunColorMap | RunTrueColor | RunGrayScale | Unknown
  deriving DecidableEq, Repr

namespace ImageType

/-- `ImageType::new` (src/codecs/tga/header.rs:24-38). -/
def fromByte : Nat → ImageType
  | 0 => NoImageData
  | 1 => RawColorMap
  | 2 => RawTrueColor
  | 3 => RawGrayScale
  | 9 => RunColorMap
  | 10 => RunTrueColor
  | 11 => RunGrayScale
  | _ => Unknown

/-- The discriminants `image_type as u8` used by the encoder (src/codecs/tga/header.rs:9-20). -/
def code : ImageType → Nat
  | NoImageData => 0
  | RawColorMap => 1
  | RawTrueColor => 2
  | RawGrayScale => 3
  | RunColorMap => 9
  | RunTrueColor => 10
  | RunGrayScale => 11
  | Unknown => 12

/-- `is_color` (src/codecs/tga/header.rs:41-48). -/
def isColor : ImageType → Bool
  | RawColorMap | RawTrueColor | RunTrueColor | RunColorMap => true
  | _ => false

/-- `is_color_mapped` (src/codecs/tga/header.rs:51-53). -/
def isColorMapped : ImageType → Bool
  | RawColorMap | RunColorMap => true
  | _ => false

/-- `is_encoded` (src/codecs/tga/header.rs:56-58). -/
def isEncoded : ImageType → Bool
  | RunColorMap | RunTrueColor | RunGrayScale => true
  | _ => false

end ImageType

/-- `struct Header` (src/codecs/tga/header.rs:63-76). -/
structure Header where
  idLength : Nat := 0
  mapType : Nat := 0
  imageType : Nat := 0
  mapOrigin : Nat := 0
  mapLength : Nat := 0
  mapEntrySize : Nat := 0
  xOrigin : Nat := 0
  yOrigin : Nat := 0
  imageWidth : Nat := 0
  imageHeight : Nat := 0
  pixelDepth : Nat := 0
  imageDesc : Nat := 0
  deriving DecidableEq

/-- The table in `from_pixel_info` (src/codecs/tga/header.rs:89-106): alpha bits, other bits, image type. -/
def pixelInfo : ExtendedColorType → Bool → Option (Nat × Nat × ImageType)
  | .Rgba8, true => some (8, 24, .RunTrueColor)
  | .Rgb8, true => some (0, 24, .RunTrueColor)
  | .La8, true => some (8, 8, .RunGrayScale)
  | .L8, true => some (0, 8, .RunGrayScale)
  | .Rgba8, false => some (8, 24, .RawTrueColor)
  | .Rgb8, false => some (0, 24, .RawTrueColor)
  | .La8, false => some (8, 8, .RawGrayScale)
  | .L8, false => some (0, 8, .RawGrayScale)
  | _, _ => none

/-- `Header::from_pixel_info` (src/codecs/tga/header.rs:80-117); `& 0b1111`, `| 0b10_0000` on the descriptor. -/
def Header.fromPixelInfo (color : ExtendedColorType) (width height : Nat) (useRle : Bool) : R Header :=
  if 0 < width ∧ 0 < height then
    match pixelInfo color useRle with
    | none => errR .unsupported
    | some (alpha, other, ty) => .ok {
        imageType := ty.code
        imageWidth := width
        imageHeight := height
        pixelDepth := alpha + other
        imageDesc := (alpha &&& 0b1111) ||| 0b100000 }
  else .ok {}

/-- `Header::from_reader` (src/codecs/tga/header.rs:120-135). -/
def Header.fromReader (s : List UInt8) : R (Header × List UInt8) := do
  let (idLength, s) ← readU8 s
  let (mapType, s) ← readU8 s
  let (imageType, s) ← readU8 s
  let (mapOrigin, s) ← readLE 2 s
  let (mapLength, s) ← readLE 2 s
  let (mapEntrySize, s) ← readU8 s
  let (xOrigin, s) ← readLE 2 s
  let (yOrigin, s) ← readLE 2 s
  let (imageWidth, s) ← readLE 2 s
  let (imageHeight, s) ← readLE 2 s
  let (pixelDepth, s) ← readU8 s
  let (imageDesc, s) ← readU8 s
  .ok (⟨idLength, mapType, imageType, mapOrigin, mapLength, mapEntrySize, xOrigin, yOrigin, imageWidth, imageHeight,
    pixelDepth, imageDesc⟩, s)

/-- `Header::write_to` (src/codecs/tga/header.rs:138-152). -/
def Header.bytes (h : Header) : List UInt8 :=
  [UInt8.ofNat h.idLength, UInt8.ofNat h.mapType, UInt8.ofNat h.imageType] ++
  leBytes 2 h.mapOrigin ++ leBytes 2 h.mapLength ++ [UInt8.ofNat h.mapEntrySize] ++
  leBytes 2 h.xOrigin ++ leBytes 2 h.yOrigin ++ leBytes 2 h.imageWidth ++ leBytes 2 h.imageHeight ++
  [UInt8.ofNat h.pixelDepth, UInt8.ofNat h.imageDesc]

/-! ## Encoder -/

/-- `write_raw_packet` (src/codecs/tga/encoder.rs:67-74): the bytes written; `counter - 1` on `u8`. -/
def rawPacket (pixels : List UInt8) (counter : Nat) : R (List UInt8) := do
  let h ← subC counter 1
  .ok (UInt8.ofNat h :: pixels)

/-- `write_rle_encoded_packet` (src/codecs/tga/encoder.rs:77-83). -/
def rlePacket (pixel : List UInt8) (counter : Nat) : R (List UInt8) := do
  let h ← subC counter 1
  .ok ((0x80 ||| UInt8.ofNat h) :: pixel)

/-- The local variables of `run_length_encode` (src/codecs/tga/encoder.rs:95-102). -/
structure Enc where
  out : List UInt8
  buf : List UInt8
  counter : Nat
  prev : Option (List UInt8)
  rle : Bool

/-- `match packet_type { Rle => .., Raw => .. }` (src/codecs/tga/encoder.rs:128-131, 143-146). -/
def flushPacket (st : Enc) : R (List UInt8) :=
  if st.rle then do rlePacket (← unwrapR st.prev) st.counter else rawPacket st.buf st.counter

/-- The handling of the previous pixel (src/codecs/tga/encoder.rs:106-122). -/
def encPrev (st : Enc) (pixel : List UInt8) : R Enc :=
  match st.prev with
  | none => .ok st
  | some prev =>
    if pixel = prev then
      if st.rle = false ∧ st.counter > 0 then do
        let p ← rawPacket st.buf st.counter
        .ok { st with out := st.out ++ p, counter := 0, buf := [], rle := true }
      else .ok { st with rle := true }
    else if st.rle = true ∧ st.counter > 0 then do
      let p ← rlePacket prev st.counter
      .ok { st with out := st.out ++ p, counter := 0, rle := false, buf := [] }
    else .ok st

/-- Flushing a full packet (src/codecs/tga/encoder.rs:129-138). -/
def encFull (st : Enc) : R Enc :=
  if st.counter = 128 then do
    let p ← flushPacket st
    .ok { st with out := st.out ++ p, counter := 0, rle := true, buf := [] }
  else .ok st

/-- One iteration of the loop of `run_length_encode` (src/codecs/tga/encoder.rs:104-141). -/
def encStep (bpp : Nat) (pixel : List UInt8) (st : Enc) : R Enc := do
  let st ← encPrev st pixel
  let counter ← addC 8 st.counter 1
  let st := { st with counter := counter, buf := st.buf ++ pixel }
  assertR (st.buf.length ≤ 128 * bpp)
  let st ← encFull st
  .ok { st with prev := some pixel }

/-- `run_length_encode` (src/codecs/tga/encoder.rs:86-150): the bytes written. -/
def runLengthEncode (image : List UInt8) (color : ExtendedColorType) : R (List UInt8) := do
  let bpp := color.bitsPerPixel / 8
  assertR (bpp != 0)
  let st ← forList (chunksOf bpp image) (encStep bpp) ⟨[], [], 0, none, true⟩
  if st.counter > 0 then do
    let p ← flushPacket st
    .ok (st.out ++ p)
  else .ok st.out

/-- `chunk.swap(0, 2)`. -/
def swap02 : List UInt8 → R (List UInt8)
  | a :: b :: c :: t => .ok (c :: b :: a :: t)
  | _ => panicR

/-- `for pixel in image.chunks_mut(n) { pixel.swap(0, 2) }` (src/codecs/tga/encoder.rs:195-199). -/
def swapPixels (n : Nat) (image : List UInt8) : R (List UInt8) := do
  assertR (n != 0)
  let l ← (chunksOf n image).mapM swap02
  .ok l.flatten

/-- The image data with red and blue exchanged for colour images (src/codecs/tga/encoder.rs:191-207, 213-229). -/
def toBgr (color : ExtendedColorType) (buf : List UInt8) : R (List UInt8) :=
  match color with
  | .Rgb8 | .Rgba8 => swapPixels (color.bitsPerPixel / 8) buf
  | _ => .ok buf

/-- `TgaEncoder::encode` (src/codecs/tga/encoder.rs:162-233). -/
def encode (useRle : Bool) (buf : List UInt8) (width height : Nat) (color : ExtendedColorType) : R (List UInt8) := do
  let expected ← color.bufferSize width height
  assertR (expected == buf.length)
  if 2 ^ 16 ≤ width then errR .encoding
  else if 2 ^ 16 ≤ height then errR .encoding
  else do
    let header ← Header.fromPixelInfo color width height useRle
    let image ← toBgr color buf
    match ImageType.fromByte header.imageType with
    | .RunTrueColor | .RunGrayScale => do
      let d ← runLengthEncode image color
      .ok (header.bytes ++ d)
    | _ => .ok (header.bytes ++ image)

/-! ## Decoder -/

/-- `struct ColorMap` (src/codecs/tga/decoder.rs:12-17). -/
structure ColorMap where
  startOffset : Nat
  entrySize : Nat
  bytes : List UInt8

/-- `ColorMap::from_reader` (src/codecs/tga/decoder.rs:20-36). -/
def ColorMap.fromReader (s : List UInt8) (startOffset numEntries bitsPerEntry : Nat) : R (ColorMap × List UInt8) := do
  let bytesPerEntry := (bitsPerEntry + 7) / 8
  let (b, s) ← readExact (bytesPerEntry * numEntries) s
  .ok (⟨startOffset, bytesPerEntry, b⟩, s)

/-- `ColorMap::get` (src/codecs/tga/decoder.rs:39-42). The sums stay far below 2^64. -/
def ColorMap.get (m : ColorMap) (index : Nat) : Option (List UInt8) :=
  let entry := m.startOffset + m.entrySize * index
  if entry + m.entrySize ≤ m.bytes.length then some ((m.bytes.drop entry).take m.entrySize) else none

/-- `struct TgaDecoder` (src/codecs/tga/decoder.rs:46-60), the fields that are set by `new`. -/
structure Decoder where
  r : List UInt8
  header : Header
  colorType : ColorType
  originalColorType : Option ExtendedColorType
  colorMap : Option ColorMap

namespace Decoder

/-- `read_header` (src/codecs/tga/decoder.rs:84-91) -/
def imageType (d : Decoder) : ImageType := ImageType.fromByte d.header.imageType
/-- `read_header` (src/codecs/tga/decoder.rs:84-91) -/
def width (d : Decoder) : Nat := d.header.imageWidth
/-- `read_header` (src/codecs/tga/decoder.rs:84-91) -/
def height (d : Decoder) : Nat := d.header.imageHeight
/-- `read_header` (src/codecs/tga/decoder.rs:84-91) -/
def bytesPerPixel (d : Decoder) : Nat := (d.header.pixelDepth + 7) / 8

end Decoder

/-- The table in `read_color_information` (src/codecs/tga/decoder.rs:142-165). -/
def colorInfo (alpha other : Nat) (color : Bool) : R (ColorType × Option ExtendedColorType) :=
  match alpha, other, color with
  | 0, 32, true => .ok (.Rgba8, none)
  | 8, 24, true => .ok (.Rgba8, none)
  | 0, 24, true => .ok (.Rgb8, none)
  | 8, 8, false => .ok (.La8, none)
  | 0, 8, false => .ok (.L8, none)
  | 8, 0, false => .ok (.L8, some .A8)
  | _, _, _ => errR .unsupported

/-- `read_color_information` (src/codecs/tga/decoder.rs:108-167). -/
def colorInformation (h : Header) : R (ColorType × Option ExtendedColorType) :=
  if h.pixelDepth % 8 ≠ 0 ∨ h.pixelDepth > 32 then errR .unsupported
  else
    let alpha := h.imageDesc &&& 0b1111
    let color := (ImageType.fromByte h.imageType).isColor
    if h.mapType ≠ 0 then colorInfo alpha h.mapEntrySize color
    else if alpha > h.pixelDepth then errR .unsupported
    else colorInfo alpha (h.pixelDepth - alpha) color

/-- `read_color_map` (src/codecs/tga/decoder.rs:179-191). -/
def readColorMap (h : Header) (s : List UInt8) : R (Option ColorMap × List UInt8) :=
  if h.mapType = 1 then do
    let (m, s) ← ColorMap.fromReader s h.mapOrigin h.mapLength h.mapEntrySize
    .ok (some m, s)
  else .ok (none, s)

/-- `TgaDecoder::new` with `read_metadata`, `read_image_id` (src/codecs/tga/decoder.rs:64-102, 173-177). -/
def Decoder.new (s : List UInt8) : R Decoder := do
  let (h, s) ← Header.fromReader s
  let (_, s) ← readExact h.idLength s
  let (m, s) ← readColorMap h s
  let (c, o) ← colorInformation h
  .ok ⟨s, h, c, o, m⟩

/-- `bytes_to_index` (src/codecs/tga/decoder.rs:196-202): big-endian value. -/
def bytesToIndex (bytes : List UInt8) : Nat := beNat bytes

/-- `expand_color_map` (src/codecs/tga/decoder.rs:194-226). -/
def expandColorMap (bpp : Nat) (colorMap : Option ColorMap) (pixelData : List UInt8) : R (List UInt8) :=
  if bpp = 0 then errR .io
  else match colorMap with
    | none => errR .io
    | some m => forList (chunksOf bpp pixelData) (fun chunk result =>
        match m.get (bytesToIndex chunk) with
        | some color => .ok (result ++ color)
        | none => errR .io) []

/-- `repeat_buf.iter().cycle().take(n)`: nothing when the buffer is empty. -/
def cycleTake (n : Nat) (l : List UInt8) : List UInt8 :=
  if l.length = 0 then [] else (List.range n).map fun i => l[i % l.length]!

/-- The loop of `read_encoded_data` (src/codecs/tga/decoder.rs:233-262). The fuel is the number of remaining bytes
plus one, which suffices because every iteration reads at least one byte. -/
def readEncodedLoop (bpp numBytes : Nat) : Nat → List UInt8 → List UInt8 → R (List UInt8 × List UInt8)
  | 0, acc, s => if acc.length < numBytes then panicR else .ok (acc, s)
  | fuel + 1, acc, s =>
    if acc.length < numBytes then do
      let (run, s) ← readU8 s
      if run &&& 0x80 ≠ 0 then
        let count := run % 128 + 1
        let (rep, s) := readUpTo bpp s
        readEncodedLoop bpp numBytes fuel (acc ++ cycleTake (count * bpp) rep) s
      else
        let (d, s) := readUpTo ((run + 1) * bpp) s
        readEncodedLoop bpp numBytes fuel (acc ++ d) s
    else .ok (acc, s)

/-- `read_encoded_data` (src/codecs/tga/decoder.rs:229-272): truncated to `num_bytes`. -/
def readEncodedData (bpp numBytes : Nat) (s : List UInt8) : R (List UInt8 × List UInt8) := do
  let (acc, s) ← readEncodedLoop bpp numBytes (s.length + 1) [] s
  .ok (acc.take numBytes, s)

/-- `pixels.swap(a, b)` -/
def swapAt (l : List UInt8) (a b : Nat) : R (List UInt8) := do
  let x ← unwrapR l[a]?
  let y ← unwrapR l[b]?
  .ok ((l.set a y).set b x)

/-- `is_flipped_vertically` (src/codecs/tga/decoder.rs:333-336). -/
def isFlipped (h : Header) : Bool := !(0b100000 &&& h.imageDesc != 0)

/-- `flip_vertically` (src/codecs/tga/decoder.rs:303-325). -/
def flipVertically (h : Header) (pixels : List UInt8) : R (List UInt8) :=
  if isFlipped h then
    if h.imageHeight = 0 then .ok pixels
    else
      let widthBytes := pixels.length / h.imageHeight
      forRange (h.imageHeight / 2) (fun v pixels => do
        let target ← subC ((h.imageHeight - v) * widthBytes) widthBytes
        forRange widthBytes (fun x pixels => swapAt pixels (target + x) (v * widthBytes + x)) pixels) pixels
  else .ok pixels

/-- `reverse_encoding_in_output` (src/codecs/tga/decoder.rs:285-295). -/
def reverseEncoding (c : ColorType) (pixels : List UInt8) : R (List UInt8) :=
  match c with
  | .Rgb8 | .Rgba8 => swapPixels c.bytesPerPixel pixels
  | _ => .ok pixels

/-- The pixel data as stored (src/codecs/tga/decoder.rs:360-383), before any colour map. -/
def Decoder.rawData (d : Decoder) : R (List UInt8) :=
  let n := d.width * d.height * d.bytesPerPixel
  if d.imageType.isEncoded then do
    let (p, _) ← readEncodedData d.bytesPerPixel n d.r
    .ok p
  else do
    let (p, _) ← readExact n d.r
    .ok p

/-- The first part of `read_image` (src/codecs/tga/decoder.rs:356-394): the contents of `buf` (initially `buf0`)
before the byte order of the pixels is reversed. -/
def Decoder.fillBuffer (d : Decoder) (buf0 : List UInt8) : R (List UInt8) := do
  let raw ← d.rawData
  let buf ← (if d.bytesPerPixel ≤ d.colorType.bytesPerPixel then
      (if raw.length ≤ buf0.length then .ok (overwrite buf0 0 raw) else panicR)
    else .ok buf0)
  if d.imageType.isColorMapped then do
    let p ← expandColorMap d.bytesPerPixel d.colorMap raw
    if p.length ≠ buf.length then errR .limitsDimension else .ok p
  else .ok buf

/-- `read_image` (src/codecs/tga/decoder.rs:353-400): the contents of `buf` afterwards. -/
def Decoder.readImage (d : Decoder) (buf0 : List UInt8) : R (List UInt8) := do
  assertR (buf0.length == satMul 64 (d.width * d.height) d.colorType.bytesPerPixel)
  let buf ← d.fillBuffer buf0
  let buf ← reverseEncoding d.colorType buf
  flipVertically d.header buf

/-- Decoding a file: `new`, then `read_image` into a zeroed buffer of `total_bytes` (as `decoder_to_vec` does,
src/image.rs:612-626): dimensions, colour type and bytes. -/
def decode (file : List UInt8) : R (Nat × Nat × ColorType × List UInt8) := do
  let d ← Decoder.new file
  let buf ← d.readImage (List.replicate (d.width * d.height * d.colorType.bytesPerPixel) 0)
  .ok (d.width, d.height, d.colorType, buf)

end Tga
end Verif
