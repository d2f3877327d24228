import Verif.Model.JpegDct
import Verif.Model.Color
import Verif.Model.Image
import Verif.Model.Buffer
import Verif.Spec.Jpeg

/-!
# The JPEG encoder (src/codecs/jpeg/encoder.rs)

The writer is ideal: it appends and does not fail. Pixels with `f32` samples are not modelled.
-/

namespace Verif
namespace Jpeg

open GenericImageView

/-- `STD_LUMA_QTABLE` (src/codecs/jpeg/encoder.rs:38-47). -/
def STD_LUMA_QTABLE : List Nat := [
    16, 11, 10, 16,  24,  40,  51,  61,
    12, 12, 14, 19,  26,  58,  60,  55,
    14, 13, 16, 24,  40,  57,  69,  56,
    14, 17, 22, 29,  51,  87,  80,  62,
    18, 22, 37, 56,  68, 109, 103,  77,
    24, 35, 55, 64,  81, 104, 113,  92,
    49, 64, 78, 87, 103, 121, 120, 101,
    72, 92, 95, 98, 112, 100, 103,  99]

/-- `STD_CHROMA_QTABLE` (src/codecs/jpeg/encoder.rs:51-60). -/
def STD_CHROMA_QTABLE : List Nat := [
    17, 18, 24, 47, 99, 99, 99, 99,
    18, 21, 26, 66, 99, 99, 99, 99,
    24, 26, 56, 99, 99, 99, 99, 99,
    47, 66, 99, 99, 99, 99, 99, 99,
    99, 99, 99, 99, 99, 99, 99, 99,
    99, 99, 99, 99, 99, 99, 99, 99,
    99, 99, 99, 99, 99, 99, 99, 99,
    99, 99, 99, 99, 99, 99, 99, 99]

/-- `STD_LUMA_DC_CODE_LENGTHS` and `STD_LUMA_DC_VALUES` (src/codecs/jpeg/encoder.rs:64-70). -/
def LUMA_DC : JpegSpec.HuffTable := ⟨
  [0x00, 0x01, 0x05, 0x01, 0x01, 0x01, 0x01, 0x01, 0x01, 0x00, 0x00, 0x00, 0x00, 0x00, 0x00, 0x00],
  [0x00, 0x01, 0x02, 0x03, 0x04, 0x05, 0x06, 0x07, 0x08, 0x09, 0x0A, 0x0B]⟩

/-- `STD_CHROMA_DC_CODE_LENGTHS` and `STD_CHROMA_DC_VALUES` (src/codecs/jpeg/encoder.rs:76-82). -/
def CHROMA_DC : JpegSpec.HuffTable := ⟨
  [0x00, 0x03, 0x01, 0x01, 0x01, 0x01, 0x01, 0x01, 0x01, 0x01, 0x01, 0x00, 0x00, 0x00, 0x00, 0x00],
  [0x00, 0x01, 0x02, 0x03, 0x04, 0x05, 0x06, 0x07, 0x08, 0x09, 0x0A, 0x0B]⟩

/-- `STD_LUMA_AC_CODE_LENGTHS` and `STD_LUMA_AC_VALUES` (src/codecs/jpeg/encoder.rs:88-104). -/
def LUMA_AC : JpegSpec.HuffTable := ⟨
  [0x00, 0x02, 0x01, 0x03, 0x03, 0x02, 0x04, 0x03, 0x05, 0x05, 0x04, 0x04, 0x00, 0x00, 0x01, 0x7D],
  [
    0x01, 0x02, 0x03, 0x00, 0x04, 0x11, 0x05, 0x12, 0x21, 0x31, 0x41, 0x06, 0x13, 0x51, 0x61, 0x07,
    0x22, 0x71, 0x14, 0x32, 0x81, 0x91, 0xA1, 0x08, 0x23, 0x42, 0xB1, 0xC1, 0x15, 0x52, 0xD1, 0xF0,
    0x24, 0x33, 0x62, 0x72, 0x82, 0x09, 0x0A, 0x16, 0x17, 0x18, 0x19, 0x1A, 0x25, 0x26, 0x27, 0x28,
    0x29, 0x2A, 0x34, 0x35, 0x36, 0x37, 0x38, 0x39, 0x3A, 0x43, 0x44, 0x45, 0x46, 0x47, 0x48, 0x49,
    0x4A, 0x53, 0x54, 0x55, 0x56, 0x57, 0x58, 0x59, 0x5A, 0x63, 0x64, 0x65, 0x66, 0x67, 0x68, 0x69,
    0x6A, 0x73, 0x74, 0x75, 0x76, 0x77, 0x78, 0x79, 0x7A, 0x83, 0x84, 0x85, 0x86, 0x87, 0x88, 0x89,
    0x8A, 0x92, 0x93, 0x94, 0x95, 0x96, 0x97, 0x98, 0x99, 0x9A, 0xA2, 0xA3, 0xA4, 0xA5, 0xA6, 0xA7,
    0xA8, 0xA9, 0xAA, 0xB2, 0xB3, 0xB4, 0xB5, 0xB6, 0xB7, 0xB8, 0xB9, 0xBA, 0xC2, 0xC3, 0xC4, 0xC5,
    0xC6, 0xC7, 0xC8, 0xC9, 0xCA, 0xD2, 0xD3, 0xD4, 0xD5, 0xD6, 0xD7, 0xD8, 0xD9, 0xDA, 0xE1, 0xE2,
    0xE3, 0xE4, 0xE5, 0xE6, 0xE7, 0xE8, 0xE9, 0xEA, 0xF1, 0xF2, 0xF3, 0xF4, 0xF5, 0xF6, 0xF7, 0xF8,
    0xF9, 0xFA]⟩

/-- `STD_CHROMA_AC_CODE_LENGTHS` and `STD_CHROMA_AC_VALUES` (src/codecs/jpeg/encoder.rs:110-125). -/
def CHROMA_AC : JpegSpec.HuffTable := ⟨
  [0x00, 0x02, 0x01, 0x02, 0x04, 0x04, 0x03, 0x04, 0x07, 0x05, 0x04, 0x04, 0x00, 0x01, 0x02, 0x77],
  [
    0x00, 0x01, 0x02, 0x03, 0x11, 0x04, 0x05, 0x21, 0x31, 0x06, 0x12, 0x41, 0x51, 0x07, 0x61, 0x71,
    0x13, 0x22, 0x32, 0x81, 0x08, 0x14, 0x42, 0x91, 0xA1, 0xB1, 0xC1, 0x09, 0x23, 0x33, 0x52, 0xF0,
    0x15, 0x62, 0x72, 0xD1, 0x0A, 0x16, 0x24, 0x34, 0xE1, 0x25, 0xF1, 0x17, 0x18, 0x19, 0x1A, 0x26,
    0x27, 0x28, 0x29, 0x2A, 0x35, 0x36, 0x37, 0x38, 0x39, 0x3A, 0x43, 0x44, 0x45, 0x46, 0x47, 0x48,
    0x49, 0x4A, 0x53, 0x54, 0x55, 0x56, 0x57, 0x58, 0x59, 0x5A, 0x63, 0x64, 0x65, 0x66, 0x67, 0x68,
    0x69, 0x6A, 0x73, 0x74, 0x75, 0x76, 0x77, 0x78, 0x79, 0x7A, 0x82, 0x83, 0x84, 0x85, 0x86, 0x87,
    0x88, 0x89, 0x8A, 0x92, 0x93, 0x94, 0x95, 0x96, 0x97, 0x98, 0x99, 0x9A, 0xA2, 0xA3, 0xA4, 0xA5,
    0xA6, 0xA7, 0xA8, 0xA9, 0xAA, 0xB2, 0xB3, 0xB4, 0xB5, 0xB6, 0xB7, 0xB8, 0xB9, 0xBA, 0xC2, 0xC3,
    0xC4, 0xC5, 0xC6, 0xC7, 0xC8, 0xC9, 0xCA, 0xD2, 0xD3, 0xD4, 0xD5, 0xD6, 0xD7, 0xD8, 0xD9, 0xDA,
    0xE2, 0xE3, 0xE4, 0xE5, 0xE6, 0xE7, 0xE8, 0xE9, 0xEA, 0xF2, 0xF3, 0xF4, 0xF5, 0xF6, 0xF7, 0xF8,
    0xF9, 0xFA]⟩

/-- `Component` (src/codecs/jpeg/encoder.rs:155-176), without the unused prediction. -/
structure Component where
  id : Nat
  h : Nat
  v : Nat
  tq : Nat
  dcTable : Nat
  acTable : Nat

/-- `PixelDensityUnit` (src/codecs/jpeg/encoder.rs:285-295). -/
inductive PixelDensityUnit
  | pixelAspectRatio | inches | centimeters
  deriving DecidableEq

/-- `PixelDensity` (src/codecs/jpeg/encoder.rs:307-312); the densities are `u16`. -/
structure PixelDensity where
  density : Nat × Nat
  unit : PixelDensityUnit
  deriving DecidableEq

/-- `JpegEncoder` (src/codecs/jpeg/encoder.rs:338-352). The Huffman look-up tables are never changed and are built where
they are used. -/
structure Encoder where
  writer : BitWriter
  tables : List (List Nat)
  density : PixelDensity
  iccProfile : List UInt8

/-- The components (src/codecs/jpeg/encoder.rs:364-392). -/
def components : List Component := [⟨1, 1, 1, 0, 0, 0⟩, ⟨2, 1, 1, 1, 1, 1⟩, ⟨3, 1, 1, 1, 1, 1⟩]

/-- `clamp` (src/utils/mod.rs:82-93) for numbers. -/
def clampNat (a lo hi : Nat) : Nat := if a < lo then lo else if a > hi then hi else a

/-- The factor in percent that a quality stands for (src/codecs/jpeg/encoder.rs:395-400). -/
def scaleOf (quality : Nat) : Nat :=
  let scale := clampNat quality 1 100
  if scale < 50 then 5000 / scale else 200 - scale * 2

/-- A quantisation table scaled (src/codecs/jpeg/encoder.rs:402-407); no operation can overflow a `u32`. -/
def scaleTable (scale : Nat) (t : List Nat) : List Nat := t.map fun v => clampNat ((v * scale + 50) / 100) 1 255

/-- `new_with_quality` (src/codecs/jpeg/encoder.rs:363-424). -/
def newWithQuality (quality : Nat) : Encoder :=
  let scale := scaleOf quality
  ⟨BitWriter.new, [scaleTable scale STD_LUMA_QTABLE, scaleTable scale STD_CHROMA_QTABLE],
    ⟨(1, 1), .pixelAspectRatio⟩, []⟩

/-! ## Headers -/

/-- `build_jfif_header` (src/codecs/jpeg/encoder.rs:716-732). -/
def jfifHeader (d : PixelDensity) : List UInt8 :=
  ([0x4A, 0x46, 0x49, 0x46, 0, 0x01, 0x02,
    match d.unit with
    | .pixelAspectRatio => 0x00
    | .inches => 0x01
    | .centimeters => 0x02] : List UInt8) ++ beBytes 2 d.density.1 ++ beBytes 2 d.density.2 ++ [0, 0]

/-- `build_frame_header` (src/codecs/jpeg/encoder.rs:734-752). -/
def frameHeader (precision width height : Nat) (comps : List Component) : List UInt8 :=
  [UInt8.ofNat precision] ++ beBytes 2 height ++ beBytes 2 width ++ [UInt8.ofNat comps.length] ++
    comps.flatMap fun c => [UInt8.ofNat c.id, UInt8.ofNat ((c.h <<< 4) ||| c.v), UInt8.ofNat c.tq]

/-- `build_scan_header` (src/codecs/jpeg/encoder.rs:754-766). -/
def scanHeader (comps : List Component) : List UInt8 :=
  [UInt8.ofNat comps.length] ++ (comps.flatMap fun c => [UInt8.ofNat c.id, UInt8.ofNat ((c.dcTable <<< 4) ||| c.acTable)]) ++
    [0, 63, 0]

/-- `build_huffman_segment` (src/codecs/jpeg/encoder.rs:768-787). -/
def huffmanSegment (cls destination : Nat) (t : JpegSpec.HuffTable) : R (List UInt8) := do
  assertR (t.counts.sum = t.vals.length)
  .ok ([UInt8.ofNat ((cls <<< 4) ||| destination)] ++ t.counts.map UInt8.ofNat ++ t.vals.map UInt8.ofNat)

/-- `build_quantization_segment` (src/codecs/jpeg/encoder.rs:789-800). -/
def quantizationSegment (precision identifier : Nat) (qtable : List Nat) : R (List UInt8) := do
  let p := if precision = 8 then 0 else 1
  let l ← UNZIGZAG.mapM fun i => getR qtable i
  .ok ([UInt8.ofNat ((p <<< 4) ||| identifier)] ++ l.map UInt8.ofNat)

/-- `write_icc_profile_chunks` (src/codecs/jpeg/encoder.rs:660-695). -/
def writeIccProfileChunks (icc : List UInt8) (s : BitWriter) : R BitWriter := do
  if icc.isEmpty then return s
  let maxChunk := 65533 - 14
  if icc.length > maxChunk * 255 then errR .io
  else do
    let n := (icc.length + maxChunk - 1) / maxChunk
    let numChunks := n % 256
    forRange n (fun i s => do
      let chunk := (icc.drop (i * maxChunk)).take maxChunk
      let segment := [0x49, 0x43, 0x43, 0x5F, 0x50, 0x52, 0x4F, 0x46, 0x49, 0x4C, 0x45, 0, UInt8.ofNat (i + 1), UInt8.ofNat numChunks] ++ chunk
      s.writeSegment 0xE2 segment) s

/-! ## Pixels -/

/-- `rgb_to_ycbcr` (src/codecs/jpeg/encoder.rs:823-856) after the conversion to three `u8` samples. -/
def rgbToYcbcr (r g b : Nat) : R (Nat × Nat × Nat) := do
  let r : Int := r
  let g : Int := g
  let b : Int := b
  let p1 ← i32 (19595 * r)
  let p2 ← i32 (38469 * g)
  let s ← i32 (p1 + p2)
  let p3 ← i32 (7471 * b)
  let s ← i32 (s + p3)
  let s ← i32 (s + 32767)
  let y := s / 2 ^ 16
  let p1 ← i32 (-11059 * r)
  let p2 ← i32 (21709 * g)
  let s ← i32 (p1 - p2)
  let p3 ← i32 (32768 * b)
  let s ← i32 (s + p3)
  let s ← i32 (s + (128 * 65536 + 32767))
  let cb := s / 2 ^ 16
  let p1 ← i32 (32768 * r)
  let p2 ← i32 (27439 * g)
  let s ← i32 (p1 - p2)
  let p3 ← i32 (5329 * b)
  let s ← i32 (s - p3)
  let s ← i32 (s + (128 * 65536 + 32767))
  let cr := s / 2 ^ 16
  .ok ((y % 256).toNat, (cb % 256).toNat, (cr % 256).toNat)

section
variable {I : Type} (T : Prim) (m : PixelType) [GenericImageView I (Pix Nat m.ch)]

/-- `pixel_at_or_near` (src/codecs/jpeg/encoder.rs:861-867). -/
def pixelAtOrNear (source : I) (x y : Nat) : R (Pix Nat m.ch) :=
  if inBounds source x y then getPixel source x y
  else do
    let x1 ← subC (widthOf source) 1
    let y1 ← subC (heightOf source) 1
    getPixel source (min x x1) (min y y1)

/-- `copy_blocks_ycbcr` (src/codecs/jpeg/encoder.rs:869-887). The 64 positions of each block are assigned in order. -/
def copyBlocksYcbcr (source : I) (x0 y0 : Nat) : R (List Nat × List Nat × List Nat) := do
  let l ← (List.range 64).mapM fun i => do
    let x ← addC 32 (i % 8) x0
    let y ← addC 32 (i / 8) y0
    let pixel ← pixelAtOrNear m source x y
    let rgb ← fromColor T T m .rgb pixel
    let r ← Prim.castFrom .u8 (rgb 0)
    let g ← Prim.castFrom .u8 (rgb 1)
    let b ← Prim.castFrom .u8 (rgb 2)
    rgbToYcbcr r g b
  .ok (l.map (·.1), l.map (·.2.1), l.map (·.2.2))

/-- `copy_blocks_gray` (src/codecs/jpeg/encoder.rs:889-898). -/
def copyBlocksGray (source : I) (x0 y0 : Nat) : R (List Nat) :=
  (List.range 64).mapM fun i => do
    let x ← addC 32 x0 (i % 8)
    let y ← addC 32 y0 (i / 8)
    let pixel ← pixelAtOrNear m source x y
    let luma ← fromColor T T m .luma pixel
    Prim.castFrom .u8 (luma 0)

/-- The quantisation of a block (src/codecs/jpeg/encoder.rs:597-600, 637-644). -/
def quantizeBlock (dct : List Int) (table : List Nat) : R (List Int) :=
  (List.range 64).mapM fun i => do
    let c ← getR dct i
    let q ← getR table i
    .ok (quantize c q)

/-- One iteration of the inner loop of `encode_gray` (src/codecs/jpeg/encoder.rs:592-605), with the Huffman look-up tables of
the luminance. -/
def grayStep (ld la : List (Nat × Nat)) (tables : List (List Nat)) (image : I) (i j : Nat) (st : BitWriter × Int) : R (BitWriter × Int) := do
  let yblock ← copyBlocksGray T m image (i * 8) (j * 8)
  let dct ← fdct yblock
  let t0 ← getR tables 0
  let dct ← quantizeBlock dct t0
  st.1.writeBlock dct st.2 ld la

/-- `encode_gray` (src/codecs/jpeg/encoder.rs:584-610). -/
def encodeGray (tables : List (List Nat)) (image : I) (s : BitWriter) : R BitWriter := do
  let la ← buildHuffLut LUMA_AC.counts LUMA_AC.vals
  let ld ← buildHuffLut LUMA_DC.counts LUMA_DC.vals
  let st ← forRange ((heightOf image + 7) / 8) (fun j st =>
    forRange ((widthOf image + 7) / 8) (fun i st => grayStep T m ld la tables image i j st) st) (s, (0 : Int))
  .ok st.1

/-- The Huffman look-up tables of `encode_rgb`. -/
structure Luts where
  ld : List (Nat × Nat)
  la : List (Nat × Nat)
  cd : List (Nat × Nat)
  ca : List (Nat × Nat)

/-- One iteration of the inner loop of `encode_rgb` (src/codecs/jpeg/encoder.rs:625-653). The state is the writer and the three
predictions. -/
def rgbStep (l : Luts) (tables : List (List Nat)) (image : I) (i j : Nat) (st : BitWriter × Int × Int × Int) :
    R (BitWriter × Int × Int × Int) := do
  let blocks ← copyBlocksYcbcr T m image (i * 8) (j * 8)
  let y ← fdct blocks.1
  let cb ← fdct blocks.2.1
  let cr ← fdct blocks.2.2
  let t0 ← getR tables 0
  let t1 ← getR tables 1
  let y ← quantizeBlock y t0
  let cb ← quantizeBlock cb t1
  let cr ← quantizeBlock cr t1
  let s1 ← st.1.writeBlock y st.2.1 l.ld l.la
  let s2 ← s1.1.writeBlock cb st.2.2.1 l.cd l.ca
  let s3 ← s2.1.writeBlock cr st.2.2.2 l.cd l.ca
  .ok (s3.1, s1.2, s2.2, s3.2)

/-- `encode_rgb` (src/codecs/jpeg/encoder.rs:612-658). -/
def encodeRgb (tables : List (List Nat)) (image : I) (s : BitWriter) : R BitWriter := do
  let la ← buildHuffLut LUMA_AC.counts LUMA_AC.vals
  let ld ← buildHuffLut LUMA_DC.counts LUMA_DC.vals
  let cd ← buildHuffLut CHROMA_DC.counts CHROMA_DC.vals
  let ca ← buildHuffLut CHROMA_AC.counts CHROMA_AC.vals
  let st ← forRange ((heightOf image + 7) / 8) (fun j st =>
    forRange ((widthOf image + 7) / 8) (fun i st => rgbStep T m ⟨ld, la, cd, ca⟩ tables image i j st) st) (s, 0, 0, 0)
  .ok st.1

/-- `encode_image` (src/codecs/jpeg/encoder.rs:487-582). The result is the encoder afterwards. -/
def encodeImage (e : Encoder) (image : I) : R Encoder := do
  let numComponents := if m.ch = 1 ∨ m.ch = 2 then 1 else 3
  let s := e.writer.writeMarker 0xD8
  let s ← s.writeSegment 0xE0 (jfifHeader e.density)
  let s ← writeIccProfileChunks e.iccProfile s
  if widthOf image ≥ 2 ^ 16 then errR .dimensionMismatch else do
  if heightOf image ≥ 2 ^ 16 then errR .dimensionMismatch else do
  let s ← s.writeSegment 0xC0 (frameHeader 8 (widthOf image) (heightOf image) (components.take numComponents))
  assertR (e.tables.length = 2)
  let numtables := if numComponents = 1 then 1 else 2
  let s ← forRange numtables (fun i s => do
    let table ← getR e.tables i
    let seg ← quantizationSegment 8 i table
    s.writeSegment 0xDB seg) s
  let s ← s.writeSegment 0xC4 (← huffmanSegment 0 0 LUMA_DC)
  let s ← s.writeSegment 0xC4 (← huffmanSegment 1 0 LUMA_AC)
  let s ← if numComponents = 3 then do
      let s ← s.writeSegment 0xC4 (← huffmanSegment 0 1 CHROMA_DC)
      s.writeSegment 0xC4 (← huffmanSegment 1 1 CHROMA_AC)
    else .ok s
  let s ← s.writeSegment 0xDA (scanHeader (components.take numComponents))
  let s ← if T = .u8 ∧ (m = .rgb ∨ m = .rgba) then encodeRgb T m e.tables image s else encodeGray T m e.tables image s
  let s ← s.padByte
  .ok { e with writer := s.writeMarker 0xD9 }

end

/-- `encode` (src/codecs/jpeg/encoder.rs:443-476), and `write_image` (src/codecs/jpeg/encoder.rs:700-708), which calls it. The
buffer holds `u8` samples. -/
def encode (e : Encoder) (image : List Nat) (width height : Nat) (c : ExtendedColorType) : R Encoder := do
  let expected ← c.bufferSize width height
  assertR (expected = image.length)
  match c with
  | .L8 => do
    let b ← unwrapR (ImageBuffer.fromRaw 1 width height image)
    encodeImage .u8 .luma e b
  | .Rgb8 => do
    let b ← unwrapR (ImageBuffer.fromRaw 3 width height image)
    encodeImage .u8 .rgb e b
  | _ => errR .unsupported

end Jpeg
end Verif
