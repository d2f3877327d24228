import Verif.Model.AutoBreak
import Verif.Model.PnmHeader
import Verif.Model.Tga

/-!
# PNM encoder (src/codecs/pnm/encoder.rs)

The file is written to a writer that never fails (`Vec<u8>`); failing writers are considered for the line breaking
writer only (Verif.Model.AutoBreak).
-/

namespace Verif
namespace Pnm

/-- `FlatSamples` (src/codecs/pnm/encoder.rs:26-29) -/
inductive Samples
  | u8 (s : List UInt8)
  | u16 (s : List UInt16)

/-- `HeaderStrategy` (src/codecs/pnm/encoder.rs:19-23) -/
inductive Strategy
  | dynamic
  | subtype (s : Subtype)
  | chosen (h : Header)

namespace Samples

/-- `len` (src/codecs/pnm/encoder.rs:571-576) -/
def len : Samples → Nat
  | u8 s => s.length
  | u16 s => s.length

/-- `all_smaller` (src/codecs/pnm/encoder.rs:578-583) -/
def allSmaller (maxVal : Nat) : Samples → Bool
  | u8 s => s.any fun v => decide (v.toNat > maxVal)
  | u16 s => s.any fun v => decide (v.toNat > maxVal)

end Samples

/-- `CheckedImageBuffer::check` (src/codecs/pnm/encoder.rs:307-331) -/
def checkBuffer (image : Samples) (width height : Nat) (color : ExtendedColorType) : R Unit :=
  let expected := (checkedMul 64 color.channelCount width).bind fun v => checkedMul 64 v height
  if some image.len ≠ expected then errR .dimensionMismatch else .ok ()

/-- `check_header_dimensions` (src/codecs/pnm/encoder.rs:335-352) -/
def checkHeaderDimensions (h : Header) (width height : Nat) : R Unit :=
  if h.width ≠ width ∨ h.height ≠ height then errR .dimensionMismatch else .ok ()

/-- `check_header_color` (src/codecs/pnm/encoder.rs:359-445) -/
def checkHeaderColor (h : Header) (color : ExtendedColorType) : R Unit :=
  let components := color.channelCount
  match h with
  | .bitmap .. => match color with
    | .L1 | .L8 | .L16 => .ok ()
    | _ => errR .parameter
  | .graymap .. => match color with
    | .L1 | .L8 | .L16 => .ok ()
    | _ => errR .parameter
  | .pixmap .. => match color with
    | .Rgb8 => .ok ()
    | _ => errR .parameter
  | .arbitrary _ _ depth _ tupltype =>
    match tupltype, color with
    | some .blackAndWhite, .L1 => .ok ()
    | some .blackAndWhiteAlpha, .La8 => .ok ()
    | some .grayscale, .L1 => .ok ()
    | some .grayscale, .L8 => .ok ()
    | some .grayscale, .L16 => .ok ()
    | some .grayscaleAlpha, .La8 => .ok ()
    | some .rgb, .Rgb8 => .ok ()
    | some .rgbAlpha, .Rgba8 => .ok ()
    | none, _ => if depth = components then .ok () else errR .parameter
    | some (.custom _), _ => if depth = components then .ok () else errR .parameter
    | _, _ => errR .parameter

/-- The `max_sample` of `check_sample_values` (src/codecs/pnm/encoder.rs:458-481) -/
def maxSample : ExtendedColorType → R Nat
  | .Unknown n => if n ≤ 16 then .ok (2 ^ n - 1) else errR .unsupported
  | .L1 => .ok 1
  | .L8 | .La8 | .Rgb8 | .Rgba8 | .Bgr8 | .Bgra8 => .ok 0xff
  | .L16 | .La16 | .Rgb16 | .Rgba16 => .ok 0xffff
  | _ => errR .unsupported

/-- `check_sample_values` (src/codecs/pnm/encoder.rs:449-509), without the choice of the encoding -/
def checkSampleValues (h : Header) (image : Samples) (width height : Nat) (color : ExtendedColorType) : R Unit := do
  let headerMaxval := h.maximalSample
  let maxSample ← maxSample color
  if headerMaxval < maxSample && !image.allSmaller headerMaxval then errR .unsupported
  else checkBuffer image width height color

/-- One byte of `write_pbm_bits` (src/codecs/pnm/encoder.rs:551-559): black (zero) samples become ones. -/
def pbmByte {V : Type} [DecidableEq V] [OfNat V 0] (bits : List V) : UInt8 :=
  (List.range 8).foldl (fun byte i =>
    match bits[i]? with
    | some v => if v = 0 then byte ||| (1 <<< UInt8.ofNat (7 - i)) else byte
    | none => byte) 0

/-- `write_pbm_bits` (src/codecs/pnm/encoder.rs:538-567): the bytes written. `width - 1` underflows for width 0. -/
def writePbmBits {V : Type} [DecidableEq V] [OfNat V 0] (samples : List V) (width : Nat) : R (List UInt8) := do
  let _lineWidth ← subC width 1
  .ok ((chunksOf width samples).flatMap fun line => (chunksOf 8 line).map pbmByte)

/-- The pieces that `write!(w, "{value} ")` hands to the writer (src/codecs/pnm/encoder.rs:533): the digits, then the
literal space. -/
def asciiChunks (values : List Nat) : List (List UInt8) := values.flatMap fun v => [dec v, [32]]

/-- `write_samples_ascii` (src/codecs/pnm/encoder.rs:526-536): the bytes written. -/
def writeSamplesAscii (values : List Nat) : List UInt8 := (autoBreakRun 70 ⟨[], []⟩ (asciiChunks values)).2.out

/-- The values of the samples. -/
def Samples.values : Samples → List Nat
  | u8 s => s.map UInt8.toNat
  | u16 s => s.map UInt16.toNat

/-- `TupleEncoding::write_image` for `Bytes` (src/codecs/pnm/encoder.rs:652-661) -/
def Samples.bytes : Samples → List UInt8
  | u8 s => s
  | u16 s => s.flatMap fun v => beBytes 2 v.toNat

/-- `encoding_for` and `write_image` (src/codecs/pnm/encoder.rs:585-621, 637-674): the bytes of the raster. -/
def writeRaster (h : Header) (image : Samples) : R (List UInt8) :=
  match h with
  | .bitmap .binary _ width => match image with
    | .u8 s => writePbmBits s width
    | .u16 s => writePbmBits s width
  | .bitmap .ascii _ _ => .ok (writeSamplesAscii image.values)
  | .arbitrary .. => .ok image.bytes
  | .graymap .ascii .. | .pixmap .ascii .. => .ok (writeSamplesAscii image.values)
  | .graymap .binary .. | .pixmap .binary .. => .ok image.bytes

/-- `write_with_header` (src/codecs/pnm/encoder.rs:266-282): the file. -/
def writeWithHeader (h : Header) (image : Samples) (width height : Nat) (color : ExtendedColorType) : R (List UInt8) := do
  checkHeaderDimensions h width height
  checkHeaderColor h color
  checkSampleValues h image width height color
  let raster ← writeRaster h image
  .ok (h.bytes ++ raster)

/-- The table of `write_dynamic_header` (src/codecs/pnm/encoder.rs:175-193) -/
def dynamicTuple : ExtendedColorType → R (Nat × TuplType)
  | .L1 => .ok (1, .blackAndWhite)
  | .L8 => .ok (0xff, .grayscale)
  | .L16 => .ok (0xffff, .grayscale)
  | .La1 => .ok (1, .blackAndWhiteAlpha)
  | .La8 => .ok (0xff, .grayscaleAlpha)
  | .La16 => .ok (0xffff, .grayscaleAlpha)
  | .Rgb8 => .ok (0xff, .rgb)
  | .Rgb16 => .ok (0xffff, .rgb)
  | .Rgba8 => .ok (0xff, .rgbAlpha)
  | .Rgba16 => .ok (0xffff, .rgbAlpha)
  | _ => errR .unsupported

/-- `write_dynamic_header` (src/codecs/pnm/encoder.rs:167-208) -/
def writeDynamicHeader (image : Samples) (width height : Nat) (color : ExtendedColorType) : R (List UInt8) := do
  let (maxval, tupltype) ← dynamicTuple color
  writeWithHeader (.arbitrary height width color.channelCount maxval (some tupltype)) image width height color

/-- `write_subtyped_header` (src/codecs/pnm/encoder.rs:211-261) -/
def writeSubtypedHeader (subtype : Subtype) (image : Samples) (width height : Nat) (color : ExtendedColorType) :
    R (List UInt8) :=
  match subtype, color with
  | .arbitraryMap, color => writeDynamicHeader image width height color
  | .pixmap e, .Rgb8 => writeWithHeader (.pixmap e height width 255) image width height color
  | .graymap e, .L8 => writeWithHeader (.graymap e height width 255) image width height color
  | .bitmap e, .L8 => writeWithHeader (.bitmap e height width) image width height color
  | .bitmap e, .L1 => writeWithHeader (.bitmap e height width) image width height color
  | _, _ => errR .parameter

/-- `encode` (src/codecs/pnm/encoder.rs:142-162) -/
def encode (strategy : Strategy) (image : Samples) (width height : Nat) (color : ExtendedColorType) : R (List UInt8) :=
  match strategy with
  | .dynamic => writeDynamicHeader image width height color
  | .subtype s => writeSubtypedHeader s image width height color
  | .chosen h => writeWithHeader h image width height color

/-- `ImageEncoder::write_image` (src/codecs/pnm/encoder.rs:287-303) -/
def writeImage (strategy : Strategy) (buf : List UInt8) (width height : Nat) (color : ExtendedColorType) :
    R (List UInt8) := do
  let expected ← color.bufferSize width height
  assertR (expected == buf.length)
  encode strategy (.u8 buf) width height color

end Pnm
end Verif
