import Verif.Model.DecoderToImage
import Verif.Model.Limits

/-!
# PNG: colours, sample order and limits (src/codecs/png.rs)

The `png` crate (chunks, filters, zlib) is a parameter: a function from a picture to a file and one from a file to a reader. `F` is the type of files.
-/

namespace Verif
namespace Png

/-- `png::ColorType`. -/
inductive Colour
  | grayscale
  | rgb
  | indexed
  | grayscaleAlpha
  | rgba
  deriving DecidableEq, Repr

/-- `png::BitDepth`. -/
inductive BitDepth
  | one
  | two
  | four
  | eight
  | sixteen
  deriving DecidableEq, Repr

/-- What is handed to the crate's encoder: `png::Info`, colour, depth, and the samples in the order of the file. -/
structure Picture where
  width : Nat
  height : Nat
  colour : Colour
  depth : BitDepth
  icc : Option (List UInt8)
  data : List UInt8
  deriving DecidableEq

/-- `png::Reader` with the transformation `EXPAND`: `info()`, `output_color_type()`, and `next_frame` of a buffer of a given length. -/
structure Reader where
  width : Nat
  height : Nat
  colour : Colour
  depth : BitDepth
  icc : Option (List UInt8)
  nextFrame : Nat → R (List UInt8)

/-- `CompressionType` (src/codecs/png.rs:492-500). -/
inductive Compression
  | default
  | fast
  | best
  deriving DecidableEq, Repr

/-- `FilterType` (src/codecs/png.rs:508-524). -/
inductive Filter
  | noFilter
  | sub
  | up
  | avg
  | paeth
  | adaptive
  deriving DecidableEq, Repr

/-- The crate. `header` is `read_header_info`, `readInfo` is `read_info`; both get the memory limit. -/
structure Crate (F : Type) where
  encode : Compression → Filter → Picture → R F
  header : Nat → F → R (Nat × Nat)
  readInfo : Nat → F → R Reader

/-- `PngEncoder` (src/codecs/png.rs:481-486) without the writer. -/
structure Encoder where
  compression : Compression
  filter : Filter
  icc : List UInt8

/-- `PngEncoder::new` (src/codecs/png.rs:534-541). -/
def Encoder.new : Encoder := ⟨.fast, .adaptive, []⟩

/-- `set_icc_profile` (src/codecs/png.rs:684-687). -/
def Encoder.setIcc (e : Encoder) (icc : List UInt8) : Encoder := { e with icc := icc }

/-- The colour in the file (src/codecs/png.rs:575-592). -/
def fileColour : ExtendedColorType → R (Colour × BitDepth)
  | .L8 => .ok (.grayscale, .eight)
  | .L16 => .ok (.grayscale, .sixteen)
  | .La8 => .ok (.grayscaleAlpha, .eight)
  | .La16 => .ok (.grayscaleAlpha, .sixteen)
  | .Rgb8 => .ok (.rgb, .eight)
  | .Rgb16 => .ok (.rgb, .sixteen)
  | .Rgba8 => .ok (.rgba, .eight)
  | .Rgba16 => .ok (.rgba, .sixteen)
  | _ => errR .unsupported

/-- `encode_inner` (src/codecs/png.rs:568-630). The options are handed on; the mapping of their names is the identity here. -/
def Encoder.encodeInner {F : Type} (k : Crate F) (e : Encoder) (data : List UInt8) (width height : Nat) (color : ExtendedColorType) : R F := do
  let (ct, bits) ← fileColour color
  let icc := if e.icc.isEmpty then none else some e.icc
  k.encode e.compression e.filter ⟨width, height, ct, bits, icc, data⟩

/-- The temporary buffer in big endian (src/codecs/png.rs:671-674); `le`: on a little-endian machine. -/
def toBigEndian (le : Bool) (buf : List UInt8) : List UInt8 := bytesOf false 2 (samplesOf le 2 buf) ++ List.replicate (buf.length % 2) 0

/-- `write_image` (src/codecs/png.rs:640-682). -/
def Encoder.writeImage {F : Type} (k : Crate F) (le : Bool) (e : Encoder) (buf : List UInt8) (width height : Nat) (color : ExtendedColorType) : R F := do
  let expected ← color.bufferSize width height
  assertR (decide (expected = buf.length))
  match color with
  | .L8 | .La8 | .Rgb8 | .Rgba8 => e.encodeInner k buf width height color
  | .L16 | .La16 | .Rgb16 | .Rgba16 => e.encodeInner k (toBigEndian le buf) width height color
  | _ => errR .encoding

/-- `PngDecoder` (src/codecs/png.rs:29-33). -/
structure Decoder where
  colorType : ColorType
  reader : Reader
  limits : Limits

/-- The colour of the decoded image (src/codecs/png.rs:59-110). -/
def imageColour : Colour × BitDepth → R ColorType
  | (.grayscale, .eight) => .ok .L8
  | (.grayscale, .sixteen) => .ok .L16
  | (.grayscaleAlpha, .eight) => .ok .La8
  | (.grayscaleAlpha, .sixteen) => .ok .La16
  | (.rgb, .eight) => .ok .Rgb8
  | (.rgb, .sixteen) => .ok .Rgb16
  | (.rgba, .eight) => .ok .Rgba8
  | (.rgba, .sixteen) => .ok .Rgba16
  | _ => errR .unsupported

/-- `with_limits` (src/codecs/png.rs:42-117); `check_support` accepts everything. -/
def Decoder.withLimits {F : Type} (k : Crate F) (file : F) (limits : Limits) : R Decoder := do
  let maxBytes := limits.maxAlloc.getD (2 ^ 64 - 1)
  let (w, h) ← k.header maxBytes file
  limits.checkDimensions w h
  let reader ← k.readInfo maxBytes file
  let c ← imageColour (reader.colour, reader.depth)
  .ok ⟨c, reader, limits⟩

/-- `new` (src/codecs/png.rs:37-39). -/
def Decoder.new {F : Type} (k : Crate F) (file : F) : R Decoder := Decoder.withLimits k file .noLimits

/-- `dimensions` (src/codecs/png.rs:168-170). -/
def Decoder.dimensions (d : Decoder) : Nat × Nat := (d.reader.width, d.reader.height)

/-- `icc_profile` (src/codecs/png.rs:176-178). -/
def Decoder.iccProfile (d : Decoder) : Option (List UInt8) := d.reader.icc

/-- The samples in the order of the machine (src/codecs/png.rs:193-196), in place: a last odd byte stays. -/
def fromBigEndian (le : Bool) (buf : List UInt8) : List UInt8 := bytesOf le 2 (samplesOf false 2 buf) ++ buf.drop (buf.length / 2 * 2)

/-- `read_image` (src/codecs/png.rs:180-200) of a buffer of `n` bytes. -/
def Decoder.readImage (le : Bool) (d : Decoder) (n : Nat) : R (List UInt8) := do
  assertR (decide (n = totalBytes d.reader.width d.reader.height d.colorType.bytesPerPixel))
  let buf ← d.reader.nextFrame n
  match d.colorType.bytesPerPixel / d.colorType.channelCount with
  | 1 => .ok buf
  | 2 => .ok (fromBigEndian le buf)
  | _ => panicR

/-- `set_limits` (src/codecs/png.rs:206-214). -/
def Decoder.setLimits (d : Decoder) (limits : Limits) : R Decoder := do
  limits.checkDimensions d.reader.width d.reader.height
  .ok { d with limits := limits }

end Png
end Verif
