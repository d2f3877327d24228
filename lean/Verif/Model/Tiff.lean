import Verif.Base.Float
import Verif.Model.Limits
import Verif.Model.Metadata
import Verif.Model.DecoderToImage

/-!
# TIFF (src/codecs/tiff.rs)

The `tiff` crate is a parameter: what it says of the file, and the samples it decodes. Samples are bit
patterns: they are only moved (but for CMYK).
-/

namespace Verif.Tiff
open Verif

/-- `tiff::TiffError`. -/
inductive TiffErr where
  | io | format | intSize | usage | unsupported | limits
  deriving DecidableEq

/-- `from_tiff_decode` (src/codecs/tiff.rs:129-147). -/
def TiffErr.decode : TiffErr → Err
  | .io => .io
  | .format | .intSize | .usage => .decoding
  | .unsupported => .unsupported
  | .limits => .limitsMemory

/-- `from_tiff_encode` (src/codecs/tiff.rs:149-167). -/
def TiffErr.encode : TiffErr → Err
  | .io => .io
  | .format | .intSize | .usage => .encoding
  | .unsupported => .unsupported
  | .limits => .limitsMemory

/-- `.map_err(from_tiff_…)?`. -/
def mapErr {α : Type} (f : TiffErr → Err) : Except TiffErr α → R α
  | .ok a => .ok a
  | .error e => errR (f e)

/-- `tiff::ColorType`: the bits per sample. -/
inductive TiffColor where
  | gray (n : Nat) | palette (n : Nat) | grayA (n : Nat) | rgb (n : Nat) | rgba (n : Nat) | cmyk (n : Nat)
  | ycbcr (n : Nat)
  deriving DecidableEq

/-- `tiff::decoder::DecodingResult`: `size_of` the samples (1, 2, 4 or 8), whether it is the `U8` variant,
and the samples as bit patterns. -/
structure Samples where
  size : Nat
  isU8 : Bool
  values : List Nat
  deriving DecidableEq

/-- `tiff::decoder::Limits`. -/
structure TiffLimits where
  decodingBuffer : Nat
  ifdValue : Nat
  intermediate : Nat
  deriving DecidableEq, Repr

/-- What the crate says about a file: what is used of `tiff::decoder::Decoder`. The tag `Orientation` is the
result of `find_tag`, with `into_u16().ok()` of the value. -/
structure Crate where
  dimensions : Except TiffErr (Nat × Nat)
  colortype : Except TiffErr TiffColor
  sampleFormat : Except TiffErr (Option (List Nat))
  orientation : Except TiffErr (Option (Option Nat))
  readImage : Option TiffLimits → Except TiffErr Samples

/-- `check_sample_format` (src/codecs/tiff.rs:104-119); `tiff::tags::SampleFormat`: 1 Uint, 2 Int, 3 IEEEFP,
4 Void. -/
def checkSampleFormat (f : Nat) : R Unit :=
  if f = 1 then .ok ()
  else if f = 2 ∨ f = 3 ∨ f = 4 then errR .unsupported
  else errR .decoding

/-- The match in `new` (src/codecs/tiff.rs:56-76). -/
def colorTypeOf : TiffColor → R ColorType
  | .gray 8 => .ok .L8
  | .gray 16 => .ok .L16
  | .grayA 8 => .ok .La8
  | .grayA 16 => .ok .La16
  | .rgb 8 => .ok .Rgb8
  | .rgb 16 => .ok .Rgb16
  | .rgba 8 => .ok .Rgba8
  | .rgba 16 => .ok .Rgba16
  | .cmyk 8 => .ok .Rgb8
  | _ => errR .unsupported

/-- `struct TiffDecoder` (src/codecs/tiff.rs:24-34): `cmyk` for `original_color_type == Cmyk8` (otherwise it
is the colour type), and the limits the crate was given, if any. -/
structure Decoder where
  crate : Crate
  width : Nat
  height : Nat
  colorType : ColorType
  cmyk : Bool
  limits : Option TiffLimits

/-- `new` (src/codecs/tiff.rs:41-89); `crate` is the result of `tiff::decoder::Decoder::new`. -/
def new (crate : Except TiffErr Crate) : R Decoder := do
  let c ← mapErr TiffErr.decode crate
  let (w, h) ← mapErr TiffErr.decode c.dimensions
  let tc ← mapErr TiffErr.decode c.colortype
  match ← mapErr TiffErr.decode c.sampleFormat with
  | some formats => forList formats (fun f _ => checkSampleFormat f) ()
  | none => .ok ()
  let color ← colorTypeOf tc
  .ok ⟨c, w, h, color, decide (tc = .cmyk 8), none⟩

/-- `original_color_type` (src/codecs/tiff.rs:78-81, 199-201). -/
def Decoder.originalColorType (d : Decoder) : ExtendedColorType :=
  if d.cmyk then .Cmyk8 else d.colorType.toExtended

/-- `total_bytes_buffer` (src/codecs/tiff.rs:92-101). -/
def Decoder.totalBytesBuffer (d : Decoder) : Nat :=
  satMul 64 (d.width * d.height) (if d.cmyk then 16 else d.colorType.bytesPerPixel)

/-- `orientation` (src/codecs/tiff.rs:211-221). -/
def Decoder.orientation (d : Decoder) : R Orientation := do
  let v ← mapErr TiffErr.decode d.crate.orientation
  .ok ((v.bind fun v => v.bind fun n => Orientation.fromExif (min n 255)).getD .NoTransforms)

/-- `set_limits` (src/codecs/tiff.rs:223-241). `usize::try_from(u64)` cannot fail on a 64-bit target;
`check_support` of the default `LimitSupport` is `Ok`. -/
def Decoder.setLimits (d : Decoder) (l : Limits) : R Decoder := do
  l.checkDimensions d.width d.height
  let maxAlloc := l.maxAlloc.getD (2 ^ 64 - 1)
  let intermediate := maxAlloc - d.totalBytesBuffer
  let decoding ← subC maxAlloc intermediate
  .ok { d with limits := some ⟨decoding, intermediate, intermediate⟩ }

/-- `cmyk_to_rgb` (src/codecs/tiff.rs:303-313) on the values of a slice of 4 bytes. -/
def cmykToRgb (cmyk : List Nat) : R (List UInt8) := do
  let c := Fl.ofNat f32 (← unwrapR cmyk[0]?)
  let m := Fl.ofNat f32 (← unwrapR cmyk[1]?)
  let y := Fl.ofNat f32 (← unwrapR cmyk[2]?)
  let kf := Fl.sub f32 (.fin 1) (Fl.div f32 (Fl.ofNat f32 (← unwrapR cmyk[3]?)) (.fin 255))
  let out := fun v => UInt8.ofNat (Fl.toUSat 8 (Fl.mul f32 (Fl.sub f32 (.fin 255) v) kf))
  .ok [out c, out m, out y]

/-- `Cursor<&mut [u8]>::write_all`: what is written before the buffer is full stays, then `WriteZero`. -/
def writeAll (s : List UInt8 × Nat) (bytes : List UInt8) : R (List UInt8 × Nat) :=
  if s.2 + bytes.length ≤ s.1.length then .ok (overwrite s.1 s.2 bytes, s.2 + bytes.length)
  else errR .io

/-- `read_image` (src/codecs/tiff.rs:243-291) on `buf`; `copy_from_slice` panics when the lengths differ. -/
def Decoder.readImage (le : Bool) (d : Decoder) (buf : List UInt8) : R (List UInt8) := do
  assertR (decide (buf.length = totalBytes d.width d.height d.colorType.bytesPerPixel))
  let v ← mapErr TiffErr.decode (d.crate.readImage d.limits)
  if v.isU8 && d.cmyk then do
    let s ← forList (chunksExact 4 v.values) (fun cmyk s => do writeAll s (← cmykToRgb cmyk)) (buf, 0)
    .ok s.1
  else do
    let bytes := bytesOf le v.size v.values
    assertR (decide (buf.length = bytes.length))
    .ok bytes

/-- The colour types of the crate's encoder that are used (`tiff::encoder::colortype`). -/
inductive Kind where
  | gray8 | rgb8 | rgba8 | gray16 | rgb16 | rgba16
  deriving DecidableEq

/-- What `encode` hands to the crate's `write_image::<C>(width, height, data)`. -/
structure Written where
  kind : Kind
  width : Nat
  height : Nat
  samples : List Nat
  deriving DecidableEq

/-- `u8_slice_as_u16` (src/codecs/tiff.rs:316-327): `aligned` says whether the address of the slice is even;
`bytemuck::try_cast_slice` of an empty or non-empty slice checks the alignment first, then the length. -/
def u8SliceAsU16 (le aligned : Bool) (buf : List UInt8) : R (List Nat) :=
  if aligned ∧ buf.length % 2 = 0 then .ok (samplesOf le 2 buf) else errR .parameter

/-- `encode` (src/codecs/tiff.rs:343-397) and `write_image` (402-412): the crate's writer is `write`. -/
def encode (le aligned : Bool) (create : Except TiffErr Unit) (write : Written → Except TiffErr Unit)
    (buf : List UInt8) (width height : Nat) (color : ExtendedColorType) : R Unit := do
  let expected ← color.bufferSize width height
  assertR (decide (expected = buf.length))
  mapErr TiffErr.encode create
  match color with
  | .L8 => mapErr TiffErr.encode (write ⟨.gray8, width, height, buf.map (·.toNat)⟩)
  | .Rgb8 => mapErr TiffErr.encode (write ⟨.rgb8, width, height, buf.map (·.toNat)⟩)
  | .Rgba8 => mapErr TiffErr.encode (write ⟨.rgba8, width, height, buf.map (·.toNat)⟩)
  | .L16 => do mapErr TiffErr.encode (write ⟨.gray16, width, height, ← u8SliceAsU16 le aligned buf⟩)
  | .Rgb16 => do mapErr TiffErr.encode (write ⟨.rgb16, width, height, ← u8SliceAsU16 le aligned buf⟩)
  | .Rgba16 => do mapErr TiffErr.encode (write ⟨.rgba16, width, height, ← u8SliceAsU16 le aligned buf⟩)
  | _ => errR .unsupported

end Verif.Tiff
