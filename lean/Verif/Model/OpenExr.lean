import Verif.Model.Color
import Verif.Model.DecoderToImage

/-!
# OpenEXR (src/codecs/openexr.rs)

The `exr` crate is a parameter: the headers it found, and - for reading - the sequence of calls of the
pixel-storing closure (in any order, blocks are decompressed in parallel) or an error. `f32` samples are their
32-bit patterns: they are only moved.
-/

namespace Verif.Exr
open Verif

/-- What is used of `exr::meta::header::Header`: `shared_attributes.display_window`,
`own_attributes.layer_position`, `layer_size`, `deep`, and the channel names. -/
structure Header where
  dispX : Int
  dispY : Int
  dispW : Nat
  dispH : Nat
  posX : Int
  posY : Int
  dataW : Nat
  dataH : Nat
  deep : Bool
  channels : List String

/-- The test in `with_alpha_preference` (src/codecs/openexr.rs:71-81). -/
def Header.usable (h : Header) : Bool :=
  !h.deep && ["R", "G", "B"].all fun required => h.channels.contains required

/-- `struct OpenExrDecoder` (src/codecs/openexr.rs:34-46); the selected header in place of its index. -/
structure Decoder where
  header : Header
  alphaPreference : Option Bool
  alphaPresent : Bool

/-- `with_alpha_preference` (src/codecs/openexr.rs:64-99) after `exr::block::read`; `new` (54-56) passes `none`. -/
def withAlphaPreference (headers : List Header) (pref : Option Bool) : R Decoder :=
  match headers.find? Header.usable with
  | none => errR .decoding
  | some h => .ok ⟨h, pref, h.channels.contains "A"⟩

/-- `dimensions` (src/codecs/openexr.rs:108-115): `as u32`. -/
def Decoder.dimensions (d : Decoder) : Nat × Nat := (d.header.dispW % 2 ^ 32, d.header.dispH % 2 ^ 32)

/-- `color_type` (src/codecs/openexr.rs:117-124). -/
def Decoder.colorType (d : Decoder) : ColorType :=
  if d.alphaPreference.getD d.alphaPresent then .Rgba32F else .Rgb32F

/-- `original_color_type` (src/codecs/openexr.rs:126-132). -/
def Decoder.originalColorType (d : Decoder) : ExtendedColorType :=
  if d.alphaPresent then .Rgba32F else .Rgb32F

/-- One call of the pixel-storing closure: position in the data window, and red, green, blue and
alpha (1.0 when the file has none). -/
structure Event where
  x : Nat
  y : Nat
  rgba : List Nat
  deriving DecidableEq

/-- `i32` subtraction of positions, checked. -/
def subI32 (a b : Int) : R Int :=
  if -(2 ^ 31) ≤ a - b ∧ a - b < 2 ^ 31 then .ok (a - b) else panicR

/-- `Vec2<usize>::to_i32` of the crate: `i32::try_from(..).expect(..)`. -/
def toI32 (v : Nat) : R Int := if v < 2 ^ 31 then .ok v else panicR

/-- The pixel-storing closure (src/codecs/openexr.rs:169-193). `flat_index_for_size` is
`y * width + x`; the sizes, cast to `i32` in the comparison, are below 2^31 in every header the crate
accepts. -/
def storePixel (h : Header) (offX offY : Int) (ch : Nat) (buffer : List Nat) (e : Event) : R (List Nat) := do
  let x ← addI32 (← toI32 e.x) offX
  let y ← addI32 (← toI32 e.y) offY
  if x ≥ 0 ∧ y ≥ 0 ∧ x < (h.dispW : Int) ∧ y < (h.dispH : Int) then do
    let i ← addC 64 (← mulC 64 y.toNat h.dispW) x.toNat
    let s ← mulC 64 i ch
    let e' ← mulC 64 (i + 1) ch
    if s ≤ e' ∧ e' ≤ buffer.length then do
      assertR (decide (ch ≤ e.rgba.length))
      .ok (overwrite buffer s (e.rgba.take ch))
    else panicR
  else .ok buffer

/-- `read_image` (src/codecs/openexr.rs:135-206) on a buffer of `len` bytes. -/
def readImage (le : Bool) (d : Decoder) (events : R (List Event)) (len : Nat) : R (List UInt8) := do
  let ch := d.colorType.channelCount
  let offX ← subI32 d.header.posX d.header.dispX
  let offY ← subI32 d.header.posY d.header.dispY
  let expected := (checkedMul 64 d.dimensions.1 d.dimensions.2).bind fun size =>
    checkedMul 64 size d.colorType.bytesPerPixel
  assertR (decide (expected = some len))
  let evs ← events
  let area ← mulC 64 d.header.dispW d.header.dispH
  let n ← mulC 64 area ch
  let pixels ← evs.foldlM (storePixel d.header offX offY ch) (List.replicate n 0)
  let bytes := bytesOf le 4 pixels
  assertR (decide (bytes.length = len))
  .ok bytes

/-- What `write_buffer` hands to the crate: size, whether there is an alpha channel, and the samples of
every pixel. -/
structure Written where
  width : Nat
  height : Nat
  alpha : Bool
  pixel : Nat → Nat → R (List Nat)

/-- The pixel-reading closures of `write_buffer` (src/codecs/openexr.rs:235-245, 256-266):
`bytemuck::pod_read_unaligned` of a slice. -/
def loadPixel (le : Bool) (bytes : List UInt8) (width bpp : Nat) (x y : Nat) : R (List Nat) := do
  let i ← addC 64 (← mulC 64 y width) x
  let s ← mulC 64 i bpp
  let e ← addC 64 s bpp
  .ok (samplesOf le 4 (← sliceR bytes s e))

/-- `write_image` (src/codecs/openexr.rs:307-323) and `write_buffer` (219-283). -/
def writeImage (le : Bool) (buf : List UInt8) (width height : Nat) (color : ExtendedColorType) : R Written := do
  let expected ← color.bufferSize width height
  assertR (decide (expected = buf.length))
  let bpp := color.bitsPerPixel / 8
  match color with
  | .Rgb32F => .ok ⟨width, height, false, loadPixel le buf width bpp⟩
  | .Rgba32F => .ok ⟨width, height, true, loadPixel le buf width bpp⟩
  | _ => errR .encoding

end Verif.Exr
