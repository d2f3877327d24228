import Verif.Model.Dynamic
import Verif.Model.FloatOps
import Verif.Model.Limits
import Verif.Model.Delay
import Verif.Model.GenericOps

/-!
# APNG: composition of frames (src/codecs/png.rs)

The `png` crate (chunks, filters, zlib) is not modelled. A `png::Reader` is the header and the list of what `next_frame` will deliver: the frame control
that `info()` shows afterwards and the contents of the buffer, or an error. Bytes are natural numbers below 256, as in `DynamicImage`.
-/

namespace Verif
namespace Apng
open GenericImageView GenericImage

/-- `png::DisposeOp`. -/
inductive DisposeOp
  | none
  | background
  | previous
  deriving DecidableEq, Repr

/-- `png::BlendOp`. -/
inductive BlendOp
  | source
  | over
  deriving DecidableEq, Repr

/-- `png::FrameControl`; `u32` sizes and offsets, `u16` delays. -/
structure FrameControl where
  width : Nat
  height : Nat
  xOffset : Nat
  yOffset : Nat
  delayNum : Nat
  delayDen : Nat
  dispose : DisposeOp
  blend : BlendOp
  deriving DecidableEq, Repr

/-- What a call of `next_frame` does: an error, or the frame control of the frame and the contents of the whole buffer afterwards. -/
abbrev Event := Except Err (Option FrameControl × List Nat)

/-- `png::Reader` as far as it is used: `info()` with the size, the number of frames in `acTL`, and the current frame control; the frames to come. -/
structure Reader where
  width : Nat
  height : Nat
  numFrames : Option Nat
  frameControl : Option FrameControl
  outputBufferSize : Nat
  events : List Event

/-- `next_frame`: past the last frame the crate reports an error. -/
def Reader.nextFrame (r : Reader) : Except Err (List Nat) × Reader :=
  match r.events with
  | [] => (.error .parameter, r)
  | .error e :: rest => (.error e, { r with events := rest })
  | .ok (fc, data) :: rest => (.ok data, { r with events := rest, frameControl := fc })

/-- `ApngDecoder` (src/codecs/png.rs:224-239) with the fields of its `PngDecoder` (29-33). -/
structure Decoder where
  colorType : ColorType
  reader : Reader
  limits : Limits
  current : Option (ImageBuffer Nat 4)
  previous : Option (ImageBuffer Nat 4)
  dispose : DisposeOp
  disposeRegion : Option (Nat × Nat × Nat × Nat)
  remaining : Nat
  hasThumbnail : Bool

/-- `ApngDecoder::new` (src/codecs/png.rs:242-261). -/
def Decoder.new (colorType : ColorType) (reader : Reader) (limits : Limits) : Decoder :=
  ⟨colorType, reader, limits, none, none, .background, none, reader.numFrames.getD 0, reader.frameControl.isNone⟩

/-- Handles a returned error, and keeps a panic. -/
def attempt {α β : Type} (x : R α) (onErr : Err → R β) (onOk : α → R β) : R β :=
  match x with
  | .ok a => onOk a
  | .error (.err e) => onErr e
  | .error .panic => panicR

/-- `Rgba::from([0, 0, 0, 0])`. -/
def clear : Pix Nat 4 := px4 0 0 0 0

/-- The pixels of the region, made transparent through the sub-image (src/codecs/png.rs:324-332). -/
def clearRegion (current : ImageBuffer Nat 4) (px py width height : Nat) : R (ImageBuffer Nat 4) := do
  let region ← view current px py width height
  let pixels ← ImageBuffer.drain (PixelsIter.next region) (width * height + 1) (pixelsIter region)
  let region ← forList pixels (fun (x, y, _) (region : SubImage (ImageBuffer Nat 4)) => putPixel region x y clear) region
  .ok region.image

/-- All pixels made transparent (src/codecs/png.rs:334-337). -/
def clearAll (current : ImageBuffer Nat 4) : R (ImageBuffer Nat 4) := do
  let ps ← current.pixels
  .ok (current.setPixels (ps.map fun _ => clear))

/-- The disposal of the frame before (src/codecs/png.rs:318-349): the new `previous` and `current`. -/
def disposeFrame (dispose : DisposeOp) (region : Option (Nat × Nat × Nat × Nat)) (previous current : ImageBuffer Nat 4) :
    R (ImageBuffer Nat 4 × ImageBuffer Nat 4) :=
  match dispose with
  | .none => .ok (current, current)
  | .background =>
    match region with
    | some (px, py, width, height) => do
      let c ← clearRegion current px py width height
      .ok (current, c)
    | none => do
      let c ← clearAll current
      .ok (current, c)
  | .previous => do
    let (px, py, width, height) ← unwrapR region
    let regionPrevious ← view previous px py width height
    let image ← regionPrevious.toImage 0
    -- `unwrap` of the result
    match copyFrom current image px py with
    | .ok c => .ok (previous, c)
    | .error _ => panicR

/-- The raw frame as an RGBA image (src/codecs/png.rs:392-411). -/
def toRgba (colorType : ColorType) (width height : Nat) (buffer : List Nat) : R (ImageBuffer Nat 4) :=
  match colorType with
  | .L8 => do
    let image ← unwrapR (ImageBuffer.fromRaw 1 width height buffer)
    (DynamicImage.luma8 image).intoRgba8 fun _ _ => panicR
  | .La8 => do
    let image ← unwrapR (ImageBuffer.fromRaw 2 width height buffer)
    (DynamicImage.lumaA8 image).intoRgba8 fun _ _ => panicR
  | .Rgb8 => do
    let image ← unwrapR (ImageBuffer.fromRaw 3 width height buffer)
    (DynamicImage.rgb8 image).intoRgba8 fun _ _ => panicR
  | .Rgba8 => unwrapR (ImageBuffer.fromRaw 4 width height buffer)
  | _ => panicR

/-- The frame blended into the output buffer (src/codecs/png.rs:415-427). -/
def blendFrame (blend : BlendOp) (current source : ImageBuffer Nat 4) (px py : Nat) : R (ImageBuffer Nat 4) :=
  match blend with
  | .source =>
    -- `expect` of the result
    match copyFrom current source px py with
    | .ok c => .ok c
    | .error _ => panicR
  | .over => do
    let it ← source.enumeratePixels
    let items ← ImageBuffer.drain ImageBuffer.EnumeratePixels.next (it.pixels.length + 1) it
    forList items (fun (x, y, p) (current : ImageBuffer Nat 4) => do
      let x' ← addC 32 x px
      let y' ← addC 32 y py
      let bottom ← current.getPixel x' y'
      let out ← blendPixel .u8 .rgba bottom p
      current.putPixel x' y' out) current

/-- `animatable_color_type` (src/codecs/png.rs:436-445). -/
def animatable (colorType : ColorType) : R Unit :=
  match colorType with
  | .L8 | .Rgb8 | .La8 | .Rgba8 => .ok ()
  | .L16 | .Rgb16 | .La16 | .Rgba16 => errR .unsupported
  | _ => panicR

/-- The part of `mix_next_frame` that allocates the buffers (src/codecs/png.rs:270-283): the result, and the decoder afterwards. -/
def allocate (s : Decoder) : R (Except Err (ImageBuffer Nat 4 × ImageBuffer Nat 4) × Decoder) :=
  let prev : R (Except Err (ImageBuffer Nat 4) × Decoder) := match s.previous with
    | some p => .ok (.ok p, s)
    | none => attempt (s.limits.reserveBuffer s.reader.width s.reader.height .Rgba8) (fun e => .ok (.error e, s)) fun l => do
      let p ← ImageBuffer.new 4 0 s.reader.width s.reader.height
      .ok (.ok p, { s with limits := l, previous := some p })
  do
    match ← prev with
    | (.error e, s) => .ok (.error e, s)
    | (.ok p, s) =>
      match s.current with
      | some c => .ok (.ok (p, c), s)
      | none => attempt (s.limits.reserveBuffer s.reader.width s.reader.height .Rgba8) (fun e => .ok (.error e, s)) fun l => do
        let c ← ImageBuffer.new 4 0 s.reader.width s.reader.height
        .ok (.ok (p, c), { s with limits := l, current := some c })

/-- The thumbnail is skipped (src/codecs/png.rs:295-308). -/
def skipThumbnail (s : Decoder) : R (Except Err Unit × Decoder) :=
  if s.hasThumbnail then
    attempt (s.limits.reserveUsize s.reader.outputBufferSize) (fun e => .ok (.error e, s)) fun _ =>
      match s.reader.nextFrame with
      | (.error e, r) => .ok (.error e, { s with reader := r })
      | (.ok _, r) => .ok (.ok (), { s with reader := r, hasThumbnail := false })
  else .ok (.ok (), s)

/-- Reading and blending of a frame, after the disposal (src/codecs/png.rs:351-427); `remaining` is the number that is stored at the end (430). -/
def readFrame (s : Decoder) (remaining : Nat) (previous current : ImageBuffer Nat 4) : R (Except Err (Option (ImageBuffer Nat 4)) × Decoder) :=
  let s := { s with previous := some previous, current := some current }
  attempt (s.limits.reserveUsize s.reader.outputBufferSize) (fun e => .ok (.error e, s)) fun limits =>
    match s.reader.nextFrame with
    | (.error e, r) => .ok (.error e, { s with reader := r })
    | (.ok buffer, r) =>
      let s := { s with reader := r }
      let (width, height, px, py, blend, dispose) := match r.frameControl with
        | none => (r.width, r.height, 0, 0, BlendOp.source, s.dispose)
        | some fc => (fc.width, fc.height, fc.xOffset, fc.yOffset, fc.blend, fc.dispose)
      let s := { s with dispose := dispose, disposeRegion := some (px, py, width, height) }
      attempt (limits.reserveBuffer width height .Rgba8) (fun e => .ok (.error e, s)) fun _ => do
        let source ← toRgba s.colorType width height buffer
        let current ← blendFrame blend current source px py
        .ok (.ok (some current), { s with current := some current, remaining := remaining })

/-- `mix_next_frame` (src/codecs/png.rs:266-434): the result and the decoder afterwards, or a panic. -/
def Decoder.mixNextFrame (s : Decoder) : R (Except Err (Option (ImageBuffer Nat 4)) × Decoder) := do
  match ← allocate s with
  | (.error e, s) => .ok (.error e, s)
  | (.ok (previous, current), s) =>
    match s.remaining with
    | 0 => .ok (.ok none, s)
    | remaining + 1 =>
      match ← skipThumbnail { s with remaining := 0 } with
      | (.error e, s) => .ok (.error e, s)
      | (.ok (), s) =>
        attempt (animatable s.colorType) (fun e => .ok (.error e, s)) fun _ => do
          let (previous, current) ← disposeFrame s.dispose s.disposeRegion previous current
          readFrame s remaining previous current

/-- A frame of the animation (`animation::Frame::from_parts`). -/
structure Frame where
  buffer : ImageBuffer Nat 4
  left : Nat
  top : Nat
  delay : Delay

/-- `FrameIterator::next` (src/codecs/png.rs:455-473). -/
def Decoder.next (s : Decoder) : R (Option (Except Err Frame) × Decoder) := do
  match ← s.mixNextFrame with
  | (.error e, s) => .ok (some (.error e), s)
  | (.ok none, s) => .ok (none, s)
  | (.ok (some image), s) => do
    let fc ← unwrapR s.reader.frameControl
    let num ← mulC 32 fc.delayNum 1000
    let denom := if fc.delayDen = 0 then 100 else fc.delayDen
    let delay ← Delay.fromNumerDenomMs num denom
    .ok (some (.ok ⟨image, 0, 0, delay⟩), s)

/-- `n` calls of `next`: the items. -/
def Decoder.take : Nat → Decoder → R (List (Option (Except Err Frame)))
  | 0, _ => .ok []
  | n + 1, s => do
    let (o, s) ← s.next
    .ok (o :: (← Decoder.take n s))

end Apng
end Verif
