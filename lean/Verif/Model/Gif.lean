import Verif.Model.Buffer
import Verif.Model.Limits
import Verif.Model.Delay
import Verif.Model.LoadRect

/-!
# GIF: frame composition and encoding (src/codecs/gif.rs)

The `gif` crate (container, LZW, palettes, quantisation) is not modelled. A `gif::Decoder` is the logical screen and the list of what its calls will
deliver: a frame with the RGBA data that `read_into_buffer` produces, or an error. A `gif::Encoder` is the list of frames written to it.
-/

namespace Verif
namespace Gif

/-- `gif::DisposalMethod`. -/
inductive Disposal
  | any
  | keep
  | background
  | previous
  deriving DecidableEq, Repr

/-- The fields of a `gif::Frame` that `next_frame_info` yields and `FrameInfo` keeps (src/codecs/gif.rs:403-410); all `u16` in the crate, `delay` in
units of 10 ms. -/
structure Info where
  left : Nat
  top : Nat
  width : Nat
  height : Nat
  dispose : Disposal
  delay : Nat
  deriving DecidableEq, Repr

/-- What the crate's decoder delivers for the next frame: `next_frame_info` fails, or it yields a frame for which `read_into_buffer` fails or fills
the buffer. -/
inductive Event
  | bad (e : Err)
  | frame (info : Info) (data : Except Err (List UInt8))

/-- `gif::Decoder`: `width()`, `height()` and the frames to come. -/
structure Reader where
  width : Nat
  height : Nat
  events : List Event

/-- `FrameInfo::new_from_frame` (src/codecs/gif.rs:413-423): the delay in milliseconds. -/
def delayOf (i : Info) : R Delay := do
  let ms ← mulC 32 i.delay 10
  Delay.fromNumerDenomMs ms 1

/-- `buffer_size()` of the crate's decoder for a frame with RGBA output; with `u16` sizes it cannot wrap on a 64-bit target. -/
def bufferSize (i : Info) : Nat := i.width * i.height * 4

/-- `u32::wrapping_sub`. -/
def wrappingSub32 (a b : Nat) : Nat := (a + 2 ^ 32 - b) % 2 ^ 32

/-- `for (x, y, pixel) in image.enumerate_pixels_mut() { … }` (src/buffer.rs:485-493) with a body that gets the position and the pixel, may change a
state, and yields the new pixel. -/
def enumerateMut {α σ : Type} {ch : Nat} (b : ImageBuffer α ch) (f : Nat → Nat → Pix α ch → σ → R (Pix α ch × σ)) (s : σ) : R (ImageBuffer α ch × σ) := do
  let it ← b.enumeratePixels
  let items ← ImageBuffer.drain ImageBuffer.EnumeratePixels.next (it.pixels.length + 1) it
  let (ps, s) ← forList items (fun (x, y, p) (st : List (Pix α ch) × σ) => do
    let (p, s) ← f x y p st.2
    .ok (st.1 ++ [p], s)) ([], s)
  .ok (b.setPixels ps, s)

/-- `Rgba([0, 0, 0, 0])`. -/
def clear : Pix UInt8 4 := fun _ => 0

/-- `blend_and_dispose_pixel` (src/codecs/gif.rs:326-354): the new previous and current pixels. -/
def blendAndDisposePixel (dispose : Disposal) (previous current : Pix UInt8 4) : Pix UInt8 4 × Pix UInt8 4 :=
  let current := if current 3 = 0 then previous else current
  match dispose with
  | .any | .keep => (current, current)
  | .background => (clear, current)
  | .previous => (previous, current)

/-- `GifDecoder` (src/codecs/gif.rs:52-68). -/
structure Decoder where
  reader : Reader
  limits : Limits

/-- `set_limits` (src/codecs/gif.rs:102-111); `check_support` accepts every set of limits. -/
def Decoder.setLimits (d : Decoder) (limits : Limits) : R Decoder := do
  limits.checkDimensions d.reader.width d.reader.height
  .ok { d with limits := limits }

/-- The loop that inserts a frame into the logical screen in `read_image` (src/codecs/gif.rs:203-213). -/
def insertFrame (i : Info) (frame image : ImageBuffer UInt8 4) : R (ImageBuffer UInt8 4) := do
  let (image, _) ← enumerateMut image (fun x y _ (_ : Unit) => do
    let fx := wrappingSub32 x i.left
    let fy := wrappingSub32 y i.top
    if fx < i.width ∧ fy < i.height then do
      let p ← frame.getPixel fx fy
      .ok (p, ())
    else .ok (clear, ())) ()
  .ok image

/-- `read_image` (src/codecs/gif.rs:113-217): the contents of the buffer afterwards. -/
def Decoder.readImage (d : Decoder) (buf : List UInt8) : R (List UInt8) := do
  let width := d.reader.width
  let height := d.reader.height
  assertR (decide (buf.length = totalBytes width height 4))
  match d.reader.events with
  | [] => errR .parameter
  | .bad e :: _ => errR e
  | .frame i data :: _ =>
    if i.left = 0 ∧ i.width = width ∧ i.top + i.height ≤ height then do
      let lineLength ← unwrapR (checkedMul 64 width 4)
      let top ← unwrapR (checkedMul 64 lineLength i.top)
      assertR (decide (top ≤ buf.length))
      let rest := buf.drop top
      let mid ← unwrapR (checkedMul 64 lineLength i.height)
      assertR (decide (mid ≤ rest.length))
      let bottom := rest.drop mid
      assertR (decide (mid = bufferSize i))
      match data with
      | .error e => errR e
      | .ok data => .ok (List.replicate top 0 ++ data ++ List.replicate bottom.length 0)
    else do
      let size := i.width * i.height * 4
      let _ ← d.limits.reserveUsize size
      match data with
      | .error e => errR e
      | .ok data =>
        match ImageBuffer.fromRaw 4 i.width i.height data, ImageBuffer.fromRaw 4 width height buf with
        | some frame, some image => do
          let image ← insertFrame i frame image
          .ok image.data
        | _, _ => errR .unsupported

/-- `GifFrameIterator` (src/codecs/gif.rs:224-249). -/
structure Iter where
  width : Nat
  height : Nat
  events : List Event
  nonDisposed : Option (ImageBuffer UInt8 4)
  limits : Limits

/-- `GifFrameIterator::new` (src/codecs/gif.rs:235-248), from `into_frames` (398-400). -/
def Iter.new (d : Decoder) : Iter := ⟨d.reader.width, d.reader.height, d.reader.events, none, d.limits⟩

/-- The frame that the iterator yields (`animation::Frame::from_parts`, src/codecs/gif.rs:388-393). -/
structure Frame where
  buffer : ImageBuffer UInt8 4
  left : Nat
  top : Nat
  delay : Delay

/-- The composition of a frame (src/codecs/gif.rs:359-386), without the check of the limits: the image and the new `non_disposed_frame`. -/
def compose (width height : Nat) (i : Info) (frame previous : ImageBuffer UInt8 4) : R (ImageBuffer UInt8 4 × ImageBuffer UInt8 4) :=
  if (i.left, i.top) = (0, 0) ∧ (width, height) = (frame.width, frame.height) then
    enumerateMut frame (fun x y pixel (previous : ImageBuffer UInt8 4) => do
      let old ← previous.getPixel x y
      let (old, pixel) := blendAndDisposePixel i.dispose old pixel
      let previous ← previous.putPixel x y old
      .ok (pixel, previous)) previous
  else do
    let image ← ImageBuffer.new 4 0 width height
    enumerateMut image (fun x y _ (previous : ImageBuffer UInt8 4) => do
      let fx := wrappingSub32 x i.left
      let fy := wrappingSub32 y i.top
      let old ← previous.getPixel x y
      if fx < frame.width ∧ fy < frame.height then do
        let pixel ← frame.getPixel fx fy
        let (old, pixel) := blendAndDisposePixel i.dispose old pixel
        let previous ← previous.putPixel x y old
        .ok (pixel, previous)
      else .ok (old, previous)) previous

/-- Turns a returned error into an item of the iterator, and keeps a panic. -/
def item {α : Type} (x : R α) (onErr : Err → R (Option (Except Err Frame) × Iter)) (onOk : α → R (Option (Except Err Frame) × Iter)) :
    R (Option (Except Err Frame) × Iter) :=
  match x with
  | .ok a => onOk a
  | .error (.err e) => onErr e
  | .error .panic => panicR

/-- `GifFrameIterator::next` (src/codecs/gif.rs:254-394): the item and the iterator afterwards. -/
def Iter.next (s : Iter) : R (Option (Except Err Frame) × Iter) :=
  -- src/codecs/gif.rs:261-275
  item (match s.nonDisposed with
    | some p => .ok (s.limits, p)
    | none => do
      let l ← s.limits.reserveBuffer s.width s.height .Rgba8
      let p ← ImageBuffer.fromPixel 0 s.width s.height clear
      .ok (l, p)) (fun e => .ok (some (.error e), s)) fun (limits, previous) =>
  let s := { s with limits := limits, nonDisposed := some previous }
  -- src/codecs/gif.rs:279-290
  match s.events with
  | [] => .ok (none, s)
  | .bad e :: rest => .ok (some (.error e), { s with events := rest })
  | .frame i data :: rest =>
    let s := { s with events := rest }
    -- src/codecs/gif.rs:295-305
    item (s.limits.reserveBuffer i.width i.height .Rgba8) (fun e => .ok (some (.error e), s)) fun localLimits =>
    match data with
    | .error e => .ok (some (.error e), s)
    | .ok data =>
      -- src/codecs/gif.rs:307-322
      match ImageBuffer.fromRaw 4 i.width i.height data with
      | none => .ok (some (.error .unsupported), s)
      | some frame =>
        -- src/codecs/gif.rs:368-371
        item (if (i.left, i.top) = (0, 0) ∧ (s.width, s.height) = (frame.width, frame.height) then .ok localLimits
            else localLimits.reserveBuffer s.width s.height .Rgba8) (fun e => .ok (some (.error e), s)) fun _ => do
          let (image, previous) ← compose s.width s.height i frame previous
          let delay ← delayOf i
          .ok (some (.ok ⟨image, 0, 0, delay⟩), { s with nonDisposed := some previous })

/-- `n` calls of `next`: the items. -/
def Iter.take : Nat → Iter → R (List (Option (Except Err Frame)))
  | 0, _ => .ok []
  | n + 1, s => do
    let (o, s) ← s.next
    .ok (o :: (← Iter.take n s))

/-! ## Encoder -/

/-- `Repeat` (src/codecs/gif.rs:428-433). -/
inductive Repeat
  | finite (n : Nat)
  | infinite
  deriving DecidableEq, Repr

/-- A `gif::Frame` as handed to `write_frame`; the pixels are those given to `Frame::from_rgba`. -/
structure OutFrame where
  width : Nat
  height : Nat
  dispose : Disposal
  delay : Nat
  pixels : List UInt8
  deriving DecidableEq, Repr

/-- What a `gif::Encoder` has written: the logical screen, the repetitions and the frames. -/
structure Out where
  width : Nat
  height : Nat
  repeats : List Repeat
  frames : List OutFrame
  deriving DecidableEq, Repr

/-- The outcomes of the crate's calls: `new`, `set_repeat` and `write_frame` fail or not, given what has been written so far. -/
structure Crate where
  new : Nat → Nat → Option Err
  setRepeat : Out → Repeat → Option Err
  write : Out → OutFrame → Option Err

/-- `GifEncoder` (src/codecs/gif.rs:445-450); `w` says whether the writer is still there. -/
structure Encoder where
  w : Bool
  gif : Option Out
  speed : Int
  rep : Option Repeat
  deriving DecidableEq, Repr

/-- `new_with_speed` (src/codecs/gif.rs:461-472). -/
def Encoder.newWithSpeed (speed : Int) : R Encoder := do
  assertR (decide (1 ≤ speed) && decide (speed ≤ 30))
  .ok ⟨true, none, speed, none⟩

/-- `set_repeat` (src/codecs/gif.rs:475-483): the result and the encoder afterwards. -/
def Encoder.setRepeat (c : Crate) (s : Encoder) (rep : Repeat) : Except Err Unit × Encoder :=
  match s.gif with
  | some out =>
    match c.setRepeat out rep with
    | some e => (.error e, s)
    | none => (.ok (), { s with gif := some { out with repeats := out.repeats ++ [rep] }, rep := some rep })
  | none => (.ok (), { s with rep := some rep })

/-- `gif_dimensions` (src/codecs/gif.rs:560-573). -/
def gifDimensions (width height : Nat) : Except Err (Nat × Nat) :=
  if width < 2 ^ 16 ∧ height < 2 ^ 16 then .ok (width, height) else .error .dimensionMismatch

/-- `encode_gif` (src/codecs/gif.rs:575-597): the result and the encoder afterwards, or a panic. -/
def Encoder.encodeGif (c : Crate) (s : Encoder) (frame : OutFrame) : R (Except Err Unit × Encoder) :=
  let write := fun (s : Encoder) (out : Out) =>
    let frame := { frame with dispose := .background }
    match c.write out frame with
    | some e => ((.error e : Except Err Unit), { s with gif := some out })
    | none => (.ok (), { s with gif := some { out with frames := out.frames ++ [frame] } })
  match s.gif with
  | some out => .ok (write s out)
  | none =>
    if s.w then
      let s := { s with w := false }
      match c.new frame.width frame.height with
      | some e => .ok (.error e, s)
      | none =>
        let out : Out := ⟨frame.width, frame.height, [], []⟩
        match s.rep with
        | none => .ok (write s out)
        | some rep =>
          match c.setRepeat out rep with
          | some e => .ok (.error e, s)
          | none => .ok (write s { out with repeats := [rep] })
    else panicR

/-- `convert_frame` (src/codecs/gif.rs:539-558): `into_ratio().to_integer()` is the quotient of the delay (src/animation.rs:200-202, 324-326), and
`Frame::from_rgba_speed` keeps the size; it panics unless the data has exactly `width*height*4` bytes. -/
def convertFrame (image : ImageBuffer UInt8 4) (delay : Delay) : R (Except Err OutFrame) := do
  assertR (delay.denom != 0)
  let ms := delay.numer / delay.denom
  match gifDimensions image.width image.height with
  | .error e => .ok (.error e)
  | .ok (w, h) => do
    assertR (decide (image.data.length = w * h * 4))
    .ok (.ok ⟨w, h, .keep, min (ms / 10) 65535, image.data⟩)

/-- `encode_frame` (src/codecs/gif.rs:509-512). -/
def Encoder.encodeFrame (c : Crate) (s : Encoder) (image : ImageBuffer UInt8 4) (delay : Delay) : R (Except Err Unit × Encoder) := do
  match ← convertFrame image delay with
  | .error e => .ok (.error e, s)
  | .ok f => s.encodeGif c f

/-- `encode_frames` (src/codecs/gif.rs:516-524). -/
def Encoder.encodeFrames (c : Crate) : Encoder → List (ImageBuffer UInt8 4 × Delay) → R (Except Err Unit × Encoder)
  | s, [] => .ok (.ok (), s)
  | s, (image, delay) :: rest => do
    match ← s.encodeFrame c image delay with
    | (.error e, s) => .ok (.error e, s)
    | (.ok (), s) => Encoder.encodeFrames c s rest

end Gif
end Verif
