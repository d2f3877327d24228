import Verif.Model.Buffer

/-!
# Scanline buffering and rectangle reads (src/image.rs)
-/

namespace Verif

/-! ## `ImageReadBuffer` -/

/-- `struct ImageReadBuffer` (src/image.rs:401-408). -/
structure ReadBuffer where
  scanlineBytes : Nat
  buffer : List UInt8
  consumed : Nat
  totalBytes : Nat
  offset : Nat

/-- `ImageReadBuffer::new` (src/image.rs:417-425); `usize::try_from` cannot fail on 64-bit targets. -/
def ReadBuffer.new (scanlineBytes totalBytes : Nat) : ReadBuffer := ⟨scanlineBytes, [], 0, totalBytes, 0⟩

/-- `ImageReadBuffer::read` (src/image.rs:429-469). `n` is `buf.len()`; the result is the bytes stored at the start of
`buf` (their number is the returned count). `readScanline d n` is the closure called with a buffer of `n` bytes: it
yields the bytes it stored at the start of that buffer (their number is the count it returned) and the new state of
the source. -/
def ReadBuffer.read {D : Type} (rb : ReadBuffer) (n : Nat) (d : D) (readScanline : D → Nat → R (List UInt8 × D)) :
    R (List UInt8 × ReadBuffer × D) := do
  /- copying to the output (src/image.rs:458-468) -/
  let finish (rb : ReadBuffer) (d : D) : R (List UInt8 × ReadBuffer × D) := do
    let buffered ← subC rb.buffer.length rb.consumed
    if buffered > n then
      return ((rb.buffer.drop rb.consumed).take n, { rb with consumed := rb.consumed + n }, d)
    else
      return ((rb.buffer.drop rb.consumed).take buffered, { rb with consumed := rb.buffer.length }, d)
  if rb.buffer.length = rb.consumed then
    if rb.offset = rb.totalBytes then return ([], rb, d)
    else if n ≥ rb.scanlineBytes then
      let (bytes, d) ← readScanline d rb.scanlineBytes
      let off ← addC 64 rb.offset bytes.length
      return (bytes, { rb with offset := off }, d)
    else
      let buffer := if rb.buffer.isEmpty then List.replicate rb.scanlineBytes 0 else rb.buffer
      let (bytes, d) ← readScanline d buffer.length
      let off ← addC 64 rb.offset bytes.length
      assertR (bytes.length == rb.scanlineBytes || off == rb.totalBytes)
      finish { rb with buffer := bytes, consumed := 0, offset := off } d
  else finish rb d

/-! ## `load_rect` -/

/-- The captured variables of the closure `read_image_range` (src/image.rs:515-517) and the decoder. -/
structure RectSt (D : Type) where
  dec : D
  cur : Nat
  tmp : List UInt8
  tmpLine : Option Nat

/-- `output.write_all(bytes).unwrap()` on a `&mut [u8]` of `cap` bytes of which `out` have been written. -/
def writeAll (cap : Nat) (out bytes : List UInt8) : R (List UInt8) :=
  if out.length + bytes.length ≤ cap then .ok (out ++ bytes) else panicR

/-- `tmp[offset..][..len]` -/
def sliceLen (l : List UInt8) (offset len : Nat) : R (List UInt8) :=
  if offset + len ≤ l.length then .ok ((l.drop offset).take len) else panicR

/-- One scanline of the loop `while position < end` of `read_image_range` (src/image.rs:552-568). `out` are the bytes
written to `output` so far, `cap` its length. -/
def rectStep {D : Type} (readScanline : D → Nat → R (List UInt8 × D)) (sb start end_ cap position : Nat)
    (st : RectSt D) (out : List UInt8) : R (RectSt D × List UInt8) :=
  if position ≥ start ∧ end_ - position ≥ sb then do
    assertR (out.length + sb ≤ cap)
    let (bytes, d) ← readScanline st.dec sb
    .ok ({ st with dec := d }, out ++ bytes)
  else do
    let (bytes, d) ← readScanline st.dec sb
    let offset := satSub start position
    let e ← subC end_ start
    let s ← subC sb offset
    let p ← subC end_ position
    let len := min (min e s) p
    let out ← writeAll cap out (← sliceLen bytes offset len)
    .ok ({ st with dec := d, tmp := bytes, tmpLine := some st.cur }, out)

/-- The loop `while position < end` of `read_image_range` (src/image.rs:551-572). Running out of fuel is a panic
(shown not to happen). -/
def rectLoop {D : Type} (readScanline : D → Nat → R (List UInt8 × D)) (sb start end_ cap : Nat) :
    Nat → Nat → RectSt D → List UInt8 → R (RectSt D × List UInt8)
  | 0, position, st, out => if position < end_ then panicR else .ok (st, out)
  | fuel + 1, position, st, out =>
    if position < end_ then do
      let (st, out) ← rectStep readScanline sb start end_ cap position st out
      let cur ← addC 64 st.cur 1
      let position ← addC 64 position sb
      rectLoop readScanline sb start end_ cap fuel position { st with cur := cur } out
    else .ok (st, out)

/-- Seeking to a scanline unless it is the current one (src/image.rs:545-548). -/
def rectSeek {D : Type} (seek : D → Nat → R D) (target : Nat) (st : RectSt D) : R (RectSt D) :=
  if target ≠ st.cur then do
    let d ← seek st.dec target
    .ok { st with dec := d, cur := target }
  else .ok st

/-- The second half of the closure `read_image_range` (src/image.rs:544-574), from the second computation of
`target_scanline` on. -/
def readRangeFrom {D : Type} (seek : D → Nat → R D) (readScanline : D → Nat → R (List UInt8 × D))
    (sb start end_ cap : Nat) (st : RectSt D) (out : List UInt8) : R (RectSt D × List UInt8) := do
  let st ← rectSeek seek (start / sb) st
  let position ← mulC 64 st.cur sb
  rectLoop readScanline sb start end_ cap (end_ - position) position st out

/-- The closure `read_image_range` (src/image.rs:522-574). `cap` is the length of `output`; the result contains the
bytes written to its start. -/
def readImageRange {D : Type} (seek : D → Nat → R D) (readScanline : D → Nat → R (List UInt8 × D))
    (sb start end_ cap : Nat) (st : RectSt D) : R (RectSt D × List UInt8) := do
  assertR (sb != 0)
  let target := start / sb
  if st.tmpLine = some target then do
    let position ← mulC 64 target sb
    let offset := satSub start position
    let e ← subC end_ start
    let s ← subC sb offset
    let p ← subC end_ position
    let len := min (min e s) p
    let out ← writeAll cap [] (← sliceLen st.tmp offset len)
    let start ← addC 64 start len
    if start = end_ then .ok (st, out)
    else readRangeFrom seek readScanline sb start end_ cap st out
  else readRangeFrom seek readScanline sb start end_ cap st []

/-- The reading part of `load_rect` (src/image.rs:591-601): all rows at once when the output has the layout of the
image, otherwise row by row into the chunks of `buf`. -/
def loadRows {D : Type} (width0 bpp rowBytes : Nat) (x y width height : Nat) (buf : List UInt8) (rowPitch : Nat)
    (sb : Nat) (seek : D → Nat → R D) (readScanline : D → Nat → R (List UInt8 × D)) (st : RectSt D) :
    R (List UInt8 × RectSt D) :=
  if x = 0 ∧ width = width0 ∧ rowPitch = rowBytes then do
    let start ← addC 64 (x * bpp) (← mulC 64 y rowBytes)
    let end_ ← addC 64 ((x + width) * bpp) (← mulC 64 (y + height - 1) rowBytes)
    let (st, out) ← readImageRange seek readScanline sb start end_ buf.length st
    .ok (overwrite buf 0 out, st)
  else do
    assertR (rowPitch != 0)
    let chunks := (buf.length + rowPitch - 1) / rowPitch
    forRange (min height chunks) (fun i (buf, st) => do
      let r ← mulC 64 (y + i) rowBytes
      let start ← addC 64 (x * bpp) r
      let end_ ← addC 64 ((x + width) * bpp) r
      let cap := min rowPitch (buf.length - i * rowPitch)
      let (st, out) ← readImageRange seek readScanline sb start end_ cap st
      .ok (overwrite buf (i * rowPitch) out, st)) (buf, st)

/-- `load_rect` (src/image.rs:476-606). `width0`, `height0` are `decoder.dimensions()`, `bpp` is
`decoder.color_type().bytes_per_pixel()`. Result: the contents of `buf` and the decoder. The test
`scanline_bytes > usize::MAX` is always false on 64-bit targets and is left out. -/
def loadRect {D : Type} (width0 height0 bpp : Nat) (x y width height : Nat) (buf : List UInt8) (rowPitch : Nat)
    (dec : D) (sb : Nat) (seek : D → Nat → R D) (readScanline : D → Nat → R (List UInt8 × D)) :
    R (List UInt8 × D) := do
  let rowBytes ← mulC 64 bpp width0
  let wh ← mulC 64 width height
  let total ← mulC 64 wh bpp
  assertR (total ≤ buf.length)
  if x + width > width0 ∨ y + height > height0 ∨ width = 0 ∨ height = 0 then errR .dimensionMismatch
  else do
    let (buf, st) ← loadRows width0 bpp rowBytes x y width height buf rowPitch sb seek readScanline ⟨dec, 0, [], none⟩
    let d ← seek st.dec 0
    .ok (buf, d)

/-- `ImageDecoder::total_bytes` (src/image.rs:673-678). -/
def totalBytes (width height bpp : Nat) : Nat := satMul 64 (width * height) bpp

/-- `decoder_to_vec::<T>` (src/image.rs:612-626) with `size_of::<T>() = sz`: the buffer handed to `read_image` has
`total/sz` elements, that is `total/sz*sz` bytes. -/
def decoderToVec (total sz : Nat) (readImage : Nat → R (List UInt8)) : R (List UInt8) :=
  if total > 2 ^ 63 - 1 then errR .limitsMemory
  else do
    assertR (sz != 0)
    readImage (total / sz * sz)

end Verif
