import Verif.Model.Color
import Verif.Base.Cursor
import Verif.Model.Utils
import Verif.Model.LoadRect

/-!
# farbfeld (src/codecs/farbfeld.rs)

`le` tells whether the target is little-endian (`to_ne_bytes`, `from_ne_bytes`). The inner reader is a `Cursor`.
-/

namespace Verif
namespace Farbfeld

/-- `b"farbfeld"` (src/codecs/farbfeld.rs:53) -/
def magic : List UInt8 := [0x66, 0x61, 0x72, 0x62, 0x66, 0x65, 0x6c, 0x64]

/-- `struct FarbfeldReader` (src/codecs/farbfeld.rs:29-36). -/
structure Reader where
  width : Nat
  height : Nat
  inner : Cursor
  offset : Nat
  cached : Option UInt8

/-- `read_exact(..).map_err(ImageError::Decoding)` (src/codecs/farbfeld.rs:42-44, 49-52). -/
def readExactDec (c : Cursor) (n : Nat) : R (List UInt8 × Cursor) :=
  match c.readExact n with
  | .ok r => .ok r
  | .error .panic => .error .panic
  | .error (.err _) => errR .decoding

/-- `read_dimm` (src/codecs/farbfeld.rs:40-46). -/
def readDimm (c : Cursor) : R (Nat × Cursor) := do
  let (b, c) ← readExactDec c 4
  .ok (beNat b, c)

/-- `FarbfeldReader::new` (src/codecs/farbfeld.rs:39-85). -/
def Reader.new (c : Cursor) : R Reader := do
  let (m, c) ← readExactDec c 8
  if m ≠ magic then errR .decoding
  else do
    let (width, c) ← readDimm c
    let (height, c) ← readDimm c
    if ← checkDimensionOverflow width height 8 then errR .unsupported
    else .ok ⟨width, height, c, 0, none⟩

/-- `consume_channel` (src/codecs/farbfeld.rs:169-175): the two bytes in native order. -/
def consumeChannel (le : Bool) (c : Cursor) : R (List UInt8 × Cursor) := do
  let (b, c) ← c.readExact 2
  .ok (if le then b.reverse else b, c)

/-- `cache_byte` (src/codecs/farbfeld.rs:177-182): first byte and cached second byte. -/
def cacheByte (le : Bool) (c : Cursor) : R (UInt8 × UInt8 × Cursor) := do
  let (b, c) ← consumeChannel le c
  let x ← unwrapR b[0]?
  let y ← unwrapR b[1]?
  .ok (x, y, c)

/-- The part of `Read::read` after the cached byte (src/codecs/farbfeld.rs:98-108) for the remaining `n` bytes of the
buffer; `out` are the bytes stored so far. -/
def Reader.readChannels (le : Bool) (r : Reader) (n : Nat) (out : List UInt8) : R (List UInt8 × Reader) :=
  if n = 1 then do
    let (x, y, c) ← cacheByte le r.inner
    .ok (out ++ [x], { r with inner := c, cached := some y, offset := r.offset + 1 })
  else forRange (n / 2) (fun _ (out, r) => do
    let (b, c) ← consumeChannel le r.inner
    .ok (out ++ b, { r with inner := c, offset := r.offset + 2 })) (out, r)

/-- `<FarbfeldReader as Read>::read` (src/codecs/farbfeld.rs:89-111) with a buffer of `n` bytes: the bytes stored. -/
def Reader.read (le : Bool) (r : Reader) (n : Nat) : R (List UInt8 × Reader) :=
  match r.cached with
  | some byte => do
    assertR (n != 0)
    Reader.readChannels le { r with cached := none, offset := r.offset + 1 } (n - 1) [byte]
  | none => Reader.readChannels le r n []

/-- `std::io::Read::read_exact` (default method) on the reader; the fuel `n` suffices because every successful read
of a non-empty buffer delivers at least a byte. -/
def Reader.readExactLoop (le : Bool) : Nat → Reader → Nat → List UInt8 → R (List UInt8 × Reader)
  | 0, r, n, out => if n = 0 then .ok (out, r) else panicR
  | fuel + 1, r, n, out =>
    if n = 0 then .ok (out, r)
    else do
      let (b, r) ← r.read le n
      if b.length = 0 then errR .io
      else readExactLoop le fuel r (n - b.length) (out ++ b)

/-- `read_exact` on the reader, see `readExactLoop`. -/
def Reader.readExact (le : Bool) (r : Reader) (n : Nat) : R (List UInt8 × Reader) := r.readExactLoop le n n []

/-- `SeekFrom` -/
inductive SeekFrom
  | start (off : Nat)
  | end_ (off : Int)
  | current (off : Int)

/-- `i64::try_from(u64)` -/
def i64? (n : Nat) : Option Int := if n < 2 ^ 63 then some (n : Int) else none

/-- `parse_offset` (src/codecs/farbfeld.rs:116-136); the results are `None` for an invalid seek. The plain `+` on
`i64` in the `End` case panics on overflow. -/
def parseOffset (original end_ : Nat) : SeekFrom → R (Option Int)
  | .start off =>
    .ok ((i64? off).bind fun a => (i64? original).bind fun b => some (a - b))
  | .end_ off =>
    if off < (i64? end_).getD (2 ^ 63 - 1) then .ok none
    else match (checkedSub end_ original).bind i64? with
      | none => .ok none
      | some d => if d + off < 2 ^ 63 then .ok (some (d + off)) else panicR
  | .current off =>
    if off < (i64? original).getD (2 ^ 63 - 1) then .ok none else .ok (some off)

/-- `<FarbfeldReader as Seek>::seek` (src/codecs/farbfeld.rs:115-166). -/
def Reader.seek (le : Bool) (r : Reader) (pos : SeekFrom) : R (Nat × Reader) := do
  let end_ ← mulC 64 (r.width * r.height) 2
  match ← parseOffset r.offset end_ pos with
  | none => errR .io
  | some d => do
    let (_, inner) ← r.inner.seekCurrent d
    let offset ← unwrapR (if d < 0 then checkedSub r.offset (-d).toNat else checkedAdd 64 r.offset d.toNat)
    if offset < end_ ∧ offset % 2 = 1 then do
      let (curr, inner) ← inner.seekCurrent (-1)
      let (_, y, inner) ← cacheByte le inner
      let (_, inner) ← inner.seekStart curr
      .ok (r.offset, { r with inner := inner, offset := offset, cached := some y })
    else .ok (r.offset, { r with inner := inner, offset := offset, cached := none })

/-- `FarbfeldDecoder::new` and `read_image` into a buffer of `total_bytes` (src/codecs/farbfeld.rs:191-195, 207-211), the
dimensions and the contents of the buffer. -/
def decode (le : Bool) (file : List UInt8) : R (Nat × Nat × List UInt8) := do
  let r ← Reader.new ⟨file, 0⟩
  let (d, _) ← r.readExact le (totalBytes r.width r.height 8)
  .ok (r.width, r.height, d)

/-- `read_rect` (src/codecs/farbfeld.rs:219-245). -/
def readRect (le : Bool) (r : Reader) (x y width height : Nat) (buf : List UInt8) (rowPitch : Nat) :
    R (List UInt8 × Reader) := do
  let (start, r) ← r.seek le (.current 0)
  let (buf, r) ← loadRect r.width r.height 8 x y width height buf rowPitch r 2
    (fun r scanline => do
      let p ← mulC 64 scanline 2
      let (_, r) ← r.seek le (.start p)
      .ok r)
    (fun r n => r.readExact le n)
  let (_, r) ← r.seek le (.start start)
  .ok (buf, r)

/-- `u16::from_ne_bytes(channel).to_be_bytes()` (src/codecs/farbfeld.rs:284-285) -/
def channelBE (le : Bool) (channel : List UInt8) : List UInt8 := if le then channel.reverse else channel

/-- `encode` and `encode_impl` (src/codecs/farbfeld.rs:265-289). -/
def encode (le : Bool) (data : List UInt8) (width height : Nat) : R (List UInt8) := do
  assertR (satMul 64 (width * height) 8 == data.length)
  .ok (magic ++ beBytes 4 width ++ beBytes 4 height ++ (chunksExact 2 data).flatMap (channelBE le))

/-- `write_image` (src/codecs/farbfeld.rs:294-311). -/
def writeImage (le : Bool) (buf : List UInt8) (width height : Nat) (color : ExtendedColorType) : R (List UInt8) :=
  if color ≠ .Rgba16 then errR .unsupported else encode le buf width height

end Farbfeld
end Verif
