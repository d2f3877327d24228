import Verif.Base.Rust
import Verif.Base.Bytes

/-!
# JPEG entropy coding (src/codecs/jpeg/entropy.rs, the `BitWriter` of src/codecs/jpeg/encoder.rs)

The underlying writer is ideal: `write_all` appends and does not fail. Plain arithmetic panics on overflow.
-/

namespace Verif
namespace Jpeg

/-! ## Huffman tables -/

/-- The assignment `a[i] = v` on a fixed-size array; an index out of bounds panics. -/
def setR {α : Type} (a : List α) (i : Nat) (v : α) : R (List α) := if i < a.length then .ok (a.set i v) else panicR

/-- The read `a[i]`. -/
def getR {α : Type} (a : List α) (i : Nat) : R α := unwrapR a[i]?

/-- The inner loop `while j < bits[i]` of `derive_codes_and_sizes` (src/codecs/jpeg/entropy.rs:16-20). -/
def sizesInner (i : Nat) : Nat → List Nat × Nat → R (List Nat × Nat)
  | 0, s => .ok s
  | n + 1, (huffsize, k) => do
    let huffsize ← setR huffsize k (i + 1)
    sizesInner i n (huffsize, k + 1)

/-- The first part of `derive_codes_and_sizes` (src/codecs/jpeg/entropy.rs:4-24): code lengths in order, ended by 0. -/
def deriveSizes (bits : List Nat) : R (List Nat) := do
  let (huffsize, k) ← forRange 16 (fun i s => do
    let n ← getR bits i
    sizesInner i n s) (List.replicate 256 0, 0)
  setR huffsize k 0

/-- The loop `while huffsize[k] != 0` of `derive_codes_and_sizes` (src/codecs/jpeg/entropy.rs:33-47), with the code and the
size as `u16` and `u8`. The fuel is the number of iterations that the size of the arrays allows. -/
def codesLoop (huffsize : List Nat) : Nat → List Nat × Nat × Nat × Nat → R (List Nat)
  | 0, _ => panicR
  | fuel + 1, (huffcode, k, code, size) => do
    let hk ← getR huffsize k
    if hk = 0 then .ok huffcode
    else
      let huffcode ← setR huffcode k code
      let code ← addC 16 code 1
      let k := k + 1
      let hk ← getR huffsize k
      if hk = size then codesLoop huffsize fuel (huffcode, k, code, size)
      else
        let diff := (hk + 256 - size) % 256
        let code := if diff < 16 then code * 2 ^ diff % 2 ^ 16 else 0
        codesLoop huffsize fuel (huffcode, k, code, (size + diff) % 256)

/-- `derive_codes_and_sizes` (src/codecs/jpeg/entropy.rs:4-50). -/
def deriveCodesAndSizes (bits : List Nat) : R (List Nat × List Nat) := do
  let huffsize ← deriveSizes bits
  let size ← getR huffsize 0
  let huffcode ← codesLoop huffsize 257 (List.replicate 256 0, 0, 0, size)
  .ok (huffsize, huffcode)

/-- `build_huff_lut_const` (src/codecs/jpeg/entropy.rs:52-63). -/
def buildHuffLut (bits : List Nat) (huffval : List Nat) : R (List (Nat × Nat)) := do
  let (huffsize, huffcode) ← deriveCodesAndSizes bits
  forRange huffval.length (fun i lut => do
    let v ← getR huffval i
    let s ← getR huffsize i
    let c ← getR huffcode i
    setR lut v (s, c)) (List.replicate 256 (17, 0))

/-! ## Bits -/

/-- `BitWriter` (src/codecs/jpeg/encoder.rs:178-182); `w` holds the bytes written so far. -/
structure BitWriter where
  w : List UInt8
  accumulator : Nat
  nbits : Nat
  deriving DecidableEq

namespace BitWriter

/-- `BitWriter::new` (src/codecs/jpeg/encoder.rs:185-191). -/
def new : BitWriter := ⟨[], 0, 0⟩

/-- The loop `while self.nbits >= 8` of `write_bits` (src/codecs/jpeg/encoder.rs:201-211). -/
def flush (s : BitWriter) : BitWriter :=
  if 8 ≤ s.nbits then
    let byte := s.accumulator >>> 24
    let w := s.w ++ [UInt8.ofNat byte]
    let w := if byte = 0xFF then w ++ [0x00] else w
    flush ⟨w, (s.accumulator <<< 8) % 2 ^ 32, s.nbits - 8⟩
  else s
termination_by s.nbits
decreasing_by omega

/-- `write_bits` (src/codecs/jpeg/encoder.rs:193-214). -/
def writeBits (s : BitWriter) (bits size : Nat) : R BitWriter :=
  if size = 0 then .ok s
  else do
    let nbits ← addC 8 s.nbits size
    let sh ← subC 32 nbits
    .ok (flush ⟨s.w, s.accumulator ||| (bits <<< sh) % 2 ^ 32, nbits⟩)

/-- `pad_byte` (src/codecs/jpeg/encoder.rs:216-218). -/
def padByte (s : BitWriter) : R BitWriter := s.writeBits 0x7F 7

/-- `huffman_encode` (src/codecs/jpeg/encoder.rs:220-226). -/
def huffmanEncode (s : BitWriter) (val : Nat) (table : List (Nat × Nat)) : R BitWriter := do
  let (size, code) ← getR table val
  assertR (size ≤ 16)
  s.writeBits code size

end BitWriter

/-! ## Coefficients -/

/-- The result of a plain operation on `i32`. -/
def i32 (v : Int) : R Int := if -2 ^ 31 ≤ v ∧ v < 2 ^ 31 then .ok v else panicR

/-- The loop that counts the bits of the magnitude in `encode_coefficient` (src/codecs/jpeg/encoder.rs:806-809). -/
def numBits (magnitude : Nat) : Nat := if magnitude = 0 then 0 else numBits (magnitude / 2) + 1
termination_by magnitude
decreasing_by omega

/-- `encode_coefficient` (src/codecs/jpeg/encoder.rs:802-820). The mask is a `u16`. -/
def encodeCoefficient (coefficient : Int) : R (Nat × Nat) := do
  let magnitude := coefficient.natAbs % 2 ^ 16
  let n := numBits magnitude
  assertR (n < 16)
  let mask := 2 ^ n - 1
  if coefficient < 0 then do
    let c ← i32 (coefficient - 1)
    .ok (n, (c % 2 ^ 16).toNat &&& mask)
  else .ok (n, (coefficient % 2 ^ 16).toNat &&& mask)

/-- `UNZIGZAG` (src/codecs/jpeg/encoder.rs:142-151). -/
def UNZIGZAG : List Nat := [
     0,  1,  8, 16,  9,  2,  3, 10,
    17, 24, 32, 25, 18, 11,  4,  5,
    12, 19, 26, 33, 40, 48, 41, 34,
    27, 20, 13,  6,  7, 14, 21, 28,
    35, 42, 49, 56, 57, 50, 43, 36,
    29, 22, 15, 23, 30, 37, 44, 51,
    58, 59, 52, 45, 38, 31, 39, 46,
    53, 60, 61, 54, 47, 55, 62, 63]

namespace BitWriter

/-- The loop `while zero_run > 15` of `write_block` (src/codecs/jpeg/encoder.rs:250-253). -/
def zeroRuns (actable : List (Nat × Nat)) (s : BitWriter) (zeroRun : Nat) : R (BitWriter × Nat) :=
  if 15 < zeroRun then do
    let s ← s.huffmanEncode 0xF0 actable
    zeroRuns actable s (zeroRun - 16)
  else .ok (s, zeroRun)
termination_by zeroRun
decreasing_by omega

/-- One iteration of the loop over the AC coefficients of `write_block` (src/codecs/jpeg/encoder.rs:246-263). The counter
of zeros is a `u8`; `(zero_run << 4) | size` discards what does not fit a `u8`. -/
def writeAc (actable : List (Nat × Nat)) (block : List Int) (k : Nat) (st : BitWriter × Nat) : R (BitWriter × Nat) := do
  let (s, zeroRun) := st
  let c ← getR block k
  if c = 0 then do
    let z ← addC 8 zeroRun 1
    .ok (s, z)
  else do
    let (s, zeroRun) ← zeroRuns actable s zeroRun
    let (size, value) ← encodeCoefficient c
    let symbol := (zeroRun <<< 4) % 2 ^ 8 ||| size
    let s ← s.huffmanEncode symbol actable
    let s ← s.writeBits value size
    .ok (s, 0)

/-- `write_block` (src/codecs/jpeg/encoder.rs:228-270). -/
def writeBlock (s : BitWriter) (block : List Int) (prevdc : Int) (dctable actable : List (Nat × Nat)) :
    R (BitWriter × Int) := do
  let dcval ← getR block 0
  let diff ← i32 (dcval - prevdc)
  let (size, value) ← encodeCoefficient diff
  let s ← s.huffmanEncode size dctable
  let s ← s.writeBits value size
  let (s, _) ← forList (UNZIGZAG.drop 1) (writeAc actable block) (s, 0)
  let k ← getR UNZIGZAG 63
  let last ← getR block k
  let s ← if last = 0 then s.huffmanEncode 0x00 actable else .ok s
  .ok (s, dcval)

/-- `write_marker` (src/codecs/jpeg/encoder.rs:272-274). -/
def writeMarker (s : BitWriter) (marker : UInt8) : BitWriter := { s with w := s.w ++ [0xFF, marker] }

/-- `write_segment` (src/codecs/jpeg/encoder.rs:276-280). The length is truncated to `u16` before 2 is added. -/
def writeSegment (s : BitWriter) (marker : UInt8) (data : List UInt8) : R BitWriter := do
  let len ← addC 16 (data.length % 2 ^ 16) 2
  .ok { s with w := s.w ++ [0xFF, marker] ++ beBytes 2 len ++ data }

end BitWriter
end Jpeg
end Verif
