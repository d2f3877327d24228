import Verif.Model.Buffer

/-!
# Expansion of packed samples (src/utils/mod.rs, src/buffer.rs)
-/

namespace Verif

/-- The iterator `i` of `expand_packed` (src/utils/mod.rs:18-23): pairs (shift, index of the byte), bytes from the
last to the first, shifts ascending, without the first `extra` pairs. -/
def packedPositions (entries bitDepth extra : Nat) : List (Nat × Nat) :=
  (((List.range entries).reverse.flatMap fun idx =>
    (List.range (8 / bitDepth)).map fun i => (i * bitDepth, idx))).drop extra

/-- The iterator `(channels..buf_len).step_by(channels)` (src/utils/mod.rs:25). -/
def stepBy (channels bufLen : Nat) : List Nat :=
  (List.range ((bufLen - channels + (channels - 1)) / channels)).map fun k => channels + k * channels

/-- `expand_packed` (src/utils/mod.rs:6-31). `func` gets the pixel value and returns the new contents of the
output slice (it may panic). Division by `channels` or `bit_depth` equal to 0 panics. -/
def expandPacked (buf : List UInt8) (channels bitDepth : Nat) (func : UInt8 → List UInt8 → R (List UInt8)) :
    R (List UInt8) := do
  assertR (channels != 0)
  assertR (bitDepth != 0)
  let pixels ← mulC 64 (buf.length / channels) bitDepth
  let extra := pixels % 8
  let entries := pixels / 8 + if extra = 0 then 0 else 1
  let mask : UInt8 := UInt8.ofNat (2 ^ bitDepth - 1)
  let bufLen := buf.length
  forList ((packedPositions entries bitDepth extra).zip (stepBy channels bufLen)) (fun ((shift, i), jInv) buf => do
    let j ← subC bufLen jInv
    let v ← unwrapR buf[i]?
    let pixel := (v &&& (mask <<< UInt8.ofNat shift)) >>> UInt8.ofNat shift
    let slice ← sliceR buf j (j + channels)
    let out ← func pixel slice
    .ok (overwrite buf j out)) buf

/-- The closure of `expand_palette` (src/buffer.rs:1358-1373). -/
def paletteColor (palette : List (UInt8 × UInt8 × UInt8)) (transparentIdx : Option UInt8) (idx : UInt8)
    (_pixel : List UInt8) : R (List UInt8) := do
  let (r, g, b) ← unwrapR palette[idx.toNat]?
  let a : UInt8 := match transparentIdx with
    | some t => if t = idx then 0 else 255
    | none => 255
  .ok [r, g, b, a]

/-- `GrayImage::expand_palette` (src/buffer.rs:1348-1375). -/
def expandPalette (img : ImageBuffer UInt8 1) (palette : List (UInt8 × UInt8 × UInt8))
    (transparentIdx : Option UInt8) : R (ImageBuffer UInt8 4) := do
  let entries := img.data.length
  let n ← unwrapR (checkedMul 64 entries 4)
  let data := img.data ++ List.replicate (n - entries) 0
  let buffer ← unwrapR (ImageBuffer.fromRaw 4 img.width img.height data)
  let d ← expandPacked buffer.data 4 8 (paletteColor palette transparentIdx)
  .ok { buffer with data := d }

/-- The inner loop body of `expand_bits` (src/utils/mod.rs:55-59) for one group of bits; state: output and `i`. -/
def expandBitsStep (bitDepth rowSize rowLen : Nat) (v : UInt8) (shiftInv : Nat) (st : List UInt8 × Nat) :
    R (List UInt8 × Nat) := do
  let mask : UInt8 := (1 <<< UInt8.ofNat bitDepth) - 1
  let scalingFactor : UInt8 := UInt8.ofNat (255 / (2 ^ bitDepth - 1))
  let shift ← subC 8 (bitDepth * shiftInv)
  assertR (rowLen != 0)
  if st.2 % rowLen < rowSize then
    let pixel := (v &&& (mask <<< UInt8.ofNat shift)) >>> UInt8.ofNat shift
    let m ← mulC 8 pixel.toNat scalingFactor.toNat
    return (st.1 ++ [UInt8.ofNat m], st.2 + 1)
  else return (st.1, st.2 + 1)

/-- `expand_bits` (src/utils/mod.rs:37-63). -/
def expandBits (bitDepth rowSize : Nat) (buf : List UInt8) : R (List UInt8) := do
  let bitWidth ← mulC 32 rowSize bitDepth
  let skip := if bitWidth % 8 = 0 then 0 else (8 - bitWidth % 8) / bitDepth
  let rowLen ← addC 32 rowSize skip
  let st ← forList buf (fun v st =>
    forRange (8 / bitDepth) (fun k st => expandBitsStep bitDepth rowSize rowLen v (k + 1) st) st) ([], 0)
  .ok st.1

/-- `check_dimension_overflow` (src/utils/mod.rs:68-70). -/
def checkDimensionOverflow (width height bytesPerPixel : Nat) : R Bool := do
  assertR (bytesPerPixel != 0)
  let a ← mulC 64 width height
  .ok (decide (a > (2 ^ 64 - 1) / bytesPerPixel))

end Verif
