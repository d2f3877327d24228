import Verif.Model.JpegEntropy
import Verif.Base.Float

/-!
# The forward cosine transform and the quantisation of the JPEG encoder (src/codecs/jpeg/transform.rs, encoder.rs)

Arithmetic on `i32` panics on overflow, except for `<<`, which discards bits.
-/

namespace Verif
namespace Jpeg

/-- The `i32` with the given value modulo 2^32: the result of `<<`. -/
def wrap32 (v : Int) : Int := (v + 2 ^ 31) % 2 ^ 32 - 2 ^ 31

/-- One row of the first pass of `fdct` (src/codecs/jpeg/transform.rs:74-133): the new coefficients of the row whose
samples are the arguments. -/
def fdctRow (a0 a1 a2 a3 a4 a5 a6 a7 : Int) : R (List Int) := do
  -- Even part
  let t0 ← i32 (a0 + a7)
  let t1 ← i32 (a1 + a6)
  let t2 ← i32 (a2 + a5)
  let t3 ← i32 (a3 + a4)
  let t10 ← i32 (t0 + t3)
  let t12 ← i32 (t0 - t3)
  let t11 ← i32 (t1 + t2)
  let t13 ← i32 (t1 - t2)
  let u0 ← i32 (a0 - a7)
  let u1 ← i32 (a1 - a6)
  let u2 ← i32 (a2 - a5)
  let u3 ← i32 (a3 - a4)
  let s ← i32 (t10 + t11)
  let s ← i32 (s - 8 * 128)
  let c0 := wrap32 (s * 4)
  let s ← i32 (t10 - t11)
  let c4 := wrap32 (s * 4)
  let s ← i32 (t12 + t13)
  let z1 ← i32 (s * 4433)
  let z1 ← i32 (z1 + 1024)
  let p ← i32 (t12 * 6270)
  let s ← i32 (z1 + p)
  let c2 := s / 2 ^ 11
  let p ← i32 (t13 * 15137)
  let s ← i32 (z1 - p)
  let c6 := s / 2 ^ 11
  -- Odd part
  let t12 ← i32 (u0 + u2)
  let t13 ← i32 (u1 + u3)
  let s ← i32 (t12 + t13)
  let z1 ← i32 (s * 9633)
  let z1 ← i32 (z1 + 1024)
  let t12 ← i32 (t12 * -3196)
  let t13 ← i32 (t13 * -16069)
  let t12 ← i32 (t12 + z1)
  let t13 ← i32 (t13 + z1)
  let s ← i32 (u0 + u3)
  let z1 ← i32 (s * -7373)
  let t0 ← i32 (u0 * 12299)
  let t3 ← i32 (u3 * 2446)
  let s ← i32 (z1 + t12)
  let t0 ← i32 (t0 + s)
  let s ← i32 (z1 + t13)
  let t3 ← i32 (t3 + s)
  let s ← i32 (u1 + u2)
  let z1 ← i32 (s * -20995)
  let t1 ← i32 (u1 * 25172)
  let t2 ← i32 (u2 * 16819)
  let s ← i32 (z1 + t13)
  let t1 ← i32 (t1 + s)
  let s ← i32 (z1 + t12)
  let t2 ← i32 (t2 + s)
  .ok [c0, t0 / 2 ^ 11, c2, t1 / 2 ^ 11, c4, t2 / 2 ^ 11, c6, t3 / 2 ^ 11]

/-- One column of the second pass of `fdct` (src/codecs/jpeg/transform.rs:138-195): the new coefficients of the column
whose old coefficients are the arguments. -/
def fdctCol (a0 a1 a2 a3 a4 a5 a6 a7 : Int) : R (List Int) := do
  -- Even part
  let t0 ← i32 (a0 + a7)
  let t1 ← i32 (a1 + a6)
  let t2 ← i32 (a2 + a5)
  let t3 ← i32 (a3 + a4)
  let s ← i32 (t0 + t3)
  let t10 ← i32 (s + 2)
  let t12 ← i32 (t0 - t3)
  let t11 ← i32 (t1 + t2)
  let t13 ← i32 (t1 - t2)
  let u0 ← i32 (a0 - a7)
  let u1 ← i32 (a1 - a6)
  let u2 ← i32 (a2 - a5)
  let u3 ← i32 (a3 - a4)
  let s ← i32 (t10 + t11)
  let c0 := s / 2 ^ 2
  let s ← i32 (t10 - t11)
  let c4 := s / 2 ^ 2
  let s ← i32 (t12 + t13)
  let z1 ← i32 (s * 4433)
  let z1 ← i32 (z1 + 16384)
  let p ← i32 (t12 * 6270)
  let s ← i32 (z1 + p)
  let c2 := s / 2 ^ 15
  let p ← i32 (t13 * 15137)
  let s ← i32 (z1 - p)
  let c6 := s / 2 ^ 15
  -- Odd part
  let t12 ← i32 (u0 + u2)
  let t13 ← i32 (u1 + u3)
  let s ← i32 (t12 + t13)
  let z1 ← i32 (s * 9633)
  let z1 ← i32 (z1 + 1024)
  let t12 ← i32 (t12 * -3196)
  let t13 ← i32 (t13 * -16069)
  let t12 ← i32 (t12 + z1)
  let t13 ← i32 (t13 + z1)
  let s ← i32 (u0 + u3)
  let z1 ← i32 (s * -7373)
  let t0 ← i32 (u0 * 12299)
  let t3 ← i32 (u3 * 2446)
  let s ← i32 (z1 + t12)
  let t0 ← i32 (t0 + s)
  let s ← i32 (z1 + t13)
  let t3 ← i32 (t3 + s)
  let s ← i32 (u1 + u2)
  let z1 ← i32 (s * -20995)
  let t1 ← i32 (u1 * 25172)
  let t2 ← i32 (u2 * 16819)
  let s ← i32 (z1 + t13)
  let t1 ← i32 (t1 + s)
  let s ← i32 (z1 + t12)
  let t2 ← i32 (t2 + s)
  .ok [c0, t0 / 2 ^ 15, c2, t1 / 2 ^ 15, c4, t2 / 2 ^ 15, c6, t3 / 2 ^ 15]

/-- `fdct` (src/codecs/jpeg/transform.rs:70-196). The eight assignments to `coeffs[y0..y0 + 8]` or to `coeffs[x + 8 * i]` at
the end of an iteration are done at once; each iteration reads only the coefficients that it then overwrites. -/
def fdct (samples : List Nat) : R (List Int) := do
  let coeffs ← forRange 8 (fun y coeffs => do
    let y0 := y * 8
    let a0 ← getR samples y0
    let a1 ← getR samples (y0 + 1)
    let a2 ← getR samples (y0 + 2)
    let a3 ← getR samples (y0 + 3)
    let a4 ← getR samples (y0 + 4)
    let a5 ← getR samples (y0 + 5)
    let a6 ← getR samples (y0 + 6)
    let a7 ← getR samples (y0 + 7)
    let row ← fdctRow a0 a1 a2 a3 a4 a5 a6 a7
    .ok (coeffs.mapIdx fun j c => if j / 8 = y then row.getD (j % 8) 0 else c)) (List.replicate 64 0)
  forRangeRev 8 (fun x coeffs => do
    let a0 ← getR coeffs x
    let a1 ← getR coeffs (x + 8)
    let a2 ← getR coeffs (x + 8 * 2)
    let a3 ← getR coeffs (x + 8 * 3)
    let a4 ← getR coeffs (x + 8 * 4)
    let a5 ← getR coeffs (x + 8 * 5)
    let a6 ← getR coeffs (x + 8 * 6)
    let a7 ← getR coeffs (x + 8 * 7)
    let col ← fdctCol a0 a1 a2 a3 a4 a5 a6 a7
    .ok (coeffs.mapIdx fun j c => if j % 8 = x then col.getD (j / 8) 0 else c)) coeffs

/-- `as i32` on a float. -/
def toI32 : Fl → Int
  | .nan => 0
  | .inf neg => if neg then -2 ^ 31 else 2 ^ 31 - 1
  | .fin q => max (-2 ^ 31) (min (2 ^ 31 - 1) (if 0 ≤ q then ⌊q⌋ else ⌈q⌉))

/-- The quantisation of one coefficient (src/codecs/jpeg/encoder.rs:597-600, 637-644). -/
def quantize (dct : Int) (q : Nat) : Int :=
  toI32 (Fl.round (Fl.div f32 (f32.ofRat ((dct.tdiv 8 : Int) : ℚ)) (Fl.ofNat f32 q)))

end Jpeg
end Verif
