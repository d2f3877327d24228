import Verif.Spec.Jpeg
import Verif.Spec.Dct

/-!
# When a JPEG file shows an image

This file does not refer to the model of the encoder.
-/

namespace Verif
namespace JpegSpec

/-- One component of an image: its identifier, its quantisation table and its samples (at column, row). -/
structure Plane where
  id : UInt8
  table : List Nat
  sample : Nat → Nat → Nat

/-- The samples of the block in block column `i` and block row `j`, by rows: blocks that extend beyond the image of size
`w` by `h` repeat its last column and row (T.81, A.2.4). -/
def Plane.block (p : Plane) (w h i j : Nat) (k : Nat) : ℝ :=
  p.sample (min (8 * i + k % 8) (w - 1)) (min (8 * j + k / 8) (h - 1))

/-- The quantised coefficients `c` with the quantisation table `q` stand for the samples `s`: multiplied by the entry of the table,
every coefficient differs from the cosine transform by at most half of the entry (the rounding to a multiple of the entry) and 4/3
(the precision of the transform). -/
structure BlockNear (c : List Int) (q : List Nat) (s : Nat → ℝ) : Prop where
  length : c.length = 64
  near : ∀ v u, v < 8 → u < 8 →
    |(c.getD (8 * v + u) 0 : ℝ) * (q.getD (8 * v + u) 0 : ℝ) - dct s v u| ≤ (q.getD (8 * v + u) 0 : ℝ) / 2 + 4 / 3

/-- The decoded file has the given dimensions and components, and all its blocks stand for the samples. -/
structure FileShows (d : Decoded) (w h : Nat) (planes : List Plane) : Prop where
  width : d.width = w
  height : d.height = h
  components : d.components = planes.map fun p => (p.id, p.table)
  units : d.mcus.length = (w + 7) / 8 * ((h + 7) / 8)
  blocks : ∀ i j, i < (w + 7) / 8 → j < (h + 7) / 8 →
    ∃ unit, d.mcus[j * ((w + 7) / 8) + i]? = some unit ∧ unit.length = planes.length ∧
      ∀ (c : Nat) (p : Plane), planes[c]? = some p → ∃ block, unit[c]? = some block ∧ BlockNear block p.table (p.block w h i j)

/-- The colour conversion of JFIF files (ITU-T T.871, clause 7), before rounding. -/
noncomputable def lumaOf (r g b : ℝ) : ℝ := 0.299 * r + 0.587 * g + 0.114 * b

noncomputable def cbOf (r g b : ℝ) : ℝ := (-0.299 * r - 0.587 * g + 0.886 * b) / 1.772 + 128

noncomputable def crOf (r g b : ℝ) : ℝ := (0.701 * r - 0.587 * g - 0.114 * b) / 1.402 + 128

/-- The samples `y`, `cb`, `cr` are the converted colour, rounded to 8 bits. -/
structure IsYcc (r g b y cb cr : Nat) : Prop where
  luma : |(y : ℝ) - lumaOf r g b| ≤ 0.51
  blue : |(cb : ℝ) - cbOf r g b| ≤ 0.51
  red : |(cr : ℝ) - crOf r g b| ≤ 0.51
  y_le : y ≤ 255
  cb_le : cb ≤ 255
  cr_le : cr ≤ 255
  /-- greys stay exact -/
  grey : r = g → g = b → y = r ∧ cb = 128 ∧ cr = 128

/-- The signature of application segments 2 that carry (parts of) a colour profile: `ICC_PROFILE` and zero (ICC.1, B.4). -/
def iccSignature : List UInt8 := [0x49, 0x43, 0x43, 0x5F, 0x50, 0x52, 0x4F, 0x46, 0x49, 0x4C, 0x45, 0]

/-- The segments carry the profile in order: segment `i` of `n` has the numbers `i + 1` and `n`, and all the data together are the
profile. -/
structure CarriesIcc (segs : List (UInt8 × List UInt8)) (icc : List UInt8) : Prop where
  head : ∀ (i : Nat) (s : UInt8 × List UInt8), segs[i]? = some s → s.1 = 0xE2 ∧ s.2.take 12 = iccSignature ∧ (s.2[12]?).map (·.toNat) = some (i + 1) ∧
    (s.2[13]?).map (·.toNat) = some segs.length
  data : segs.flatMap (fun s => s.2.drop 14) = icc

/-- The payload of a JFIF segment (T.871, 10.1) with the given unit (0: aspect ratio, 1: per inch, 2: per centimetre) and
densities. -/
structure IsJfif (payload : List UInt8) (unit dx dy : Nat) : Prop where
  length : payload.length = 14
  signature : payload.take 5 = [0x4A, 0x46, 0x49, 0x46, 0]
  unit : (payload[7]?).map (·.toNat) = some unit
  dx : beNat ((payload.drop 8).take 2) = dx
  dy : beNat ((payload.drop 10).take 2) = dy
  /-- no thumbnail -/
  thumbnail : payload.drop 12 = [0, 0]

end JpegSpec
end Verif
