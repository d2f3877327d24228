import Verif.Model.Avif

/-!
# What an AVIF picture shows

The planes of a picture, and the conversion to RGB of ITU-T H.273 (8.3, Table 4), over the rational numbers.
-/

namespace Verif
namespace Avif

/-- Bytes per sample of a plane. -/
def sampleBytes (depth : Nat) : Nat := if depth = 8 then 1 else 2

/-- The sample at column `x` of row `y` of a plane: one byte, or two bytes in the order of the machine. -/
def Plane.sample (le : Bool) (depth : Nat) (p : Plane) (x y : Nat) : Nat :=
  let byte (i : Nat) := (p.bytes.getD (y * p.stride + i) 0).toNat
  if depth = 8 then byte x
  else if le then byte (2 * x) + 256 * byte (2 * x + 1) else 256 * byte (2 * x) + byte (2 * x + 1)

/-- The plane has `h` rows of at least `w` samples of `depth` bits. -/
structure Plane.Holds (le : Bool) (depth : Nat) (p : Plane) (w h : Nat) : Prop where
  length : p.bytes.length = p.stride * h
  fits : p.stride * h < 2 ^ 63
  row : w * sampleBytes depth ≤ p.stride
  bits : ∀ x < w, ∀ y < h, p.sample le depth x y < 2 ^ depth

/-- Column and row of the chroma sample that belongs to the pixel at column `x` of row `y`. -/
def Layout.chromaAt : Layout → Nat → Nat → Nat × Nat
  | .i420, x, y => (x / 2, y / 2)
  | .i422, x, y => (x / 2, y)
  | _, x, y => (x, y)

/-- Size of the chroma planes: half the size, rounded up, in the directions in which they are subsampled. -/
def Layout.chromaSize : Layout → Nat → Nat → Nat × Nat
  | .i420, w, h => ((w + 1) / 2, (h + 1) / 2)
  | .i422, w, h => ((w + 1) / 2, h)
  | _, w, h => (w, h)

/-- A picture as an AV1 decoder delivers it: the planes have the sizes that the layout asks for. -/
structure Picture.Wf (le : Bool) (p : Picture) : Prop where
  width : 0 < p.width ∧ p.width < 2 ^ 31
  height : 0 < p.height ∧ p.height < 2 ^ 31
  size : p.width * p.height < 2 ^ 60
  depth : p.depth = 8 ∨ p.depth = 10 ∨ p.depth = 12
  y : p.y.Holds le p.depth p.width p.height
  u : p.layout ≠ .i400 → p.u.Holds le p.depth (p.layout.chromaSize p.width p.height).1 (p.layout.chromaSize p.width p.height).2
  v : p.layout ≠ .i400 → p.v.Holds le p.depth (p.layout.chromaSize p.width p.height).1 (p.layout.chromaSize p.width p.height).2

/-- `K_R` and `K_B` of H.273, Table 4. Pictures that do not say are taken as BT.709, as the decoder documents. -/
def Coefficients.weights : Coefficients → Option (ℚ × ℚ)
  | .bt709 | .unspecified => some (2126 / 10000, 722 / 10000)
  | .bt470m => some (30 / 100, 11 / 100)
  | .bt470bg | .st170m => some (299 / 1000, 114 / 1000)
  | .st240m => some (212 / 1000, 87 / 1000)
  | .bt2020Ncl => some (2627 / 10000, 593 / 10000)
  | _ => none

/-- The luma that a sample stands for: 0 is black and 1 is white. -/
def luma (r : Range) (depth s : Nat) : ℚ :=
  match r with
  | .tv => (s - 16 * 2 ^ (depth - 8)) / (219 * 2 ^ (depth - 8))
  | .pc => s / (2 ^ depth - 1)

/-- The colour difference that a sample stands for, from -1/2 to 1/2. -/
def difference (r : Range) (depth s : Nat) : ℚ :=
  match r with
  | .tv => (s - 2 ^ (depth - 1)) / (224 * 2 ^ (depth - 8))
  | .pc => (s - 2 ^ (depth - 1)) / (2 ^ depth - 1)

/-- Red, green and blue from luma and colour differences: `Y = K_R R + (1 - K_R - K_B) G + K_B B`, `P_B = (B - Y) / (2 (1 - K_B))`,
`P_R = (R - Y) / (2 (1 - K_R))`, solved for the colours. -/
def colours (kr kb y pb pr : ℚ) : Fin 3 → ℚ
  | 0 => y + 2 * (1 - kr) * pr
  | 1 => (y - kr * (y + 2 * (1 - kr) * pr) - kb * (y + 2 * (1 - kb) * pb)) / (1 - kr - kb)
  | 2 => y + 2 * (1 - kb) * pb

/-- The colour of a pixel for its three samples; `none` if the matrix is not one of those above. -/
def ideal (m : Coefficients) (l : Layout) (r : Range) (depth y u v : Nat) : Option (Fin 3 → ℚ) :=
  if l = .i400 then some fun _ => luma r depth y
  else if m = .identity then some fun c => luma r depth (match c with | 0 => v | 1 => y | 2 => u)
  else m.weights.map fun k => colours k.1 k.2 (luma r depth y) (difference r depth u) (difference r depth v)

/-- Limited to the range from black to white. -/
def limited (q : ℚ) : ℚ := max 0 (min q 1)

/-- The pixel of a picture: red, green, blue from 0 to 1. -/
def Picture.colour (le : Bool) (p : Picture) (x y : Nat) : Option (Fin 3 → ℚ) :=
  let c := p.layout.chromaAt x y
  ideal p.matrix p.layout p.range p.depth (p.y.sample le p.depth x y) (p.u.sample le p.depth c.1 c.2) (p.v.sample le p.depth c.1 c.2)

/-- Channel `c` of the pixel at column `x` of row `y` in a decoded buffer: bytes for 8-bit pictures, 16-bit numbers in the order of the machine
otherwise. -/
def outSample (le : Bool) (depth w : Nat) (buf : List UInt8) (x y c : Nat) : Nat :=
  let i := (y * w + x) * 4 + c
  if depth = 8 then (buf.getD i 0).toNat else (samplesOf le 2 buf).getD i 0

end Avif
end Verif
