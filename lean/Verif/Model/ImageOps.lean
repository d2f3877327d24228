import Verif.Model.GenericOps

/-!
# `imageops` geometry: crop, overlay, replace, tile (src/imageops/mod.rs)
-/

namespace Verif
open GenericImageView GenericImage

variable {I D P : Type}

/-- `crop_dimms` (src/imageops/mod.rs:65-81); plain `u32` subtraction. -/
def cropDimms [GenericImageView I P] (img : I) (x y width height : Nat) :
    R (Nat × Nat × Nat × Nat) := do
  let x := min x (widthOf img)
  let y := min y (heightOf img)
  let height := min height (← subC (heightOf img) y)
  let width := min width (← subC (widthOf img) x)
  .ok (x, y, width, height)

/-- `crop_imm` (src/imageops/mod.rs:54-63) and `crop` (41-50). -/
def cropImm [GenericImageView I P] (img : I) (x y width height : Nat) : R (SubImage I) := do
  let (x, y, width, height) ← cropDimms img x y width height
  .ok ⟨img, x, y, width, height⟩

/-- `overlay_bounds` (src/imageops/mod.rs:139-154). -/
def overlayBounds (bottom top : Nat × Nat) (x y : Nat) : Nat × Nat :=
  (satSub (min (satAdd 32 top.1 x) bottom.1) x, satSub (min (satAdd 32 top.2 y) bottom.2) y)

/-- `i64::saturating_add` -/
def satAddI64 (a b : Int) : Int := max (-2 ^ 63) (min (2 ^ 63 - 1) (a + b))
/-- `i64::saturating_mul` -/
def satMulI64 (a b : Int) : Int := max (-2 ^ 63) (min (2 ^ 63 - 1) (a * b))
/-- `i64::clamp(lo, hi)` -/
def clampI (lo hi a : Int) : Int := if a < lo then lo else if hi < a then hi else a
/-- `v as u32` for an `i64` -/
def asU32 (v : Int) : Nat := (v % 2 ^ 32).toNat

/-- The result of `overlay_bounds_ext`. -/
structure OverlayBounds where
  bottomX : Nat
  bottomY : Nat
  topX : Nat
  topY : Nat
  rangeW : Nat
  rangeH : Nat
  deriving DecidableEq, Repr

/-- `overlay_bounds_ext` (src/imageops/mod.rs:172-218). -/
def overlayBoundsExt (bottom top : Nat × Nat) (x y : Int) : R OverlayBounds :=
  if x > bottom.1 ∨ y > bottom.2 ∨ satAddI64 x top.1 ≤ 0 ∨ satAddI64 y top.2 ≤ 0 then
    .ok ⟨0, 0, 0, 0, 0, 0⟩
  else do
    let maxX := satAddI64 x top.1
    let maxY := satAddI64 y top.2
    let maxInX := asU32 (clampI 0 bottom.1 maxX)
    let maxInY := asU32 (clampI 0 bottom.2 maxY)
    let originBottomX := asU32 (clampI 0 bottom.1 x)
    let originBottomY := asU32 (clampI 0 bottom.2 y)
    let xRange ← subC maxInX originBottomX
    let yRange ← subC maxInY originBottomY
    let originTopX := asU32 (clampI 0 top.1 (satMulI64 x (-1)))
    let originTopY := asU32 (clampI 0 top.2 (satMulI64 y (-1)))
    .ok ⟨originBottomX, originBottomY, originTopX, originTopY, xRange, yRange⟩

/-- `overlay` (src/imageops/mod.rs:221-242); `blend a b` is `{ a.blend(&b); a }`. -/
def overlay [GenericImage D P] [GenericImageView I P] (blend : P → P → R P) (bottom : D) (top : I)
    (x y : Int) : R D := do
  let o ← overlayBoundsExt (dims bottom) (dims top) x y
  forRange o.rangeH (fun y bottom =>
    forRange o.rangeW (fun x bottom => do
      let p ← getPixel top (← addC 32 o.topX x) (← addC 32 o.topY y)
      let b ← getPixel bottom (← addC 32 o.bottomX x) (← addC 32 o.bottomY y)
      let b ← blend b p
      putPixel bottom (← addC 32 o.bottomX x) (← addC 32 o.bottomY y) b) bottom) bottom

/-- `replace` (src/imageops/mod.rs:335-353). -/
def replace [GenericImage D P] [GenericImageView I P] (bottom : D) (top : I) (x y : Int) : R D := do
  let o ← overlayBoundsExt (dims bottom) (dims top) x y
  forRange o.rangeH (fun y bottom =>
    forRange o.rangeW (fun x bottom => do
      let p ← getPixel top (← addC 32 o.topX x) (← addC 32 o.topY y)
      putPixel bottom (← addC 32 o.bottomX x) (← addC 32 o.bottomY y) p) bottom) bottom

/-- `(0..n).step_by(step)`: number of items; item `i` is `i * step`. -/
def stepCount (n step : Nat) : Nat := (n + step - 1) / step

/-- `tile` (src/imageops/mod.rs:256-266); `step_by` panics on a zero step. -/
def tile [GenericImage D P] [GenericImageView I P] (blend : P → P → R P) (bottom : D) (top : I) :
    R D := do
  assertR (widthOf top != 0)
  forRange (stepCount (widthOf bottom) (widthOf top)) (fun i bottom => do
    assertR (heightOf top != 0)
    forRange (stepCount (heightOf bottom) (heightOf top)) (fun j bottom =>
      overlay blend bottom top (i * widthOf top : Nat) (j * heightOf top : Nat)) bottom) bottom

end Verif
