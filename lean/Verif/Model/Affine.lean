import Verif.Model.GenericOps

/-!
# Rotations and flips (src/imageops/affine.rs)
-/

namespace Verif
open GenericImageView GenericImage

variable {I D P : Type}

/-- `rotate90_in` (src/imageops/affine.rs:48-71). -/
def rotate90In [GenericImageView I P] [GenericImage D P] (img : I) (dst : D) : R D :=
  let w0 := widthOf img; let h0 := heightOf img; let w1 := widthOf dst; let h1 := heightOf dst
  if w0 ≠ h1 ∨ h0 ≠ w1 then errR .dimensionMismatch
  else forRange h0 (fun y d => forRange w0 (fun x d => do
    let p ← getPixel img x y
    putPixel d (← subC (← subC h0 y) 1) x p) d) dst

/-- `rotate180_in` (src/imageops/affine.rs:74-97). -/
def rotate180In [GenericImageView I P] [GenericImage D P] (img : I) (dst : D) : R D :=
  let w0 := widthOf img; let h0 := heightOf img; let w1 := widthOf dst; let h1 := heightOf dst
  if w0 ≠ w1 ∨ h0 ≠ h1 then errR .dimensionMismatch
  else forRange h0 (fun y d => forRange w0 (fun x d => do
    let p ← getPixel img x y
    putPixel d (← subC (← subC w0 x) 1) (← subC (← subC h0 y) 1) p) d) dst

/-- `rotate270_in` (src/imageops/affine.rs:100-123). -/
def rotate270In [GenericImageView I P] [GenericImage D P] (img : I) (dst : D) : R D :=
  let w0 := widthOf img; let h0 := heightOf img; let w1 := widthOf dst; let h1 := heightOf dst
  if w0 ≠ h1 ∨ h0 ≠ w1 then errR .dimensionMismatch
  else forRange h0 (fun y d => forRange w0 (fun x d => do
    let p ← getPixel img x y
    putPixel d y (← subC (← subC w0 x) 1) p) d) dst

/-- `flip_horizontal_in` (src/imageops/affine.rs:152-175). -/
def flipHorizontalIn [GenericImageView I P] [GenericImage D P] (img : I) (dst : D) : R D :=
  let w0 := widthOf img; let h0 := heightOf img; let w1 := widthOf dst; let h1 := heightOf dst
  if w0 ≠ w1 ∨ h0 ≠ h1 then errR .dimensionMismatch
  else forRange h0 (fun y d => forRange w0 (fun x d => do
    let p ← getPixel img x y
    putPixel d (← subC (← subC w0 x) 1) y p) d) dst

/-- `flip_vertical_in` (src/imageops/affine.rs:178-201). -/
def flipVerticalIn [GenericImageView I P] [GenericImage D P] (img : I) (dst : D) : R D :=
  let w0 := widthOf img; let h0 := heightOf img; let w1 := widthOf dst; let h1 := heightOf dst
  if w0 ≠ w1 ∨ h0 ≠ h1 then errR .dimensionMismatch
  else forRange h0 (fun y d => forRange w0 (fun x d => do
    let p ← getPixel img x y
    putPixel d x (← subC (← subC h0 1) y) p) d) dst

/-- `let _ = op_in(image, &mut out); out`: a returned `Err` is dropped and leaves `out` as it was,
a panic propagates. -/
def ignoreErr (out : D) : R D → R D
  | .error (.err _) => .ok out
  | r => r

section
variable {α : Type} {ch : Nat} [GenericImageView I (Pix α ch)]

/-- `rotate90` (src/imageops/affine.rs:9-19); `z` is the zero sample of `ImageBuffer::new`. -/
def rotate90 (z : α) (img : I) : R (ImageBuffer α ch) := do
  let out ← ImageBuffer.new ch z (heightOf img) (widthOf img)
  ignoreErr out (rotate90In img out)

/-- `rotate180` (src/imageops/affine.rs:22-32). -/
def rotate180 (z : α) (img : I) : R (ImageBuffer α ch) := do
  let out ← ImageBuffer.new ch z (widthOf img) (heightOf img)
  ignoreErr out (rotate180In img out)

/-- `rotate270` (src/imageops/affine.rs:35-45). -/
def rotate270 (z : α) (img : I) : R (ImageBuffer α ch) := do
  let out ← ImageBuffer.new ch z (heightOf img) (widthOf img)
  ignoreErr out (rotate270In img out)

/-- `flip_horizontal` (src/imageops/affine.rs:126-136). -/
def flipHorizontal (z : α) (img : I) : R (ImageBuffer α ch) := do
  let out ← ImageBuffer.new ch z (widthOf img) (heightOf img)
  ignoreErr out (flipHorizontalIn img out)

/-- `flip_vertical` (src/imageops/affine.rs:139-149). -/
def flipVertical (z : α) (img : I) : R (ImageBuffer α ch) := do
  let out ← ImageBuffer.new ch z (widthOf img) (heightOf img)
  ignoreErr out (flipVerticalIn img out)
end

/-- `rotate180_in_place` (src/imageops/affine.rs:204-232). -/
def rotate180InPlace [GenericImage D P] (img : D) : R D := do
  let width := widthOf img
  let height := heightOf img
  let img ← forRange (height / 2) (fun y d => forRange width (fun x d => do
    let p ← getPixel d x y
    let x2 ← subC (← subC width x) 1
    let y2 ← subC (← subC height y) 1
    let p2 ← getPixel d x2 y2
    let d ← putPixel d x y p2
    putPixel d x2 y2 p) d) img
  if height % 2 ≠ 0 then do
    let middle := height / 2
    forRange (width / 2) (fun x d => do
      let p ← getPixel d x middle
      let x2 ← subC (← subC width x) 1
      let p2 ← getPixel d x2 middle
      let d ← putPixel d x middle p2
      putPixel d x2 middle p) img
  else .ok img

/-- `flip_horizontal_in_place` (src/imageops/affine.rs:235-247). -/
def flipHorizontalInPlace [GenericImage D P] (img : D) : R D :=
  let width := widthOf img
  let height := heightOf img
  forRange height (fun y d => forRange (width / 2) (fun x d => do
    let x2 ← subC (← subC width x) 1
    let p2 ← getPixel d x2 y
    let p ← getPixel d x y
    let d ← putPixel d x2 y p
    putPixel d x y p2) d) img

/-- `flip_vertical_in_place` (src/imageops/affine.rs:250-262). -/
def flipVerticalInPlace [GenericImage D P] (img : D) : R D :=
  let width := widthOf img
  let height := heightOf img
  forRange (height / 2) (fun y d => forRange width (fun x d => do
    let y2 ← subC (← subC height y) 1
    let p2 ← getPixel d x y2
    let p ← getPixel d x y
    let d ← putPixel d x y2 p
    putPixel d x y p2) d) img

end Verif
