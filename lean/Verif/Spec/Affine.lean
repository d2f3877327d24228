import Verif.Model.Image

/-!
# Specification of rotations and mirrorings (C13, C14, C16)

An image of size `w × h` has its origin in the top left corner, `x` grows to the right, `y` downwards.
Each relation says where every pixel of the source `s` appears in the result `d`.
-/

namespace Verif
open GenericImageView

variable {I J P : Type} [GenericImageView I P] [GenericImageView J P]

/-- Same dimensions, same pixels. -/
def SameImage (s : I) (d : J) : Prop :=
  dims d = dims s ∧ ∀ x y, x < widthOf s → y < heightOf s → getPixel d x y = getPixel s x y

/-- Rotated by a quarter turn clockwise: the left column becomes the top row, read upwards. -/
def IsRot90 (s : I) (d : J) : Prop :=
  dims d = (heightOf s, widthOf s) ∧
  ∀ x y, x < widthOf s → y < heightOf s → getPixel d (heightOf s - 1 - y) x = getPixel s x y

/-- Rotated by half a turn. -/
def IsRot180 (s : I) (d : J) : Prop :=
  dims d = dims s ∧
  ∀ x y, x < widthOf s → y < heightOf s →
    getPixel d (widthOf s - 1 - x) (heightOf s - 1 - y) = getPixel s x y

/-- Rotated by a quarter turn counter-clockwise. -/
def IsRot270 (s : I) (d : J) : Prop :=
  dims d = (heightOf s, widthOf s) ∧
  ∀ x y, x < widthOf s → y < heightOf s → getPixel d y (widthOf s - 1 - x) = getPixel s x y

/-- Mirrored left to right. -/
def IsFlipH (s : I) (d : J) : Prop :=
  dims d = dims s ∧
  ∀ x y, x < widthOf s → y < heightOf s → getPixel d (widthOf s - 1 - x) y = getPixel s x y

/-- Mirrored top to bottom. -/
def IsFlipV (s : I) (d : J) : Prop :=
  dims d = dims s ∧
  ∀ x y, x < widthOf s → y < heightOf s → getPixel d x (heightOf s - 1 - y) = getPixel s x y

/-- Mirrored at the main diagonal: rows become columns. -/
def IsTranspose (s : I) (d : J) : Prop :=
  dims d = (heightOf s, widthOf s) ∧
  ∀ x y, x < widthOf s → y < heightOf s → getPixel d y x = getPixel s x y

/-- Mirrored at the other diagonal. -/
def IsAntiTranspose (s : I) (d : J) : Prop :=
  dims d = (heightOf s, widthOf s) ∧
  ∀ x y, x < widthOf s → y < heightOf s →
    getPixel d (heightOf s - 1 - y) (widthOf s - 1 - x) = getPixel s x y

end Verif
