import Verif.Model.Buffer

/-!
# Default methods of `GenericImageView` / `GenericImage` and `SubImage` (src/image.rs)
-/

namespace Verif
open GenericImageView GenericImage

variable {I D P : Type}

/-! ## `GenericImageView::pixels` -/

/-- State of `Pixels` (src/image.rs:841-847), without the borrowed image. -/
structure PixelsIter where
  x : Nat
  y : Nat
  width : Nat
  height : Nat
  deriving DecidableEq

/-- `GenericImageView::pixels` (src/image.rs:932-945). -/
def pixelsIter [GenericImageView I P] (img : I) : PixelsIter := ⟨0, 0, widthOf img, heightOf img⟩

/-- `Pixels::next` (src/image.rs:852-868). -/
def PixelsIter.next [GenericImageView I P] (img : I) (s : PixelsIter) :
    R (Option (Nat × Nat × P) × PixelsIter) := do
  let (x, y) ← if s.width ≤ s.x then (do .ok (0, ← addC 32 s.y 1)) else .ok (s.x, s.y)
  if s.height ≤ y then .ok (none, { s with x := x, y := y })
  else do
    let pixel ← getPixel img x y
    let x1 ← addC 32 x 1
    .ok (some (x, y, pixel), { s with x := x1, y := y })

/-! ## `copy_from` -/

/-- `GenericImage::copy_from` (src/image.rs:1026-1045). -/
def copyFrom [GenericImage D P] [GenericImageView I P] (dst : D) (other : I) (x y : Nat) : R D := do
  let right ← addC 32 (widthOf other) x
  -- `||` evaluates the second sum only if the first comparison is false
  if widthOf dst < right then errR .dimensionMismatch
  else do
    let bottom ← addC 32 (heightOf other) y
    if heightOf dst < bottom then errR .dimensionMismatch
    else forRange (heightOf other) (fun k dst =>
      forRange (widthOf other) (fun i dst => do
        let p ← getPixel other i k
        putPixel dst (← addC 32 i x) (← addC 32 k y) p) dst) dst

/-! ## `copy_within` -/

/-- Body of the inner loop of `copy_within` (src/image.rs:1076-1079). -/
def copyWithinBody [GenericImage D P] (sx sy dx dy : Nat) (x : Nat) (d : D) : R D := do
  let sx ← addC 32 sx x
  let dx ← addC 32 dx x
  let pixel ← getPixel d sx sy
  putPixel d dx dy pixel

/-- Body of the outer loop of `copy_within` (src/image.rs:1072-1075); `xiter` runs the inner loop. -/
def copyWithinRow [GenericImage D P] (xiter : (Nat → D → R D) → D → R D) (sx sy dx dy : Nat) (y : Nat)
    (d : D) : R D := do
  let sy ← addC 32 sy y
  let dy ← addC 32 dy y
  xiter (copyWithinBody sx sy dx dy) d

/-- `GenericImage::copy_within` (src/image.rs:1054-1092) with `source = (sx, sy, width, height)` and
destination corner `(dx, dy)`. -/
def copyWithin [GenericImage D P] (d : D) (sx sy width height dx dy : Nat) : R (Bool × D) := do
  assertR (decide (sx < widthOf d) && decide (dx < widthOf d))
  assertR (decide (sy < heightOf d) && decide (dy < heightOf d))
  if widthOf d - max dx sx < width ∨ heightOf d - max dy sy < height then .ok (false, d)
  else do
    let d' ← match decide (sx < dx), decide (sy < dy) with
      | true, true =>
        forRangeRev height (copyWithinRow (fun f s => forRangeRev width f s) sx sy dx dy) d
      | true, false =>
        forRange height (copyWithinRow (fun f s => forRangeRev width f s) sx sy dx dy) d
      | false, true =>
        forRangeRev height (copyWithinRow (fun f s => forRange width f s) sx sy dx dy) d
      | false, false =>
        forRange height (copyWithinRow (fun f s => forRange width f s) sx sy dx dy) d
    .ok (true, d')

/-! ## `SubImage` -/

/-- `struct SubImage` / `SubImageInner` (src/image.rs:1138-1144). The referenced image is stored by
value; a mutable sub-image's writes are returned in the updated `image`. -/
structure SubImage (I : Type) where
  image : I
  xoffset : Nat
  yoffset : Nat
  xstride : Nat
  ystride : Nat

/-- `GenericImageView for SubImageInner` (src/image.rs:1287-1302). -/
instance [GenericImageView I P] : GenericImageView (SubImage I) P where
  dims s := (s.xstride, s.ystride)
  getPixel s x y := do GenericImageView.getPixel s.image (← addC 32 x s.xoffset) (← addC 32 y s.yoffset)

/-- `GenericImage for SubImageInner` (src/image.rs:1304-1324). -/
instance [GenericImage D P] : GenericImage (SubImage D) P where
  putPixel s x y p := do
    .ok { s with
      image := ← GenericImage.putPixel s.image (← addC 32 x s.xoffset) (← addC 32 y s.yoffset) p }

/-- `GenericImageView::view` (src/image.rs:950-957) and `GenericImage::sub_image` (1097-1104); the
sums are done in `u64`. -/
def view [GenericImageView I P] (img : I) (x y width height : Nat) : R (SubImage I) := do
  assertR (decide (x + width ≤ widthOf img))
  assertR (decide (y + height ≤ heightOf img))
  .ok ⟨img, x, y, width, height⟩

/-- `SubImage::view` (src/image.rs:1224-1231) and `SubImage::sub_image` (1247-1259). -/
def SubImage.view [GenericImageView I P] (s : SubImage I) (x y width height : Nat) :
    R (SubImage I) := do
  assertR (decide (x + width ≤ s.xstride))
  assertR (decide (y + height ≤ s.ystride))
  .ok ⟨s.image, satAdd 32 s.xoffset x, satAdd 32 s.yoffset y, width, height⟩

/-- `SubImage::change_bounds` (src/image.rs:1168-1173). -/
def SubImage.changeBounds (s : SubImage I) (x y width height : Nat) : SubImage I :=
  ⟨s.image, x, y, width, height⟩

/-- `SubImage::to_image` (src/image.rs:1181-1197); `z` is the zero sample used by `ImageBuffer::new`. -/
def SubImage.toImage {α : Type} {ch : Nat} [GenericImageView I (Pix α ch)] (z : α) (s : SubImage I) :
    R (ImageBuffer α ch) := do
  let out ← ImageBuffer.new ch z s.xstride s.ystride
  forRange s.ystride (fun y out =>
    forRange s.xstride (fun x (out : ImageBuffer α ch) => do
      let p ← getPixel s.image (← addC 32 x s.xoffset) (← addC 32 y s.yoffset)
      out.putPixel x y p) out) out

end Verif
