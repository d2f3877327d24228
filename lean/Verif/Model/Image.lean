import Verif.Base.Rust

/-!
# The image traits `GenericImageView` and `GenericImage` (src/image.rs)
-/

namespace Verif

/-- `trait GenericImageView` (src/image.rs:885-958): dimensions and pixel access. -/
class GenericImageView (I : Type) (P : outParam Type) where
  /-- `fn dimensions(&self) -> (u32, u32)` -/
  dims : I → Nat × Nat
  /-- `fn get_pixel(&self, x: u32, y: u32) -> Self::Pixel`; may panic. -/
  getPixel : I → Nat → Nat → R P

/-- `trait GenericImage` (src/image.rs:961-1105). `&mut self` becomes a returned new value. -/
class GenericImage (I : Type) (P : outParam Type) extends GenericImageView I P where
  /-- `fn put_pixel(&mut self, x: u32, y: u32, pixel: Self::Pixel)`; may panic. -/
  putPixel : I → Nat → Nat → P → R I

open GenericImageView GenericImage

variable {I J P : Type}

/-- `GenericImageView::width` (src/image.rs:893-896). -/
def widthOf [GenericImageView I P] (i : I) : Nat := (dims i).1
/-- `GenericImageView::height` (src/image.rs:899-902). -/
def heightOf [GenericImageView I P] (i : I) : Nat := (dims i).2
/-- `GenericImageView::in_bounds` (src/image.rs:905-908). -/
def inBounds [GenericImageView I P] (i : I) (x y : Nat) : Bool :=
  decide (x < widthOf i) && decide (y < heightOf i)

/-- What callers rely on from an implementation of `GenericImageView`: dimensions are `u32`s and
in-bounds reads do not panic. -/
class LawfulView (I : Type) (P : outParam Type) [GenericImageView I P] where
  /-- representation invariant of the implementation -/
  WF : I → Prop
  width_lt : ∀ {i : I}, WF i → widthOf i < 2 ^ 32
  height_lt : ∀ {i : I}, WF i → heightOf i < 2 ^ 32
  get_ok : ∀ {i : I} {x y : Nat}, WF i → x < widthOf i → y < heightOf i →
    ∃ p, getPixel i x y = .ok p

/-- What callers rely on from an implementation of `GenericImage`: an in-bounds write succeeds, keeps
the dimensions and changes exactly the addressed pixel. -/
class LawfulImage (I : Type) (P : outParam Type) [GenericImage I P] extends LawfulView I P where
  put_ok : ∀ {i : I} {x y : Nat} (p : P), WF i → x < widthOf i → y < heightOf i →
    ∃ i', putPixel i x y p = .ok i' ∧ WF i' ∧ dims i' = dims i ∧ getPixel i' x y = .ok p ∧
      ∀ x' y', x' < widthOf i → y' < heightOf i → ¬(x' = x ∧ y' = y) →
        getPixel i' x' y' = getPixel i x' y'

end Verif
