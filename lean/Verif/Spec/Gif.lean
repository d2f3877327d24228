/-!
# What a GIF animation shows

Written from the GIF89a specification: a canvas of colours, frames that are drawn onto it one after the other, where transparent pixels of a frame let
the canvas through, and a disposal that says what becomes of the frame before the next one is drawn. As in browsers the canvas is transparent at
first, and the background is transparent.
-/

namespace Verif
namespace GifSpec

/-- Red, green, blue, alpha. -/
abbrev Colour := UInt8 × UInt8 × UInt8 × UInt8

/-- Fully transparent. -/
def transparent : Colour := (0, 0, 0, 0)

/-- The colour of every position. -/
abbrev Canvas := Nat → Nat → Colour

/-- What happens to a frame after it was shown. -/
inductive Disposal
  | unspecified
  | leave
  | toBackground
  | toPrevious

/-- A frame: where it is, how large it is, what becomes of it, and its pixels, relative to its corner. -/
structure Frame where
  left : Nat
  top : Nat
  width : Nat
  height : Nat
  disposal : Disposal
  pixels : Canvas

/-- A position of the canvas that the frame covers. -/
def Frame.covers (f : Frame) (x y : Nat) : Prop := f.left ≤ x ∧ x < f.left + f.width ∧ f.top ≤ y ∧ y < f.top + f.height

instance (f : Frame) (x y : Nat) : Decidable (f.covers x y) := by unfold Frame.covers; infer_instance

/-- The canvas with the frame drawn onto it. -/
def draw (c : Canvas) (f : Frame) : Canvas := fun x y =>
  let p := f.pixels (x - f.left) (y - f.top)
  if f.covers x y ∧ p.2.2.2 ≠ 0 then p else c x y

/-- The canvas onto which the next frame is drawn. -/
def after (c : Canvas) (f : Frame) : Canvas :=
  match f.disposal with
  | .unspecified | .leave => draw c f
  | .toBackground => fun x y => if f.covers x y then transparent else c x y
  | .toPrevious => c

/-- The canvas after the frames. -/
def canvas (fs : List Frame) : Canvas := fs.foldl after fun _ _ => transparent

/-- The picture that a viewer shows for the frame `f` that follows the frames `fs`. -/
def picture (fs : List Frame) (f : Frame) : Canvas := draw (canvas fs) f

end GifSpec
end Verif
