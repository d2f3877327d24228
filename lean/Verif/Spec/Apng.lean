/-!
# What an APNG animation shows

Written from the APNG specification: frames are drawn onto a canvas that is transparent at first, each replacing or blended over what is there, and each is
disposed of before the next one is drawn: it stays, its region becomes transparent, or its region goes back to what it was before the frame.
-/

namespace Verif
namespace ApngSpec

/-- The pixel of every position. -/
abbrev Canvas (P : Type) := Nat → Nat → P

/-- `dispose_op` of `fcTL`. -/
inductive Disposal
  | leave
  | toBackground
  | toPrevious
  deriving DecidableEq

/-- A frame; its pixels are relative to its corner. `over` is `blend_op`. -/
structure Frame (P : Type) where
  left : Nat
  top : Nat
  width : Nat
  height : Nat
  disposal : Disposal
  over : Bool
  pixels : Canvas P

variable {P : Type}

/-- A position of the canvas that the frame covers. -/
def Frame.covers (f : Frame P) (x y : Nat) : Prop := f.left ≤ x ∧ x < f.left + f.width ∧ f.top ≤ y ∧ y < f.top + f.height

instance (f : Frame P) (x y : Nat) : Decidable (f.covers x y) := by unfold Frame.covers; infer_instance

/-- The canvas with the frame drawn onto it; `over` is alpha blending (bottom, top). -/
def draw (over : P → P → P) (c : Canvas P) (f : Frame P) : Canvas P := fun x y =>
  if f.covers x y then
    let p := f.pixels (x - f.left) (y - f.top)
    if f.over then over (c x y) p else p
  else c x y

/-- The canvas onto which the next frame is drawn; `blank` is the transparent pixel. -/
def after (over : P → P → P) (blank : P) (c : Canvas P) (f : Frame P) : Canvas P :=
  match f.disposal with
  | .leave => draw over c f
  | .toBackground => fun x y => if f.covers x y then blank else c x y
  | .toPrevious => c

/-- The canvas after the frames. -/
def canvas (over : P → P → P) (blank : P) (fs : List (Frame P)) : Canvas P := fs.foldl (after over blank) fun _ _ => blank

/-- The picture that a viewer shows for the frame `f` that follows the frames `fs`. -/
def picture (over : P → P → P) (blank : P) (fs : List (Frame P)) (f : Frame P) : Canvas P := draw over (canvas over blank fs) f

end ApngSpec
end Verif
