import Verif.Model.Color

/-!
# The methods of `Pixel` that take closures (src/color.rs, src/traits.rs)

A pixel is the list of its channels. A closure (`FnMut`) is a function of a state `σ`, which stands for everything it captured, and its argument; it may
panic. `&mut self` becomes a returned value.
-/

namespace Verif
namespace PixelOps
variable {σ α : Type}

/-- `for v in iter_mut() { *v = f(*v) }` (src/color.rs:339-341, 352-354). -/
def applyIter (f : σ → α → R (σ × α)) : σ → List α → R (σ × List α)
  | s, [] => .ok (s, [])
  | s, v :: l => do
    let (s, v) ← f s v
    let (s, l) ← applyIter f s l
    .ok (s, v :: l)

/-- `apply` (src/color.rs:338-342) and `map` (332-336), which applies to a copy. -/
def apply (f : σ → α → R (σ × α)) (s : σ) (p : List α) : R (σ × List α) := applyIter f s p

/-- `apply_with_alpha` (src/color.rs:350-360) and `map_with_alpha` (344-348). -/
def applyWithAlpha (m : PixelType) (f g : σ → α → R (σ × α)) (s : σ) (p : List α) : R (σ × List α) := do
  let alpha := m.ch - m.alphas
  let (s, c) ← applyIter f s (p.take alpha)
  let p := c ++ p.drop alpha
  match p[alpha]? with
  | some v => do
    let (s, v) ← g s v
    .ok (s, p.set alpha v)
  | none => .ok (s, p)

/-- `map_without_alpha` (src/traits.rs:327-334) and `apply_without_alpha` (src/traits.rs:338-343). -/
def applyWithoutAlpha (m : PixelType) (f : σ → α → R (σ × α)) (s : σ) (p : List α) : R (σ × List α) :=
  applyWithAlpha m f (fun s x => .ok (s, x)) s p

/-- `apply2` (src/color.rs:368-372) and `map2` (362-366): the loop runs over the zipped channels. -/
def apply2 (f : σ → α → α → R (σ × α)) : σ → List α → List α → R (σ × List α)
  | s, a :: p, b :: other => do
    let (s, a) ← f s a b
    let (s, p) ← apply2 f s p other
    .ok (s, a :: p)
  | s, p, _ => .ok (s, p)

/-- `from_slice` (src/color.rs:299-302) and `from_slice_mut` (src/color.rs:303-306). -/
def fromSlice (m : PixelType) (slice : List α) : R (List α) := do
  assertR (decide (slice.length = m.ch))
  .ok slice

/-- `from_channels` (src/color.rs:294-297). -/
def fromChannels (m : PixelType) (a b c d : α) : R (List α) := fromSlice m ([a, b, c, d].take m.ch)

/-- `channels4` (src/color.rs:287-292); `max` is `T::DEFAULT_MAX_VALUE`. `copy_from_slice` panics if the lengths differ. -/
def channels4 (m : PixelType) (max : α) (p : List α) : R (α × α × α × α) := do
  assertR (decide (p.length = m.ch))
  match p ++ (List.replicate 4 max).drop m.ch with
  | [a, b, c, d] => .ok (a, b, c, d)
  | _ => panicR

end PixelOps
end Verif
