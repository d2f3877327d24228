import Verif.Model.Flat

/-!
# Sample-level and mutable access of flat buffers (src/flat.rs)

A `&mut T` handed out by the code is modelled by the update `upd` its holder performs: the functions below
take the update and return the buffer as it is when the borrow ends.  The owner cannot change the length of a
borrowed slice, so an update of a slice is modelled by its new contents.
-/

namespace Verif

namespace FlatSamples
variable {α : Type}

/-- `get_mut_sample` (src/flat.rs:592-600) followed by the update of the borrowed sample. -/
def modifySample (f : FlatSamples α) (c x y : Nat) (upd : α → α) : Option (FlatSamples α) :=
  match f.layout.index c x y with
  | none => none
  | some idx => (f.samples[idx]?).map fun a => ⟨f.samples.set idx (upd a), f.layout⟩

/-- `IndexMut<(u8, u32, u32)>::index_mut` (src/flat.rs:1376-1383) followed by the update. -/
def indexMutCXY (f : FlatSamples α) (c x y : Nat) (upd : α → α) : R (FlatSamples α) := do
  let index ← unwrapR (f.layout.index c x y)
  let a ← unwrapR f.samples[index]?
  .ok ⟨f.samples.set index (upd a), f.layout⟩

/-- `image_mut_slice` (src/flat.rs:761-773) followed by an update of the borrowed slice. -/
def modifyImageSlice (f : FlatSamples α) (upd : List α → List α) : Option (FlatSamples α) :=
  f.layout.minLength.bind fun n =>
    if f.samples.length < n then none
    else some ⟨overwrite f.samples 0 (upd (f.samples.take n)), f.layout⟩

/-- `as_view_with_mut_samples` (src/flat.rs:650-675). -/
def asViewWithMutSamples (ch : Nat) (f : FlatSamples α) : Except FlatError (FlatView α ch) :=
  if f.layout.channels ≠ ch then .error (.ChannelCountMismatch f.layout.channels ch)
  else if !f.layout.fits f.samples.length then .error .TooLarge
  else .ok ⟨f⟩

end FlatSamples

/-- `View::get_mut_sample` (src/flat.rs:1142-1153) and `ViewMut::get_mut_sample` (1285-1293), which have the
same text, followed by the update. -/
def viewModifySample {α : Type} (f : FlatSamples α) (c x y : Nat) (upd : α → α) : R (Option (FlatSamples α)) :=
  if !f.layout.inBounds c x y then .ok none
  else do
    let index ← f.layout.inBoundsIndex c x y
    .ok ((f.samples[index]?).map fun a => ⟨f.samples.set index (upd a), f.layout⟩)

/-- `View::image_mut_slice` (src/flat.rs:1175-1181) and `ViewMut::image_mut_slice` (1307-1310) followed by an
update of the slice; `min_length` (1158-1160, 1260-1262) unwraps. -/
def viewModifyImageSlice {α : Type} (f : FlatSamples α) (upd : List α → List α) : R (FlatSamples α) := do
  let n ← unwrapR f.layout.minLength
  let s ← sliceR f.samples 0 n
  .ok ⟨overwrite f.samples 0 (upd s), f.layout⟩

namespace FlatView
variable {α : Type} {ch : Nat}

/-- `View::get_mut_sample` (src/flat.rs:1142-1153). -/
def modifySample (v : FlatView α ch) (c x y : Nat) (upd : α → α) : R (Option (FlatView α ch)) := do
  .ok ((← viewModifySample v.inner c x y upd).map FlatView.mk)

/-- `View::image_mut_slice` (src/flat.rs:1175-1181). -/
def modifyImageSlice (v : FlatView α ch) (upd : List α → List α) : R (FlatView α ch) := do
  .ok ⟨← viewModifyImageSlice v.inner upd⟩

end FlatView

namespace FlatViewMut
variable {α : Type} {ch : Nat}

/-- `ViewMut::get_sample` (src/flat.rs:1268-1279). -/
def getSample (v : FlatViewMut α ch) (c x y : Nat) : R (Option α) :=
  if !v.inner.layout.inBounds c x y then .ok none
  else do
    let index ← v.inner.layout.inBoundsIndex c x y
    .ok v.inner.samples[index]?

/-- `ViewMut::get_mut_sample` (src/flat.rs:1285-1293). -/
def modifySample (v : FlatViewMut α ch) (c x y : Nat) (upd : α → α) : R (Option (FlatViewMut α ch)) := do
  .ok ((← viewModifySample v.inner c x y upd).map FlatViewMut.mk)

/-- `ViewMut::min_length` (src/flat.rs:1260-1262). -/
def minLength (v : FlatViewMut α ch) : R Nat := unwrapR v.inner.layout.minLength

/-- `ViewMut::image_slice` (src/flat.rs:1299-1304). -/
def imageSlice (v : FlatViewMut α ch) : R (List α) := do sliceR v.inner.samples 0 (← v.minLength)

/-- `ViewMut::image_mut_slice` (src/flat.rs:1307-1310). -/
def modifyImageSlice (v : FlatViewMut α ch) (upd : List α → List α) : R (FlatViewMut α ch) := do
  .ok ⟨← viewModifyImageSlice v.inner upd⟩

/-- `get_pixel_mut` of `ViewMut` (src/flat.rs:1456-1465) followed by an update of the borrowed pixel, which
may itself panic; `blend_pixel` (1473-1475) is the update `fun p => p.blend(pixel)`. -/
def modifyPixel (v : FlatViewMut α ch) (x y : Nat) (upd : Pix α ch → R (Pix α ch)) : R (FlatViewMut α ch) := do
  if !v.inner.layout.inBounds 0 x y then panicR
  let baseIndex ← v.inner.layout.inBoundsIndex 0 x y
  let e ← addC 64 baseIndex ch
  let p ← fromSlice ch (← sliceR v.inner.samples baseIndex e)
  let q ← upd p
  .ok ⟨⟨overwrite v.inner.samples baseIndex q.toList, v.inner.layout⟩⟩

end FlatViewMut
end Verif
