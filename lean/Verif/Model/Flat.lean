import Verif.Model.Buffer

/-!
# Flat sample buffers (src/flat.rs)

`u8` channel counts, `u32` extents and 64-bit `usize` strides are natural numbers; `FlatSamples::color_hint`
is not modelled (it is only stored).
-/

namespace Verif

/-- `struct SampleLayout` (src/flat.rs:103-121). -/
structure SampleLayout where
  channels : Nat
  channelStride : Nat
  width : Nat
  widthStride : Nat
  height : Nat
  heightStride : Nat
  deriving DecidableEq, Repr

/-- `struct Dim(stride, extent)` (src/flat.rs:125). -/
structure Dim where
  stride : Nat
  extent : Nat
  deriving DecidableEq, Repr

namespace Dim
/-- The derived `Ord` of `Dim`: lexicographic. -/
def le (a b : Dim) : Bool := decide (a.stride < b.stride ∨ (a.stride = b.stride ∧ a.extent ≤ b.extent))
/-- `Dim::checked_len` (src/flat.rs:466-468). -/
def checkedLen (d : Dim) : Option Nat := checkedMul 64 d.stride d.extent
/-- `Dim::len` (src/flat.rs:470-472); plain multiplication. -/
def len (d : Dim) : R Nat := mulC 64 d.stride d.extent
/-- Insertion into a sorted list. -/
def insert (d : Dim) : List Dim → List Dim
  | [] => [d]
  | e :: es => if d.le e then d :: e :: es else e :: insert d es
end Dim

/-- `enum NormalForm` (src/flat.rs:1058-1089). -/
inductive NormalForm
  | Unaliased | PixelPacked | ImagePacked | RowMajorPacked | ColumnMajorPacked
  deriving DecidableEq, Repr

/-- `a >= b` by `PartialOrd for NormalForm` (src/flat.rs:1541-1578): `partial_cmp` is `Greater` or `Equal`. -/
def NormalForm.ge : NormalForm → NormalForm → Bool
  | .Unaliased, .Unaliased => true
  | .PixelPacked, .PixelPacked => true
  | .ImagePacked, .ImagePacked => true
  | .RowMajorPacked, .RowMajorPacked => true
  | .ColumnMajorPacked, .ColumnMajorPacked => true
  | .Unaliased, _ => false
  | _, .Unaliased => true
  | .PixelPacked, .ColumnMajorPacked => false
  | .PixelPacked, .RowMajorPacked => false
  | .RowMajorPacked, .PixelPacked => true
  | .ColumnMajorPacked, .PixelPacked => true
  | .ImagePacked, .ColumnMajorPacked => false
  | .ImagePacked, .RowMajorPacked => false
  | .RowMajorPacked, .ImagePacked => true
  | .ColumnMajorPacked, .ImagePacked => true
  | .ImagePacked, .PixelPacked => false
  | .PixelPacked, .ImagePacked => false
  | .RowMajorPacked, .ColumnMajorPacked => false
  | .ColumnMajorPacked, .RowMajorPacked => false

namespace SampleLayout

/-- `row_major_packed` (src/flat.rs:145-157). -/
def rowMajorPacked (channels width height : Nat) : R SampleLayout := do
  let heightStride ← unwrapR (checkedMul 64 channels width)
  .ok { channels, channelStride := 1, width, widthStride := channels, height, heightStride }

/-- `column_major_packed` (src/flat.rs:176-188). -/
def columnMajorPacked (channels width height : Nat) : R SampleLayout := do
  let widthStride ← unwrapR (checkedMul 64 channels height)
  .ok { channels, channelStride := 1, height, heightStride := channels, width, widthStride }

/-- `in_bounds` (src/flat.rs:397-399). -/
def inBounds (l : SampleLayout) (c x y : Nat) : Bool :=
  decide (c < l.channels) && decide (x < l.width) && decide (y < l.height)

/-- `index_ignoring_bounds` (src/flat.rs:419-432). -/
def indexIgnoringBounds (l : SampleLayout) (c x y : Nat) : Option Nat := do
  let idxC ← checkedMul 64 c l.channelStride
  let idxX ← checkedMul 64 x l.widthStride
  let idxY ← checkedMul 64 y l.heightStride
  let b ← checkedAdd 64 0 idxC
  let b ← checkedAdd 64 b idxX
  checkedAdd 64 b idxY

/-- `index` (src/flat.rs:405-411). -/
def index (l : SampleLayout) (c x y : Nat) : Option Nat :=
  if l.inBounds c x y then l.indexIgnoringBounds c x y else none

/-- `in_bounds_index` (src/flat.rs:443-446); plain arithmetic. -/
def inBoundsIndex (l : SampleLayout) (c x y : Nat) : R Nat := do
  let a ← mulC 64 y l.heightStride
  let b ← mulC 64 x l.widthStride
  let ab ← addC 64 a b
  let d ← mulC 64 c l.channelStride
  addC 64 ab d

/-- `min_length` (src/flat.rs:273-280). -/
def minLength (l : SampleLayout) : Option Nat :=
  if l.width = 0 ∨ l.height = 0 ∨ l.channels = 0 then some 0
  else (l.index (l.channels - 1) (l.width - 1) (l.height - 1)).bind fun idx => checkedAdd 64 idx 1

/-- `fits` (src/flat.rs:284-286). -/
def fits (l : SampleLayout) (len : Nat) : Bool :=
  match l.minLength with
  | some m => decide (m ≤ len)
  | none => false

/-- `increasing_stride_dims` (src/flat.rs:289-303): the slice sort of the standard library (any sorting
algorithm gives this result, the order being total) followed by an assertion. -/
def increasingStrideDims (l : SampleLayout) : R (Dim × Dim × Dim) :=
  match Dim.insert ⟨l.channelStride, l.channels⟩ (Dim.insert ⟨l.widthStride, l.width⟩
      (Dim.insert ⟨l.heightStride, l.height⟩ [])) with
  | [a, b, c] => do
    assertR (decide (a.stride ≤ b.stride) && decide (b.stride ≤ c.stride))
    .ok (a, b, c)
  | _ => panicR

/-- `has_aliased_samples` (src/flat.rs:311-331). -/
def hasAliasedSamples (l : SampleLayout) : R Bool := do
  let (minDim, midDim, maxDim) ← l.increasingStrideDims
  match minDim.checkedLen with
  | none => .ok true
  | some minSize =>
    match midDim.checkedLen with
    | none => .ok true
    | some midSize =>
      match maxDim.checkedLen with
      | none => .ok true
      | some _ => .ok (decide (midDim.stride < minSize) || decide (maxDim.stride < midSize))

/-- `is_normal` (src/flat.rs:341-389). -/
def isNormal (l : SampleLayout) (form : NormalForm) : R Bool := do
  if ← l.hasAliasedSamples then return false
  if form.ge .PixelPacked && l.channelStride != 1 then return false
  let packed ← if form.ge .ImagePacked then do
      let (minDim, midDim, maxDim) ← l.increasingStrideDims
      if 1 ≠ minDim.stride then pure false
      else if (← minDim.len) ≠ midDim.stride then pure false
      else if (← midDim.len) ≠ maxDim.stride then pure false
      else pure true
    else pure true
  if !packed then return false
  let row ← if form.ge .RowMajorPacked then do
      if l.widthStride ≠ l.channels then pure false
      else if (← mulC 64 l.width l.widthStride) ≠ l.heightStride then pure false
      else pure true
    else pure true
  if !row then return false
  let col ← if form.ge .ColumnMajorPacked then do
      if l.heightStride ≠ l.channels then pure false
      else if (← mulC 64 l.height l.heightStride) ≠ l.widthStride then pure false
      else pure true
    else pure true
  if !col then return false
  return true

/-- `shrink_to` (src/flat.rs:453-457). -/
def shrinkTo (l : SampleLayout) (channels width height : Nat) : SampleLayout :=
  { l with channels := min l.channels channels, width := min l.width width, height := min l.height height }

end SampleLayout

/-- `struct FlatSamples<Buffer>` (src/flat.rs:84-98). -/
structure FlatSamples (α : Type) where
  samples : List α
  layout : SampleLayout

/-- `enum Error` of flat.rs (src/flat.rs:1027-1052). -/
inductive FlatError
  | TooLarge
  | NormalFormRequired (f : NormalForm)
  | ChannelCountMismatch (layout pixel : Nat)
  deriving DecidableEq

/-- `struct View<Buffer, P>` (src/flat.rs:990-996), `P` with `ch` channels. -/
structure FlatView (α : Type) (ch : Nat) where
  inner : FlatSamples α

/-- `struct ViewMut<Buffer, P>` (src/flat.rs:1012-1018). -/
structure FlatViewMut (α : Type) (ch : Nat) where
  inner : FlatSamples α

namespace FlatSamples
variable {α : Type}

/-- `get_sample` (src/flat.rs:558-564); `get_mut_sample` (592-600) addresses the same element. -/
def getSample (f : FlatSamples α) (c x y : Nat) : Option α :=
  (f.layout.index c x y).bind fun idx => f.samples[idx]?

/-- `Index<(u8, u32, u32)>::index` (src/flat.rs:1357-1364); `index_mut` (1376-1383) likewise. -/
def indexCXY (f : FlatSamples α) (c x y : Nat) : R α := do
  let index ← unwrapR (f.layout.index c x y)
  unwrapR f.samples[index]?

/-- `image_slice` (src/flat.rs:746-758), `image_mut_slice` (761-773). -/
def imageSlice (f : FlatSamples α) : Option (List α) :=
  f.layout.minLength.bind fun n => if f.samples.length < n then none else some (f.samples.take n)

/-- `as_view` (src/flat.rs:608-633) and `as_view_with_mut_samples` (650-675). -/
def asView (ch : Nat) (f : FlatSamples α) : Except FlatError (FlatView α ch) :=
  if f.layout.channels ≠ ch then .error (.ChannelCountMismatch f.layout.channels ch)
  else if !f.layout.fits f.samples.length then .error .TooLarge
  else .ok ⟨f⟩

/-- `as_view_mut` (src/flat.rs:688-717); the outer `R` records panics of `is_normal`. -/
def asViewMut (ch : Nat) (f : FlatSamples α) : R (Except FlatError (FlatViewMut α ch)) := do
  if !(← f.layout.isNormal .PixelPacked) then return .error (.NormalFormRequired .PixelPacked)
  if f.layout.channels ≠ ch then return .error (.ChannelCountMismatch f.layout.channels ch)
  if !f.layout.fits f.samples.length then return .error .TooLarge
  return .ok ⟨f⟩

/-- `try_into_buffer` (src/flat.rs:780-807). -/
def tryIntoBuffer (ch : Nat) (f : FlatSamples α) : R (Except FlatError (ImageBuffer α ch)) := do
  if !(← f.layout.isNormal .RowMajorPacked) then return .error (.NormalFormRequired .RowMajorPacked)
  if f.layout.channels ≠ ch then return .error (.ChannelCountMismatch f.layout.channels ch)
  if !f.layout.fits f.samples.length then return .error .TooLarge
  let b ← unwrapR (ImageBuffer.fromRaw ch f.layout.width f.layout.height f.samples)
  return .ok b

/-- `with_monocolor` (src/flat.rs:954-973). -/
def withMonocolor {ch : Nat} (pixel : Pix α ch) (width height : Nat) : FlatSamples α :=
  ⟨pixel.toList, ⟨ch, 1, width, 0, height, 0⟩⟩

end FlatSamples

/-- `ImageBuffer::into_flat_samples` (src/buffer.rs:842-853) through `sample_layout` (831-834);
`as_flat_samples` (858-868) has the same contents. -/
def ImageBuffer.intoFlatSamples {α : Type} {ch : Nat} (b : ImageBuffer α ch) : R (FlatSamples α) := do
  let layout ← SampleLayout.rowMajorPacked ch b.width b.height
  .ok ⟨b.data, layout⟩

/-- `GenericImageView::get_pixel` of `View` (src/flat.rs:1396-1416) and of `ViewMut` (1429-1449). -/
def flatGetPixel {α : Type} (ch : Nat) (f : FlatSamples α) (x y : Nat) : R (Pix α ch) := do
  if !f.layout.inBounds 0 x y then panicR
  let baseIndex ← f.layout.inBoundsIndex 0 x y
  let buffer ← (List.range ch).mapM fun c => do
    let o ← mulC 64 c f.layout.channelStride
    let index ← addC 64 baseIndex o
    unwrapR f.samples[index]?
  fromSlice ch buffer

namespace FlatView
variable {α : Type} {ch : Nat}

instance : GenericImageView (FlatView α ch) (Pix α ch) where
  dims v := (v.inner.layout.width, v.inner.layout.height)
  getPixel v := flatGetPixel ch v.inner

/-- `View::get_sample` (src/flat.rs:1124-1132). -/
def getSample (v : FlatView α ch) (c x y : Nat) : R (Option α) :=
  if !v.inner.layout.inBounds c x y then .ok none
  else do
    let index ← v.inner.layout.inBoundsIndex c x y
    .ok v.inner.samples[index]?

/-- `View::min_length` (src/flat.rs:1158-1160). -/
def minLength (v : FlatView α ch) : R Nat := unwrapR v.inner.layout.minLength

/-- `View::image_slice` (src/flat.rs:1166-1168). -/
def imageSlice (v : FlatView α ch) : R (List α) := do sliceR v.inner.samples 0 (← v.minLength)

/-- `View::shrink_to` (src/flat.rs:1188-1191). -/
def shrinkTo (v : FlatView α ch) (width height : Nat) : FlatView α ch :=
  ⟨⟨v.inner.samples, v.inner.layout.shrinkTo v.inner.layout.channels width height⟩⟩

/-- `View::try_upgrade` (src/flat.rs:1211-1224). -/
def tryUpgrade (v : FlatView α ch) : R (Except FlatError (FlatViewMut α ch)) := do
  if !(← v.inner.layout.isNormal .PixelPacked) then return .error (.NormalFormRequired .PixelPacked)
  return .ok ⟨v.inner⟩

end FlatView

namespace FlatViewMut
variable {α : Type} {ch : Nat}

/-- `put_pixel` of `ViewMut` (src/flat.rs:1468-1470) through `get_pixel_mut` (1456-1465). -/
def putPixel (v : FlatViewMut α ch) (x y : Nat) (p : Pix α ch) : R (FlatViewMut α ch) := do
  if !v.inner.layout.inBounds 0 x y then panicR
  let baseIndex ← v.inner.layout.inBoundsIndex 0 x y
  let e ← addC 64 baseIndex ch
  let _ ← fromSlice ch (← sliceR v.inner.samples baseIndex e)
  .ok ⟨⟨overwrite v.inner.samples baseIndex p.toList, v.inner.layout⟩⟩

instance : GenericImageView (FlatViewMut α ch) (Pix α ch) where
  dims v := (v.inner.layout.width, v.inner.layout.height)
  getPixel v := flatGetPixel ch v.inner

instance : GenericImage (FlatViewMut α ch) (Pix α ch) where
  putPixel := putPixel

/-- `ViewMut::shrink_to` (src/flat.rs:1317-1320). -/
def shrinkTo (v : FlatViewMut α ch) (width height : Nat) : FlatViewMut α ch :=
  ⟨⟨v.inner.samples, v.inner.layout.shrinkTo v.inner.layout.channels width height⟩⟩

end FlatViewMut
end Verif
