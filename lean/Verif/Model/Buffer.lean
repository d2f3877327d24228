import Verif.Model.Image

/-!
# `ImageBuffer` (src/buffer.rs)

A pixel of a type with `ch` channels over samples `α` is `Pix α ch = Fin ch → α`
(`struct Rgb<T>([T; 3])` etc., src/color.rs:235-420). `usize` has 64 bits.
-/

namespace Verif

/-- A pixel: its channels. -/
abbrev Pix (α : Type) (ch : Nat) := Fin ch → α

/-- `struct ImageBuffer<P, Container>` (src/buffer.rs:656-661). `ch` is `P::CHANNEL_COUNT`;
`data` is the contents of the container. -/
structure ImageBuffer (α : Type) (ch : Nat) where
  width : Nat
  height : Nat
  data : List α
  deriving DecidableEq

/-- `&data[s..e]` -/
def sliceR {α : Type} (data : List α) (s e : Nat) : R (List α) :=
  if s ≤ e ∧ e ≤ data.length then .ok ((data.drop s).take (e - s)) else panicR

/-- `P::from_slice(slice)` with its `assert_eq!(slice.len(), channels)` (src/color.rs:288-291). -/
def fromSlice {α : Type} (ch : Nat) (l : List α) : R (Pix α ch) :=
  if h : l.length = ch then .ok (fun i => l[i.val]'(by omega)) else panicR

/-- The channels of a pixel as a list (`Pixel::channels`, src/color.rs:262-264). -/
def Pix.toList {α : Type} {ch : Nat} (p : Pix α ch) : List α := List.ofFn p

/-- Overwrite `data[s..s+l.len()]` by `l` (the caller has checked the range). -/
def overwrite {α : Type} (data : List α) (s : Nat) (l : List α) : List α :=
  data.take s ++ l ++ data.drop (s + l.length)

/-- `slice.chunks_exact(n)`: the full chunks; panics for `n = 0` (checked by callers here). -/
def chunksExact {α : Type} (n : Nat) (l : List α) : List (List α) :=
  (List.range (l.length / n)).map fun k => (l.drop (k * n)).take n

namespace ImageBuffer
variable {α : Type} {ch : Nat}

/-- `image_buffer_len` (src/buffer.rs:807-811). -/
def imageBufferLen (ch width height : Nat) : Option Nat :=
  (checkedMul 64 ch width).bind fun size => checkedMul 64 size height

/-- `check_image_fits` (src/buffer.rs:802-805). -/
def checkImageFits (ch width height len : Nat) : Bool :=
  match imageBufferLen ch width height with
  | some minLen => decide (minLen ≤ len)
  | none => false

/-- `from_raw` (src/buffer.rs:674-685); `from_vec` (src/buffer.rs:1317-1323) is the same. -/
def fromRaw (ch width height : Nat) (buf : List α) : Option (ImageBuffer α ch) :=
  if checkImageFits ch width height buf.length then some ⟨width, height, buf⟩ else none

/-- `pixel_indices_unchecked` (src/buffer.rs:823-828): `start..end`, plain usize arithmetic. -/
def pixelIndicesUnchecked (b : ImageBuffer α ch) (x y : Nat) : R (Nat × Nat) := do
  let row ← mulC 64 y b.width
  let i ← addC 64 row x
  let minIndex ← mulC 64 i ch
  let e ← addC 64 minIndex ch
  .ok (minIndex, e)

/-- `pixel_indices` (src/buffer.rs:814-820). -/
def pixelIndices (b : ImageBuffer α ch) (x y : Nat) : R (Option (Nat × Nat)) :=
  if b.width ≤ x ∨ b.height ≤ y then .ok none
  else do .ok (some (← b.pixelIndicesUnchecked x y))

/-- `get_pixel` (src/buffer.rs:769-778). -/
def getPixel (b : ImageBuffer α ch) (x y : Nat) : R (Pix α ch) := do
  match ← b.pixelIndices x y with
  | none => panicR
  | some (s, e) => fromSlice ch (← sliceR b.data s e)

/-- `get_pixel_checked` (src/buffer.rs:782-795); `get_pixel_mut_checked` (960-973) has the same
control flow. The outer `R` records the `assert` of `from_slice`. -/
def getPixelChecked (b : ImageBuffer α ch) (x y : Nat) : R (Option (Pix α ch)) :=
  if b.width ≤ x then .ok none
  else
    let i := satMul 64 (satAdd 64 (satMul 64 y b.width) x) ch
    match checkedAdd 64 i ch with
    | none => .ok none
    | some e =>
      if i ≤ e ∧ e ≤ b.data.length then do
        .ok (some (← fromSlice ch ((b.data.drop i).take (e - i))))
      else .ok none

/-- `put_pixel` (src/buffer.rs:982-984, 1200-1202) through `get_pixel_mut` (947-956). -/
def putPixel (b : ImageBuffer α ch) (x y : Nat) (p : Pix α ch) : R (ImageBuffer α ch) := do
  match ← b.pixelIndices x y with
  | none => panicR
  | some (s, e) =>
    let _ ← fromSlice ch (← sliceR b.data s e)
    .ok { b with data := overwrite b.data s p.toList }

/-- `GenericImageView`/`GenericImage` for `ImageBuffer` (src/buffer.rs:1168-1254). -/
instance : GenericImageView (ImageBuffer α ch) (Pix α ch) where
  dims b := (b.width, b.height)
  getPixel := getPixel

instance : GenericImage (ImageBuffer α ch) (Pix α ch) where
  putPixel := putPixel

/-- `inner_pixels` (src/buffer.rs:713-716). -/
def innerPixels (b : ImageBuffer α ch) : R (List α) := do
  let len ← unwrapR (imageBufferLen ch b.width b.height)
  sliceR b.data 0 len

/-- `pixels()` (src/buffer.rs:720-726), as the list of items the iterator yields; `chunks_exact`
panics on a zero chunk size. -/
def pixels (b : ImageBuffer α ch) : R (List (Pix α ch)) := do
  let inner ← b.innerPixels
  assertR (ch != 0)
  (chunksExact ch inner).mapM (fromSlice ch)

/-- State of `EnumeratePixels` (src/buffer.rs:330-338). -/
structure EnumeratePixels (α : Type) (ch : Nat) where
  pixels : List (Pix α ch)
  x : Nat
  y : Nat
  width : Nat

/-- `EnumeratePixels::next` (src/buffer.rs:347-355); `EnumeratePixelsMut::next` (485-493) has the
same control flow. -/
def EnumeratePixels.next (s : EnumeratePixels α ch) :
    R (Option (Nat × Nat × Pix α ch) × EnumeratePixels α ch) := do
  let (x, y) ← if s.width ≤ s.x then (do .ok (0, ← addC 32 s.y 1)) else .ok (s.x, s.y)
  let x1 ← addC 32 x 1
  match s.pixels with
  | [] => .ok (none, { s with x := x1, y := y })
  | p :: ps => .ok (some (x, y, p), { s with pixels := ps, x := x1, y := y })

/-- `enumerate_pixels` (src/buffer.rs:742-749). -/
def enumeratePixels (b : ImageBuffer α ch) : R (EnumeratePixels α ch) := do
  .ok ⟨← b.pixels, 0, 0, b.width⟩

/-- `Rows::with_image` (src/buffer.rs:156-172) and `Rows::next` (182-188), as the list of rows. -/
def rows (b : ImageBuffer α ch) : R (List (List (Pix α ch))) := do
  let rowLen ← mulC 64 b.width ch
  if rowLen = 0 then .ok []
  else do
    let n ← mulC 64 rowLen b.height
    if n ≤ b.data.length then
      (chunksExact rowLen (b.data.take n)).mapM fun row => (chunksExact ch row).mapM (fromSlice ch)
    else panicR

/-- State of `EnumerateRows` (src/buffer.rs:397-404). -/
structure EnumerateRows (α : Type) (ch : Nat) where
  rows : List (List (Pix α ch))
  y : Nat
  width : Nat

/-- `EnumerateRows::next` (src/buffer.rs:413-427). -/
def EnumerateRows.next (s : EnumerateRows α ch) :
    R (Option (Nat × EnumeratePixels α ch) × EnumerateRows α ch) := do
  let y := s.y
  let y1 ← addC 32 y 1
  match s.rows with
  | [] => .ok (none, { s with y := y1 })
  | r :: rs => .ok (some (y, ⟨r, 0, y, s.width⟩), { s with rows := rs, y := y1 })

/-- `enumerate_rows` (src/buffer.rs:754-760). -/
def enumerateRows (b : ImageBuffer α ch) : R (EnumerateRows α ch) := do
  .ok ⟨← b.rows, 0, b.width⟩

/-- `ImageBuffer::new` (src/buffer.rs:1272-1281); `z` is the zero sample. -/
def new (ch : Nat) (z : α) (width height : Nat) : R (ImageBuffer α ch) := do
  let size ← unwrapR (imageBufferLen ch width height)
  .ok ⟨width, height, List.replicate size z⟩

/-- Overwriting each pixel yielded by `pixels_mut` (src/buffer.rs:898-904, chunks of the inner
pixels): the `k`-th chunk becomes the `k`-th of `ps`, the slack after the image stays. -/
def setPixels (b : ImageBuffer α ch) (ps : List (Pix α ch)) : ImageBuffer α ch :=
  { b with data := overwrite b.data 0 (ps.flatMap Pix.toList) }

/-- `from_pixel` (src/buffer.rs:1288-1294). -/
def fromPixel (z : α) (width height : Nat) (pixel : Pix α ch) : R (ImageBuffer α ch) := do
  let buf ← new ch z width height
  let ps ← buf.pixels
  .ok (buf.setPixels (ps.map fun _ => pixel))

/-- Drain an iterator given by its `next`: the items up to the first `None`. `fuel` bounds the
number of calls. -/
def drain {σ β : Type} (next : σ → R (Option β × σ)) : Nat → σ → R (List β)
  | 0, _ => .ok []
  | n + 1, s => do
    let (o, s') ← next s
    match o with
    | none => .ok []
    | some b => do .ok (b :: (← drain next n s'))

/-- `from_fn` (src/buffer.rs:1303-1312): `for (x, y, p) in buf.enumerate_pixels_mut() { *p = f(x, y) }`. -/
def fromFn (z : α) (width height : Nat) (f : Nat → Nat → Pix α ch) : R (ImageBuffer α ch) := do
  let buf ← new ch z width height
  let it ← buf.enumeratePixels
  let items ← drain EnumeratePixels.next (it.pixels.length + 1) it
  .ok (buf.setPixels (items.map fun (x, y, _) => f x y))

/-- `ConvertBuffer::convert` (src/buffer.rs:1400-1407): `zip` of the destination and source pixels,
`conv` is `from_color` (which overwrites every channel of the destination and may panic). -/
def convert {β : Type} {ch' : Nat} (z : β) (conv : Pix α ch → R (Pix β ch')) (b : ImageBuffer α ch) :
    R (ImageBuffer β ch') := do
  let buffer ← new ch' z b.width b.height
  let to ← buffer.pixels
  let from_ ← b.pixels
  .ok (buffer.setPixels (← (to.zip from_).mapM fun (_, f) => conv f))

/-- `slice.copy_within(start..end, dst)` of the standard library: memmove, panics when a range is
outside the slice. -/
def sliceCopyWithin (data : List α) (s e dst : Nat) : R (List α) :=
  if s ≤ e ∧ e ≤ data.length ∧ dst + (e - s) ≤ data.length then
    .ok (overwrite data dst ((data.drop s).take (e - s)))
  else panicR

/-- One row of `ImageBuffer::copy_within` (src/buffer.rs:1236-1241 = 1245-1250). -/
def copyRow (sx sy width dx dy y : Nat) (b : ImageBuffer α ch) : R (ImageBuffer α ch) := do
  let sy ← addC 32 sy y
  let dy ← addC 32 dy y
  let (start, _) ← b.pixelIndicesUnchecked sx sy
  let xe ← subC (← addC 32 sx width) 1
  let (_, e) ← b.pixelIndicesUnchecked xe sy
  let (dst, _) ← b.pixelIndicesUnchecked dx dy
  .ok { b with data := ← sliceCopyWithin b.data start e dst }

/-- `ImageBuffer::copy_within` (src/buffer.rs:1219-1254); the rectangle is `(sx, sy, width, height)`. -/
def copyWithin (b : ImageBuffer α ch) (sx sy width height dx dy : Nat) :
    R (Bool × ImageBuffer α ch) := do
  assertR (decide (sx < b.width) && decide (dx < b.width))
  assertR (decide (sy < b.height) && decide (dy < b.height))
  if b.width - max dx sx < width ∨ b.height - max dy sy < height then .ok (false, b)
  else if sy < dy then do
    .ok (true, ← forRangeRev height (copyRow sx sy width dx dy) b)
  else do
    .ok (true, ← forRange height (copyRow sx sy width dx dy) b)

end ImageBuffer
end Verif
