import Verif.Model.Buffer

/-!
# The iterators of `ImageBuffer` as objects (src/buffer.rs:20-573)

`Model/Buffer` has the items that the iterators yield from front to back. Here the iterators are the objects a program holds: it may take items from either end,
ask for the length, keep the references and iterators it got, and read or write through them in any order. A slice of the samples of the buffer is the position
of its first sample and its length, so that the shared and the mutable iterators have the same model.
-/

namespace Verif
namespace BufIter
open ImageBuffer

/-- A slice of the samples of the buffer. -/
structure Slice where
  start : Nat
  len : Nat
deriving DecidableEq

/-- `std::slice::ChunksExact` and `ChunksExactMut` (external, from their documentation): the samples not yet handed out, which are whole chunks. -/
structure ChunksExact where
  v : Slice
  size : Nat
deriving DecidableEq

/-- `chunks_exact(size)`: panics for size 0; the samples behind the last whole chunk are left out. -/
def chunksExact (s : Slice) (size : Nat) : R ChunksExact := do
  assertR (size != 0)
  .ok ⟨⟨s.start, s.len - s.len % size⟩, size⟩

/-- `ChunksExact::next`. -/
def ChunksExact.next (c : ChunksExact) : Option Slice × ChunksExact :=
  if c.v.len < c.size then (none, c) else (some ⟨c.v.start, c.size⟩, { c with v := ⟨c.v.start + c.size, c.v.len - c.size⟩ })

/-- `ChunksExact::next_back`. -/
def ChunksExact.nextBack (c : ChunksExact) : Option Slice × ChunksExact :=
  if c.v.len < c.size then (none, c) else (some ⟨c.v.start + (c.v.len - c.size), c.size⟩, { c with v := ⟨c.v.start, c.v.len - c.size⟩ })

/-- `ChunksExact::len`. -/
def ChunksExact.len (c : ChunksExact) : Nat := c.v.len / c.size

/-- `inner_pixels` and `inner_pixels_mut` (src/buffer.rs:713-716, 892-895), as a slice. -/
def innerSlice {α : Type} {ch : Nat} (b : ImageBuffer α ch) : R Slice := do
  let len ← unwrapR (imageBufferLen ch b.width b.height)
  if len ≤ b.data.length then .ok ⟨0, len⟩ else panicR

/-- `pixels()` and `pixels_mut()` (src/buffer.rs:720-726, 898-904). -/
def pixels {α : Type} {ch : Nat} (b : ImageBuffer α ch) : R ChunksExact := do
  chunksExact (← innerSlice b) ch

/-- `Rows::with_image` and `RowsMut::with_image` (src/buffer.rs:156-172, 254-270). -/
def rows {α : Type} {ch : Nat} (b : ImageBuffer α ch) : R ChunksExact := do
  let rowLen ← mulC 64 b.width ch
  if rowLen = 0 then chunksExact ⟨0, 0⟩ 1
  else do
    let n ← mulC 64 rowLen b.height
    if n ≤ b.data.length then chunksExact ⟨0, n⟩ rowLen else panicR

/-- `Rows::next` and `RowsMut::next` (src/buffer.rs:182-188, 280-286): the iterator over the pixels of the row. -/
def rowsNext (ch : Nat) (r : ChunksExact) : R (Option ChunksExact × ChunksExact) :=
  match r.next with
  | (none, r') => .ok (none, r')
  | (some row, r') => do .ok (some (← chunksExact row ch), r')

/-- `Rows::next_back` and `RowsMut::next_back` (src/buffer.rs:211-217, 309-315). -/
def rowsNextBack (ch : Nat) (r : ChunksExact) : R (Option ChunksExact × ChunksExact) :=
  match r.nextBack with
  | (none, r') => .ok (none, r')
  | (some row, r') => do .ok (some (← chunksExact row ch), r')

/-- Reading through the reference that `from_slice` (src/color.rs:299-302) makes of a chunk: the length is asserted. -/
def readRef {α : Type} {ch : Nat} (b : ImageBuffer α ch) (s : Slice) : R (Pix α ch) := do
  fromSlice ch (← sliceR b.data s.start (s.start + s.len))

/-- Assigning a pixel through the reference that `from_slice_mut` (src/color.rs:303-306) makes of a chunk. -/
def writeRef {α : Type} {ch : Nat} (b : ImageBuffer α ch) (s : Slice) (p : Pix α ch) : R (ImageBuffer α ch) := do
  assertR (decide (s.len = ch))
  if s.start + s.len ≤ b.data.length then .ok { b with data := overwrite b.data s.start p.toList } else panicR

/-- What a program does with the iterators; `i` and `k` say which of the pixel iterators and pixel references it got so far is meant. -/
inductive Step (P : Type) where
  | rowNext | rowBack | rowLen
  | next (i : Nat) | nextBack (i : Nat) | len (i : Nat)
  | read (k : Nat) | write (k : Nat) (p : P)

/-- What it learns: whether an item was there (with its coordinates for the enumerating iterators), a length, the value of a pixel, nothing. `invalid` is
the answer to steps no program can make (an iterator or a reference it does not hold, writing through a method the iterator does not have). -/
inductive Ans (P : Type) where
  | item (found : Bool)
  | row (y : Option Nat)
  | coord (xy : Option (Nat × Nat))
  | count (n : Nat)
  | pixel (p : P)
  | done
  | invalid

/-- The buffer and the objects borrowed from it. -/
structure Held (α : Type) (ch : Nat) where
  buf : ImageBuffer α ch
  rows : Option ChunksExact
  its : List ChunksExact
  refs : List Slice

/-- One step with the iterators `Rows`, `RowsMut`, `Pixels` and `PixelsMut`: `Pixels::next`, `len`, `next_back` (src/buffer.rs:34-36, 49-51, 59-61),
`PixelsMut` (98-100, 113-115, 123-127), `Rows` (182-188, 201-203, 211-217), `RowsMut` (280-286, 299-301, 309-315). -/
def step {α : Type} {ch : Nat} (h : Held α ch) : Step (Pix α ch) → R (Ans (Pix α ch) × Held α ch)
  | .rowNext => match h.rows with
    | none => .ok (.invalid, h)
    | some r => do match ← rowsNext ch r with
      | (none, r') => .ok (.item false, { h with rows := some r' })
      | (some c, r') => .ok (.item true, { h with rows := some r', its := h.its ++ [c] })
  | .rowBack => match h.rows with
    | none => .ok (.invalid, h)
    | some r => do match ← rowsNextBack ch r with
      | (none, r') => .ok (.item false, { h with rows := some r' })
      | (some c, r') => .ok (.item true, { h with rows := some r', its := h.its ++ [c] })
  | .rowLen => match h.rows with
    | none => .ok (.invalid, h)
    | some r => .ok (.count r.len, h)
  | .next i => match h.its[i]? with
    | none => .ok (.invalid, h)
    | some c => match c.next with
      | (none, c') => .ok (.item false, { h with its := h.its.set i c' })
      | (some s, c') => .ok (.item true, { h with its := h.its.set i c', refs := h.refs ++ [s] })
  | .nextBack i => match h.its[i]? with
    | none => .ok (.invalid, h)
    | some c => match c.nextBack with
      | (none, c') => .ok (.item false, { h with its := h.its.set i c' })
      | (some s, c') => .ok (.item true, { h with its := h.its.set i c', refs := h.refs ++ [s] })
  | .len i => match h.its[i]? with
    | none => .ok (.invalid, h)
    | some c => .ok (.count c.len, h)
  | .read k => match h.refs[k]? with
    | none => .ok (.invalid, h)
    | some s => do .ok (.pixel (← readRef h.buf s), h)
  | .write k p => match h.refs[k]? with
    | none => .ok (.invalid, h)
    | some s => do .ok (.done, { h with buf := ← writeRef h.buf s p })

/-- A history: the answers and the final buffer. -/
def run {α : Type} {ch : Nat} (h : Held α ch) : List (Step (Pix α ch)) → R (List (Ans (Pix α ch)) × ImageBuffer α ch)
  | [] => .ok ([], h.buf)
  | s :: ss => do
    let (a, h') ← step h s
    let (as, b) ← run h' ss
    .ok (a :: as, b)

/-- A program that uses `pixels()` or `pixels_mut()`. -/
def usePixels {α : Type} {ch : Nat} (b : ImageBuffer α ch) (ss : List (Step (Pix α ch))) : R (List (Ans (Pix α ch)) × ImageBuffer α ch) := do
  run ⟨b, none, [← pixels b], []⟩ ss

/-- A program that uses `rows()` or `rows_mut()`. -/
def useRows {α : Type} {ch : Nat} (b : ImageBuffer α ch) (ss : List (Step (Pix α ch))) : R (List (Ans (Pix α ch)) × ImageBuffer α ch) := do
  run ⟨b, some (← rows b), [], []⟩ ss

/-! ## The enumerating iterators -/

/-- `struct EnumeratePixels` and `EnumeratePixelsMut` (src/buffer.rs:330-338, 468-476). -/
structure EnumPixels where
  pixels : ChunksExact
  x : Nat
  y : Nat
  width : Nat

/-- `EnumeratePixels::next` and `EnumeratePixelsMut::next` (src/buffer.rs:347-355, 485-493). -/
def EnumPixels.next (e : EnumPixels) : R (Option (Nat × Nat × Slice) × EnumPixels) := do
  let (x, y) ← if e.width ≤ e.x then (do .ok (0, ← addC 32 e.y 1)) else .ok (e.x, e.y)
  let x1 ← addC 32 x 1
  match e.pixels.next with
  | (none, c) => .ok (none, ⟨c, x1, y, e.width⟩)
  | (some s, c) => .ok (some (x, y, s), ⟨c, x1, y, e.width⟩)

/-- `struct EnumerateRows` and `EnumerateRowsMut` (src/buffer.rs:397-404, 526-533). -/
structure EnumRows where
  rows : ChunksExact
  y : Nat
  width : Nat

/-- `EnumerateRows::next` and `EnumerateRowsMut::next` (src/buffer.rs:413-427, 542-556). -/
def EnumRows.next (ch : Nat) (e : EnumRows) : R (Option (Nat × EnumPixels) × EnumRows) := do
  let y := e.y
  let y1 ← addC 32 y 1
  match ← rowsNext ch e.rows with
  | (none, r) => .ok (none, ⟨r, y1, e.width⟩)
  | (some c, r) => .ok (some (y, ⟨c, 0, y, e.width⟩), ⟨r, y1, e.width⟩)

/-- The buffer and the enumerating objects borrowed from it. -/
structure EHeld (α : Type) (ch : Nat) where
  buf : ImageBuffer α ch
  rows : Option EnumRows
  its : List EnumPixels
  refs : List Slice

/-- One step with `EnumerateRows(Mut)` and `EnumeratePixels(Mut)`: `next` and `len` (src/buffer.rs:347-355, 368-370, 413-427, 440-442, 485-493, 506-508,
542-556, 569-571); they have no `next_back`. -/
def estep {α : Type} {ch : Nat} (h : EHeld α ch) : Step (Pix α ch) → R (Ans (Pix α ch) × EHeld α ch)
  | .rowNext => match h.rows with
    | none => .ok (.invalid, h)
    | some r => do match ← r.next ch with
      | (none, r') => .ok (.row none, { h with rows := some r' })
      | (some (y, c), r') => .ok (.row (some y), { h with rows := some r', its := h.its ++ [c] })
  | .rowLen => match h.rows with
    | none => .ok (.invalid, h)
    | some r => .ok (.count r.rows.len, h)
  | .next i => match h.its[i]? with
    | none => .ok (.invalid, h)
    | some c => do match ← c.next with
      | (none, c') => .ok (.coord none, { h with its := h.its.set i c' })
      | (some (x, y, s), c') => .ok (.coord (some (x, y)), { h with its := h.its.set i c', refs := h.refs ++ [s] })
  | .len i => match h.its[i]? with
    | none => .ok (.invalid, h)
    | some c => .ok (.count c.pixels.len, h)
  | .read k => match h.refs[k]? with
    | none => .ok (.invalid, h)
    | some s => do .ok (.pixel (← readRef h.buf s), h)
  | .write k p => match h.refs[k]? with
    | none => .ok (.invalid, h)
    | some s => do .ok (.done, { h with buf := ← writeRef h.buf s p })
  | .rowBack | .nextBack _ => .ok (.invalid, h)

/-- A history with the enumerating iterators. -/
def erun {α : Type} {ch : Nat} (h : EHeld α ch) : List (Step (Pix α ch)) → R (List (Ans (Pix α ch)) × ImageBuffer α ch)
  | [] => .ok ([], h.buf)
  | s :: ss => do
    let (a, h') ← estep h s
    let (as, b) ← erun h' ss
    .ok (a :: as, b)

/-- A program that uses `enumerate_pixels()` or `enumerate_pixels_mut()` (src/buffer.rs:742-749, 918-926). -/
def useEnumPixels {α : Type} {ch : Nat} (b : ImageBuffer α ch) (ss : List (Step (Pix α ch))) : R (List (Ans (Pix α ch)) × ImageBuffer α ch) := do
  erun ⟨b, none, [⟨← pixels b, 0, 0, b.width⟩], []⟩ ss

/-- A program that uses `enumerate_rows()` or `enumerate_rows_mut()` (src/buffer.rs:754-760, 931-938). -/
def useEnumRows {α : Type} {ch : Nat} (b : ImageBuffer α ch) (ss : List (Step (Pix α ch))) : R (List (Ans (Pix α ch)) × ImageBuffer α ch) := do
  erun ⟨b, some ⟨← rows b, 0, b.width⟩, [], []⟩ ss

end BufIter
end Verif
