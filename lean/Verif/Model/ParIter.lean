import Verif.Model.Buffer

/-!
# Parallel iterators (src/buffer_par.rs)

`rayon` is not in this repository; what is used of it is its documented interface: a parallel
iterator is cut into pieces by `Producer::split_at`, which the scheduler may call any number of times
with any index up to the length (`Split` below is one such history), each piece is run sequentially,
and the pieces run concurrently. The results of the pieces are combined in order
(`Consumer::split_at`, `Reducer::reduce`).
-/

namespace Verif.Par
open Verif ImageBuffer

/-- A history of `split_at` calls of the scheduler. -/
inductive Split where
  | leaf
  | node (k : Nat) (l r : Split)

/-- `rayon`'s producer for `par_chunks_exact(n)` followed by `enumerate()`: the samples of this
piece, the position of the first of them in the container, and the number of the first chunk.
(`PixelsPar`, `PixelsMutPar`: src/buffer_par.rs:12-18, 76-82; `EnumeratePixelsPar`,
`EnumeratePixelsMutPar`: 141-148, 228-235, where `enumerate()` is applied.) -/
structure Producer (α : Type) where
  slice : List α
  base : Nat
  index : Nat

/-- `split_at(k)` of the chunk producer (`slice.split_at(k * chunk_size)`, panics beyond the end)
and of `enumerate` (`offset + k`). -/
def Producer.splitAt {α : Type} (n : Nat) (p : Producer α) (k : Nat) : R (Producer α × Producer α) := do
  let at_ ← mulC 64 k n
  if at_ ≤ p.slice.length then
    .ok (⟨p.slice.take at_, p.base, p.index⟩, ⟨p.slice.drop at_, p.base + at_, p.index + k⟩)
  else panicR

/-- An item: number of the pixel, where its samples begin, its samples. -/
structure Item (α : Type) where
  number : Nat
  start : Nat
  chunk : List α
  deriving DecidableEq

/-- The items of one piece, in the order its thread meets them. -/
def Producer.items {α : Type} (n : Nat) (p : Producer α) : List (Item α) :=
  (chunksExact n p.slice).zipIdx.map fun q => ⟨p.index + q.2, p.base + q.2 * n, q.1⟩

/-- Run a consumer over a splitting history: `leafR` runs a piece, `combine` is
`Reducer::reduce`. The scheduler never splits beyond the length of the piece. -/
def bridge {α β : Type} (n : Nat) (leafR : List (Item α) → R β) (combine : β → β → β) :
    Split → Producer α → R β
  | .leaf, p => leafR (p.items n)
  | .node k l r, p => do
    let (a, b) ← p.splitAt n (min k (p.slice.length / n))
    let x ← bridge n leafR combine l a
    let y ← bridge n leafR combine r b
    .ok (combine x y)

variable {α : Type} {ch : Nat}

/-- `par_pixels`/`par_pixels_mut` (src/buffer_par.rs:324-330, 354-360): chunks of the inner pixels;
`par_chunks_exact` panics on a zero chunk size. -/
def parChunks (b : ImageBuffer α ch) : R (Producer α) := do
  let inner ← b.innerPixels
  assertR (ch != 0)
  .ok ⟨inner, 0, 0⟩

/-- `len` (src/buffer_par.rs:52-54, 116-118, 196-198, 283-285): the number of chunks. -/
def parLen (b : ImageBuffer α ch) : R Nat := do
  let p ← parChunks b
  .ok (p.slice.length / ch)

/-- The closure of `PixelsPar` (src/buffer_par.rs:27-34, 46-50, 56-60): `P::from_slice`. -/
def pixelItem (ch : Nat) (it : Item α) : R (Pix α ch) := fromSlice ch it.chunk

/-- The closure of `EnumeratePixelsPar` (src/buffer_par.rs:157-171, 183-194, 200-211): coordinates
from the number of the pixel; `%` and `/` panic for a zero width, `as u32` keeps 32 bits. -/
def coords (width i : Nat) : R (Nat × Nat) :=
  if width = 0 then panicR else .ok (i % width % 2 ^ 32, i / width % 2 ^ 32)

/-- `par_enumerate_pixels` item (src/buffer_par.rs:157-171). -/
def enumItem (ch width : Nat) (it : Item α) : R (Nat × Nat × Pix α ch) := do
  let p ← pixelItem ch it
  let (x, y) ← coords width it.number
  .ok (x, y, p)

/-- `par_pixels()` run with an ordered consumer (`collect`). -/
def parPixels (b : ImageBuffer α ch) (t : Split) : R (List (Pix α ch)) := do
  let p ← parChunks b
  bridge ch (fun its => its.mapM (pixelItem ch)) (· ++ ·) t p

/-- `par_enumerate_pixels()` run with an ordered consumer (`collect`). -/
def parEnumeratePixels (b : ImageBuffer α ch) (t : Split) : R (List (Nat × Nat × Pix α ch)) := do
  let p ← parChunks b
  bridge ch (fun its => its.mapM (enumItem ch b.width)) (· ++ ·) t p

/-- `par_pixels().map(f).reduce(|| e, op)`: each piece folds from `e`, pieces are combined by `op`. -/
def parReduce {β : Type} (b : ImageBuffer α ch) (f : Pix α ch → β) (e : β) (op : β → β → β)
    (t : Split) : R β := do
  let p ← parChunks b
  bridge ch (fun its => do
    let ps ← its.mapM (pixelItem ch)
    .ok (ps.foldl (fun a q => op a (f q)) e)) op t p

/-! ## Mutable iteration: the memory and the threads -/

/-- A task: what one call of the closure does with the chunk at `start`: it reads the `ch` samples
of its pixel, then stores the samples of the new pixel one after the other. -/
structure Task (α : Type) (ch : Nat) where
  start : Nat
  update : Pix α ch → Pix α ch

/-- The tasks of `par_enumerate_pixels_mut().for_each(|(x, y, p)| *p = g(x, y, *p))`
(src/buffer_par.rs:244-258, 270-281, 287-298). -/
def tasks (b : ImageBuffer α ch) (g : Nat → Nat → Pix α ch → Pix α ch) (t : Split) :
    R (List (Task α ch)) := do
  let p ← parChunks b
  bridge ch (fun its => its.mapM fun it => do
    let _ ← pixelItem ch it
    let (x, y) ← coords b.width it.number
    .ok ⟨it.start, g x y⟩) (· ++ ·) t p

/-- Memory, and for each task how many steps it has taken and the pixel it is about to store. -/
structure St (α : Type) (ch : Nat) where
  mem : List α
  pc : Nat → Nat
  loc : Nat → Option (Pix α ch)

/-- One step of task number `i`: step 0 reads the pixel and computes the new one, step `s + 1`
stores sample `s`, afterwards nothing. -/
def step (ts : List (Task α ch)) (s : St α ch) (i : Nat) : R (St α ch) :=
  match ts[i]? with
  | none => .ok s
  | some t =>
    if s.pc i = 0 then do
      let l ← sliceR s.mem t.start (t.start + ch)
      let p ← fromSlice ch l
      .ok { s with pc := fun j => if j = i then 1 else s.pc j,
                   loc := fun j => if j = i then some (t.update p) else s.loc j }
    else if h : s.pc i - 1 < ch then
      match s.loc i with
      | none => panicR
      | some q =>
        .ok { s with mem := s.mem.set (t.start + (s.pc i - 1)) (q ⟨s.pc i - 1, h⟩),
                     pc := fun j => if j = i then s.pc i + 1 else s.pc j }
    else .ok s

/-- Run the tasks in the interleaving `sched`: the list of the numbers of the tasks that take a step. -/
def exec (ts : List (Task α ch)) (mem : List α) (sched : List Nat) : R (St α ch) :=
  sched.foldlM (step ts) ⟨mem, fun _ => 0, fun _ => none⟩

/-- `par_enumerate_pixels_mut().for_each(..)` under a splitting history and an interleaving: the
image when `for_each` returns. (`par_pixels_mut` is the case where `g` ignores the coordinates.) -/
def parForEach (b : ImageBuffer α ch) (g : Nat → Nat → Pix α ch → Pix α ch) (t : Split)
    (sched : List Nat) : R (ImageBuffer α ch) := do
  let ts ← tasks b g t
  let s ← exec ts b.data sched
  .ok { b with data := s.mem }

/-- `from_par_fn` (src/buffer_par.rs:388-398). -/
def fromParFn (z : α) (width height : Nat) (f : Nat → Nat → Pix α ch) (t : Split)
    (sched : List Nat) : R (ImageBuffer α ch) := do
  let buf ← ImageBuffer.new ch z width height
  parForEach buf (fun x y _ => f x y) t sched

end Verif.Par
