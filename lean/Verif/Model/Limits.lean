import Verif.Model.Color

/-!
# Decoder limits (src/image_reader/mod.rs)
-/

namespace Verif

/-- `struct Limits` (src/image_reader/mod.rs:40-50). -/
structure Limits where
  maxImageWidth : Option Nat
  maxImageHeight : Option Nat
  maxAlloc : Option Nat
  deriving DecidableEq, Repr

namespace Limits

/-- `Limits::default` (src/image_reader/mod.rs:53-59). -/
def default : Limits := ⟨none, none, some (512 * 1024 * 1024)⟩

/-- `no_limits` (src/image_reader/mod.rs:65-71). -/
def noLimits : Limits := ⟨none, none, none⟩

/-- `check_dimensions` (src/image_reader/mod.rs:80-98). -/
def checkDimensions (l : Limits) (width height : Nat) : R Unit := do
  match l.maxImageWidth with
  | some maxWidth => if width > maxWidth then errR .limitsDimension
  | none => pure ()
  match l.maxImageHeight with
  | some maxHeight => if height > maxHeight then errR .limitsDimension
  | none => pure ()

/-- `reserve` (src/image_reader/mod.rs:102-114). `&mut self` on `Ok`; on `Err` the limits are unchanged
(the assignment is after the early return), so the caller keeps the old value. `*max_alloc -= amount` is a
checked subtraction. -/
def reserve (l : Limits) (amount : Nat) : R Limits :=
  match l.maxAlloc with
  | some m => do
    if m < amount then errR .limitsMemory
    let m' ← subC m amount
    .ok { l with maxAlloc := some m' }
  | none => .ok l

/-- `reserve_usize` (src/image_reader/mod.rs:119-130); `u64::try_from(usize)` cannot fail on the modelled
64-bit target. -/
def reserveUsize (l : Limits) (amount : Nat) : R Limits := l.reserve amount

/-- `reserve_buffer` (src/image_reader/mod.rs:137-149). -/
def reserveBuffer (l : Limits) (width height : Nat) (c : ColorType) : R Limits := do
  l.checkDimensions width height
  l.reserve (satMul 64 (satMul 64 width height) c.bytesPerPixel)

/-- `free` (src/image_reader/mod.rs:155-159). -/
def free (l : Limits) (amount : Nat) : Limits :=
  match l.maxAlloc with
  | some m => { l with maxAlloc := some (satAdd 64 m amount) }
  | none => l

/-- `free_usize` (src/image_reader/mod.rs:164-174), on a 64-bit target. -/
def freeUsize (l : Limits) (amount : Nat) : Limits := l.free amount

end Limits
end Verif
