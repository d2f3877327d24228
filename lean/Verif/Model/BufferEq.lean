import Verif.Model.Dynamic

/-!
# Comparing and hashing images (src/buffer.rs:655-661, src/dynimage.rs:49-81)

`#[derive(Hash, PartialEq, Eq)]` on `ImageBuffer` and `#[derive(PartialEq)]` on `DynamicImage`, as the derive macros expand: field by field in the order of
declaration. `PhantomData` is always equal and hashes to nothing.
-/

namespace Verif

/-- `==` of slices (the standard library; `==` of `Vec` is the same): the lengths first, then the elements. `eq` is `==` of the samples. -/
def sliceEq {α : Type} (eq : α → α → Bool) (l r : List α) : Bool :=
  l.length == r.length && (l.zip r).all fun p => eq p.1 p.2

/-- Derived `PartialEq::eq` of `ImageBuffer` (src/buffer.rs:655-661). -/
def ImageBuffer.eqR {α : Type} {ch : Nat} (eq : α → α → Bool) (a b : ImageBuffer α ch) : Bool :=
  a.width == b.width && a.height == b.height && sliceEq eq a.data b.data

/-- One call of a method of the `Hasher`. -/
inductive HashWord (α : Type)
  | u32 (n : Nat)
  | usize (n : Nat)
  | sample (s : α)
  deriving DecidableEq

/-- Derived `Hash::hash` of `ImageBuffer` (src/buffer.rs:655-661): what is fed to the hasher. A slice feeds its length and then its elements (simplified:
the elements one at a time, where the standard library may feed slices of integers as bytes). -/
def ImageBuffer.hashInput {α : Type} {ch : Nat} (b : ImageBuffer α ch) : List (HashWord α) :=
  [.u32 b.width, .u32 b.height, .usize b.data.length] ++ b.data.map .sample

/-- `==` of `f32`, on bit patterns (IEEE 754): NaN is not equal to anything, the two zeros are equal. -/
def f32Eq (a b : Nat) : Bool :=
  let nan (n : Nat) := decide (0x7F800000 < n % 0x80000000)
  !nan a && !nan b && (a == b || (a % 0x80000000 == 0 && b % 0x80000000 == 0))

/-- Derived `PartialEq::eq` of `DynamicImage` (src/dynimage.rs:49-81): the same variant, and equal buffers. -/
def DynamicImage.eqR : DynamicImage → DynamicImage → Bool
  | .luma8 a, .luma8 b => ImageBuffer.eqR (· == ·) a b
  | .lumaA8 a, .lumaA8 b => ImageBuffer.eqR (· == ·) a b
  | .rgb8 a, .rgb8 b => ImageBuffer.eqR (· == ·) a b
  | .rgba8 a, .rgba8 b => ImageBuffer.eqR (· == ·) a b
  | .luma16 a, .luma16 b => ImageBuffer.eqR (· == ·) a b
  | .lumaA16 a, .lumaA16 b => ImageBuffer.eqR (· == ·) a b
  | .rgb16 a, .rgb16 b => ImageBuffer.eqR (· == ·) a b
  | .rgba16 a, .rgba16 b => ImageBuffer.eqR (· == ·) a b
  | .rgb32F a, .rgb32F b => ImageBuffer.eqR f32Eq a b
  | .rgba32F a, .rgba32F b => ImageBuffer.eqR f32Eq a b
  | _, _ => false

end Verif
