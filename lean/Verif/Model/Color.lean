import Verif.Model.GenericOps

/-!
# Colour types, samples and pixels (src/color.rs, src/traits.rs)

Samples of the unsigned integer types are natural numbers; `Prim` names the type. Float samples are not
modelled in this file.
-/

namespace Verif

/-- `enum ColorType` (src/color.rs:10-33). -/
inductive ColorType
  | L8 | La8 | Rgb8 | Rgba8 | L16 | La16 | Rgb16 | Rgba16 | Rgb32F | Rgba32F
  deriving DecidableEq, Repr

/-- `enum ExtendedColorType` (src/color.rs:96-157). -/
inductive ExtendedColorType
  | A8 | L1 | La1 | Rgb1 | Rgba1 | L2 | La2 | Rgb2 | Rgba2 | L4 | La4 | Rgb4 | Rgba4
  | L8 | La8 | Rgb8 | Rgba8 | L16 | La16 | Rgb16 | Rgba16 | Bgr8 | Bgra8
  | Rgb32F | Rgba32F | Cmyk8 | Unknown (bpp : Nat)
  deriving DecidableEq, Repr

namespace ColorType

/-- `bytes_per_pixel` (src/color.rs:38-49). -/
def bytesPerPixel : ColorType → Nat
  | L8 => 1
  | L16 | La8 => 2
  | Rgb8 => 3
  | Rgba8 | La16 => 4
  | Rgb16 => 6
  | Rgba16 => 8
  | Rgb32F => 3 * 4
  | Rgba32F => 4 * 4

/-- `has_alpha` (src/color.rs:53-59). -/
def hasAlpha : ColorType → Bool
  | L8 | L16 | Rgb8 | Rgb16 | Rgb32F => false
  | La8 | Rgba8 | La16 | Rgba16 | Rgba32F => true

/-- `has_color` (src/color.rs:63-69). -/
def hasColor : ColorType → Bool
  | L8 | L16 | La8 | La16 => false
  | Rgb8 | Rgb16 | Rgba8 | Rgba16 | Rgb32F | Rgba32F => true

/-- `bits_per_pixel` (src/color.rs:74-76); `u16` product. -/
def bitsPerPixel (c : ColorType) : R Nat := mulC 16 c.bytesPerPixel 8

/-- `From<ColorType> for ExtendedColorType` (src/color.rs:238-253). -/
def toExtended : ColorType → ExtendedColorType
  | L8 => .L8
  | La8 => .La8
  | Rgb8 => .Rgb8
  | Rgba8 => .Rgba8
  | L16 => .L16
  | La16 => .La16
  | Rgb16 => .Rgb16
  | Rgba16 => .Rgba16
  | Rgb32F => .Rgb32F
  | Rgba32F => .Rgba32F

end ColorType

namespace ExtendedColorType

/-- `channel_count` (src/color.rs:165-195). -/
def channelCount : ExtendedColorType → Nat
  | A8 | L1 | L2 | L4 | L8 | L16 | Unknown _ => 1
  | La1 | La2 | La4 | La8 | La16 => 2
  | Rgb1 | Rgb2 | Rgb4 | Rgb8 | Rgb16 | Rgb32F | Bgr8 => 3
  | Rgba1 | Rgba2 | Rgba4 | Rgba8 | Rgba16 | Rgba32F | Bgra8 | Cmyk8 => 4

/-- `bits_per_pixel` (src/color.rs:199-229). -/
def bitsPerPixel : ExtendedColorType → Nat
  | A8 => 8
  | L1 => 1
  | La1 => 2
  | Rgb1 => 3
  | Rgba1 => 4
  | L2 => 2
  | La2 => 4
  | Rgb2 => 6
  | Rgba2 => 8
  | L4 => 4
  | La4 => 8
  | Rgb4 => 12
  | Rgba4 => 16
  | L8 => 8
  | La8 => 16
  | Rgb8 => 24
  | Rgba8 => 32
  | L16 => 16
  | La16 => 32
  | Rgb16 => 48
  | Rgba16 => 64
  | Rgb32F => 96
  | Rgba32F => 128
  | Bgr8 => 24
  | Bgra8 => 32
  | Cmyk8 => 32
  | Unknown bpp => bpp

/-- `buffer_size` (src/color.rs:232-236); plain `u64` arithmetic in the row pitch, saturating product. -/
def bufferSize (c : ExtendedColorType) (width height : Nat) : R Nat := do
  let bits ← mulC 64 width c.bitsPerPixel
  let n ← addC 64 bits 7
  let rowPitch := n / 8
  .ok (satMul 64 rowPitch height)

end ExtendedColorType

/-- `ColorType::channel_count` (src/color.rs:80-83). -/
def ColorType.channelCount (c : ColorType) : Nat := c.toExtended.channelCount

/-! ## Samples -/

/-- The unsigned sample types implementing `Primitive` and `Enlargeable` (src/traits.rs:58-61, 91-103). -/
inductive Prim
  | u8 | u16 | u32 | u64
  deriving DecidableEq, Repr

namespace Prim

/-- Width in bits. -/
def bits : Prim → Nat
  | u8 => 8
  | u16 => 16
  | u32 => 32
  | u64 => 64

/-- `DEFAULT_MAX_VALUE` (src/traits.rs:49-61). -/
def max (t : Prim) : Nat := 2 ^ t.bits - 1

/-- Width of `Enlargeable::Larger` (src/traits.rs:91-103). -/
def largerBits : Prim → Nat
  | u8 => 32
  | u16 => 32
  | u32 => 64
  | u64 => 128

/-- `NumCast::from(n).unwrap()` into the sample type. -/
def castFrom (t : Prim) (n : Nat) : R Nat := if n ≤ t.max then .ok n else panicR

/-- `clamp_from` (src/traits.rs:76-84); the minimum is zero. -/
def clampFrom (t : Prim) (n : Nat) : R Nat :=
  if n > t.max then .ok t.max else if n < 0 then .ok 0 else t.castFrom n

end Prim

/-- `rgb_to_luma` (src/color.rs:535-540), with the coefficients of src/color.rs:531-532. -/
def rgbToLuma (t : Prim) (r g b : Nat) : R Nat := do
  let x ← mulC t.largerBits 2126 r
  let y ← mulC t.largerBits 7152 g
  let s ← addC t.largerBits x y
  let z ← mulC t.largerBits 722 b
  let l ← addC t.largerBits s z
  t.clampFrom (l / 10000)

/-- `FromPrimitive<S> for T` (src/color.rs:429-433, 463-476, 492-497). There is no implementation for
the other pairs; the last case stands for them and is not reachable. -/
def fromPrimitive (S T : Prim) (v : Nat) : R Nat :=
  if S = T then .ok v
  else match S, T with
    | .u16, .u8 => do Prim.castFrom .u8 ((← addC 32 v 128) / 257)
    | .u8, .u16 => Prim.castFrom .u16 ((v <<< 8) ||| v)
    | _, _ => panicR

/-! ## Pixels -/

/-- The four pixel types (src/color.rs:393-408). -/
inductive PixelType
  | luma | lumaA | rgb | rgba
  deriving DecidableEq, Repr

namespace PixelType
/-- `CHANNEL_COUNT` -/
abbrev ch : PixelType → Nat
  | luma => 1
  | lumaA => 2
  | rgb => 3
  | rgba => 4
/-- Number of alpha channels. -/
abbrev alphas : PixelType → Nat
  | luma => 0
  | lumaA => 1
  | rgb => 0
  | rgba => 1
end PixelType

/-- `Luma([a])` -/
def px1 {α : Type} (a : α) : Pix α 1 := fun _ => a
/-- `LumaA([a, b])` -/
def px2 {α : Type} (a b : α) : Pix α 2 := fun
  | 0 => a
  | 1 => b
/-- `Rgb([a, b, c])` -/
def px3 {α : Type} (a b c : α) : Pix α 3 := fun
  | 0 => a
  | 1 => b
  | 2 => c
/-- `Rgba([a, b, c, d])` -/
def px4 {α : Type} (a b c d : α) : Pix α 4 := fun
  | 0 => a
  | 1 => b
  | 2 => c
  | 3 => d

/-- `FromColor` (src/color.rs:543-746), all sixteen implementations; `s`/`d` are the source and
destination pixel types over samples `S`/`T`. -/
def fromColor (S T : Prim) : (s d : PixelType) → Pix Nat s.ch → R (Pix Nat d.ch)
  -- Luma
  | .luma, .luma, p => do .ok (px1 (← fromPrimitive S T (p 0)))
  | .lumaA, .luma, p => do .ok (px1 (← fromPrimitive S T (p 0)))
  | .rgb, .luma, p => do .ok (px1 (← fromPrimitive S T (← rgbToLuma S (p 0) (p 1) (p 2))))
  | .rgba, .luma, p => do .ok (px1 (← fromPrimitive S T (← rgbToLuma S (p 0) (p 1) (p 2))))
  -- LumaA
  | .lumaA, .lumaA, p => do .ok (px2 (← fromPrimitive S T (p 0)) (← fromPrimitive S T (p 1)))
  | .rgb, .lumaA, p => do
    .ok (px2 (← fromPrimitive S T (← rgbToLuma S (p 0) (p 1) (p 2))) T.max)
  | .rgba, .lumaA, p => do
    .ok (px2 (← fromPrimitive S T (← rgbToLuma S (p 0) (p 1) (p 2))) (← fromPrimitive S T (p 3)))
  | .luma, .lumaA, p => do .ok (px2 (← fromPrimitive S T (p 0)) T.max)
  -- Rgba
  | .rgba, .rgba, p => do
    .ok (px4 (← fromPrimitive S T (p 0)) (← fromPrimitive S T (p 1)) (← fromPrimitive S T (p 2))
      (← fromPrimitive S T (p 3)))
  | .rgb, .rgba, p => do
    .ok (px4 (← fromPrimitive S T (p 0)) (← fromPrimitive S T (p 1)) (← fromPrimitive S T (p 2)) T.max)
  | .lumaA, .rgba, p => do
    .ok (px4 (← fromPrimitive S T (p 0)) (← fromPrimitive S T (p 0)) (← fromPrimitive S T (p 0))
      (← fromPrimitive S T (p 1)))
  | .luma, .rgba, p => do
    .ok (px4 (← fromPrimitive S T (p 0)) (← fromPrimitive S T (p 0)) (← fromPrimitive S T (p 0)) T.max)
  -- Rgb
  | .rgb, .rgb, p => do
    .ok (px3 (← fromPrimitive S T (p 0)) (← fromPrimitive S T (p 1)) (← fromPrimitive S T (p 2)))
  | .rgba, .rgb, p => do
    .ok (px3 (← fromPrimitive S T (p 0)) (← fromPrimitive S T (p 1)) (← fromPrimitive S T (p 2)))
  | .lumaA, .rgb, p => do
    .ok (px3 (← fromPrimitive S T (p 0)) (← fromPrimitive S T (p 0)) (← fromPrimitive S T (p 0)))
  | .luma, .rgb, p => do
    .ok (px3 (← fromPrimitive S T (p 0)) (← fromPrimitive S T (p 0)) (← fromPrimitive S T (p 0)))

/-- `Invert::invert` (src/color.rs:868-914); `max - v` is a plain subtraction. -/
def invertPixel (T : Prim) : (m : PixelType) → Pix Nat m.ch → R (Pix Nat m.ch)
  | .lumaA, p => do .ok (px2 (← subC T.max (p 0)) (p 1))
  | .luma, p => do .ok (px1 (← subC T.max (p 0)))
  | .rgba, p => do .ok (px4 (← subC T.max (p 0)) (← subC T.max (p 1)) (← subC T.max (p 2)) (p 3))
  | .rgb, p => do .ok (px3 (← subC T.max (p 0)) (← subC T.max (p 1)) (← subC T.max (p 2)))

/-- Run a function for each channel, first to last. -/
def seqFin {α : Type} : {n : Nat} → (Fin n → R α) → R (Fin n → α)
  | 0, _ => .ok Fin.elim0
  | _ + 1, f => do
    let a ← f 0
    let r ← seqFin (fun i => f i.succ)
    .ok (Fin.cases a r)

/-- `map_with_alpha` / `apply_with_alpha` (src/color.rs:350-360) of a pixel with `alphas` alpha channels. -/
def mapWithAlpha {α : Type} {n : Nat} (alphas : Nat) (f g : α → R α) (p : Pix α n) : R (Pix α n) :=
  seqFin fun i => if i.val < n - alphas then f (p i) else g (p i)

/-- `map` / `apply` (src/color.rs:338-342). -/
def mapPixel {α : Type} {n : Nat} (f : α → R α) (p : Pix α n) : R (Pix α n) :=
  seqFin fun i => f (p i)

/-! ## Image operations on colours (src/imageops/colorops.rs) -/

open GenericImageView GenericImage

/-- `invert` (src/imageops/colorops.rs:69-81); `inv` is `Pixel::invert`. -/
def invert {D P : Type} [GenericImage D P] (inv : P → R P) (image : D) : R D :=
  let width := widthOf image
  let height := heightOf image
  forRange height (fun y d => forRange width (fun x d => do
    let p ← getPixel d x y
    putPixel d x y (← inv p)) d) image

/-- `c + value` on `i32` with overflow checks. -/
def addI32 (a b : Int) : R Int :=
  if -2 ^ 31 ≤ a + b ∧ a + b < 2 ^ 31 then .ok (a + b) else panicR

/-- `clamp` (src/utils/mod.rs:82-93) on integers. -/
def clampInt (a lo hi : Int) : Int := if a < lo then lo else if a > hi then hi else a

/-- The closure of `brighten` (src/imageops/colorops.rs:169-174). `NumCast::from` of a sample into `i32`
panics when it does not fit; for `u32`/`u64` samples already the conversion of the maximum fails. -/
def brightenSample (t : Prim) (value : Int) (b : Nat) : R Nat := do
  let mx : Int ← if t.max < 2 ^ 31 then .ok (t.max : Int) else panicR
  let c : Int ← if b < 2 ^ 31 then .ok (b : Int) else panicR
  let d := clampInt (← addI32 c value) 0 mx
  if 0 ≤ d then t.castFrom d.toNat else panicR

/-- `brighten_in_place` (src/imageops/colorops.rs:188-213), `alphas` = alpha channels of the pixel type. -/
def brightenInPlace {D : Type} {n : Nat} [GenericImage D (Pix Nat n)] (t : Prim) (alphas : Nat)
    (value : Int) (image : D) : R D := do
  let width := widthOf image
  let height := heightOf image
  if t.max < 2 ^ 31 then
    forRange height (fun y d => forRange width (fun x d => do
      let p ← getPixel d x y
      putPixel d x y (← mapWithAlpha alphas (brightenSample t value) .ok p)) d) image
  else panicR

/-- `BiLevel::index_of` (src/imageops/colorops.rs:407-414). -/
def biLevelIndexOf (c : Pix Nat 1) : Nat := if c 0 > 127 then 1 else 0

/-- `BiLevel::lookup` (src/imageops/colorops.rs:417-423). -/
def biLevelLookup : Nat → Option (Pix Nat 1)
  | 0 => some (px1 0)
  | 1 => some (px1 255)
  | _ => none

/-- `BiLevel::map_color` (src/imageops/colorops.rs:431-435): `u8` product. -/
def biLevelMapColor (c : Pix Nat 1) : R (Pix Nat 1) := do
  .ok (px1 (← mulC 8 0xFF (biLevelIndexOf c % 256)))

/-- `index_colors` (src/imageops/colorops.rs:530-543), `indexOf` is `ColorMap::index_of`. -/
def indexColors {ch : Nat} (indexOf : Pix Nat ch → Nat) (image : ImageBuffer Nat ch) :
    R (ImageBuffer Nat 1) := do
  let indices ← ImageBuffer.new 1 0 image.width image.height
  let src ← image.pixels
  let dst ← indices.pixels
  .ok (indices.setPixels ((src.zip dst).map fun (pixel, _) => px1 (indexOf pixel % 256)))

/-- `diffuse_err` (src/imageops/colorops.rs:464-472): the first three channels; `i16` arithmetic,
division truncating toward zero. -/
def diffuseSample (c : Nat) (e factor : Int) : R Nat :=
  let p := e * factor
  if ¬(-2 ^ 15 ≤ p ∧ p < 2 ^ 15) then panicR
  else
    let val := (c : Int) + p.tdiv 16
    if ¬(-2 ^ 15 ≤ val ∧ val < 2 ^ 15) then panicR
    else if val < 0 then .ok 0
    else if val > 0xFF then .ok 0xFF
    else .ok val.toNat

/-- `diffuse_err` on a pixel. -/
def diffuseErr {ch : Nat} (err : Fin 3 → Int) (factor : Int) (p : Pix Nat ch) : R (Pix Nat ch) :=
  seqFin fun i => if h : i.val < 3 then diffuseSample (p i) (err ⟨i.val, h⟩) factor else .ok (p i)

/-- `image.get_pixel_mut(x, y)` followed by an update of that pixel. -/
def modifyPixel {ch : Nat} (b : ImageBuffer Nat ch) (x y : Nat) (f : Pix Nat ch → R (Pix Nat ch)) :
    R (ImageBuffer Nat ch) := do
  let p ← b.getPixel x y
  b.putPixel x y (← f p)

/-- `do_dithering!` (src/imageops/colorops.rs:474-488): maps the pixel and stores the difference in the
first channels of `err`. -/
def doDithering {ch : Nat} (mapColor : Pix Nat ch → R (Pix Nat ch)) (x y : Nat)
    (st : ImageBuffer Nat ch × (Fin 3 → Int)) : R (ImageBuffer Nat ch × (Fin 3 → Int)) := do
  let (image, err) := st
  let old ← image.getPixel x y
  let new ← mapColor old
  let image ← image.putPixel x y new
  .ok (image, fun i => if h : i.val < ch then (old ⟨i.val, h⟩ : Int) - new ⟨i.val, h⟩ else err i)

/-- `diffuse_err(image.get_pixel_mut(x, y), err, factor)` on the loop state. -/
def diffuseAt {ch : Nat} (x y : Nat) (factor : Int)
    (st : ImageBuffer Nat ch × (Fin 3 → Int)) : R (ImageBuffer Nat ch × (Fin 3 → Int)) := do
  .ok (← modifyPixel st.1 x y (diffuseErr st.2 factor), st.2)

/-- `dither` (src/imageops/colorops.rs:492-527); `mapColor` is `ColorMap::map_color`. -/
def dither {ch : Nat} (mapColor : Pix Nat ch → R (Pix Nat ch)) (image : ImageBuffer Nat ch) :
    R (ImageBuffer Nat ch) := do
  let width := image.width
  let height := image.height
  let h1 ← subC height 1
  let st ← forRange h1 (fun y st => do
    let st ← doDithering mapColor 0 y st
    let st ← diffuseAt (0 + 1) y 7 st
    let st ← diffuseAt 0 (y + 1) 5 st
    let st ← diffuseAt (0 + 1) (y + 1) 1 st
    let w1 ← subC width 1
    let st ← forRange (w1 - 1) (fun k st => do
      let x := k + 1
      let st ← doDithering mapColor x y st
      let st ← diffuseAt (x + 1) y 7 st
      let st ← diffuseAt (x - 1) (y + 1) 3 st
      let st ← diffuseAt x (y + 1) 5 st
      diffuseAt (x + 1) (y + 1) 1 st) st
    let st ← doDithering mapColor w1 y st
    let st ← diffuseAt (← subC w1 1) (y + 1) 3 st
    diffuseAt w1 (y + 1) 5 st) (image, fun _ => 0)
  let y ← subC height 1
  let st ← doDithering mapColor 0 y st
  let st ← diffuseAt (0 + 1) y 7 st
  let w1 ← subC width 1
  let st ← forRange (w1 - 1) (fun k st => do
    let x := k + 1
    let st ← doDithering mapColor x y st
    diffuseAt (x + 1) y 7 st) st
  let st ← doDithering mapColor w1 y st
  .ok st.1

/-- `for (x, y, pixel) in image.pixels() { out.put_pixel(x, y, f(pixel)) }`, the loop of
`grayscale_with_type` (src/imageops/colorops.rs:37-42), `grayscale_with_type_alpha` (57-62) and `brighten`
(167-178). The iterator never has more than `width * height + 1` results. -/
def overPixels {I D P Q : Type} [GenericImageView I P] [GenericImage D Q] (image : I) (f : P → R Q)
    (out : D) : R D := do
  let items ← ImageBuffer.drain (PixelsIter.next image) (widthOf image * heightOf image + 1)
    (pixelsIter image)
  forList items (fun (x, y, pixel) out => do putPixel out x y (← f pixel)) out

/-- `grayscale_with_type` (src/imageops/colorops.rs:28-45) for an image over samples `S`, new pixel type
`d` over samples `T`: `to_luma` (src/color.rs:319-323) followed by `into_color`. -/
def grayscaleWithType {I : Type} (S T : Prim) (m d : PixelType) [GenericImageView I (Pix Nat m.ch)]
    (image : I) : R (ImageBuffer Nat d.ch) := do
  let out ← ImageBuffer.new d.ch 0 (widthOf image) (heightOf image)
  overPixels image (fun p => do fromColor S T .luma d (← fromColor S S m .luma p)) out

/-- `grayscale_with_type_alpha` (src/imageops/colorops.rs:48-65), through `to_luma_alpha`
(src/color.rs:325-329). -/
def grayscaleWithTypeAlpha {I : Type} (S T : Prim) (m d : PixelType)
    [GenericImageView I (Pix Nat m.ch)] (image : I) : R (ImageBuffer Nat d.ch) := do
  let out ← ImageBuffer.new d.ch 0 (widthOf image) (heightOf image)
  overPixels image (fun p => do fromColor S T .lumaA d (← fromColor S S m .lumaA p)) out

/-- `brighten` (src/imageops/colorops.rs:155-181). -/
def brighten {I : Type} {n : Nat} [GenericImageView I (Pix Nat n)] (t : Prim) (alphas : Nat)
    (value : Int) (image : I) : R (ImageBuffer Nat n) := do
  let out ← ImageBuffer.new n 0 (widthOf image) (heightOf image)
  if t.max < 2 ^ 31 then overPixels image (mapWithAlpha alphas (brightenSample t value) .ok) out
  else panicR

end Verif
