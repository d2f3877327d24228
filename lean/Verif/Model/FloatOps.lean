import Verif.Base.Float
import Verif.Model.Color

/-!
# Code computing with floats: sample conversion, blending, resize dimensions

`f32` and `f64` values are `Fl` (Verif.Base.Float): every operation rounds to nearest even.
-/

namespace Verif

/-! ## Sample conversion -/

/-- `normalize_float` (src/color.rs:443-447). -/
def normalizeFloat (float max : Fl) : Fl :=
  let clamped := if !float.lt (.fin 1) then .fin 1 else float.fmax (.fin 0)
  (Fl.mul f32 clamped max).round

/-- `T::DEFAULT_MAX_VALUE as f32` / `.to_f32().unwrap()` (src/color.rs:451, 457, 480, 488, 755-756). -/
def maxF32 (T : Prim) : Fl := Fl.ofNat f32 T.max

/-- `FromPrimitive<f32> for u8` and `for u16` (src/color.rs:449-459). -/
def uintOfF32 (T : Prim) (float : Fl) : R Nat := unwrapR ((normalizeFloat float (maxF32 T)).castU T.bits)

/-- `FromPrimitive<u16> for f32` and `FromPrimitive<u8> for f32` (src/color.rs:478-490). -/
def f32OfUint (T : Prim) (int : Nat) : Fl :=
  ((Fl.ofNat f32 int).div f32 (maxF32 T)).clamp (.fin 0) (.fin 1)

/-! ## Blending -/

/-- `x.to_f32().unwrap() / max_t` (src/color.rs:759-766, 804-815). -/
def unitF32 (T : Prim) (x : Nat) : Fl := (Fl.ofNat f32 x).div f32 (maxF32 T)

/-- `bg_a + fg_a - bg_a * fg_a` (src/color.rs:768, 818). -/
def alphaFinal (bg_a fg_a : Fl) : Fl := ((bg_a.add f32 fg_a)).sub f32 (bg_a.mul f32 fg_a)

/-- One colour channel of the blend: premultiply, composite, unmultiply and cast back
(src/color.rs:772-779, 824-848). -/
def blendChannel (T : Prim) (bg bg_a fg fg_a alpha_final : Fl) : R Nat :=
  let bg' := bg.mul f32 bg_a
  let fg' := fg.mul f32 fg_a
  let out' := fg'.add f32 (bg'.mul f32 ((Fl.fin 1).sub f32 fg_a))
  let out := out'.div f32 alpha_final
  unwrapR (((maxF32 T).mul f32 out).castU T.bits)

/-- `Blend for LumaA<T>` (src/color.rs:753-784), for unsigned integer samples; returns the new `*self`. -/
def blendLumaA (T : Prim) (self other : Pix Nat 2) : R (Pix Nat 2) := do
  let bg_luma := unitF32 T (self 0)
  let bg_a := unitF32 T (self 1)
  let fg_luma := unitF32 T (other 0)
  let fg_a := unitF32 T (other 1)
  let alpha_final := alphaFinal bg_a fg_a
  if alpha_final = .fin 0 then .ok self
  else do
    .ok (px2 (← blendChannel T bg_luma bg_a fg_luma fg_a alpha_final)
      (← unwrapR (((maxF32 T).mul f32 alpha_final).castU T.bits)))

/-- `Blend for Rgba<T>` (src/color.rs:792-857), for unsigned integer samples; returns the new `*self`. -/
def blendRgba (T : Prim) (self other : Pix Nat 4) : R (Pix Nat 4) :=
  if other 3 = 0 then .ok self
  else if other 3 = T.max then .ok other
  else
    let bg_a := unitF32 T (self 3)
    let fg_a := unitF32 T (other 3)
    let alpha_final := alphaFinal bg_a fg_a
    if alpha_final = .fin 0 then .ok self
    else do
      .ok (px4
        (← blendChannel T (unitF32 T (self 0)) bg_a (unitF32 T (other 0)) fg_a alpha_final)
        (← blendChannel T (unitF32 T (self 1)) bg_a (unitF32 T (other 1)) fg_a alpha_final)
        (← blendChannel T (unitF32 T (self 2)) bg_a (unitF32 T (other 2)) fg_a alpha_final)
        (← unwrapR (((maxF32 T).mul f32 alpha_final).castU T.bits)))

/-- `Blend` for every colour model (src/color.rs:753-864); `Luma` and `Rgb` replace the bottom. -/
def blendPixel (T : Prim) : (m : PixelType) → Pix Nat m.ch → Pix Nat m.ch → R (Pix Nat m.ch)
  | .luma, _, other => .ok other
  | .rgb, _, other => .ok other
  | .lumaA, self, other => blendLumaA T self other
  | .rgba, self, other => blendRgba T self other

/-! ## Resize dimensions -/

/-- `resize_dimensions` (src/math/utils.rs:12-41). -/
def resizeDimensions (width height nwidth nheight : Nat) (fill : Bool) : Nat × Nat :=
  let wratio := (Fl.ofNat f64 nwidth).div f64 (Fl.ofNat f64 width)
  let hratio := (Fl.ofNat f64 nheight).div f64 (Fl.ofNat f64 height)
  let ratio := if fill then wratio.fmax hratio else wratio.fmin hratio
  let nw := max (((Fl.ofNat f64 width).mul f64 ratio).round.toUSat 64) 1
  let nh := max (((Fl.ofNat f64 height).mul f64 ratio).round.toUSat 64) 1
  if 2 ^ 32 - 1 < nw then
    let ratio := (Fl.ofNat f64 (2 ^ 32 - 1)).div f64 (Fl.ofNat f64 width)
    (2 ^ 32 - 1, max (((Fl.ofNat f64 height).mul f64 ratio).round.toUSat 32) 1)
  else if 2 ^ 32 - 1 < nh then
    let ratio := (Fl.ofNat f64 (2 ^ 32 - 1)).div f64 (Fl.ofNat f64 height)
    (max (((Fl.ofNat f64 width).mul f64 ratio).round.toUSat 32) 1, 2 ^ 32 - 1)
  else (nw, nh)

/-- The crop rectangle `(x, y, nwidth, nheight)` that `resize_to_fill` requests of the intermediate image
(src/dynimage.rs:814-823). -/
def fillCrop (iwidth iheight nwidth nheight : Nat) : R (Nat × Nat) := do
  let ratio ← mulC 64 iwidth nheight
  let nratio ← mulC 64 nwidth iheight
  if ratio < nratio then do .ok (0, (← subC iheight nheight) / 2)
  else do .ok ((← subC iwidth nwidth) / 2, 0)

end Verif
