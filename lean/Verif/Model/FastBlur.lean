import Verif.Model.Sample
import Verif.Model.JpegEntropy

/-!
# `fast_blur` (src/imageops/fast_blur.rs)

Index arithmetic of in-bounds accesses cannot overflow, and an out-of-bounds access panics like an overflow, so indices are
plain naturals.
-/

namespace Verif

open Jpeg (getR setR)

variable {α : Type}

/-- `n as isize` for a `usize`. -/
def asIsize (n : Nat) : Int := if n < 2 ^ 63 then n else n - 2 ^ 64

/-- `x % 2.0 == 0.0`; the remainder is exact. -/
def Fl.isEven : Fl → Bool
  | fin q => decide (q = 2 * ⌊q / 2⌋)
  | _ => false

/-- `boxes_for_gauss` (src/imageops/fast_blur.rs:43-58); `powi(2)` is a product. -/
def boxesForGauss (L : Libm) (sigma : Fl) (n : Nat) : List Nat :=
  let nF := Fl.ofNat f32 n
  let sigma2 := sigma.mul f32 sigma
  let wIdeal := L.sqrt ((((Fl.fin 12).mul f32 sigma2).div f32 nF).add f32 (.fin 1))
  let wl := wIdeal.floor
  let wl := if wl.isEven then wl.sub f32 (.fin 1) else wl
  let wu := wl.add f32 (.fin 2)
  let mIdeal := (((Fl.fin (1 / 4)).mul f32 nF).mul f32 (wl.add f32 (.fin 3))).sub f32
    (((Fl.fin 3).mul f32 sigma2).mul f32 ((Fl.fin 1).div f32 (wl.add f32 (.fin 1))))
  let m := mIdeal.round.toUSat 64
  (List.range n).map fun i => if i < m then wl.toUSat 64 else wu.toUSat 64

/-- `channel_idx` (src/imageops/fast_blur.rs:60-62). -/
def channelIdx (channel idx channelNum : Nat) : Nat := channelNum * idx + channel

/-- `extended_f` (src/imageops/fast_blur.rs:142-154); `num_traits::clamp` on `isize`. -/
def extendedF (samples : List α) (width height : Nat) (x y : Int) (channel channelNum : Nat) : R α :=
  let x := clampZ x 0 (width - 1 : Int)
  let y := clampZ y 0 (height - 1 : Int)
  getR samples (channelIdx channel (y.toNat * width + x.toNat) channelNum)

/-- The first sum of a row for one channel (src/imageops/fast_blur.rs:80-96). -/
def firstSum (S : Samp α) (samples : List α) (width height r : Nat) (row : Nat) (channel channelNum : Nat) : R Fl :=
  let lo : Int := -asIsize r
  let hi : Int := asIsize (r + 1)
  forRange (hi - lo).toNat (fun i sum => do
    .ok (sum.add f32 (S.toF32 (← extendedF samples width height (lo + i) row channel channelNum)))) (.fin 0)

/-- One sample of one row (src/imageops/fast_blur.rs:99-135): writes the mean and moves the window. -/
def blurStep (S : Samp α) (samples : List α) (width height r channelNum row column channel : Nat) (out : List α) (val : Fl) :
    R (List α × Fl) := do
  let v := val.div f32 (((Fl.fin 2).mul f32 (Fl.ofNat f32 r)).add f32 (.fin 1))
  let v := clampF v (S.toF32 S.min) (S.toF32 S.max)
  let v ← unwrapR (S.cast v)
  let out ← setR out (channelIdx channel (row + column * height) channelNum) v
  let a ← extendedF samples width height (asIsize column - asIsize r) row channel channelNum
  let b ← extendedF samples width height (asIsize (column + r + 1)) row channel channelNum
  .ok (out, (val.sub f32 (S.toF32 a)).add f32 (S.toF32 b))

/-- `horizontal_fast_blur_half` (src/imageops/fast_blur.rs:64-140). The vector `vals` is a function of the channel. -/
def horizontalHalf (S : Samp α) (samples : List α) (width height r channelNum : Nat) : R (List α) := do
  let channelSize ← mulC 64 width height
  let n ← mulC 64 channelSize channelNum
  forRange height (fun row out => do
    let vals ← forRange channelNum (fun channel (vals : Nat → Fl) => do
      let v ← firstSum S samples width height r row channel channelNum
      .ok fun c => if c = channel then v else vals c) (fun _ => .fin 0)
    let s ← forRange width (fun column s =>
      forRange channelNum (fun channel (s : List α × (Nat → Fl)) => do
        let (out, v) ← blurStep S samples width height r channelNum row column channel s.1 (s.2 channel)
        .ok (out, fun c => if c = channel then v else s.2 c)) s) (out, vals)
    .ok s.1) (List.replicate n S.zero)

/-- `fast_blur` (src/imageops/fast_blur.rs:10-41). -/
def fastBlur {ch : Nat} (L : Libm) (S : Samp α) (image : ImageBuffer α ch) (sigma : Fl) : R (ImageBuffer α ch) := do
  let width := image.width
  let height := image.height
  if width = 0 ∨ height = 0 then .ok image
  else
    let samples ← forList ((boxesForGauss L sigma 3).take 3) (fun radius samples => do
      let r1 ← subC radius 1
      let t ← horizontalHalf S samples width height (r1 / 2) ch
      horizontalHalf S t height width (r1 / 2) ch) image.data
    unwrapR (ImageBuffer.fromRaw ch width height samples)

end Verif
