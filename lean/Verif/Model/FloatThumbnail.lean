import Verif.Model.FloatImage

/-!
# `thumbnail` of `f32` images (src/imageops/sample.rs)

`Enlargeable::Larger` of `f32` is `f64` (src/traits.rs:123-125), so the sums are `f64` numbers. The integer version is in
`Verif.Model.Sample`; the spans are the same.
-/

namespace Verif
open GenericImageView GenericImage

variable {ch : Nat}

/-- `ThumbnailSum::add_pixel` (src/imageops/sample.rs:578-585): `f32` samples are converted to `f64`, which is exact. -/
def addPixelF (sum : Pix Fl 4) (p : Pix Fl 4) : Pix Fl 4 := fun c => (sum c).add f64 (p c)

/-- One mean of `thumbnail_sample_block` (src/imageops/sample.rs:704-711). -/
def blockMeanF (sum round n : Fl) : Fl := clampFromF64 ((sum.add f64 round).div f64 n)

/-- `thumbnail_sample_block` (src/imageops/sample.rs:683-712). -/
def thumbnailBlockF {I : Type} [GenericImageView I (Pix Fl ch)] (image : I) (left right bottom top : Nat) : R (Pix Fl 4) := do
  let sum ← forRange (top - bottom) (fun j sum =>
    forRange (right - left) (fun i sum => do
      let k ← getPixel image (left + i) (bottom + j)
      .ok (addPixelF sum (channels4 Samp.float k))) sum) (fun _ => .fin 0)
  let n := Fl.ofNat f64 (← mulC 32 (← subC right left) (← subC top bottom))
  let round := n.div f64 (.fin 2)
  .ok fun c => blockMeanF (sum c) round n

/-- `mix_left_and_right` and `mix_bot_and_top` (src/imageops/sample.rs:743-748, 787-790). -/
def mixTwoF (factA factB : Fl) (a b : Fl) : Fl := (factA.mul f32 a.toF32).add f32 (factB.mul f32 b.toF32)

/-- `thumbnail_sample_fraction_horizontal` (src/imageops/sample.rs:715-756). -/
def thumbnailHorizontalF {I : Type} [GenericImageView I (Pix Fl ch)] (image : I) (left : Nat) (fract : Fl) (bottom top : Nat) :
    R (Pix Fl 4) := do
  let sums ← forRange (top - bottom) (fun j (s : Pix Fl 4 × Pix Fl 4) => do
    let kLeft ← getPixel image left (bottom + j)
    let kRight ← getPixel image (← addC 32 left 1) (bottom + j)
    .ok (addPixelF s.1 (channels4 Samp.float kLeft), addPixelF s.2 (channels4 Samp.float kRight))) (fun _ => .fin 0, fun _ => .fin 0)
  let n := Fl.ofNat f32 (← subC top bottom)
  let factRight := fract.div f32 n
  let factLeft := ((Fl.fin 1).sub f32 fract).div f32 n
  .ok fun c => mixTwoF factLeft factRight (sums.1 c) (sums.2 c)

/-- `thumbnail_sample_fraction_vertical` (src/imageops/sample.rs:759-798). -/
def thumbnailVerticalF {I : Type} [GenericImageView I (Pix Fl ch)] (image : I) (left right bottom : Nat) (fract : Fl) :
    R (Pix Fl 4) := do
  let sums ← forRange (right - left) (fun i (s : Pix Fl 4 × Pix Fl 4) => do
    let kBot ← getPixel image (left + i) bottom
    let kTop ← getPixel image (left + i) (← addC 32 bottom 1)
    .ok (addPixelF s.1 (channels4 Samp.float kBot), addPixelF s.2 (channels4 Samp.float kTop))) (fun _ => .fin 0, fun _ => .fin 0)
  let n := Fl.ofNat f32 (← subC right left)
  let factTop := fract.div f32 n
  let factBot := ((Fl.fin 1).sub f32 fract).div f32 n
  .ok fun c => mixTwoF factBot factTop (sums.1 c) (sums.2 c)

/-- `thumbnail_sample_fraction_both` (src/imageops/sample.rs:801-846). -/
def thumbnailBothF {I : Type} [GenericImageView I (Pix Fl ch)] (image : I) (left : Nat) (fracV : Fl) (bottom : Nat) (fracH : Fl) :
    R (Pix Fl 4) := do
  let S := Samp.float
  let kBl ← getPixel image left bottom
  let bottom1 ← addC 32 bottom 1
  let kTl ← getPixel image left bottom1
  let left1 ← addC 32 left 1
  let kBr ← getPixel image left1 bottom
  let kTr ← getPixel image left1 bottom1
  let one : Fl := .fin 1
  let factTr := fracV.mul f32 fracH
  let factTl := fracV.mul f32 (one.sub f32 fracH)
  let factBr := (one.sub f32 fracV).mul f32 fracH
  let factBl := (one.sub f32 fracV).mul f32 (one.sub f32 fracH)
  .ok fun c => (((factBr.mul f32 (channels4 S kBr c)).add f32 (factTr.mul f32 (channels4 S kTr c))).add f32
    (factBl.mul f32 (channels4 S kBl c))).add f32 (factTl.mul f32 (channels4 S kTl c))

/-- One pixel of `thumbnail` (src/imageops/sample.rs:629-671); debug assertions are on. -/
def thumbnailPixelF {I : Type} [GenericImageView I (Pix Fl ch)] (image : I) (xs ys : Fl × Fl × Nat × Nat) : R (Pix Fl 4) :=
  let (leftf, rightf, left, right) := xs
  let (bottomf, topf, bottom, top) := ys
  if bottom ≠ top ∧ left ≠ right then thumbnailBlockF image left right bottom top
  else if bottom ≠ top then do
    assertR (decide (0 < left) && decide (0 < right))
    let fractionHorizontal := (leftf.fract.add f32 rightf.fract).div f32 (.fin 2)
    thumbnailHorizontalF image (← subC right 1) fractionHorizontal bottom top
  else if left ≠ right then do
    assertR (decide (0 < bottom) && decide (0 < top))
    let fractionVertical := (topf.fract.add f32 bottomf.fract).div f32 (.fin 2)
    thumbnailVerticalF image left right (← subC top 1) fractionVertical
  else do
    let fractionHorizontal := (topf.fract.add f32 bottomf.fract).div f32 (.fin 2)
    let fractionVertical := (leftf.fract.add f32 rightf.fract).div f32 (.fin 2)
    thumbnailBothF image (← subC right 1) fractionHorizontal (← subC top 1) fractionVertical

/-- `thumbnail` (src/imageops/sample.rs:600-680), for `f32` samples. -/
def thumbnailF {I : Type} [GenericImageView I (Pix Fl ch)] (image : I) (newWidth newHeight : Nat) : R (ImageBuffer Fl ch) := do
  let width := widthOf image
  let height := heightOf image
  let out ← ImageBuffer.new ch (.fin 0) newWidth newHeight
  if height = 0 ∨ width = 0 then .ok out
  else
    forRange newHeight (fun outy out =>
      forRange newWidth (fun outx out => do
        let avg ← thumbnailPixelF image (thumbnailSpan width newWidth outx) (thumbnailSpan height newHeight outy)
        out.putPixel outx outy (fromChannels4 Samp.float avg)) out) out

end Verif
