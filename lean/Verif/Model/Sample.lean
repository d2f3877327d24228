import Verif.Model.FloatOps
import Verif.Model.ImageOps

/-!
# Sampling: `resize`, `blur`, `thumbnail`, `filter3x3`, `unsharpen`, `sample_*`, `interpolate_*`
(src/imageops/sample.rs)

`f32` values are `Fl`. The sample type enters through `Samp`. The library functions `exp`, `sin` and `sqrt` are
parameters (`Libm`). Allocation succeeds whenever the length fits in `usize`.
-/

namespace Verif
open GenericImageView GenericImage

/-- What the sampling code uses of a sample type (`Primitive`, src/traits.rs:38-67, and `NumCast`). -/
structure Samp (α : Type) where
  /-- `Zero::zero()`, the content of a new buffer -/
  zero : α
  /-- `DEFAULT_MIN_VALUE` -/
  min : α
  /-- `DEFAULT_MAX_VALUE` -/
  max : α
  /-- `NumCast::from(v).unwrap()` / `v.to_f32().unwrap()` into `f32` -/
  toF32 : α → Fl
  /-- `NumCast::from(FloatNearest(x))` -/
  nearest : Fl → Option α
  /-- `NumCast::from(x)` for an `f32` -/
  cast : Fl → Option α

/-- Unsigned integer samples; `FloatNearest::to_u8`, `to_u16`, `to_u64` (src/imageops/sample.rs:115-139) round
before the cast. -/
def Samp.uint (T : Prim) : Samp Nat where
  zero := 0
  min := 0
  max := T.max
  toF32 := Fl.ofNat f32
  nearest x := x.round.castU T.bits
  cast x := x.castU T.bits

/-- `f32` samples (src/traits.rs:62-67); `FloatNearest::to_f64` (src/imageops/sample.rs:136-138) does not round. -/
def Samp.float : Samp Fl where
  zero := .fin 0
  min := .fin 0
  max := .fin 1
  toF32 := id
  nearest := some
  cast := some

variable {α : Type} {ch : Nat}

/-- `channels4` (src/color.rs:287-292): missing channels have the maximum value. -/
def channels4 (S : Samp α) (p : Pix α ch) : Pix α 4 := fun c => if h : c.val < ch then p ⟨c.val, h⟩ else S.max

/-- `from_channels` (src/color.rs:294-297): the first channels; every pixel type has at most four. -/
def fromChannels4 (S : Samp α) (t : Pix α 4) : Pix α ch := fun c => if h : c.val < 4 then t ⟨c.val, h⟩ else S.max

/-- `crate::utils::clamp` (src/utils/mod.rs:82-93) on `f32`. -/
def clampF (a lo hi : Fl) : Fl := if a.lt lo then lo else if hi.lt a then hi else a

/-- `crate::utils::clamp` (src/utils/mod.rs:82-93) on integers. -/
def clampZ (a lo hi : Int) : Int := if a < lo then lo else if hi < a then hi else a

/-- `crate::utils::clamp` (src/utils/mod.rs:82-93) on `u32`. -/
def clampN (a lo hi : Nat) : Nat := if a < lo then lo else if hi < a then hi else a

/-- Library functions on `f32`, not modelled further. -/
structure Libm where
  exp : Fl → Fl
  sin : Fl → Fl
  sqrt : Fl → Fl
  /-- `f32::consts::PI` -/
  pi : Fl

/-- `enum FilterType` (src/imageops/sample.rs:85-100). -/
inductive FilterType
  | nearest | triangle | catmullRom | gaussian | lanczos3
  deriving DecidableEq, Repr

/-- `struct Filter` (src/imageops/sample.rs:103-109). -/
structure Filter where
  kernel : Fl → Fl
  support : Fl

/-! ## Kernels -/

/-- `sinc` (src/imageops/sample.rs:142-150). -/
def sinc (L : Libm) (t : Fl) : Fl :=
  let a := t.mul f32 L.pi
  if t = .fin 0 then .fin 1 else (L.sin a).div f32 a

/-- `lanczos` (src/imageops/sample.rs:153-159). -/
def lanczos (L : Libm) (x t : Fl) : Fl :=
  if x.abs.lt t then (sinc L x).mul f32 (sinc L (x.div f32 t)) else .fin 0

/-- `bc_cubic_spline` (src/imageops/sample.rs:163-180). `powi(2)` and `powi(3)` are the repeated products. The
coefficients are folded to the constants that `b = 0`, `c = 0.5` of `catmullrom_kernel` give, all of them exact. -/
def bcCubicSpline (x : Fl) : Fl :=
  let a := x.abs
  let a2 := a.mul f32 a
  let a3 := a2.mul f32 a
  let k :=
    if a.lt (.fin 1) then
      (((Fl.fin 9).mul f32 a3).add f32 ((Fl.fin (-15)).mul f32 a2)).add f32 (.fin 6)
    else if a.lt (.fin 2) then
      ((((Fl.fin (-3)).mul f32 a3).add f32 ((Fl.fin 15).mul f32 a2)).add f32 ((Fl.fin (-24)).mul f32 a)).add f32
        (.fin 12)
    else .fin 0
  k.div f32 (.fin 6)

/-- `gaussian` (src/imageops/sample.rs:184-186). -/
def gaussian (L : Libm) (x r : Fl) : Fl :=
  let k := (Fl.fin 1).div f32 ((L.sqrt ((Fl.fin 2).mul f32 L.pi)).mul f32 r)
  k.mul f32 (L.exp (((x.mul f32 x).neg).div f32 ((Fl.fin 2).mul f32 (r.mul f32 r))))

/-- `lanczos3_kernel` (src/imageops/sample.rs:189-191). -/
def lanczos3Kernel (L : Libm) (x : Fl) : Fl := lanczos L x (.fin 3)

/-- `gaussian_kernel` (src/imageops/sample.rs:195-197). -/
def gaussianKernel (L : Libm) (x : Fl) : Fl := gaussian L x (.fin (1 / 2))

/-- `catmullrom_kernel` (src/imageops/sample.rs:201-203). -/
def catmullromKernel (x : Fl) : Fl := bcCubicSpline x

/-- `triangle_kernel` (src/imageops/sample.rs:207-213). -/
def triangleKernel (x : Fl) : Fl := if x.abs.lt (.fin 1) then (Fl.fin 1).sub f32 x.abs else .fin 0

/-- `box_kernel` (src/imageops/sample.rs:218-220). -/
def boxKernel (_x : Fl) : Fl := .fin 1

/-! ## The two passes -/

/-- The input span and normalised weights for output index `o` when an axis of length `len` is sampled at `newLen`
points: `horizontal_sample` (src/imageops/sample.rs:251-287) and `vertical_sample` (src/imageops/sample.rs:499-527)
compute them by the same code. `as u32` of the clamped bounds wraps. -/
def sampleTaps (filter : Filter) (len newLen o : Nat) : Nat × List Fl :=
  let ratio := (Fl.ofNat f32 len).div f32 (Fl.ofNat f32 newLen)
  let sratio := if ratio.lt (.fin 1) then .fin 1 else ratio
  let srcSupport := filter.support.mul f32 sratio
  let input := ((Fl.ofNat f32 o).add f32 (.fin (1 / 2))).mul f32 ratio
  let left := (input.sub f32 srcSupport).floor.toISat 64
  let left := (clampZ left 0 ((len : Int) - 1) % 2 ^ 32).toNat
  let right := (input.add f32 srcSupport).ceil.toISat 64
  let right := (clampZ right ((left : Int) + 1) len % 2 ^ 32).toNat
  let input := input.sub f32 (.fin (1 / 2))
  let ws := (List.range (right - left)).map fun k =>
    filter.kernel (((Fl.ofNat f32 (left + k)).sub f32 input).div f32 sratio)
  let sum := ws.foldl (Fl.add f32) (.fin 0)
  (left, ws.map fun w => w.div f32 sum)

/-- The weighted sum of the pixels of a span, channel by channel
(src/imageops/sample.rs:290-302, 530-548); `px i` reads the `i`-th input. -/
def weightedSum (ws : List Fl) (px : Nat → R (Pix Fl 4)) : R (Pix Fl 4) :=
  forList ws.zipIdx (fun wi t => do
    let vec ← px wi.2
    .ok fun c => (t c).add f32 ((vec c).mul f32 wi.1)) (fun _ => .fin 0)

/-- `vertical_sample` (src/imageops/sample.rs:480-559). -/
def verticalSample {I : Type} [GenericImageView I (Pix α ch)] (S : Samp α) (image : I) (newHeight : Nat)
    (filter : Filter) : R (ImageBuffer Fl 4) := do
  let width := widthOf image
  let height := heightOf image
  assertR (height != 0 || width == 0)
  let out ← ImageBuffer.new 4 (.fin 0) width newHeight
  forRange newHeight (fun outy out => do
    let taps := sampleTaps filter height newHeight outy
    forRange width (fun x out => do
      let t ← weightedSum taps.2 fun i => do
        let p ← getPixel image x (← addC 32 taps.1 i)
        .ok fun c => S.toF32 (channels4 S p c)
      out.putPixel x outy t) out) out

/-- `NumCast::from(FloatNearest(clamp(t, min, max))).unwrap()` (src/imageops/sample.rs:305-310). -/
def nearestSample (S : Samp α) (t : Fl) : R α := unwrapR (S.nearest (clampF t (S.toF32 S.min) (S.toF32 S.max)))

/-- `horizontal_sample` (src/imageops/sample.rs:229-317). -/
def horizontalSample (ch : Nat) (S : Samp α) (image : ImageBuffer Fl 4) (newWidth : Nat) (filter : Filter) :
    R (ImageBuffer α ch) := do
  let width := image.width
  let height := image.height
  assertR (width != 0 || height == 0)
  let out ← ImageBuffer.new ch S.zero newWidth height
  forRange newWidth (fun outx out => do
    let taps := sampleTaps filter width newWidth outx
    forRange height (fun y out => do
      let t ← weightedSum taps.2 fun i => do image.getPixel (← addC 32 taps.1 i) y
      let a ← nearestSample S (t 0)
      let b ← nearestSample S (t 1)
      let c ← nearestSample S (t 2)
      let d ← nearestSample S (t 3)
      out.putPixel outx y (fromChannels4 S (px4 a b c d))) out) out

/-! ## `resize` and `blur` -/

/-- The `match filter` of `resize` (src/imageops/sample.rs:961-982). -/
def FilterType.method (L : Libm) : FilterType → Filter
  | .nearest => ⟨boxKernel, .fin 0⟩
  | .triangle => ⟨triangleKernel, .fin 1⟩
  | .catmullRom => ⟨catmullromKernel, .fin 2⟩
  | .gaussian => ⟨gaussianKernel L, .fin 3⟩
  | .lanczos3 => ⟨lanczos3Kernel L, .fin 3⟩

/-- `resize` (src/imageops/sample.rs:934-987); the error of `copy_from` is unwrapped. -/
def resize {I : Type} [GenericImageView I (Pix α ch)] (L : Libm) (S : Samp α) (image : I) (nwidth nheight : Nat)
    (filter : FilterType) : R (ImageBuffer α ch) :=
  if widthOf image = 0 ∨ heightOf image = 0 then ImageBuffer.new ch S.zero nwidth nheight
  else if (nwidth, nheight) = dims image then do
    let tmp ← ImageBuffer.new ch S.zero (widthOf image) (heightOf image)
    match copyFrom tmp image 0 0 with
    | .ok tmp => .ok tmp
    | .error _ => panicR
  else do
    let method := filter.method L
    let tmp ← verticalSample S image nheight method
    horizontalSample ch S tmp nwidth method

/-- The `Filter` of `blur` (src/imageops/sample.rs:1001-1006). -/
def blurFilter (L : Libm) (sigma : Fl) : Filter :=
  let sigma := if sigma.le (.fin 0) then .fin 1 else sigma
  ⟨fun x => gaussian L x sigma, (Fl.fin 2).mul f32 sigma⟩

/-- `blur` (src/imageops/sample.rs:994-1020). -/
def blur {I : Type} [GenericImageView I (Pix α ch)] (L : Libm) (S : Samp α) (image : I) (sigma : Fl) :
    R (ImageBuffer α ch) :=
  let method := blurFilter L sigma
  let width := widthOf image
  let height := heightOf image
  if width = 0 ∨ height = 0 then ImageBuffer.new ch S.zero width height
  else do
    let tmp ← verticalSample S image height method
    horizontalSample ch S tmp width method

/-- The closure of `unsharpen` (src/imageops/sample.rs:1044-1057) for unsigned samples of at most 31 bits: `i32`
arithmetic with overflow checks. -/
def unsharpenSample (T : Prim) (threshold : Int) (c d : Nat) : R Nat := do
  let toI32 (n : Nat) : R Int := if n < 2 ^ 31 then .ok n else panicR
  let max ← toI32 T.max
  let ic ← toI32 c
  let id ← toI32 d
  let diff := ic - id
  let diffAbs : Int := diff.natAbs
  if threshold < diffAbs then do
    let e := ic + diff
    if -2 ^ 31 ≤ e ∧ e < 2 ^ 31 then do
      let e := clampZ e 0 max
      T.castFrom e.toNat
    else panicR
  else .ok c

/-- `unsharpen` (src/imageops/sample.rs:1027-1064). The maximum is cast before the loops: for samples wider than 31
bits it panics even for an empty image. -/
def unsharpen {I : Type} [GenericImageView I (Pix Nat ch)] (L : Libm) (T : Prim) (image : I) (sigma : Fl)
    (threshold : Int) : R (ImageBuffer Nat ch) := do
  let tmp ← blur L (Samp.uint T) image sigma
  if T.max < 2 ^ 31 then
    forRange (heightOf image) (fun y tmp =>
      forRange (widthOf image) (fun x tmp => do
        let a ← getPixel image x y
        let b ← tmp.getPixel x y
        let p ← (List.finRange ch).mapM fun c => unsharpenSample T threshold (a c) (b c)
        tmp.putPixel x y (← fromSlice ch p)) tmp) tmp
  else panicR

/-! ## Sampling at a point -/

/-- `(lo..=hi).contains(x)` -/
def inRangeF (lo hi x : Fl) : Bool := lo.le x && x.le hi

/-- `interpolate_nearest` (src/imageops/sample.rs:368-385). -/
def interpolateNearest {I P : Type} [GenericImageView I P] (img : I) (x y : Fl) : R (Option P) :=
  let w := widthOf img
  let h := heightOf img
  if w = 0 ∨ h = 0 then .ok none
  else if !inRangeF (.fin 0) (Fl.ofNat f32 (w - 1)) x then .ok none
  else if !inRangeF (.fin 0) (Fl.ofNat f32 (h - 1)) y then .ok none
  else do .ok (some (← getPixel img (x.round.toUSat 32) (y.round.toUSat 32)))

/-- `sample_nearest` (src/imageops/sample.rs:344-360). -/
def sampleNearest {I P : Type} [GenericImageView I P] (img : I) (u v : Fl) : R (Option P) :=
  if !(inRangeF (.fin 0) (.fin 1) u && inRangeF (.fin 0) (.fin 1) v) then .ok none
  else
    let w := widthOf img
    let h := heightOf img
    let ui := ((Fl.ofNat f32 w).mul f32 u).sub f32 (.fin (1 / 2))
    let ui := (ui.fmax (.fin 0)).fmin (Fl.ofNat f32 (satSub w 1))
    let vi := ((Fl.ofNat f32 h).mul f32 v).sub f32 (.fin (1 / 2))
    let vi := (vi.fmax (.fin 0)).fmin (Fl.ofNat f32 (satSub h 1))
    interpolateNearest img ui vi

/-- One channel of `interpolate_bilinear` (src/imageops/sample.rs:452-467); `isFloat` tells float samples by their
maximum. -/
def bilinearSample (S : Samp α) (wff wfc wcf wcc s0 s1 s2 s3 : Fl) : α :=
  let isFloat := S.toF32 S.max = .fin 1
  let v := (((wff.mul f32 s0).add f32 (wfc.mul f32 s1)).add f32 (wcf.mul f32 s2)).add f32 (wcc.mul f32 s3)
  (S.cast (if isFloat then v else v.round)).getD (if v.lt (.fin 0) then S.min else S.max)

/-- `interpolate_bilinear` (src/imageops/sample.rs:388-470). The comparison with `1e-3` in the debug assertion is with
the rational number. -/
def interpolateBilinear {I : Type} [GenericImageView I (Pix α ch)] (S : Samp α) (img : I) (x y : Fl) :
    R (Option (Pix α ch)) := do
  assertR (decide (ch ≤ 4))
  let w := widthOf img
  let h := heightOf img
  if w = 0 ∨ h = 0 then .ok none
  else if !inRangeF (.fin 0) (Fl.ofNat f32 (w - 1)) x then .ok none
  else if !inRangeF (.fin 0) (Fl.ofNat f32 (h - 1)) y then .ok none
  else do
    let uf := x.floor.toUSat 32
    let vf := y.floor.toUSat 32
    let uf1 ← addC 32 uf 1
    let vf1 ← addC 32 vf 1
    let uc := min uf1 (w - 1)
    let vc := min vf1 (h - 1)
    let s0 ← getPixel img uf vf
    let s1 ← getPixel img uf vc
    let s2 ← getPixel img uc vf
    let s3 ← getPixel img uc vc
    let ufw := x.sub f32 (Fl.ofNat f32 uf)
    let vfw := y.sub f32 (Fl.ofNat f32 vf)
    let ucw := (Fl.ofNat f32 uf1).sub f32 x
    let vcw := (Fl.ofNat f32 vf1).sub f32 y
    let wff := ucw.mul f32 vcw
    let wfc := ucw.mul f32 vfw
    let wcf := ufw.mul f32 vcw
    let wcc := ufw.mul f32 vfw
    assertR ((((((wff.add f32 wfc).add f32 wcf).add f32 wcc).sub f32 (.fin 1)).abs).lt (.fin (1 / 1000)))
    .ok (some fun c => bilinearSample S wff wfc wcf wcc (S.toF32 (s0 c)) (S.toF32 (s1 c)) (S.toF32 (s2 c))
      (S.toF32 (s3 c)))

/-- `sample_bilinear` (src/imageops/sample.rs:320-341). -/
def sampleBilinear {I : Type} [GenericImageView I (Pix α ch)] (S : Samp α) (img : I) (u v : Fl) :
    R (Option (Pix α ch)) :=
  if !(inRangeF (.fin 0) (.fin 1) u && inRangeF (.fin 0) (.fin 1) v) then .ok none
  else
    let w := widthOf img
    let h := heightOf img
    if w = 0 ∨ h = 0 then .ok none
    else
      let ui := ((Fl.ofNat f32 w).mul f32 u).sub f32 (.fin (1 / 2))
      let vi := ((Fl.ofNat f32 h).mul f32 v).sub f32 (.fin (1 / 2))
      interpolateBilinear S img ((ui.fmax (.fin 0)).fmin (Fl.ofNat f32 (w - 1)))
        ((vi.fmax (.fin 0)).fmin (Fl.ofNat f32 (h - 1)))

/-! ## `thumbnail` -/

/-- `ThumbnailSum::add_pixel` (src/imageops/sample.rs:578-585), on `Enlargeable::Larger` with overflow checks. -/
def addPixel (T : Prim) (sum : Pix Nat 4) (p : Pix Nat 4) : R (Pix Nat 4) := do
  .ok (px4 (← addC T.largerBits (sum 0) (p 0)) (← addC T.largerBits (sum 1) (p 1))
    (← addC T.largerBits (sum 2) (p 2)) (← addC T.largerBits (sum 3) (p 3)))

/-- One mean of `thumbnail_sample_block` (src/imageops/sample.rs:704-711). -/
def blockMean (T : Prim) (sum round n : Nat) : R Nat := do T.clampFrom ((← addC T.largerBits sum round) / n)

/-- `thumbnail_sample_block` (src/imageops/sample.rs:683-712). -/
def thumbnailBlock {I : Type} [GenericImageView I (Pix Nat ch)] (T : Prim) (image : I) (left right bottom top : Nat) :
    R (Pix Nat 4) := do
  let sum ← forRange (top - bottom) (fun j sum =>
    forRange (right - left) (fun i sum => do
      let k ← getPixel image (left + i) (bottom + j)
      addPixel T sum (channels4 (Samp.uint T) k)) sum) (fun _ => 0)
  let n ← mulC 32 (← subC right left) (← subC top bottom)
  let round := n / 2
  .ok (px4 (← blockMean T (sum 0) round n) (← blockMean T (sum 1) round n) (← blockMean T (sum 2) round n)
    (← blockMean T (sum 3) round n))

/-- `mix_left_and_right` and `mix_bot_and_top` (src/imageops/sample.rs:743-748, 787-790). -/
def mixTwo (T : Prim) (factA factB : Fl) (a b : Nat) : R Nat :=
  unwrapR (((factA.mul f32 (Fl.ofNat f32 a)).add f32 (factB.mul f32 (Fl.ofNat f32 b))).castU T.bits)

/-- `thumbnail_sample_fraction_horizontal` (src/imageops/sample.rs:715-756). -/
def thumbnailHorizontal {I : Type} [GenericImageView I (Pix Nat ch)] (T : Prim) (image : I) (left : Nat) (fract : Fl)
    (bottom top : Nat) : R (Pix Nat 4) := do
  let sums ← forRange (top - bottom) (fun j (s : Pix Nat 4 × Pix Nat 4) => do
    let kLeft ← getPixel image left (bottom + j)
    let sumLeft ← addPixel T s.1 (channels4 (Samp.uint T) kLeft)
    let kRight ← getPixel image (← addC 32 left 1) (bottom + j)
    let sumRight ← addPixel T s.2 (channels4 (Samp.uint T) kRight)
    .ok (sumLeft, sumRight)) (fun _ => 0, fun _ => 0)
  let n := Fl.ofNat f32 (← subC top bottom)
  let factRight := fract.div f32 n
  let factLeft := ((Fl.fin 1).sub f32 fract).div f32 n
  .ok (px4 (← mixTwo T factLeft factRight (sums.1 0) (sums.2 0)) (← mixTwo T factLeft factRight (sums.1 1) (sums.2 1))
    (← mixTwo T factLeft factRight (sums.1 2) (sums.2 2)) (← mixTwo T factLeft factRight (sums.1 3) (sums.2 3)))

/-- `thumbnail_sample_fraction_vertical` (src/imageops/sample.rs:759-798). -/
def thumbnailVertical {I : Type} [GenericImageView I (Pix Nat ch)] (T : Prim) (image : I) (left right bottom : Nat)
    (fract : Fl) : R (Pix Nat 4) := do
  let sums ← forRange (right - left) (fun i (s : Pix Nat 4 × Pix Nat 4) => do
    let kBot ← getPixel image (left + i) bottom
    let sumBot ← addPixel T s.1 (channels4 (Samp.uint T) kBot)
    let kTop ← getPixel image (left + i) (← addC 32 bottom 1)
    let sumTop ← addPixel T s.2 (channels4 (Samp.uint T) kTop)
    .ok (sumBot, sumTop)) (fun _ => 0, fun _ => 0)
  let n := Fl.ofNat f32 (← subC right left)
  let factTop := fract.div f32 n
  let factBot := ((Fl.fin 1).sub f32 fract).div f32 n
  .ok (px4 (← mixTwo T factBot factTop (sums.1 0) (sums.2 0)) (← mixTwo T factBot factTop (sums.1 1) (sums.2 1))
    (← mixTwo T factBot factTop (sums.1 2) (sums.2 2)) (← mixTwo T factBot factTop (sums.1 3) (sums.2 3)))

/-- `mix` of `thumbnail_sample_fraction_both` (src/imageops/sample.rs:830-838). -/
def mixFour (T : Prim) (factBr factTr factBl factTl : Fl) (br tr bl tl : Nat) : R Nat :=
  unwrapR ((((((factBr.mul f32 (Fl.ofNat f32 br)).add f32 (factTr.mul f32 (Fl.ofNat f32 tr))).add f32
    (factBl.mul f32 (Fl.ofNat f32 bl))).add f32 (factTl.mul f32 (Fl.ofNat f32 tl)))).castU T.bits)

/-- `thumbnail_sample_fraction_both` (src/imageops/sample.rs:801-846). -/
def thumbnailBoth {I : Type} [GenericImageView I (Pix Nat ch)] (T : Prim) (image : I) (left : Nat) (fracV : Fl)
    (bottom : Nat) (fracH : Fl) : R (Pix Nat 4) := do
  let S := Samp.uint T
  let kBl ← getPixel image left bottom
  let bottom1 ← addC 32 bottom 1
  let kTl ← getPixel image left bottom1
  let left1 ← addC 32 left 1
  let kBr ← getPixel image left1 bottom
  let kTr ← getPixel image left1 bottom1
  let one : Fl := .fin 1
  let factTr := fracV.mul f32 fracH
  let factTl := fracV.mul f32 (one.sub f32 fracH)
  let factBr := (one.sub f32 fracV).mul f32 fracH
  let factBl := (one.sub f32 fracV).mul f32 (one.sub f32 fracH)
  let mix (c : Fin 4) : R Nat :=
    mixFour T factBr factTr factBl factTl (channels4 S kBr c) (channels4 S kTr c) (channels4 S kBl c)
      (channels4 S kTl c)
  .ok (px4 (← mix 0) (← mix 1) (← mix 2) (← mix 3))

/-- Start, end (as floats) and the clamped bounds of the input span of output index `o`
(src/imageops/sample.rs:612-620, 623-627). -/
def thumbnailSpan (len newLen o : Nat) : Fl × Fl × Nat × Nat :=
  let ratio := (Fl.ofNat f32 len).div f32 (Fl.ofNat f32 newLen)
  let lo := (Fl.ofNat f32 o).mul f32 ratio
  let hi := lo.add f32 ratio
  let a := clampN (lo.ceil.toUSat 32) 0 (len - 1)
  let b := clampN (hi.ceil.toUSat 32) a len
  (lo, hi, a, b)

/-- One pixel of `thumbnail` (src/imageops/sample.rs:629-671); debug assertions are on. -/
def thumbnailPixel {I : Type} [GenericImageView I (Pix Nat ch)] (T : Prim) (image : I) (xs ys : Fl × Fl × Nat × Nat) :
    R (Pix Nat 4) :=
  let (leftf, rightf, left, right) := xs
  let (bottomf, topf, bottom, top) := ys
  if bottom ≠ top ∧ left ≠ right then thumbnailBlock T image left right bottom top
  else if bottom ≠ top then do
    assertR (decide (0 < left) && decide (0 < right))
    let fractionHorizontal := (leftf.fract.add f32 rightf.fract).div f32 (.fin 2)
    thumbnailHorizontal T image (← subC right 1) fractionHorizontal bottom top
  else if left ≠ right then do
    assertR (decide (0 < bottom) && decide (0 < top))
    let fractionVertical := (topf.fract.add f32 bottomf.fract).div f32 (.fin 2)
    thumbnailVertical T image left right (← subC top 1) fractionVertical
  else do
    let fractionHorizontal := (topf.fract.add f32 bottomf.fract).div f32 (.fin 2)
    let fractionVertical := (leftf.fract.add f32 rightf.fract).div f32 (.fin 2)
    thumbnailBoth T image (← subC right 1) fractionHorizontal (← subC top 1) fractionVertical

/-- `thumbnail` (src/imageops/sample.rs:600-680), for unsigned integer samples. -/
def thumbnail {I : Type} [GenericImageView I (Pix Nat ch)] (T : Prim) (image : I) (newWidth newHeight : Nat) :
    R (ImageBuffer Nat ch) := do
  let width := widthOf image
  let height := heightOf image
  let out ← ImageBuffer.new ch 0 newWidth newHeight
  if height = 0 ∨ width = 0 then .ok out
  else
    forRange newHeight (fun outy out =>
      forRange newWidth (fun outx out => do
        let avg ← thumbnailPixel T image (thumbnailSpan width newWidth outx) (thumbnailSpan height newHeight outy)
        out.putPixel outx outy (fromChannels4 (Samp.uint T) avg)) out) out

/-! ## `filter3x3` -/

/-- The kernel's input positions relative to the current pixel (src/imageops/sample.rs:857-867). -/
def taps3x3 : List (Int × Int) :=
  [(-1, -1), (0, -1), (1, -1), (-1, 0), (0, 0), (1, 0), (-1, 1), (0, 1), (1, 1)]

/-- `filter3x3` (src/imageops/sample.rs:850-928). -/
def filter3x3 {I : Type} [GenericImageView I (Pix α ch)] (S : Samp α) (image : I) (kernel : List Fl) :
    R (ImageBuffer α ch) := do
  let width := widthOf image
  let height := heightOf image
  let out ← ImageBuffer.new ch S.zero width height
  let max := S.toF32 S.max
  let sum := kernel.foldl (Fl.add f32) (.fin 0)
  let sum := if sum = .fin 0 then .fin 1 else sum
  let h1 ← subC height 1
  forRange (h1 - 1) (fun y out => do
    let w1 ← subC width 1
    forRange (w1 - 1) (fun x out => do
      let t ← forList (kernel.zip taps3x3) (fun kt t => do
        let x0 : Int := (x + 1 : Nat) + kt.2.1
        let y0 : Int := (y + 1 : Nat) + kt.2.2
        let p ← getPixel image (x0 % 2 ^ 32).toNat (y0 % 2 ^ 32).toNat
        .ok fun c => (t c).add f32 ((S.toF32 (channels4 S p c)).mul f32 kt.1)) (fun _ => Fl.fin 0)
      let sample (c : Fin 4) : R α := unwrapR (S.cast (clampF ((t c).div f32 sum) (.fin 0) max))
      let a ← sample 0
      let b ← sample 1
      let c ← sample 2
      let d ← sample 3
      out.putPixel (x + 1) (y + 1) (fromChannels4 S (px4 a b c d))) out) out

end Verif
