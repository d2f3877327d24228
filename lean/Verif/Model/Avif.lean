import Verif.Model.DecoderToImage
import Verif.Model.JpegEntropy
import Verif.Base.Float

/-!
# AVIF: planes to RGBA (src/codecs/avif/yuv.rs, src/codecs/avif/decoder.rs)

The container parser and the AV1 decoder (`mp4parse`, `dav1d`) are not modelled: a `dav1d::Picture` is a parameter. `CHANNELS` is 4, the only value the
decoder uses; the depth is a parameter. Samples of either width are natural numbers.
-/

namespace Verif
namespace Avif

open Jpeg (i32)

/-- `struct CbCrInverseTransform<i32>` (src/codecs/avif/yuv.rs:9-15) -/
structure Transform where
  yCoef : Int
  crCoef : Int
  cbCoef : Int
  gCoef1 : Int
  gCoef2 : Int
  deriving DecidableEq

/-- `enum YuvIntensityRange` (src/codecs/avif/yuv.rs:155-162) -/
inductive Range
  | tv
  | pc
  deriving DecidableEq

/-- `struct YuvChromaRange` (src/codecs/avif/yuv.rs:165-171) without the copy of the range. -/
structure ChromaRange where
  biasY : Nat
  biasUv : Nat
  rangeY : Nat
  rangeUv : Nat
  deriving DecidableEq

/-- `get_yuv_range` (src/codecs/avif/yuv.rs:174-191); the depth is at least 8. -/
def Range.yuvRange (r : Range) (depth : Nat) : ChromaRange :=
  match r with
  | .tv => ⟨16 * 2 ^ (depth - 8), 2 ^ (depth - 1), 219 * 2 ^ (depth - 8), 224 * 2 ^ (depth - 8)⟩
  | .pc => ⟨0, 2 ^ (depth - 1), 2 ^ depth - 1, 2 ^ depth - 1⟩

/-- `enum YuvStandardMatrix` (src/codecs/avif/yuv.rs:197-204) -/
inductive Matrix
  | bt601
  | bt709
  | bt2020
  | smpte240
  | bt470_6
  | identity
  deriving DecidableEq

/-- An `f32` literal: the nearest float. -/
def lit (q : ℚ) : Fl := f32.ofRat q

/-- `get_kr_kb` (src/codecs/avif/yuv.rs:213-237) -/
def Matrix.krKb : Matrix → R (Fl × Fl)
  | .bt601 => .ok (lit (299 / 1000), lit (114 / 1000))
  | .bt709 => .ok (lit (2126 / 10000), lit (722 / 10000))
  | .bt2020 => .ok (lit (2627 / 10000), lit (593 / 10000))
  | .smpte240 => .ok (lit (87 / 1000), lit (212 / 1000))
  | .bt470_6 => .ok (lit (2220 / 10000), lit (713 / 10000))
  | .identity => panicR

/-- A coefficient in fixed point (src/codecs/avif/yuv.rs:18-32): `as i32` truncates. The precision is 11 bits everywhere. -/
def fixed (x : Fl) : Int := (x.mul f32 (.fin 2048)).toISat 32

/-- `get_inverse_transform` (src/codecs/avif/yuv.rs:126-150) -/
def inverseTransform (rangeBgra rangeY rangeUv : Nat) (kr kb : Fl) : R Transform := do
  let rangeUv := (Fl.ofNat f32 rangeBgra).div f32 (Fl.ofNat f32 rangeUv)
  let yCoef := (Fl.ofNat f32 rangeBgra).div f32 (Fl.ofNat f32 rangeY)
  let crCoef := ((Fl.fin 2).mul f32 ((Fl.fin 1).sub f32 kr)).mul f32 rangeUv
  let cbCoef := ((Fl.fin 2).mul f32 ((Fl.fin 1).sub f32 kb)).mul f32 rangeUv
  let kg := ((Fl.fin 1).sub f32 kr).sub f32 kb
  assertR (decide (kg ≠ .fin 0))
  let gCoef1 := ((Fl.fin 2).mul f32 ((((Fl.fin 1).sub f32 kr).mul f32 kr).div f32 kg)).mul f32 rangeUv
  let gCoef2 := ((Fl.fin 2).mul f32 ((((Fl.fin 1).sub f32 kb).mul f32 kb).div f32 kg)).mul f32 rangeUv
  .ok ⟨fixed yCoef, fixed crCoef, fixed cbCoef, fixed gCoef1, fixed gCoef2⟩

/-- `qrshr` (src/codecs/avif/yuv.rs:253-257) with 11 bits of precision; the shift of a negative number rounds down. -/
def qrshr (depth : Nat) (val : Int) : R Int := do
  let v ← i32 (val + 1024)
  .ok (max 0 (min (v / 2048) (2 ^ depth - 1)))

/-- `r.as_()` from `i32` into the sample type: `u8` for depth 8, otherwise `u16`. -/
def asSample (depth : Nat) (v : Int) : Nat := if depth > 8 then (v % 2 ^ 16).toNat else (v % 2 ^ 8).toNat

/-- `struct YuvPlanarImage` (src/codecs/avif/yuv.rs:240-249) -/
structure Planar where
  y : List Nat
  yStride : Nat
  u : List Nat
  uStride : Nat
  v : List Nat
  vStride : Nat
  width : Nat
  height : Nat

/-- `check_yuv_plane_preconditions` and `check_rgb_preconditions` (src/codecs/avif/yuv.rs:86-123) -/
def checkPlane (plane : List Nat) (stride height : Nat) : R Unit := do
  let n ← mulC 64 stride height
  if plane.length ≠ n then errR .decoding else .ok ()

/-- `for (src, dst) in srcs.zip(dsts)` where the body changes `dst`. -/
def zipWrite {ρ β : Type} (f : ρ → β → R β) : List ρ → List β → R (List β)
  | r :: rs, b :: bs => do
    let b ← f r b
    let bs ← zipWrite f rs bs
    .ok (b :: bs)
  | _, bs => .ok bs

/-- `for (src, chunk) in srcs.zip(buf.chunks_exact_mut(n))` where the body changes the chunk; panics for `n = 0`. -/
def zipChunks {ρ : Type} (n : Nat) (f : ρ → List Nat → R (List Nat)) (srcs : List ρ) (buf : List Nat) : R (List Nat) := do
  assertR (decide (n ≠ 0))
  let chunks ← zipWrite f srcs (chunksExact n buf)
  .ok (chunks.flatten ++ buf.drop (buf.length / n * n))

/-- `plane.chunks_exact(n)`, which panics for `n = 0`. -/
def rowsOf (n : Nat) (plane : List Nat) : R (List (List Nat)) := do
  assertR (decide (n ≠ 0))
  .ok (chunksExact n plane)

/-- A grey pixel of limited range (src/codecs/avif/yuv.rs:422-430, 1280-1289): the sample and the bias, scaled. -/
def scaled (depth : Nat) (coef bias : Int) (s : Nat) : R Nat := do
  let a ← i32 ((s : Int) - bias)
  let b ← i32 (a * coef)
  let r ← qrshr depth b
  .ok (asSample depth r)

/-- The opaque alpha value: `max_value.as_()`. -/
def solid (depth : Nat) : Nat := asSample depth (2 ^ depth - 1)

/-- The conversion of one pixel (src/codecs/avif/yuv.rs:530-537, 552-556, 589-598, 1125-1133): R, G, B and alpha. -/
def pixel (depth : Nat) (t : Transform) (range : ChromaRange) (y u v : Nat) : R (List Nat) := do
  let a ← i32 ((y : Int) - range.biasY)
  let yv ← i32 (a * t.yCoef)
  let cb ← i32 ((u : Int) - range.biasUv)
  let cr ← i32 ((v : Int) - range.biasUv)
  let r1 ← i32 (t.crCoef * cr)
  let r2 ← i32 (yv + r1)
  let r ← qrshr depth r2
  let b1 ← i32 (t.cbCoef * cb)
  let b2 ← i32 (yv + b1)
  let b ← qrshr depth b2
  let g1 ← i32 (t.gCoef1 * cr)
  let g2 ← i32 (yv - g1)
  let g3 ← i32 (t.gCoef2 * cb)
  let g4 ← i32 (g2 - g3)
  let g ← qrshr depth g4
  .ok [asSample depth r, asSample depth g, asSample depth b, solid depth]

/-- `yuv400_to_rgbx_impl` (src/codecs/avif/yuv.rs:329-435) -/
def yuv400 (depth : Nat) (image : Planar) (rgba : List Nat) (range : Range) (matrix : Matrix) : R (List Nat) := do
  assertR (decide (matrix ≠ .identity))
  checkPlane image.y image.yStride image.height
  let stride ← mulC 64 image.width 4
  checkPlane rgba stride image.height
  if range = .pc then do
    let rows ← rowsOf image.yStride image.y
    zipChunks stride (fun row rgb => zipChunks 4 (fun y _ => .ok [y, y, y, solid depth]) row rgb) rows rgba
  else do
    let cr := range.yuvRange depth
    let k ← matrix.krKb
    let t ← inverseTransform (2 ^ depth - 1) cr.rangeY cr.rangeUv k.1 k.2
    let rows ← rowsOf image.yStride image.y
    zipChunks stride (fun row rgb => zipChunks 4 (fun y _ => do
      let r ← scaled depth t.yCoef cr.biasY y
      .ok [r, r, r, solid depth]) row rgb) rows rgba

/-- `&plane[0..n]` -/
def sliceTo (n : Nat) (l : List Nat) : R (List Nat) := if n ≤ l.length then .ok (l.take n) else panicR

/-- `process_halved_chroma_row` (src/codecs/avif/yuv.rs:496-611): `rgba` is a row. -/
def halvedRow (depth width : Nat) (t : Transform) (range : ChromaRange) (y u v rgba : List Nat) : R (List Nat) := do
  let y ← sliceTo width y
  let u ← sliceTo ((width + 1) / 2) u
  let v ← sliceTo ((width + 1) / 2) v
  let rest := rgba.drop (width * 4)
  let rgba ← sliceTo (width * 4) rgba
  let rgba ← zipChunks 8 (fun (yuv : (List Nat × Nat) × Nat) _ => do
    let y0 ← unwrapR yuv.1.1[0]?
    let y1 ← unwrapR yuv.1.1[1]?
    let p ← pixel depth t range y0 yuv.1.2 yuv.2
    let q ← pixel depth t range y1 yuv.1.2 yuv.2
    .ok (p ++ q)) (((chunksExact 2 y).zip u).zip v) rgba
  if width % 2 ≠ 0 then do
    let n := rgba.length / 8 * 8
    let last ← zipChunks 4 (fun (yuv : (Nat × Nat) × Nat) _ => pixel depth t range yuv.1.1 yuv.1.2 yuv.2)
      (((y.drop (y.length / 2 * 2)).zip u.reverse).zip v.reverse) (rgba.drop n)
    .ok (rgba.take n ++ last ++ rest)
  else .ok (rgba ++ rest)

/-- `yuv420_to_rgbx` (src/codecs/avif/yuv.rs:625-774): pairs of rows, then the last row of an odd height. -/
def yuv420 (depth : Nat) (image : Planar) (rgb : List Nat) (range : Range) (matrix : Matrix) : R (List Nat) := do
  assertR (decide (matrix ≠ .identity))
  let chromaHeight := (image.height + 1) / 2
  checkPlane image.y image.yStride image.height
  checkPlane image.u image.uStride chromaHeight
  checkPlane image.v image.vStride chromaHeight
  let stride ← mulC 64 image.width 4
  checkPlane rgb stride image.height
  let cr := range.yuvRange depth
  let k ← matrix.krKb
  let t ← inverseTransform (2 ^ depth - 1) cr.rangeY cr.rangeUv k.1 k.2
  let ys ← rowsOf (image.yStride * 2) image.y
  let us ← rowsOf image.uStride image.u
  let vs ← rowsOf image.vStride image.v
  let rgb ← zipChunks (stride * 2) (fun (yuv : (List Nat × List Nat) × List Nat) rgb => do
    let yRows ← rowsOf image.yStride yuv.1.1
    zipChunks stride (fun y rgba => halvedRow depth image.width t cr y yuv.1.2 yuv.2 rgba) yRows rgb) ((ys.zip us).zip vs) rgb
  let left ← rowsOf image.yStride (image.y.drop (image.y.length / (image.yStride * 2) * (image.yStride * 2)))
  let rows ← zipWrite (fun (yuv : (List Nat × List Nat) × List Nat) rgba => halvedRow depth image.width t cr yuv.1.1 yuv.1.2 yuv.2 rgba)
    ((left.zip us.reverse).zip vs.reverse) (chunksExact stride rgb).reverse
  .ok (rows.reverse.flatten ++ rgb.drop (rgb.length / stride * stride))

/-- `yuv422_to_rgbx_impl` (src/codecs/avif/yuv.rs:845-959) -/
def yuv422 (depth : Nat) (image : Planar) (rgb : List Nat) (range : Range) (matrix : Matrix) : R (List Nat) := do
  assertR (decide (matrix ≠ .identity))
  checkPlane image.y image.yStride image.height
  checkPlane image.u image.uStride image.height
  checkPlane image.v image.vStride image.height
  let stride ← mulC 64 image.width 4
  checkPlane rgb stride image.height
  let cr := range.yuvRange depth
  let k ← matrix.krKb
  let t ← inverseTransform (2 ^ depth - 1) cr.rangeY cr.rangeUv k.1 k.2
  let ys ← rowsOf image.yStride image.y
  let us ← rowsOf image.uStride image.u
  let vs ← rowsOf image.vStride image.v
  zipChunks stride (fun (yuv : (List Nat × List Nat) × List Nat) rgba => halvedRow depth image.width t cr yuv.1.1 yuv.1.2 yuv.2 rgba)
    ((ys.zip us).zip vs) rgb

/-- A row of 4:4:4 samples (src/codecs/avif/yuv.rs:1119-1146, 1276-1291, 1295-1307). -/
def fullRow (px : Nat → Nat → Nat → R (List Nat)) (yuv : (List Nat × List Nat) × List Nat) (rgb : List Nat) : R (List Nat) :=
  zipChunks 4 (fun (p : (Nat × Nat) × Nat) _ => px p.1.1 p.1.2 p.2) ((yuv.1.1.zip yuv.1.2).zip yuv.2) rgb

/-- `yuv444_to_rgbx_impl` (src/codecs/avif/yuv.rs:1043-1149) -/
def yuv444Impl (depth : Nat) (image : Planar) (rgba : List Nat) (range : Range) (matrix : Matrix) : R (List Nat) := do
  checkPlane image.y image.yStride image.height
  checkPlane image.u image.uStride image.height
  checkPlane image.v image.vStride image.height
  let stride ← mulC 64 image.width 4
  checkPlane rgba stride image.height
  let cr := range.yuvRange depth
  let k ← matrix.krKb
  let t ← inverseTransform (2 ^ depth - 1) cr.rangeY cr.rangeUv k.1 k.2
  let ys ← rowsOf image.yStride image.y
  let us ← rowsOf image.uStride image.u
  let vs ← rowsOf image.vStride image.v
  zipChunks stride (fullRow (pixel depth t cr)) ((ys.zip us).zip vs) rgba

/-- The factor of limited-range GBR planes (src/codecs/avif/yuv.rs:1270-1272); computed as in `get_inverse_transform`. -/
def gbrCoef (depth : Nat) (range : ChromaRange) : Int :=
  fixed ((Fl.ofNat f32 (2 ^ depth - 1)).div f32 (Fl.ofNat f32 range.rangeY))

/-- `gbr_to_rgbx_impl` (src/codecs/avif/yuv.rs:1214-1313) -/
def gbr (depth : Nat) (image : Planar) (rgba : List Nat) (range : Range) : R (List Nat) := do
  checkPlane image.y image.yStride image.height
  checkPlane image.u image.uStride image.height
  checkPlane image.v image.vStride image.height
  let stride ← mulC 64 image.width 4
  checkPlane rgba stride image.height
  let ys ← rowsOf image.yStride image.y
  let us ← rowsOf image.uStride image.u
  let vs ← rowsOf image.vStride image.v
  match range with
  | .tv => do
    let cr := range.yuvRange depth
    let coef := gbrCoef depth cr
    zipChunks stride (fullRow fun y u v => do
      let r ← scaled depth coef cr.biasY v
      let g ← scaled depth coef cr.biasY y
      let b ← scaled depth coef cr.biasY u
      .ok [r, g, b, solid depth]) ((ys.zip us).zip vs) rgba
  | .pc => zipChunks stride (fullRow fun y u v => .ok [v, y, u, solid depth]) ((ys.zip us).zip vs) rgba

/-- `yuv444_to_rgba8`, `yuv444_to_rgba10`, `yuv444_to_rgba12` (src/codecs/avif/yuv.rs:970-1029) -/
def yuv444 (depth : Nat) (image : Planar) (rgba : List Nat) (range : Range) (matrix : Matrix) : R (List Nat) :=
  if matrix = .identity then gbr depth image rgba range else yuv444Impl depth image rgba range matrix

/-! ## The decoder -/

/-- `dav1d::PixelLayout` -/
inductive Layout
  | i400
  | i420
  | i422
  | i444
  deriving DecidableEq

/-- `dav1d::pixel::MatrixCoefficients` (the names of H.273). -/
inductive Coefficients
  | identity
  | bt709
  | unspecified
  | reserved
  | bt470m
  | bt470bg
  | st170m
  | st240m
  | ycgco
  | bt2020Ncl
  | bt2020Cl
  | st2085
  | chromaticityNcl
  | chromaticityCl
  | ictcp
  deriving DecidableEq

/-- A plane: the bytes and the stride in bytes. -/
structure Plane where
  bytes : List UInt8
  stride : Nat

/-- `dav1d::Picture` -/
structure Picture where
  width : Nat
  height : Nat
  depth : Nat
  layout : Layout
  range : Range
  matrix : Coefficients
  y : Plane
  u : Plane
  v : Plane

/-- `get_matrix` (src/codecs/avif/decoder.rs:233-305) -/
def getMatrix : Coefficients → R Matrix
  | .identity => .ok .identity
  | .bt709 => .ok .bt709
  | .unspecified => .ok .bt709
  | .reserved => errR .unsupported
  | .bt470m => .ok .bt470_6
  | .bt470bg => .ok .bt601
  | .st170m => .ok .smpte240
  | .st240m => .ok .smpte240
  | .ycgco => errR .unsupported
  | .bt2020Ncl => .ok .bt2020
  | .bt2020Cl => errR .unsupported
  | .st2085 => errR .unsupported
  | .chromaticityCl | .chromaticityNcl => errR .unsupported
  | .ictcp => errR .unsupported

/-- What is not determined by the file: the byte order of the machine, and whether the planes of the AV1 decoder are aligned for 16-bit access. -/
structure Machine where
  le : Bool
  aligned : List UInt8 → Bool

/-- `reshape_plane` (src/codecs/avif/decoder.rs:116-127) -/
def reshapePlane (m : Machine) (source : List UInt8) (stride width height : Nat) : R (List Nat) := do
  let n ← mulC 64 width height
  assertR (decide (width ≠ 0))
  assertR (decide (stride ≠ 0))
  let rows ← zipWrite (fun (src : List UInt8) (row : List Nat) => zipWrite (fun (s : Nat) _ => .ok s) (samplesOf m.le 2 src) row)
    (chunksExact stride source) (chunksExact width (List.replicate n 0))
  .ok rows.flatten

/-- `transmute_y_plane16` and `transmute_chroma_plane16` (src/codecs/avif/decoder.rs:144-230) for the size of the plane: the samples and their stride.
`bytemuck::try_cast_slice` succeeds if the slice is aligned and has an even number of bytes. -/
def transmute (m : Machine) (p : Plane) (width height : Nat) : R (List Nat × Nat) :=
  if p.stride % 2 = 0 ∧ m.aligned p.bytes = true ∧ p.bytes.length % 2 = 0 then .ok (samplesOf m.le 2 p.bytes, p.stride / 2)
  else do
    let s ← reshapePlane m p.bytes p.stride width height
    .ok (s, width)

/-- The width and height of the chroma planes (src/codecs/avif/decoder.rs:196-205). -/
def Layout.chroma (l : Layout) (width height : Nat) : R (Nat × Nat) :=
  match l with
  | .i400 => panicR
  | .i420 => .ok ((width + 1) / 2, (height + 1) / 2)
  | .i422 => .ok ((width + 1) / 2, height)
  | .i444 => .ok (width, height)

/-- The choice of the conversion (src/codecs/avif/decoder.rs:369-374, 485-514). -/
def worker (depth : Nat) : Layout → Planar → List Nat → Range → Matrix → R (List Nat)
  | .i400 => yuv400 depth
  | .i420 => yuv420 depth
  | .i422 => yuv422 depth
  | .i444 => yuv444 depth

/-- The alpha plane put into the pixels (src/codecs/avif/decoder.rs:390-400, 530-540). -/
def squash (width : Nat) (rows : List (List Nat)) (buf : List Nat) : R (List Nat) :=
  zipChunks (width * 4) (fun row rgba => zipChunks 4 (fun a (px : List Nat) => .ok (px.set 3 a)) row rgba) rows buf

/-- The expansion to 16 bits (src/codecs/avif/decoder.rs:543-547); the shift to the left drops bits beyond 16. -/
def expand (depth s : Nat) : Nat := (s <<< (16 - depth)) % 2 ^ 16 ||| (s >>> (16 - (16 - depth)))

/-- The bytes of a plane as 8-bit samples. -/
def samples8 (bytes : List UInt8) : List Nat := bytes.map UInt8.toNat

/-- `process_16bit_picture` (src/codecs/avif/decoder.rs:430-552): the new contents of `target`. -/
def process16 (m : Machine) (p : Picture) (alpha : Option Picture) (target : List Nat) (range : Range) (matrix : Matrix) : R (List Nat) := do
  let (y, ys) ← transmute m p.y p.width p.height
  let ((u, us), (v, vs)) ← (if p.layout ≠ .i400 then do
      let (cw, ch) ← p.layout.chroma p.width p.height
      let u ← transmute m p.u cw ch
      let v ← transmute m p.v cw ch
      .ok (u, v)
    else .ok (([], 0), ([], 0)))
  let target ← worker p.depth p.layout ⟨y, ys, u, us, v, vs, p.width, p.height⟩ target range matrix
  let target ← (match alpha with
    | none => .ok target
    | some a =>
      if a.layout ≠ .i400 then errR .decoding
      else do
        let (s, stride) ← transmute m a.y p.width p.height
        let rows ← rowsOf stride s
        squash p.width rows target)
  .ok (target.map (expand p.depth))

/-- `struct AvifDecoder` (src/codecs/avif/decoder.rs:27-32) -/
structure Decoder where
  picture : Picture
  alpha : Option Picture

/-- The check of the depth in `AvifDecoder::new` (src/codecs/avif/decoder.rs:93-105), given what the AV1 decoder delivered. -/
def Decoder.new (p : Picture) (alpha : Option Picture) : R Decoder :=
  if p.depth = 8 ∨ p.depth = 10 ∨ p.depth = 12 then .ok ⟨p, alpha⟩ else errR .decoding

/-- `color_type` (src/codecs/avif/decoder.rs:312-318) -/
def Decoder.colorType (d : Decoder) : ColorType := if d.picture.depth = 8 then .Rgba8 else .Rgba16

/-- `read_image` (src/codecs/avif/decoder.rs:324-422): the new contents of `buf`. The two branches for 16-bit pictures (an aligned buffer, or a copy through
an aligned one) write the same bytes; the branch that starts from the contents of `buf` is modelled. -/
def Decoder.readImage (m : Machine) (d : Decoder) (buf : List UInt8) : R (List UInt8) := do
  let p := d.picture
  assertR (decide (buf.length = totalBytes p.width p.height d.colorType.bytesPerPixel))
  assertR (decide (p.depth = 8 ∨ p.depth = 10 ∨ p.depth = 12))
  if p.width = 0 ∨ p.height = 0 then errR .limitsDimension
  else do
    let matrix ← getMatrix p.matrix
    if matrix = .identity ∧ p.layout ≠ .i444 then errR .decoding
    else if p.depth = 8 then do
      let out ← worker 8 p.layout ⟨samples8 p.y.bytes, p.y.stride, samples8 p.u.bytes, p.u.stride, samples8 p.v.bytes, p.v.stride, p.width, p.height⟩
        (samples8 buf) p.range matrix
      let out ← (match d.alpha with
        | none => .ok out
        | some a =>
          if a.layout ≠ .i400 then errR .decoding
          else do
            let rows ← rowsOf a.y.stride (samples8 a.y.bytes)
            squash p.width rows out)
      .ok (out.map UInt8.ofNat)
    else do
      let out ← process16 m p d.alpha (samplesOf m.le 2 buf) p.range matrix
      .ok (bytesOf m.le 2 out)

end Avif
end Verif
