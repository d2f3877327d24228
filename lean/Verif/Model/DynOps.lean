import Verif.Model.Dynamic
import Verif.Model.Sample
import Verif.Model.FastBlur
import Verif.Model.ColorAdjust

/-!
# Operations of `DynamicImage` (src/dynimage.rs)

The operations on `f32` images are a parameter (`FloatOps`), since `f32` samples are held as bit patterns.
-/

namespace Verif

/-- An operation on the buffer of a `DynamicImage` that keeps the pixel type, with its arguments. -/
inductive BufOp where
  | resize (nwidth nheight : Nat) (filter : FilterType)
  | thumbnail (nwidth nheight : Nat)
  | blur (sigma : Fl)
  | fastBlur (sigma : Fl)
  | unsharpen (sigma : Fl) (threshold : Int)
  | filter3x3 (kernel : List Fl)
  | contrast (c : Fl)
  | brighten (value : Int)
  | huerotate (value : Int)

/-- The functions of the standard library, and what the operations do to `f32` buffers. -/
structure OpEnv where
  libm : Libm
  trig : Trig
  float : BufOp → (m : PixelType) → ImageBuffer Nat m.ch → R (ImageBuffer Nat m.ch)
  gray : (m : PixelType) → ImageBuffer Nat m.ch → R (ImageBuffer Nat m.ch)

/-- The functions of `imageops` that the operations stand for, on integer buffers. -/
def BufOp.onInt (env : OpEnv) (S : Prim) (m : PixelType) (b : ImageBuffer Nat m.ch) : BufOp → R (ImageBuffer Nat m.ch)
  | .resize nw nh filter => Verif.resize env.libm (Samp.uint S) b nw nh filter
  | .thumbnail nw nh => Verif.thumbnail S b nw nh
  | .blur sigma => Verif.blur env.libm (Samp.uint S) b sigma
  | .fastBlur sigma => Verif.fastBlur env.libm (Samp.uint S) b sigma
  | .unsharpen sigma threshold => Verif.unsharpen env.libm S b sigma threshold
  | .filter3x3 kernel => Verif.filter3x3 (Samp.uint S) b kernel
  | .contrast c => contrastCopy (Samp.uint S) c b
  | .brighten value => Verif.brighten S m.alphas value b
  | .huerotate value => Verif.huerotate env.trig S value b

namespace DynamicImage

/-- The first form of `dynamic_map!` (src/dynimage.rs:84-98) with an operation that depends on the sample type. -/
def apply (env : OpEnv) (op : BufOp) : DynamicImage → R DynamicImage
  | luma8 b => do .ok (luma8 (← op.onInt env .u8 .luma b))
  | lumaA8 b => do .ok (lumaA8 (← op.onInt env .u8 .lumaA b))
  | rgb8 b => do .ok (rgb8 (← op.onInt env .u8 .rgb b))
  | rgba8 b => do .ok (rgba8 (← op.onInt env .u8 .rgba b))
  | luma16 b => do .ok (luma16 (← op.onInt env .u16 .luma b))
  | lumaA16 b => do .ok (lumaA16 (← op.onInt env .u16 .lumaA b))
  | rgb16 b => do .ok (rgb16 (← op.onInt env .u16 .rgb b))
  | rgba16 b => do .ok (rgba16 (← op.onInt env .u16 .rgba b))
  | rgb32F b => do .ok (rgb32F (← env.float op .rgb b))
  | rgba32F b => do .ok (rgba32F (← env.float op .rgba b))

/-- `resize_exact` (src/dynimage.rs:763-770). -/
def resizeExact (env : OpEnv) (d : DynamicImage) (nwidth nheight : Nat) (filter : FilterType) : R DynamicImage :=
  d.apply env (.resize nwidth nheight filter)

/-- `resize` (src/dynimage.rs:749-757). -/
def resize (env : OpEnv) (d : DynamicImage) (nwidth nheight : Nat) (filter : FilterType) : R DynamicImage :=
  if (nwidth, nheight) = (d.width, d.height) then .ok d
  else
    let (width2, height2) := resizeDimensions d.width d.height nwidth nheight false
    d.resizeExact env width2 height2 filter

/-- `thumbnail_exact` (src/dynimage.rs:794-796). -/
def thumbnailExact (env : OpEnv) (d : DynamicImage) (nwidth nheight : Nat) : R DynamicImage :=
  d.apply env (.thumbnail nwidth nheight)

/-- `thumbnail` (src/dynimage.rs:781-785). -/
def thumbnail (env : OpEnv) (d : DynamicImage) (nwidth nheight : Nat) : R DynamicImage :=
  let (width2, height2) := resizeDimensions d.width d.height nwidth nheight false
  d.thumbnailExact env width2 height2

/-- `resize_to_fill` (src/dynimage.rs:805-824). -/
def resizeToFill (env : OpEnv) (d : DynamicImage) (nwidth nheight : Nat) (filter : FilterType) : R DynamicImage := do
  let (width2, height2) := resizeDimensions d.width d.height nwidth nheight true
  let intermediate ← d.resizeExact env width2 height2 filter
  let (x, y) ← fillCrop intermediate.width intermediate.height nwidth nheight
  intermediate.crop x y nwidth nheight

/-- `blur` (src/dynimage.rs:831-833). -/
def blur (env : OpEnv) (d : DynamicImage) (sigma : Fl) : R DynamicImage := d.apply env (.blur sigma)
/-- `fast_blur` (src/dynimage.rs:839-841). -/
def fastBlur (env : OpEnv) (d : DynamicImage) (sigma : Fl) : R DynamicImage := d.apply env (.fastBlur sigma)
/-- `unsharpen` (src/dynimage.rs:849-851). -/
def unsharpen (env : OpEnv) (d : DynamicImage) (sigma : Fl) (threshold : Int) : R DynamicImage := d.apply env (.unsharpen sigma threshold)
/-- `filter3x3` (src/dynimage.rs:855-859). -/
def filter3x3 (env : OpEnv) (d : DynamicImage) (kernel : List Fl) : R DynamicImage := do
  assertR (decide (9 = kernel.length))
  d.apply env (.filter3x3 kernel)
/-- `adjust_contrast` (src/dynimage.rs:865-867). -/
def adjustContrast (env : OpEnv) (d : DynamicImage) (c : Fl) : R DynamicImage := d.apply env (.contrast c)
/-- `brighten` (src/dynimage.rs:873-875). -/
def brighten (env : OpEnv) (d : DynamicImage) (value : Int) : R DynamicImage := d.apply env (.brighten value)
/-- `huerotate` (src/dynimage.rs:882-884). -/
def huerotate (env : OpEnv) (d : DynamicImage) (value : Int) : R DynamicImage := d.apply env (.huerotate value)

/-- `grayscale` (src/dynimage.rs:711-736). -/
def grayscale (env : OpEnv) : DynamicImage → R DynamicImage
  | luma8 p => .ok (luma8 p)
  | lumaA8 p => do .ok (lumaA8 (← grayscaleWithTypeAlpha .u8 .u8 .lumaA .lumaA p))
  | rgb8 p => do .ok (luma8 (← grayscaleWithType .u8 .u8 .rgb .luma p))
  | rgba8 p => do .ok (lumaA8 (← grayscaleWithTypeAlpha .u8 .u8 .rgba .lumaA p))
  | luma16 p => .ok (luma16 p)
  | lumaA16 p => do .ok (lumaA16 (← grayscaleWithTypeAlpha .u16 .u16 .lumaA .lumaA p))
  | rgb16 p => do .ok (luma16 (← grayscaleWithType .u16 .u16 .rgb .luma p))
  | rgba16 p => do .ok (lumaA16 (← grayscaleWithTypeAlpha .u16 .u16 .rgba .lumaA p))
  | rgb32F p => do .ok (rgb32F (← env.gray .rgb p))
  | rgba32F p => do .ok (rgba32F (← env.gray .rgba p))

end DynamicImage
end Verif
