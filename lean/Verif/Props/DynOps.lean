import Verif.Proofs.DynOps
import Verif.Props.Dynamic
import Verif.Props.Resize
import Verif.Props.SampleNearest

/-!
# C108, C109: operations of `DynamicImage`
-/

namespace Verif
open GenericImageView GenericImage

/-- The size of the result of an operation on an image of size `w × h`. -/
def BufOp.size (w h : Nat) : BufOp → Nat × Nat
  | .resize nw nh _ => (nw, nh)
  | .thumbnail nw nh => (nw, nh)
  | _ => (w, h)

/-- What is assumed of the operations on `f32` buffers (shown of the operations of the library by `C130_float_sizes`). -/
def FloatSizes (env : OpEnv) : Prop :=
  ∀ op (m : PixelType) (b b' : ImageBuffer Nat m.ch), b.Inv → (op.size b.width b.height).1 < 2 ^ 32 → (op.size b.width b.height).2 < 2 ^ 32 →
    env.float op m b = .ok b' → HasSize (op.size b.width b.height).1 (op.size b.width b.height).2 b'

namespace DynamicImage

/-- An operation on an integer image is the function of `imageops` on its buffer, the result being of the same variant. -/
theorem C108_acts (env : OpEnv) (op : BufOp) (d : DynamicImage) (S : Prim) (m : PixelType) (b : ImageBuffer Nat m.ch) (h : IntBuf d S m b) :
    (∀ b', op.onInt env S m b = .ok b' → ∃ d', d.apply env op = .ok d' ∧ IntBuf d' S m b') ∧
    ∀ e, op.onInt env S m b = .error e → d.apply env op = .error e := by
  constructor
  · intro b' hb
    cases h <;> (simp only [apply, hb, ok_bind]; exact ⟨_, rfl, by constructor⟩)
  · intro e he
    cases h <;> (simp only [apply, he]; rfl)

/-- The colour type is kept and the size is as documented, for every operation, every filter and every argument, whenever the operation returns. -/
theorem C108_size (env : OpEnv) (hF : FloatSizes env) (op : BufOp) (d d' : DynamicImage) (hv : d.Valid)
    (hw : (op.size d.width d.height).1 < 2 ^ 32) (hh : (op.size d.width d.height).2 < 2 ^ 32) (h : d.apply env op = .ok d') :
    d'.color = d.color ∧ (d'.width, d'.height) = op.size d.width d.height ∧ d'.Valid := by
  have key : ∀ (S : Prim) (m : PixelType) (b b' : ImageBuffer Nat m.ch), b.Inv → (op.size b.width b.height).1 < 2 ^ 32 →
      (op.size b.width b.height).2 < 2 ^ 32 → op.onInt env S m b = .ok b' → HasSize (op.size b.width b.height).1 (op.size b.width b.height).2 b' := by
    intro S m b b' hi hw hh hb
    have hc : m.ch < 256 := by cases m <;> decide
    cases op with
    | resize nw nh ft => exact resize_post hc _ _ b hi nw nh hw hh ft b' hb
    | thumbnail nw nh => exact thumbnail_post hc _ b nw nh hw hh b' hb
    | blur s => exact blur_post hc _ _ b hw hh s b' hb
    | fastBlur s => exact fastBlur_post hc _ _ b hi s b' hb
    | unsharpen s t => exact unsharpen_post hc _ _ b hw hh s t b' hb
    | filter3x3 k => exact filter3x3_post hc _ b hw hh k b' hb
    | contrast c => exact contrast_post hc _ b hw hh c b' hb
    | brighten v => exact brighten_post hc _ _ b hw hh v b' hb
    | huerotate v => exact huerotate_post hc _ _ b hw hh v b' hb
  cases d with
  | luma8 b => obtain ⟨b', e1, e2⟩ := bind_eq_ok.1 h; cases e2; obtain ⟨k1, k2, k3⟩ := key .u8 .luma b b' hv hw hh e1; exact ⟨rfl, Prod.ext k2 k3, k1⟩
  | lumaA8 b => obtain ⟨b', e1, e2⟩ := bind_eq_ok.1 h; cases e2; obtain ⟨k1, k2, k3⟩ := key .u8 .lumaA b b' hv hw hh e1; exact ⟨rfl, Prod.ext k2 k3, k1⟩
  | rgb8 b => obtain ⟨b', e1, e2⟩ := bind_eq_ok.1 h; cases e2; obtain ⟨k1, k2, k3⟩ := key .u8 .rgb b b' hv hw hh e1; exact ⟨rfl, Prod.ext k2 k3, k1⟩
  | rgba8 b => obtain ⟨b', e1, e2⟩ := bind_eq_ok.1 h; cases e2; obtain ⟨k1, k2, k3⟩ := key .u8 .rgba b b' hv hw hh e1; exact ⟨rfl, Prod.ext k2 k3, k1⟩
  | luma16 b => obtain ⟨b', e1, e2⟩ := bind_eq_ok.1 h; cases e2; obtain ⟨k1, k2, k3⟩ := key .u16 .luma b b' hv hw hh e1; exact ⟨rfl, Prod.ext k2 k3, k1⟩
  | lumaA16 b => obtain ⟨b', e1, e2⟩ := bind_eq_ok.1 h; cases e2; obtain ⟨k1, k2, k3⟩ := key .u16 .lumaA b b' hv hw hh e1; exact ⟨rfl, Prod.ext k2 k3, k1⟩
  | rgb16 b => obtain ⟨b', e1, e2⟩ := bind_eq_ok.1 h; cases e2; obtain ⟨k1, k2, k3⟩ := key .u16 .rgb b b' hv hw hh e1; exact ⟨rfl, Prod.ext k2 k3, k1⟩
  | rgba16 b => obtain ⟨b', e1, e2⟩ := bind_eq_ok.1 h; cases e2; obtain ⟨k1, k2, k3⟩ := key .u16 .rgba b b' hv hw hh e1; exact ⟨rfl, Prod.ext k2 k3, k1⟩
  | rgb32F b => obtain ⟨b', e1, e2⟩ := bind_eq_ok.1 h; cases e2; obtain ⟨k1, k2, k3⟩ := hF op .rgb b b' hv hw hh e1; exact ⟨rfl, Prod.ext k2 k3, k1⟩
  | rgba32F b => obtain ⟨b', e1, e2⟩ := bind_eq_ok.1 h; cases e2; obtain ⟨k1, k2, k3⟩ := hF op .rgba b b' hv hw hh e1; exact ⟨rfl, Prod.ext k2 k3, k1⟩

theorem dims_lt {d : DynamicImage} (hv : d.Valid) : d.width < 2 ^ 32 ∧ d.height < 2 ^ 32 := by
  cases d <;> exact ⟨hv.w32, hv.h32⟩

/-- The size of the result of `resize` and `thumbnail` for a bound `nw × nh`: it fits the bound (0 counts as 1), touches it, and both sides are scaled by the
same factor, up to rounding. -/
def FitsBox (w h nw nh w' h' : Nat) : Prop :=
  w' ≤ max nw 1 ∧ h' ≤ max nh 1 ∧ (w' = max nw 1 ∨ h' = max nh 1) ∧ RoundedDim w' (w * scaleOf w h nw nh false) ∧
    RoundedDim h' (h * scaleOf w h nw nh false)

/-- `resize`: an image that has the size asked for is returned as it is; otherwise the colour type is kept and the size fits the bound. `resize_exact` and
`thumbnail_exact` give exactly the size asked for. -/
theorem C108_resize (env : OpEnv) (hF : FloatSizes env) (d d' : DynamicImage) (hv : d.Valid) (nw nh : Nat) (hnw : nw < 2 ^ 32) (hnh : nh < 2 ^ 32)
    (filter : FilterType) :
    (d.resizeExact env nw nh filter = .ok d' → d'.color = d.color ∧ d'.width = nw ∧ d'.height = nh) ∧
    (d.thumbnailExact env nw nh = .ok d' → d'.color = d.color ∧ d'.width = nw ∧ d'.height = nh) ∧
    d.resize env d.width d.height filter = .ok d ∧
    ((nw, nh) ≠ (d.width, d.height) → 0 < d.width → 0 < d.height → d.resize env nw nh filter = .ok d' →
      d'.color = d.color ∧ FitsBox d.width d.height nw nh d'.width d'.height ∧ d.resizeExact env d'.width d'.height filter = .ok d') ∧
    (0 < d.width → 0 < d.height → d.thumbnail env nw nh = .ok d' →
      d'.color = d.color ∧ FitsBox d.width d.height nw nh d'.width d'.height ∧ d.thumbnailExact env d'.width d'.height = .ok d') := by
  obtain ⟨dw, dh⟩ := dims_lt hv
  obtain ⟨r1, r2, r3, r4⟩ := C50_in_range d.width d.height nw nh false
  refine ⟨?_, ?_, ?_, ?_, ?_⟩
  · intro h
    obtain ⟨h1, h2, -⟩ := C108_size env hF (.resize nw nh filter) d d' hv hnw hnh h
    injection h2 with h3 h4
    exact ⟨h1, h3, h4⟩
  · intro h
    obtain ⟨h1, h2, -⟩ := C108_size env hF (.thumbnail nw nh) d d' hv hnw hnh h
    injection h2 with h3 h4
    exact ⟨h1, h3, h4⟩
  · unfold resize; rw [if_pos rfl]
  · intro hne h0 h1 h
    unfold resize at h
    rw [if_neg hne] at h
    have hx : d.resizeExact env (resizeDimensions d.width d.height nw nh false).1 (resizeDimensions d.width d.height nw nh false).2 filter = .ok d' := h
    obtain ⟨g1, g2, -⟩ := C108_size env hF (.resize _ _ filter) d d' hv r2 r4 hx
    have g3 := congrArg Prod.fst g2
    have g4 := congrArg Prod.snd g2
    change d'.width = (resizeDimensions d.width d.height nw nh false).1 at g3
    change d'.height = (resizeDimensions d.width d.height nw nh false).2 at g4
    refine ⟨g1, ?_, ?_⟩
    · rw [g3, g4]; exact C50_fit d.width d.height nw nh h0 dw h1 dh hnw hnh
    · rw [g3, g4]; exact hx
  · intro h0 h1 h
    have hx : d.thumbnailExact env (resizeDimensions d.width d.height nw nh false).1 (resizeDimensions d.width d.height nw nh false).2 = .ok d' := h
    obtain ⟨g1, g2, -⟩ := C108_size env hF (.thumbnail _ _) d d' hv r2 r4 hx
    have g3 := congrArg Prod.fst g2
    have g4 := congrArg Prod.snd g2
    change d'.width = (resizeDimensions d.width d.height nw nh false).1 at g3
    change d'.height = (resizeDimensions d.width d.height nw nh false).2 at g4
    refine ⟨g1, ?_, ?_⟩
    · rw [g3, g4]; exact C50_fit d.width d.height nw nh h0 dw h1 dh hnw hnh
    · rw [g3, g4]; exact hx

/-- `resize_to_fill` of an image that is not empty returns whenever the resizing does. The result has the colour type of the image and is the middle of the
resized image, of exactly the size asked for (unless a side of the resized image would be `2^32` or more). -/
theorem C108_fill (env : OpEnv) (hF : FloatSizes env) (d big : DynamicImage) (hv : d.Valid) (nw nh : Nat) (hnw : nw < 2 ^ 32) (hnh : nh < 2 ^ 32)
    (h0 : 0 < d.width) (h1 : 0 < d.height) (filter : FilterType)
    (hbig : d.resizeExact env (resizeDimensions d.width d.height nw nh true).1 (resizeDimensions d.width d.height nw nh true).2 filter = .ok big) :
    ∃ d', d.resizeToFill env nw nh filter = .ok d' ∧ d'.color = d.color ∧ d'.Valid ∧
      (d.width * scaleOf d.width d.height nw nh true < 2 ^ 32 - 1 → d.height * scaleOf d.width d.height nw nh true < 2 ^ 32 - 1 →
        RoundedDim big.width (d.width * scaleOf d.width d.height nw nh true) ∧ RoundedDim big.height (d.height * scaleOf d.width d.height nw nh true) ∧
        ∃ x y, x + nw ≤ big.width ∧ y + nh ≤ big.height ∧ (x = 0 ∧ y = (big.height - nh) / 2 ∨ x = (big.width - nw) / 2 ∧ y = 0) ∧
          Rearranged big d' nw nh fun i j => (x + i, y + j)) := by
  obtain ⟨dw, dh⟩ := dims_lt hv
  obtain ⟨r1, r2, r3, r4⟩ := C50_in_range d.width d.height nw nh true
  obtain ⟨g1, g2, g3⟩ := C108_size env hF (.resize _ _ filter) d big hv r2 r4 hbig
  have g4 : big.width = (resizeDimensions d.width d.height nw nh true).1 := congrArg Prod.fst g2
  have g5 : big.height = (resizeDimensions d.width d.height nw nh true).2 := congrArg Prod.snd g2
  obtain ⟨x, y, hf, hin⟩ := C50_fill_crop d.width d.height nw nh h0 dw h1 dh hnw hnh
  obtain ⟨d', c1, c2, c3⟩ := C52_crop big g3 x y nw nh
  refine ⟨d', ?_, c3.1.trans g1, c2, ?_⟩
  · unfold resizeToFill
    dsimp only
    rw [hbig, ok_bind, g4, g5, hf, ok_bind]
    exact c1
  · intro s1 s2
    obtain ⟨i1, i2, i3⟩ := hin s1 s2
    obtain ⟨f1, f2, f3, f4, f5⟩ := C50_fill d.width d.height nw nh h0 dw h1 dh hnw hnh s1 s2
    rw [← g4] at i1 i3 f4
    rw [← g5] at i2 i3 f5
    refine ⟨f4, f5, x, y, i1, i2, i3, ?_⟩
    rw [show min nw (big.width - x) = nw by omega, show min nh (big.height - y) = nh by omega] at c3
    exact c3

/-- With the `Nearest` filter resizing returns for every integer image, and every pixel of the result is a pixel of the image. -/
theorem C108_nearest (env : OpEnv) (d : DynamicImage) (S : Prim) (m : PixelType) (b : ImageBuffer Nat m.ch) (hd : IntBuf d S m b) (hb : b.Inv)
    (hr : ∀ v ∈ b.data, v ≤ S.max) (nw nh : Nat) (hnw : nw < 2 ^ 32) (hnh : nh < 2 ^ 32) (h0 : 0 < b.width) (h1 : 0 < b.height)
    (hs : b.width * nh * 4 < 2 ^ 64) (hs' : nw * nh * m.ch < 2 ^ 64) :
    ∃ d' b', d.resizeExact env nw nh .nearest = .ok d' ∧ IntBuf d' S m b' ∧ b'.width = nw ∧ b'.height = nh ∧
      ∀ x y, x < nw → y < nh → ∃ i j, i < b.width ∧ j < b.height ∧ b'.getPixel x y = b.getPixel i j := by
  have hc : m.ch ≤ 4 := by cases m <;> decide
  have hT : S.bits ≤ 16 := by cases hd <;> decide
  have hsm : SamplesOk S b := by
    intro x y p hx hy hp
    obtain ⟨p', e, hp'⟩ := getPixel_le hb hr hx hy
    have : b.getPixel x y = .ok p := hp
    rw [e] at this; cases this; exact hp'
  by_cases hne : (nw, nh) = (b.width, b.height)
  · injection hne with e1 e2
    subst e1 e2
    obtain ⟨b', e1, e2, e3, e4⟩ := C81_same_size env.libm (Samp.uint S) b .nearest hb hc hs'
    obtain ⟨d', a1, a2⟩ := (C108_acts env (.resize b.width b.height .nearest) d S m b hd).1 b' e1
    exact ⟨d', b', a1, a2, e2, e3, fun x y hx hy => ⟨x, y, hx, hy, e4 x y hx hy⟩⟩
  · obtain ⟨b', sx, sy, e1, e2, e3, e4, e5, e6, -⟩ := C81_nearest env.libm S hT b hb hsm nw nh hc h0 h1 hnw hnh hne hs hs'
    obtain ⟨d', a1, a2⟩ := (C108_acts env (.resize nw nh .nearest) d S m b hd).1 b' e1
    exact ⟨d', b', a1, a2, e2, e3, fun x y hx hy => ⟨sx x, sy y, (e4 x hx).1, (e5 y hy).1, e6 x y hx hy⟩⟩

/-- An example of the functions of the standard library. -/
def exOps : OpEnv :=
  { libm := ⟨id, id, id, .fin 3⟩, trig := ⟨id, id, id⟩, float := fun _ _ _ => panicR, gray := fun _ _ => panicR }

/-- For an empty image `resize_to_fill` may overflow: the resized image is `1 × 1`, from which a larger piece is cut. -/
theorem C108_fill_empty_false (env : OpEnv) : (rgb8 ⟨0, 0, []⟩).resizeToFill env 3 2 .nearest = .error .panic := by
  have h : resizeDimensions 0 0 3 2 true = (1, 1) := by decide +kernel
  unfold resizeToFill
  rw [show (rgb8 ⟨0, 0, []⟩).width = 0 from rfl, show (rgb8 ⟨0, 0, []⟩).height = 0 from rfl, h]
  rfl

/-! ## C109 -/

/-- The colour type of `grayscale`'s result. -/
def grayType : ColorType → ColorType
  | .L8 | .Rgb8 => .L8
  | .La8 | .Rgba8 => .La8
  | .L16 | .Rgb16 => .L16
  | .La16 | .Rgba16 => .La16
  | .Rgb32F => .Rgb32F
  | .Rgba32F => .Rgba32F

/-- `grayscale` of an integer image: a grey image of the same depth, with alpha if the image has it, whose pixels are the luminance (for a grey image the
same value) and the unchanged alpha. Excluded: images of width 0 and height at least 2 (the pixel iterator panics, `C05_pixels_false`). -/
theorem C109_grayscale_partial (env : OpEnv) (d : DynamicImage) (S : Prim) (m : PixelType) (b : ImageBuffer Nat m.ch) (hd : IntBuf d S m b) (hb : b.Inv)
    (hr : ∀ v ∈ b.data, v ≤ S.max) (hw : 0 < b.width ∨ b.height ≤ 1) :
    ∃ d', d.grayscale env = .ok d' ∧ d'.color = grayType d.color ∧ d'.width = d.width ∧ d'.height = d.height ∧
      ∀ x y p, x < b.width → y < b.height → b.getPixel x y = .ok p →
        d'.samplesAt x y = .ok (lumaOf m p :: (alphaOf m p).toList) := by
  have hfit := hb.fits
  have h64 := hb.len64
  have hsm : ∀ x y p, x < widthOf b → y < heightOf b → GenericImageView.getPixel b x y = .ok p → ∀ c, p c ≤ S.max := by
    intro x y p hx hy hp
    obtain ⟨p', e, hp'⟩ := getPixel_le hb hr hx hy
    have : b.getPixel x y = .ok p := hp
    rw [e] at this; cases this; exact hp'
  have gray : (m = .rgb ∨ m = .lumaA ∨ m = .rgba) → (∃ out : ImageBuffer Nat 1, grayscaleWithType S S m .luma b = .ok out ∧ out.Inv ∧
      out.width = b.width ∧ out.height = b.height ∧
      ∀ x y p, x < b.width → y < b.height → b.getPixel x y = .ok p → out.getPixel x y = .ok (px1 (lumaOf m p))) ∧
    (∃ out : ImageBuffer Nat 2, grayscaleWithTypeAlpha S S m .lumaA b = .ok out ∧ out.Inv ∧
      out.width = b.width ∧ out.height = b.height ∧
      ∀ x y p, x < b.width → y < b.height → b.getPixel x y = .ok p → out.getPixel x y = .ok (px2 (lumaOf m p) ((alphaOf m p).getD S.max))) := by
    intro hm
    refine C55_grayscale_partial S m b hb hw ?_ hsm
    have : b.width * b.height * 2 ≤ b.width * b.height * m.ch := Nat.mul_le_mul_left _ (by rcases hm with rfl | rfl | rfl <;> decide)
    exact Nat.lt_of_le_of_lt (Nat.le_trans this hfit) h64
  have one : ∀ (b : ImageBuffer Nat 1) x y p, b.getPixel x y = .ok p → (b.getPixel x y).map Pix.toList = .ok [lumaOf .luma p] := by
    intro b x y p hp
    rw [hp]; rfl
  cases hd with
  | luma8 b => exact ⟨_, rfl, rfl, rfl, rfl, fun x y p _ _ hp => one b x y p hp⟩
  | luma16 b => exact ⟨_, rfl, rfl, rfl, rfl, fun x y p _ _ hp => one b x y p hp⟩
  | rgb8 b =>
    obtain ⟨⟨o, e1, -, e2, e3, e4⟩, -⟩ := gray (by simp)
    refine ⟨luma8 o, by simp only [grayscale, e1, ok_bind], rfl, e2, e3, fun x y p hx hy hp => ?_⟩
    show (o.getPixel x y).map Pix.toList = _
    rw [e4 x y p hx hy hp]; rfl
  | rgb16 b =>
    obtain ⟨⟨o, e1, -, e2, e3, e4⟩, -⟩ := gray (by simp)
    refine ⟨luma16 o, by simp only [grayscale, e1, ok_bind], rfl, e2, e3, fun x y p hx hy hp => ?_⟩
    show (o.getPixel x y).map Pix.toList = _
    rw [e4 x y p hx hy hp]; rfl
  | lumaA8 b =>
    obtain ⟨-, o, e1, -, e2, e3, e4⟩ := gray (by simp)
    refine ⟨lumaA8 o, by simp only [grayscale, e1, ok_bind], rfl, e2, e3, fun x y p hx hy hp => ?_⟩
    show (o.getPixel x y).map Pix.toList = _
    rw [e4 x y p hx hy hp]; rfl
  | lumaA16 b =>
    obtain ⟨-, o, e1, -, e2, e3, e4⟩ := gray (by simp)
    refine ⟨lumaA16 o, by simp only [grayscale, e1, ok_bind], rfl, e2, e3, fun x y p hx hy hp => ?_⟩
    show (o.getPixel x y).map Pix.toList = _
    rw [e4 x y p hx hy hp]; rfl
  | rgba8 b =>
    obtain ⟨-, o, e1, -, e2, e3, e4⟩ := gray (by simp)
    refine ⟨lumaA8 o, by simp only [grayscale, e1, ok_bind], rfl, e2, e3, fun x y p hx hy hp => ?_⟩
    show (o.getPixel x y).map Pix.toList = _
    rw [e4 x y p hx hy hp]; rfl
  | rgba16 b =>
    obtain ⟨-, o, e1, -, e2, e3, e4⟩ := gray (by simp)
    refine ⟨lumaA16 o, by simp only [grayscale, e1, ok_bind], rfl, e2, e3, fun x y p hx hy hp => ?_⟩
    show (o.getPixel x y).map Pix.toList = _
    rw [e4 x y p hx hy hp]; rfl

/-- On an empty image `grayscale` panics or not, depending on the colour type. -/
theorem C109_empty_false (env : OpEnv) : (rgb8 ⟨0, 2, []⟩).grayscale env = .error .panic ∧
    (luma8 ⟨0, 2, []⟩).grayscale env = .ok (luma8 ⟨0, 2, []⟩) := ⟨rfl, rfl⟩

/-! Non-vacuity -/

example : (rgba8 ⟨1, 2, [10, 20, 30, 7, 255, 255, 255, 9]⟩).grayscale exOps = .ok (lumaA8 ⟨1, 2, [18, 7, 255, 9]⟩) := by decide +kernel

example : (luma8 ⟨2, 1, [10, 20]⟩).resizeToFill exOps 2 2 .nearest = .ok (luma8 ⟨2, 2, [10, 20, 10, 20]⟩) := by decide +kernel

example : (luma8 ⟨4, 2, [1, 2, 3, 4, 5, 6, 7, 8]⟩).resize exOps 2 9 .nearest = .ok (luma8 ⟨2, 1, [6, 8]⟩) := by decide +kernel

example : (lumaA8 ⟨1, 1, [10, 20]⟩).brighten exOps 5 = .ok (lumaA8 ⟨1, 1, [15, 20]⟩) := by decide +kernel

example : FloatSizes exOps := fun _ _ _ _ _ _ _ h => by cases h

end DynamicImage
end Verif
