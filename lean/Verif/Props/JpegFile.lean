import Verif.Proofs.JpegFile
import Verif.Proofs.DctReal
import Verif.Proofs.Buffer
import Verif.Spec.JpegFile

/-!
# C44, C68, C69, C70: JPEG files

Specification: `JpegSpec.decodeFile` (Spec/Jpeg.lean) decodes a baseline file up to the quantised coefficients; `JpegSpec.dct`
(Spec/Dct.lean) is the cosine transform; `FileShows`, `IsYcc`, `CarriesIcc` and `IsJfif` are defined in Spec/JpegFile.lean.

`Shows m image w h px` says that the image is `w` by `h` (both between 1 and 65535), and that its pixel at `(x, y)` is `px x y`,
with `u8` samples. `Fresh e t0 t1` says that the encoder `e` has not written anything, that its two quantisation tables are `t0` and `t1`
(64 entries from 1 to 255) and that its colour profile, if any, fits into 255 segments.
-/

namespace Verif
namespace Jpeg

open GenericImageView JpegSpec

/-! ## Blocks -/

theorem blockNear_coeffs {f : Nat → Nat} (hf : ∀ i, i < 64 → f i ≤ 255) {t : List Nat} (ht : QTable t) :
    BlockNear (coeffs t f) t (fun k => (f k : ℝ)) := by
  refine ⟨by simp [coeffs], ?_⟩
  intro v u hv hu
  have hg : (coeffs t f).getD (8 * v + u) 0 = quantize (out (fun i => (f i : Nat)) v u) (t.getD (8 * v + u) 0) := by
    unfold coeffs
    rw [List.getD_eq_getElem?_getD, List.getElem?_map, List.getElem?_range (by omega)]
    simp only [Option.map_some, Option.getD_some]
    rw [show (8 * v + u) / 8 = v by omega, show (8 * v + u) % 8 = u by omega]
  obtain ⟨h1, h2⟩ : 1 ≤ t.getD (8 * v + u) 0 ∧ t.getD (8 * v + u) 0 ≤ 255 := by
    have hm : t.getD (8 * v + u) 0 ∈ t := by
      have := ht.len
      rw [List.getD_eq_getElem?_getD, List.getElem?_eq_getElem (by omega)]
      exact List.getElem_mem _
    exact ⟨ht.pos _ hm, ht.le _ hm⟩
  rw [hg]
  exact coeff_near (fun i => ((f i : Nat) : ℤ)) (fun i hi => ⟨by omega, by have := hf i hi; omega⟩) v u hv hu _ h1 h2

theorem units_get {α : Type} {W H : Nat} (g : Nat → Nat → α) {i j : Nat} (hi : i < W) (hj : j < H) :
    (units W H g)[j * W + i]? = some (g i j) := by
  unfold units
  have := idx_lt hi hj
  rw [List.getElem?_map, List.getElem?_range this, Option.map_some]
  rw [Nat.mul_comm j W, Nat.mul_add_mod, Nat.mod_eq_of_lt hi, Nat.mul_add_div (by omega), Nat.div_eq_of_lt hi, Nat.add_zero]

/-! ## Colours -/

theorem isYcc (r g b : Nat) (hr : r ≤ 255) (hg : g ≤ 255) (hb : b ≤ 255) :
    IsYcc r g b (ycc r g b).1 (ycc r g b).2.1 (ycc r g b).2.2 := by
  have hr' : (r : ℝ) ≤ 255 := by exact_mod_cast hr
  have hg' : (g : ℝ) ≤ 255 := by exact_mod_cast hg
  have hb' : (b : ℝ) ≤ 255 := by exact_mod_cast hb
  have hr0 : (0 : ℝ) ≤ r := by positivity
  have hg0 : (0 : ℝ) ≤ g := by positivity
  have hb0 : (0 : ℝ) ≤ b := by positivity
  obtain ⟨l1, l2, l3⟩ := ycc_le hr hg hb
  refine ⟨?_, ?_, ?_, l1, l2, l3, ?_⟩
  · obtain ⟨y, hy⟩ : ∃ y, (ycc r g b).1 = y := ⟨_, rfl⟩
    rw [hy]
    have h1 : y * 65536 ≤ 19595 * r + 38469 * g + 7471 * b + 32767 := by rw [← hy]; unfold ycc; dsimp only; omega
    have h2 : 19595 * r + 38469 * g + 7471 * b + 32767 ≤ y * 65536 + 65535 := by rw [← hy]; unfold ycc; dsimp only; omega
    have h1' : (y : ℝ) * 65536 ≤ 19595 * r + 38469 * g + 7471 * b + 32767 := by exact_mod_cast h1
    have h2' : 19595 * (r : ℝ) + 38469 * g + 7471 * b + 32767 ≤ y * 65536 + 65535 := by exact_mod_cast h2
    unfold lumaOf
    rw [abs_le]
    norm_num
    constructor <;> linarith
  · obtain ⟨y, hy⟩ : ∃ y, (ycc r g b).2.1 = y := ⟨_, rfl⟩
    rw [hy]
    have h1 : y * 65536 + 11059 * r + 21709 * g ≤ 32768 * b + 8421375 := by rw [← hy]; unfold ycc; dsimp only; omega
    have h2 : 32768 * b + 8421375 ≤ y * 65536 + 65535 + 11059 * r + 21709 * g := by rw [← hy]; unfold ycc; dsimp only; omega
    have h1' : (y : ℝ) * 65536 + 11059 * r + 21709 * g ≤ 32768 * b + 8421375 := by exact_mod_cast h1
    have h2' : 32768 * (b : ℝ) + 8421375 ≤ y * 65536 + 65535 + 11059 * r + 21709 * g := by exact_mod_cast h2
    unfold cbOf
    rw [abs_le]
    norm_num
    constructor <;> linarith
  · obtain ⟨y, hy⟩ : ∃ y, (ycc r g b).2.2 = y := ⟨_, rfl⟩
    rw [hy]
    have h1 : y * 65536 + 27439 * g + 5329 * b ≤ 32768 * r + 8421375 := by rw [← hy]; unfold ycc; dsimp only; omega
    have h2 : 32768 * r + 8421375 ≤ y * 65536 + 65535 + 27439 * g + 5329 * b := by rw [← hy]; unfold ycc; dsimp only; omega
    have h1' : (y : ℝ) * 65536 + 27439 * g + 5329 * b ≤ 32768 * r + 8421375 := by exact_mod_cast h1
    have h2' : 32768 * (r : ℝ) + 8421375 ≤ y * 65536 + 65535 + 27439 * g + 5329 * b := by exact_mod_cast h2
    unfold crOf
    rw [abs_le]
    norm_num
    constructor <;> linarith
  · rintro rfl rfl
    unfold ycc
    dsimp only
    omega

/-- **C69: the conversion of colours.** Every colour is converted to the luminance and chrominances of JFIF, rounded to the nearest
number or (when nearly half way) to one of the two nearest; greys are converted exactly. -/
theorem C69_colour (r g b : Nat) (hr : r ≤ 255) (hg : g ≤ 255) (hb : b ≤ 255) :
    ∃ y cb cr, rgbToYcbcr r g b = .ok (y, cb, cr) ∧ IsYcc r g b y cb cr :=
  ⟨_, _, _, rgbToYcbcr_ok hr hg hb, isYcc r g b hr hg hb⟩

example : rgbToYcbcr 255 0 0 = .ok (76, 85, 255) := by decide +kernel
example : rgbToYcbcr 200 200 200 = .ok (200, 128, 128) := by decide +kernel

/-! ## Segments -/

theorem isJfif (d : PixelDensity) (h1 : d.density.1 < 2 ^ 16) (h2 : d.density.2 < 2 ^ 16) :
    IsJfif (jfifHeader d) (match d.unit with | .pixelAspectRatio => 0 | .inches => 1 | .centimeters => 2) d.density.1 d.density.2 := by
  obtain ⟨⟨a, b⟩, u⟩ := d
  refine ⟨jfif_length _, ?_, ?_, ?_, ?_, ?_⟩
  · cases u <;> rfl
  · cases u <;> rfl
  · have : ((jfifHeader ⟨(a, b), u⟩).drop 8).take 2 = beBytes 2 a := by cases u <;> rfl
    rw [this, beNat_beBytes]; exact Nat.mod_eq_of_lt h1
  · have : ((jfifHeader ⟨(a, b), u⟩).drop 10).take 2 = beBytes 2 b := by cases u <;> rfl
    rw [this, beNat_beBytes]; exact Nat.mod_eq_of_lt h2
  · cases u <;> rfl

theorem flatMap_chunks {α : Type} (c : Nat) (n : Nat) : ∀ (l : List α), l.length ≤ n * c →
    (List.range n).flatMap (fun i => (l.drop (i * c)).take c) = l := by
  induction n with
  | zero => intro l h; rw [Nat.zero_mul] at h; rw [List.eq_nil_of_length_eq_zero (l := l) (by omega)]; rfl
  | succ n ih =>
    intro l h
    rw [List.range_succ_eq_map, List.flatMap_cons, List.flatMap_map, Nat.zero_mul, List.drop_zero]
    have := ih (l.drop c) (by rw [List.length_drop]; rw [Nat.add_mul] at h; omega)
    have e : (fun a => List.take c (List.drop ((a + 1) * c) l)) = fun i => ((l.drop c).drop (i * c)).take c := by
      funext i
      rw [List.drop_drop, Nat.add_mul, Nat.one_mul, Nat.add_comm]
    rw [show (fun a => List.take c (List.drop (a.succ * c) l)) = fun i => ((l.drop c).drop (i * c)).take c from e, this,
      List.take_append_drop]

set_option maxRecDepth 8192 in
theorem carriesIcc (icc : List UInt8) (h : icc.length ≤ 65519 * 255) : CarriesIcc (iccSegs icc) icc := by
  have hn : (icc.length + 65518) / 65519 ≤ 255 := by omega
  have hlen : (iccSegs icc).length = (icc.length + 65518) / 65519 := by simp [iccSegs]
  refine ⟨?_, ?_⟩
  · intro i s hs
    rw [hlen]
    unfold iccSegs at hs
    rw [List.getElem?_map] at hs
    obtain ⟨k, hk, rfl⟩ := Option.map_eq_some_iff.1 hs
    have hki : i < (icc.length + 65518) / 65519 := by
      by_cases hc : i < (icc.length + 65518) / 65519
      · exact hc
      · rw [List.getElem?_eq_none (by simp; omega)] at hk; cases hk
    rw [List.getElem?_range hki] at hk
    obtain rfl : i = k := by simpa using hk
    refine ⟨rfl, rfl, ?_, ?_⟩
    · simp only [iccChunk, List.cons_append, List.getElem?_cons_succ, List.getElem?_cons_zero, Option.map_some]
      congr 1
      rw [UInt8.toNat_ofNat']; omega
    · simp only [iccChunk, List.cons_append, List.getElem?_cons_succ, List.getElem?_cons_zero, Option.map_some]
      congr 1
      rw [UInt8.toNat_ofNat']; omega
  · unfold iccSegs
    obtain ⟨n, hn⟩ : ∃ n, (icc.length + 65518) / 65519 = n := ⟨_, rfl⟩
    have hle : icc.length ≤ n * 65519 := by omega
    have hc := flatMap_chunks 65519 n icc hle
    rw [hn, List.flatMap_map]
    exact hc

/-! ## Files -/

section
variable {I : Type} {m : PixelType} [GenericImageView I (Pix Nat m.ch)] {image : I} {w h : Nat} {px : Nat → Nat → Pix Nat m.ch}

/-- What the application segments of a file say. -/
structure AppsSay (apps : List (UInt8 × List UInt8)) (d : PixelDensity) (icc : List UInt8) : Prop where
  jfif : ∃ payload, apps.head? = some (0xE0, payload) ∧
    IsJfif payload (match d.unit with | .pixelAspectRatio => 0 | .inches => 1 | .centimeters => 2) d.density.1 d.density.2
  icc : CarriesIcc apps.tail icc

theorem appsSay (d : PixelDensity) (h1 : d.density.1 < 2 ^ 16) (h2 : d.density.2 < 2 ^ 16) (icc : List UInt8) (h : icc.length ≤ 65519 * 255) :
    AppsSay ((0xE0, jfifHeader d) :: iccSegs icc) d icc :=
  ⟨⟨_, rfl, isJfif d h1 h2⟩, carriesIcc icc h⟩

/-- **C44: files of grey images.** Encoding succeeds, the file is decodable, and what it decodes to stands for the luminance of the
image, the pixel density and the colour profile. -/
theorem C44_gray_partial (hs : Shows m image w h px) (hm : m = .luma ∨ m = .lumaA) {e : Encoder} {t0 t1 : List Nat} (he : Fresh e t0 t1)
    (hd1 : e.density.density.1 < 2 ^ 16) (hd2 : e.density.density.2 < 2 ^ 16) :
    ∃ e' d, encodeImage .u8 m e image = .ok e' ∧ decodeFile e'.writer.w = some d ∧
      FileShows d w h [⟨1, t0, fun x y => if hk : 0 < m.ch then px x y ⟨0, hk⟩ else 0⟩] ∧ AppsSay d.apps e.density e.iccProfile := by
  obtain ⟨e', h1, h2⟩ := encodeImage_gray hs hm he
  refine ⟨e', _, h1, h2, ⟨rfl, rfl, rfl, units_length _ _ _, ?_⟩, appsSay _ hd1 hd2 _ he.icc⟩
  intro i j hi hj
  refine ⟨_, units_get _ hi hj, rfl, ?_⟩
  intro c p hp
  cases c with
  | succ c => simp at hp
  | zero =>
    obtain rfl := Option.some.inj hp
    refine ⟨_, rfl, ?_⟩
    have hb := blockNear_coeffs (f := fun k => sampleNear m w h px (i * 8 + k % 8) (j * 8 + k / 8) 0)
      (fun k _ => sampleNear_le hs _ _ _) he.q0
    refine (congrArg (BlockNear _ t0) (funext fun k => ?_)).mp hb
    unfold Plane.block sampleNear
    rw [Nat.mul_comm i 8, Nat.mul_comm j 8]

/-- **C44: files of colour images.** There are three planes of samples, the converted colours of the pixels, for which the file stands. -/
theorem C44_rgb_partial (hs : Shows m image w h px) (hm : m = .rgb ∨ m = .rgba) {e : Encoder} {t0 t1 : List Nat} (he : Fresh e t0 t1)
    (hd1 : e.density.density.1 < 2 ^ 16) (hd2 : e.density.density.2 < 2 ^ 16) :
    ∃ e' d sy scb scr, encodeImage .u8 m e image = .ok e' ∧ decodeFile e'.writer.w = some d ∧
      FileShows d w h [⟨1, t0, sy⟩, ⟨2, t1, scb⟩, ⟨3, t1, scr⟩] ∧
      (∀ x y, x < w → y < h → ∀ (h0 : 0 < m.ch) (h1 : 1 < m.ch) (h2 : 2 < m.ch),
        IsYcc (px x y ⟨0, h0⟩) (px x y ⟨1, h1⟩) (px x y ⟨2, h2⟩) (sy x y) (scb x y) (scr x y)) ∧
      AppsSay d.apps e.density e.iccProfile := by
  obtain ⟨e', h1, h2⟩ := encodeImage_rgb hs hm he
  refine ⟨e', _, fun x y => (yccNear m w h px x y).1, fun x y => (yccNear m w h px x y).2.1, fun x y => (yccNear m w h px x y).2.2,
    h1, h2, ⟨rfl, rfl, rfl, units_length _ _ _, ?_⟩, ?_, appsSay _ hd1 hd2 _ he.icc⟩
  · have hmin : ∀ x y, yccNear m w h px (min x (w - 1)) (min y (h - 1)) = yccNear m w h px x y := by
      intro x y
      unfold yccNear sampleNear
      simp only [Nat.min_assoc, Nat.min_self]
    intro i j hi hj
    have hy : ∀ k, (yccNear m w h px (i * 8 + k % 8) (j * 8 + k / 8)).1 ≤ 255 ∧ (yccNear m w h px (i * 8 + k % 8) (j * 8 + k / 8)).2.1 ≤ 255 ∧
        (yccNear m w h px (i * 8 + k % 8) (j * 8 + k / 8)).2.2 ≤ 255 :=
      fun k => ycc_le (sampleNear_le hs _ _ _) (sampleNear_le hs _ _ _) (sampleNear_le hs _ _ _)
    refine ⟨_, units_get _ hi hj, rfl, ?_⟩
    intro c p hp
    rcases c with _ | _ | _ | c
    · obtain rfl := Option.some.inj hp
      refine ⟨_, rfl, ?_⟩
      refine (congrArg (BlockNear _ t0) (funext fun k => ?_)).mp (blockNear_coeffs (fun k _ => (hy k).1) he.q0)
      unfold Plane.block
      dsimp only
      rw [hmin, Nat.mul_comm i 8, Nat.mul_comm j 8]
    · obtain rfl := Option.some.inj hp
      refine ⟨_, rfl, ?_⟩
      refine (congrArg (BlockNear _ t1) (funext fun k => ?_)).mp (blockNear_coeffs (fun k _ => (hy k).2.1) he.q1)
      unfold Plane.block
      dsimp only
      rw [hmin, Nat.mul_comm i 8, Nat.mul_comm j 8]
    · obtain rfl := Option.some.inj hp
      refine ⟨_, rfl, ?_⟩
      refine (congrArg (BlockNear _ t1) (funext fun k => ?_)).mp (blockNear_coeffs (fun k _ => (hy k).2.2) he.q1)
      unfold Plane.block
      dsimp only
      rw [hmin, Nat.mul_comm i 8, Nat.mul_comm j 8]
    · simp at hp
  · intro x y hx hy h0 h1 h2
    have e1 : min x (w - 1) = x := by omega
    have e2 : min y (h - 1) = y := by omega
    have := isYcc (px x y ⟨0, h0⟩) (px x y ⟨1, h1⟩) (px x y ⟨2, h2⟩) (hs.byte _ _ hx hy _) (hs.byte _ _ hx hy _) (hs.byte _ _ hx hy _)
    dsimp only
    unfold yccNear sampleNear
    rw [dif_pos h0, dif_pos h1, dif_pos h2, e1, e2]
    exact this

/-- **C44: dimensions that a file cannot have are refused.** -/
theorem C44_too_large (T : Prim) (e : Encoder) (hicc : e.iccProfile.length ≤ 65519 * 255)
    (hl : 2 ^ 16 ≤ widthOf image ∨ 2 ^ 16 ≤ heightOf image) : encodeImage T m e image = errR .dimensionMismatch := by
  unfold encodeImage
  dsimp only
  rw [writeSegment_ok _ _ _ (by rw [jfif_length]; omega), ok_bind]
  rw [writeIccProfileChunks_ok _ hicc, ok_bind]
  split
  · rfl
  · rw [if_pos (by omega)]

end

/-! ## Buffers of samples -/

/-- The image in a buffer of samples. -/
theorem shows_buffer {ch : Nat} {m : PixelType} (hch : m.ch = ch) (h3 : ch ≤ 4) {w h : Nat} {data : List Nat} (hw : 0 < w) (hh : 0 < h) (hw2 : w < 2 ^ 16) (hh2 : h < 2 ^ 16)
    (hl : data.length = w * h * ch) (hb : ∀ v ∈ data, v ≤ 255) :
    Shows m (⟨w, h, data⟩ : ImageBuffer Nat m.ch) w h fun x y k => data.getD ((y * w + x) * ch + k.val) 0 := by
  subst hch
  have h1 : w * h ≤ 2 ^ 16 * 2 ^ 16 := Nat.mul_le_mul (by omega) (by omega)
  have h2 : w * h * m.ch ≤ 2 ^ 32 * 4 := Nat.mul_le_mul (by omega) h3
  have hinv : (⟨w, h, data⟩ : ImageBuffer Nat m.ch).Inv := ⟨by dsimp only; omega, by dsimp only; omega, by dsimp only; omega, by dsimp only; omega⟩
  have hix : ∀ x y, x < w → y < h → ∀ k : Fin m.ch, data[(y * w + x) * m.ch + k.val]? = some (data.getD ((y * w + x) * m.ch + k.val) 0) := by
    intro x y hx hy k
    have := ImageBuffer.end_le hinv (x := x) (y := y) hx hy
    dsimp only at this
    rw [List.getD_eq_getElem?_getD, List.getElem?_eq_getElem (by have := k.isLt; omega)]; rfl
  refine ⟨rfl, rfl, hw, hh, hw2, hh2, ?_, ?_⟩
  · intro x y hx hy
    exact (ImageBuffer.getPixel_eq_ok hinv hx hy _).2 (hix x y hx hy)
  · intro x y hx hy k
    exact hb _ (List.mem_of_getElem? (hix x y hx hy k))

theorem fromRaw_ok {ch w h : Nat} {data : List Nat} (h3 : ch ≤ 4) (hw2 : w < 2 ^ 16) (hh2 : h < 2 ^ 16)
    (hl : data.length = w * h * ch) : ImageBuffer.fromRaw ch w h data = some ⟨w, h, data⟩ := by
  have h1 : w * h ≤ 2 ^ 16 * 2 ^ 16 := Nat.mul_le_mul (by omega) (by omega)
  have h2 : w * h * ch ≤ 2 ^ 32 * 4 := Nat.mul_le_mul (by omega) h3
  unfold ImageBuffer.fromRaw
  rw [if_pos]
  rw [ImageBuffer.checkImageFits_iff (by omega) (by omega)]
  omega

theorem bufferSize_small {c : ExtendedColorType} {ch w h : Nat} (hc : c.bitsPerPixel = 8 * ch) (h3 : ch ≤ 4) (hw2 : w < 2 ^ 16) (hh2 : h < 2 ^ 16) :
    c.bufferSize w h = .ok (w * h * ch) := by
  have h1 : w * ch ≤ 2 ^ 16 * 4 := Nat.mul_le_mul (by omega) h3
  have h2 : w * ch * h ≤ 2 ^ 18 * 2 ^ 16 := Nat.mul_le_mul (by omega) (by omega)
  have e1 : w * (8 * ch) = 8 * (w * ch) := by rw [Nat.mul_left_comm]
  have e2 : w * h * ch = w * ch * h := by rw [Nat.mul_right_comm]
  unfold ExtendedColorType.bufferSize
  rw [hc, mulC_ok (by omega), ok_bind, addC_ok (by omega), ok_bind]
  unfold satMul
  dsimp only
  rw [show (w * (8 * ch) + 7) / 8 = w * ch by omega, Nat.min_eq_left (by omega), e2]

/-- **C44: encoding a buffer of grey samples.** -/
theorem C44_encode_gray_partial {w h : Nat} {data : List Nat} (hw : 0 < w) (hh : 0 < h) (hw2 : w < 2 ^ 16) (hh2 : h < 2 ^ 16) (hl : data.length = w * h)
    (hb : ∀ v ∈ data, v ≤ 255) {e : Encoder} {t0 t1 : List Nat} (he : Fresh e t0 t1) (hd1 : e.density.density.1 < 2 ^ 16)
    (hd2 : e.density.density.2 < 2 ^ 16) :
    ∃ e' d, encode e data w h .L8 = .ok e' ∧ decodeFile e'.writer.w = some d ∧
      FileShows d w h [⟨1, t0, fun x y => data.getD (y * w + x) 0⟩] ∧ AppsSay d.apps e.density e.iccProfile := by
  have hs := shows_buffer (m := .luma) (ch := 1) rfl (by omega) hw hh hw2 hh2 (by omega) hb
  obtain ⟨e', d, h1, h2, h3, h4⟩ := C44_gray_partial hs (.inl rfl) he hd1 hd2
  refine ⟨e', d, ?_, h2, ?_, h4⟩
  · unfold encode
    rw [bufferSize_small (ch := 1) rfl (by omega) hw2 hh2, ok_bind, hl, Nat.mul_one, show assertR (decide (w * h = w * h)) = .ok () by simp [assertR], ok_bind]
    dsimp only
    rw [fromRaw_ok (by omega) hw2 hh2 (by omega)]
    exact h1
  · simpa using h3

/-- **C44: encoding a buffer of colours.** -/
theorem C44_encode_rgb_partial {w h : Nat} {data : List Nat} (hw : 0 < w) (hh : 0 < h) (hw2 : w < 2 ^ 16) (hh2 : h < 2 ^ 16) (hl : data.length = w * h * 3)
    (hb : ∀ v ∈ data, v ≤ 255) {e : Encoder} {t0 t1 : List Nat} (he : Fresh e t0 t1) (hd1 : e.density.density.1 < 2 ^ 16)
    (hd2 : e.density.density.2 < 2 ^ 16) :
    ∃ e' d sy scb scr, encode e data w h .Rgb8 = .ok e' ∧ decodeFile e'.writer.w = some d ∧
      FileShows d w h [⟨1, t0, sy⟩, ⟨2, t1, scb⟩, ⟨3, t1, scr⟩] ∧
      (∀ x y, x < w → y < h → IsYcc (data.getD ((y * w + x) * 3) 0) (data.getD ((y * w + x) * 3 + 1) 0) (data.getD ((y * w + x) * 3 + 2) 0)
        (sy x y) (scb x y) (scr x y)) ∧
      AppsSay d.apps e.density e.iccProfile := by
  have hs := shows_buffer (m := .rgb) (ch := 3) rfl (by omega) hw hh hw2 hh2 (by omega) hb
  obtain ⟨e', d, sy, scb, scr, h1, h2, h3, h4, h5⟩ := C44_rgb_partial hs (.inl rfl) he hd1 hd2
  refine ⟨e', d, sy, scb, scr, ?_, h2, h3, fun x y hx hy => h4 x y hx hy (by decide) (by decide) (by decide), h5⟩
  unfold encode
  rw [bufferSize_small (ch := 3) rfl (by omega) hw2 hh2, ok_bind, hl, show assertR (decide (w * h * 3 = w * h * 3)) = .ok () by simp [assertR], ok_bind]
  dsimp only
  rw [fromRaw_ok (by omega) hw2 hh2 (by omega)]
  exact h1

/-- **C44: other colour types are refused** (when the buffer has the size that is documented; otherwise the call panics, as documented). -/
theorem C44_unsupported (e : Encoder) (data : List Nat) (w h : Nat) (c : ExtendedColorType) (h1 : c ≠ .L8) (h2 : c ≠ .Rgb8)
    (hl : c.bufferSize w h = .ok data.length) : encode e data w h c = errR .unsupported := by
  unfold encode
  rw [hl, ok_bind, show assertR (decide (data.length = data.length)) = .ok () by simp [assertR], ok_bind]
  cases c <;> first | rfl | exact absurd rfl h1 | exact absurd rfl h2

/-! ## Qualities -/

theorem scaleOf_bounds (q : Nat) : scaleOf q ≤ 5000 := by
  unfold scaleOf clampNat
  dsimp only
  split <;> split <;> first | omega | (split <;> first | omega | exact Nat.div_le_self _ _)

theorem qtable_scale (q : Nat) {t : List Nat} (hl : t.length = 64) : QTable (scaleTable (scaleOf q) t) := by
  refine ⟨by simp [scaleTable, hl], ?_, ?_⟩ <;>
    (intro v hv
     obtain ⟨a, _, rfl⟩ := List.mem_map.1 hv
     unfold clampNat
     split
     · omega
     · split <;> omega)

/-- A new encoder of any quality. -/
theorem fresh_new (q : Nat) : Fresh (newWithQuality q) (scaleTable (scaleOf q) STD_LUMA_QTABLE) (scaleTable (scaleOf q) STD_CHROMA_QTABLE) :=
  ⟨rfl, rfl, qtable_scale q rfl, qtable_scale q rfl, by simp [newWithQuality]⟩

theorem clampNat_mono {a b : Nat} (h : a ≤ b) : clampNat a 1 255 ≤ clampNat b 1 255 := by
  unfold clampNat
  split <;> split <;> (try split) <;> (try split) <;> omega

theorem scaleOf_anti {p q : Nat} (h : p ≤ q) : scaleOf q ≤ scaleOf p := by
  have hc : 1 ≤ clampNat p 1 100 ∧ clampNat p 1 100 ≤ clampNat q 1 100 ∧ clampNat q 1 100 ≤ 100 := by
    unfold clampNat
    split <;> split <;> (try split) <;> (try split) <;> omega
  unfold scaleOf
  dsimp only
  generalize clampNat p 1 100 = a at hc ⊢
  generalize clampNat q 1 100 = b at hc ⊢
  by_cases ha : a < 50
  · by_cases hb : b < 50
    · rw [if_pos ha, if_pos hb]
      exact Nat.div_le_div_left hc.2.1 (by omega)
    · rw [if_pos ha, if_neg hb]
      have : 5000 / 49 ≤ 5000 / a := Nat.div_le_div_left (by omega) (by omega)
      omega
  · rw [if_neg ha, if_neg (by omega)]
    omega

theorem scaleTable_anti {p q : Nat} (h : p ≤ q) (t : List Nat) (i : Nat) :
    (scaleTable (scaleOf q) t).getD i 0 ≤ (scaleTable (scaleOf p) t).getD i 0 := by
  unfold scaleTable
  rw [List.getD_eq_getElem?_getD, List.getD_eq_getElem?_getD, List.getElem?_map, List.getElem?_map]
  cases t[i]? with
  | none => exact Nat.le_refl _
  | some v =>
    simp only [Option.map_some, Option.getD_some]
    apply clampNat_mono
    apply Nat.div_le_div_right
    have := Nat.mul_le_mul_left v (scaleOf_anti h)
    omega

/-- **C68: a higher quality never quantises more coarsely**, every entry is between 1 and 255, quality 50 gives the tables of the
standard, quality 100 (and more) gives ones only, and 0 is the same as 1. -/
theorem C68_quality (p q : Nat) (h : p ≤ q) :
    (∀ t ∈ (newWithQuality p).tables, t.length = 64 ∧ ∀ v ∈ t, 1 ≤ v ∧ v ≤ 255) ∧
    (∀ c i, (((newWithQuality q).tables.getD c []).getD i 0) ≤ (((newWithQuality p).tables.getD c []).getD i 0)) ∧
    (newWithQuality 50).tables = [STD_LUMA_QTABLE, STD_CHROMA_QTABLE] ∧
    (100 ≤ q → (newWithQuality q).tables = [List.replicate 64 1, List.replicate 64 1]) ∧
    (newWithQuality 0).tables = (newWithQuality 1).tables := by
  refine ⟨?_, ?_, by decide +kernel, ?_, rfl⟩
  · intro t ht
    have hf := fresh_new p
    rw [hf.tables] at ht
    simp only [List.mem_cons, List.not_mem_nil, or_false] at ht
    rcases ht with rfl | rfl
    · exact ⟨hf.q0.len, fun v hv => ⟨hf.q0.pos v hv, hf.q0.le v hv⟩⟩
    · exact ⟨hf.q1.len, fun v hv => ⟨hf.q1.pos v hv, hf.q1.le v hv⟩⟩
  · intro c i
    rw [(fresh_new p).tables, (fresh_new q).tables]
    rcases c with _ | _ | c
    · exact scaleTable_anti h _ i
    · exact scaleTable_anti h _ i
    · exact Nat.le_refl _
  · intro hq
    rw [(fresh_new q).tables, show scaleOf q = 0 by
      unfold scaleOf clampNat
      dsimp only
      split <;> (try split) <;> (try split) <;> omega]
    decide +kernel

/-- A file of any quality has the tables of that quality (an instance of C44). -/
theorem C44_encode_quality_partial {w h : Nat} {data : List Nat} (hw : 0 < w) (hh : 0 < h) (hw2 : w < 2 ^ 16) (hh2 : h < 2 ^ 16)
    (hl : data.length = w * h) (hb : ∀ v ∈ data, v ≤ 255) (q : Nat) :
    ∃ e' d t, encode (newWithQuality q) data w h .L8 = .ok e' ∧ decodeFile e'.writer.w = some d ∧
      (newWithQuality q).tables[0]? = some t ∧ FileShows d w h [⟨1, t, fun x y => data.getD (y * w + x) 0⟩] := by
  obtain ⟨e', d, h1, h2, h3, _⟩ := C44_encode_gray_partial hw hh hw2 hh2 hl hb (fresh_new q) (by simp [newWithQuality]) (by simp [newWithQuality])
  exact ⟨e', d, _, h1, h2, by rw [(fresh_new q).tables]; rfl, h3⟩

/-- A 2 by 1 image satisfies the hypotheses. -/
example : ∃ e' d t, encode (newWithQuality 75) [10, 250] 2 1 .L8 = .ok e' ∧ decodeFile e'.writer.w = some d ∧
    (newWithQuality 75).tables[0]? = some t ∧ FileShows d 2 1 [⟨1, t, fun x y => [10, 250].getD (y * 2 + x) 0⟩] :=
  C44_encode_quality_partial (by omega) (by omega) (by omega) (by omega) rfl (by decide) 75

/-! ## Colour profiles -/

/-- **C70: a colour profile that fits is stored completely, one that does not is refused.** -/
theorem C70_icc_too_large {I : Type} (T : Prim) (m : PixelType) [GenericImageView I (Pix Nat m.ch)] (e : Encoder) (image : I)
    (h : 65519 * 255 < e.iccProfile.length) : encodeImage T m e image = errR .io := by
  unfold encodeImage
  dsimp only
  rw [writeSegment_ok _ _ _ (by rw [jfif_length]; omega), ok_bind]
  unfold writeIccProfileChunks
  have h0 : e.iccProfile.isEmpty = false := by
    rw [List.isEmpty_eq_false_iff]
    intro h0
    rw [h0] at h
    simp at h
  rw [h0]
  dsimp only
  rw [if_neg (by simp), if_pos (by omega)]
  rfl

theorem C70_icc {I : Type} {m : PixelType} [GenericImageView I (Pix Nat m.ch)] {image : I} {w h : Nat} {px : Nat → Nat → Pix Nat m.ch}
    (hs : Shows m image w h px) {e : Encoder} {t0 t1 : List Nat} (he : Fresh e t0 t1)
    (hd1 : e.density.density.1 < 2 ^ 16) (hd2 : e.density.density.2 < 2 ^ 16) :
    ∃ e' d, encodeImage .u8 m e image = .ok e' ∧ decodeFile e'.writer.w = some d ∧ CarriesIcc d.apps.tail e.iccProfile := by
  by_cases hm : m = .luma ∨ m = .lumaA
  · obtain ⟨e', d, h1, h2, _, h4⟩ := C44_gray_partial hs hm he hd1 hd2
    exact ⟨e', d, h1, h2, h4.icc⟩
  · have hm' : m = .rgb ∨ m = .rgba := by cases m <;> simp at hm ⊢
    obtain ⟨e', d, _, _, _, h1, h2, _, _, h4⟩ := C44_rgb_partial hs hm' he hd1 hd2
    exact ⟨e', d, h1, h2, h4.icc⟩

/-- A profile of three bytes. -/
example : CarriesIcc [(0xE2, iccSignature ++ [1, 1] ++ [7, 8, 9])] [7, 8, 9] := carriesIcc [7, 8, 9] (by decide)

end Jpeg
end Verif
