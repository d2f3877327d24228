import Verif.Proofs.Contrast
import Verif.Proofs.Color

/-!
# Contrast (C93)

Specification. A sample `v` of a type with maximum `max` becomes
`((v / max - 1/2) * ((100 + contrast) / 100)² + 1/2) * max`, clamped to `0 ..= max` and truncated. `TruncNear δ y n` says
that `n` is the truncation of a number within `δ` of `y`.
-/

namespace Verif
open GenericImageView GenericImage LawfulView LawfulImage

/-- The sample `contrast` stores for `v` (0 stands for a panic, excluded by `C93_in_place`). -/
def contrasted (T : Prim) (c : Fl) (v : Nat) : Nat :=
  match contrastSample (Samp.uint T) (contrastPercent c) v with
  | .ok n => n
  | .error _ => 0

/-- `dst` has the size of `src` and every sample is the image of the sample of `src` under `f`. -/
def IsSampleMap {I J : Type} {n : Nat} [GenericImageView I (Pix Nat n)] [GenericImageView J (Pix Nat n)]
    (f : Nat → Nat) (src : I) (dst : J) : Prop :=
  dims dst = dims src ∧ ∀ x y p, x < widthOf src → y < heightOf src → getPixel src x y = .ok p →
    getPixel dst x y = .ok (fun c => f (p c))

variable {T : Prim}

theorem contrastSample_contrasted (hT : T.Small) {c : Fl} (hc : c ≠ .nan) {v : Nat} (hv : v ≤ T.max) :
    contrastSample (Samp.uint T) (contrastPercent c) v = .ok (contrasted T c v) := by
  obtain ⟨e, -, -, -, h⟩ := contrastSample_ok hT (contrastPercent_pct hc) hv
  unfold contrasted
  rw [h]

/-- `contrast_in_place` succeeds on every 8- and 16-bit image, for every contrast that is not NaN (infinities
included), and replaces every sample (alpha too) by `contrasted`. -/
theorem C93_in_place {D : Type} {n : Nat} [GenericImage D (Pix Nat n)] [LawfulImage D (Pix Nat n)] (hT : T.Small)
    {c : Fl} (hc : c ≠ .nan) (img : D) (wf : WF img)
    (hr : ∀ x y p, x < widthOf img → y < heightOf img → getPixel img x y = .ok p → ∀ k, p k ≤ T.max) :
    ∃ img', contrastInPlace (Samp.uint T) c img = .ok img' ∧ WF img' ∧ IsSampleMap (contrasted T c) img img' := by
  obtain ⟨d, e1, e2, e3, e4⟩ := map_loop (d0 := img) (mapPixel (contrastSample (Samp.uint T) (contrastPercent c)))
    (fun p k => contrasted T c (p k)) wf
    (fun x y p hx hy hp => seqFin_ok fun k => contrastSample_contrasted hT hc (hr x y p hx hy hp k))
  exact ⟨d, e1, e2, e3, e4⟩

/-- `contrast` is `contrast_in_place` on a copy, for images the pixel iterator can enumerate. -/
theorem C93_copy {I : Type} {n : Nat} (hn : n < 256) [GenericImageView I (Pix Nat n)] [LawfulView I (Pix Nat n)]
    (hT : T.Small) {c : Fl} (hc : c ≠ .nan) (img : I) (wf : WF img)
    (hw : 0 < widthOf img ∨ heightOf img ≤ 1) (hs : widthOf img * heightOf img * n < 2 ^ 64)
    (hr : ∀ x y p, x < widthOf img → y < heightOf img → getPixel img x y = .ok p → ∀ k, p k ≤ T.max) :
    ∃ out : ImageBuffer Nat n, contrastCopy (Samp.uint T) c img = .ok out ∧ out.Inv ∧
      IsSampleMap (contrasted T c) img out := by
  obtain ⟨o, e1, e2, e3, e4⟩ := overPixels_spec (img := img)
    (out := (⟨widthOf img, heightOf img, List.replicate (widthOf img * heightOf img * n) 0⟩ : ImageBuffer Nat n))
    (mapPixel (contrastSample (Samp.uint T) (contrastPercent c))) (fun p k => contrasted T c (p k)) wf
    (ImageBuffer.new_inv (width_lt wf) (height_lt wf) hs) hw rfl rfl
    (fun x y p hx hy hp => seqFin_ok fun k => contrastSample_contrasted hT hc (hr x y p hx hy hp k))
  refine ⟨o, ?_, e2, e3, e4⟩
  unfold contrastCopy
  rw [show (Samp.uint T).zero = 0 from rfl, ImageBuffer.new_ok hn (width_lt wf) hs]
  exact e1

/-- The result is a sample, and the order of samples is kept. -/
theorem C93_monotone (hT : T.Small) {c : Fl} (hc : c ≠ .nan) {v w : Nat} (hw : w ≤ T.max) (h : v ≤ w) :
    contrasted T c v ≤ contrasted T c w ∧ contrasted T c w ≤ T.max := by
  refine ⟨contrastSample_mono hT (contrastPercent_pct hc) hw h (contrastSample_contrasted hT hc (h.trans hw))
    (contrastSample_contrasted hT hc hw), ?_⟩
  obtain ⟨e, -, h1, h2, h3⟩ := contrastSample_ok hT (contrastPercent_pct hc) hw
  rw [contrastSample_contrasted hT hc hw] at h3
  rw [Except.ok.inj h3]
  have : ⌊e⌋ ≤ T.max := by
    have := Int.floor_mono h2
    simpa using this
  omega

/-- Amounts between -100 and 100, 8 or 16 bits: the stored sample is the truncation of a value within `max / 2^18` (a
thousandth for 8 bits, a quarter for 16 bits) of the exact one. -/
theorem C93_accurate (hT : T.Small) {q : ℚ} (hq : |q| ≤ 100) {v : Nat} (hv : v ≤ T.max) :
    TruncNear (T.max / 2 ^ 18)
      (max 0 (min ((((v : ℚ) / T.max - 1 / 2) * ((100 + q) / 100) ^ 2 + 1 / 2) * T.max) T.max))
      (contrasted T (.fin q) v) := by
  obtain ⟨n, h1, h2⟩ := contrastSample_near_small hT hq hv
  rw [contrastSample_contrasted hT (by simp) hv] at h1
  cases h1
  exact h2

/-- 8 bits: within an eighth for every amount up to `2^50`. -/
theorem C93_accurate_u8 {q : ℚ} (hq : |q| ≤ 2 ^ 50) {v : Nat} (hv : v ≤ 255) :
    TruncNear (1 / 8) (max 0 (min ((((v : ℚ) / 255 - 1 / 2) * ((100 + q) / 100) ^ 2 + 1 / 2) * 255) 255))
      (contrasted .u8 (.fin q) v) := by
  obtain ⟨n, h1, h2⟩ := contrastSample_near_u8 hq hv
  rw [contrastSample_contrasted (T := .u8) (Or.inl rfl) (by simp) hv] at h1
  cases h1
  have hmax : ((Prim.u8.max : ℕ) : ℚ) = 255 := by norm_num [Prim.max, Prim.bits]
  unfold exactContrast at h2
  rw [hmax] at h2
  exact h2

/-- Contrast 0 changes no sample by more than one, and never upwards. -/
theorem C93_zero_partial (hT : T.Small) {v : Nat} (hv : v ≤ T.max) :
    contrasted T (.fin 0) v ≤ v ∧ v ≤ contrasted T (.fin 0) v + 1 := by
  have hm : (0 : ℚ) < T.max := by exact_mod_cast hT.max_pos
  have hm16 : (T.max : ℚ) ≤ 2 ^ 16 := by exact_mod_cast hT.max_lt.le
  obtain ⟨h1, h2⟩ := C93_accurate hT (q := 0) (by norm_num) hv
  have e : (((v : ℚ) / T.max - 1 / 2) * ((100 + 0) / 100) ^ 2 + 1 / 2) * T.max = v := by
    field_simp; ring
  have hvm : (v : ℚ) ≤ T.max := by exact_mod_cast hv
  rw [e, min_eq_left hvm, max_eq_right (by positivity)] at h1 h2
  have h3 : (T.max : ℚ) / 2 ^ 18 ≤ 1 / 4 := by
    rw [div_le_iff₀ (by norm_num)]; exact hm16.trans (by norm_num)
  constructor
  · have : (contrasted T (.fin 0) v : ℚ) < v + 1 := by linarith
    have : contrasted T (.fin 0) v < v + 1 := by exact_mod_cast this
    omega
  · have : (v : ℚ) < contrasted T (.fin 0) v + 1 + 1 := by linarith
    have : v < contrasted T (.fin 0) v + 1 + 1 := by exact_mod_cast this
    omega

/-- Contrast -100 makes every sample the middle grey. -/
theorem C93_flat (hT : T.Small) {v : Nat} (hv : v ≤ T.max) : contrasted T (.fin (-100)) v = T.max / 2 := by
  obtain ⟨h1, h2⟩ := C93_accurate hT (q := -100) (by norm_num) hv
  have e : (((v : ℚ) / T.max - 1 / 2) * ((100 + -100) / 100) ^ 2 + 1 / 2) * T.max = T.max / 2 := by
    ring
  rw [e] at h1 h2
  rcases hT with rfl | rfl
  · have hmax : ((Prim.u8.max : ℕ) : ℚ) = 255 := by norm_num [Prim.max, Prim.bits]
    rw [hmax] at h1 h2
    norm_num at h1 h2
    generalize contrasted Prim.u8 (.fin (-100)) v = n at *
    have a : (n : ℚ) < 128 := by linarith
    have b : (126 : ℚ) < n := by linarith
    have a' : n < 128 := by exact_mod_cast a
    have b' : 126 < n := by exact_mod_cast b
    show n = 127
    omega
  · have hmax : ((Prim.u16.max : ℕ) : ℚ) = 65535 := by norm_num [Prim.max, Prim.bits]
    rw [hmax] at h1 h2
    norm_num at h1 h2
    generalize contrasted Prim.u16 (.fin (-100)) v = n at *
    have a : (n : ℚ) < 32768 := by linarith
    have b : (32766 : ℚ) < n := by linarith
    have a' : n < 32768 := by exact_mod_cast a
    have b' : 32766 < n := by exact_mod_cast b
    show n = 32767
    omega

/-- Contrast 0 is not the identity: the 8-bit sample 1 becomes 0 (as do 2 to 63 become one less). -/
theorem C93_zero_false :
    ∃ v ≤ 255, contrasted .u8 (.fin 0) v ≠ v := ⟨1, by decide, by decide +kernel⟩

example : contrastInPlace (Samp.uint .u8) (.fin 0) (⟨3, 1, [1, 63, 64]⟩ : ImageBuffer Nat 1) =
    .ok ⟨3, 1, [0, 62, 64]⟩ := by decide +kernel

/-- Alpha is adjusted like a colour: less contrast makes an opaque image translucent. -/
theorem C93_alpha_false :
    contrastInPlace (Samp.uint .u8) (.fin (-50)) (⟨1, 1, [200, 255]⟩ : ImageBuffer Nat 2) =
      .ok ⟨1, 1, [145, 159]⟩ := by decide +kernel

/-- NaN panics on every image with a pixel. -/
theorem C93_nan_false :
    contrastInPlace (Samp.uint .u8) .nan (⟨1, 1, [200]⟩ : ImageBuffer Nat 1) = panicR := by decide +kernel

/-- 32-bit samples: white panics, since `u32::MAX as f32` is `2^32`. -/
theorem C93_u32_false :
    contrastInPlace (Samp.uint .u32) (.fin 0) (⟨1, 1, [2 ^ 32 - 1]⟩ : ImageBuffer Nat 1) = panicR := by decide +kernel

/-- The hypotheses of `C93_in_place`, and what happens. -/
example : contrastInPlace (Samp.uint .u8) (.fin 50) (⟨2, 1, [60, 150]⟩ : ImageBuffer Nat 1) =
    .ok ⟨2, 1, [0, 178]⟩ := by decide +kernel
example : contrastCopy (Samp.uint .u8) (.inf false) (⟨2, 1, [127, 128]⟩ : ImageBuffer Nat 1) =
    .ok ⟨2, 1, [0, 255]⟩ := by decide +kernel

end Verif
