import Verif.Proofs.FloatImage
import Verif.Props.Hue

/-!
# C120: colour adjustments of `f32` images

The samples are `f32` values between 0 and 1 (`UnitPix`), the range the library documents for them.
-/

namespace Verif
open GenericImageView GenericImage LawfulView LawfulImage

/-- Every sample of the pixel is an `f32` between 0 and 1. -/
def UnitPix {n : Nat} (p : Pix Fl n) : Prop := ∀ k, ∃ v : ℚ, p k = .fin v ∧ f32.rnd v = v ∧ 0 ≤ v ∧ v ≤ 1

/-- Every pixel of the image has samples between 0 and 1. -/
def UnitImage {I : Type} {n : Nat} [GenericImageView I (Pix Fl n)] (img : I) : Prop :=
  ∀ x y p, x < widthOf img → y < heightOf img → getPixel img x y = .ok p → UnitPix p

/-- `dst` has the size of `src`, and each of its pixels is in the relation `rel` with the pixel of `src` at the same place. -/
def PixelRel {I J : Type} {n : Nat} [GenericImageView I (Pix Fl n)] [GenericImageView J (Pix Fl n)] (rel : Pix Fl n → Pix Fl n → Prop)
    (src : I) (dst : J) : Prop :=
  dims dst = dims src ∧ ∀ x y p, x < widthOf src → y < heightOf src → getPixel src x y = .ok p →
    ∃ q, getPixel dst x y = .ok q ∧ rel p q

variable {n : Nat}

/-! ## Inverting -/

/-- `q` is the negative of `p`: a colour sample `v` becomes the `f32` nearest to `1 - v`, which is `1 - v` itself when `1/2 ≤ v`; alpha is kept. -/
def Negative (m : PixelType) (p q : Pix Fl m.ch) : Prop :=
  (∀ k : Fin m.ch, k.val < m.ch - m.alphas → ∀ v, p k = .fin v →
    q k = .fin (f32.rnd (1 - v)) ∧ |f32.rnd (1 - v) - (1 - v)| ≤ 1 / 2 ^ 23 ∧ (1 / 2 ≤ v → f32.rnd (1 - v) = 1 - v)) ∧
  ∀ k : Fin m.ch, m.ch - m.alphas ≤ k.val → q k = p k

theorem invertPixelF_eq (m : PixelType) (p : Pix Fl m.ch) :
    invertPixelF m p = .ok fun k => if k.val < m.ch - m.alphas then invertSampleF (p k) else p k := by
  cases m <;> simp only [invertPixelF] <;> congr 1 <;> funext i
  · match i with | 0 => rfl
  · match i with | 0 => rfl | 1 => rfl
  · match i with | 0 => rfl | 1 => rfl | 2 => rfl
  · match i with | 0 => rfl | 1 => rfl | 2 => rfl | 3 => rfl

/-- **C120: `invert`** of an `f32` image. -/
theorem C120_invert (m : PixelType) {D : Type} [GenericImage D (Pix Fl m.ch)] [LawfulImage D (Pix Fl m.ch)] (img : D) (wf : WF img)
    (hu : UnitImage img) :
    ∃ img', invert (invertPixelF m) img = .ok img' ∧ WF img' ∧ UnitImage img' ∧ PixelRel (Negative m) img img' := by
  obtain ⟨d, e1, e2, e3, e4⟩ := map_loop (d0 := img) (invertPixelF m)
    (fun p k => if k.val < m.ch - m.alphas then invertSampleF (p k) else p k) wf (fun x y p _ _ _ => invertPixelF_eq m p)
  have key : ∀ p : Pix Fl m.ch, UnitPix p → Negative m p (fun k => if k.val < m.ch - m.alphas then invertSampleF (p k) else p k) := by
    intro p hp
    refine ⟨fun k hk v hv => ?_, fun k hk => if_neg (by omega)⟩
    obtain ⟨v', h, hr, h0, h1⟩ := hp k
    rw [hv, Fl.fin.injEq] at h
    subst h
    simp only [if_pos hk, hv]
    exact ⟨invertSampleF_fin h0 h1, rnd_unit_err (by rw [abs_of_nonneg (by linarith)]; linarith), fun h => sub_one_exact hr h h1⟩
  refine ⟨d, e1, e2, ?_, e3, fun x y p hx hy hp => ⟨_, e4 x y p hx hy hp, key p (hu x y p hx hy hp)⟩⟩
  have hw : widthOf d = widthOf img := by simp [widthOf, e3]
  have hh : heightOf d = heightOf img := by simp [heightOf, e3]
  intro x y p hx hy hp k
  obtain ⟨p0, hp0⟩ := get_ok wf (hw ▸ hx) (hh ▸ hy)
  have := e4 x y p0 (hw ▸ hx) (hh ▸ hy) hp0
  rw [hp] at this
  cases this
  obtain ⟨v, h, hr, h0, h1⟩ := hu x y p0 (hw ▸ hx) (hh ▸ hy) hp0 k
  simp only [h]
  split
  · obtain ⟨a, b⟩ := rnd_between f32.rnd_zero rnd32_one (show 0 ≤ 1 - v by linarith) (show 1 - v ≤ 1 by linarith)
    exact ⟨_, invertSampleF_fin h0 h1, rnd_idem _, a, b⟩
  · exact ⟨v, rfl, hr, h0, h1⟩

/-- Inverting a sample twice. -/
theorem invert_twice_sample {v : ℚ} (hr : f32.rnd v = v) (h0 : 0 ≤ v) (h1 : v ≤ 1) :
    |f32.rnd (1 - f32.rnd (1 - v)) - v| ≤ 1 / 2 ^ 23 ∧ (1 / 2 ≤ v → f32.rnd (1 - f32.rnd (1 - v)) = v) := by
  rcases le_total (1 / 2) v with h | h
  · rw [sub_one_exact hr h h1, sub_sub_cancel, hr]
    exact ⟨by simp, fun _ => rfl⟩
  · obtain ⟨a, b⟩ := rnd_between rnd32_half rnd32_one (show 1 / 2 ≤ 1 - v by linarith) (show 1 - v ≤ 1 by linarith)
    rw [sub_one_exact (rnd_idem _) a b]
    have e := rnd_unit_err (q := 1 - v) (by rw [abs_of_nonneg (by linarith)]; linarith)
    refine ⟨?_, fun h2 => ?_⟩
    · rw [show 1 - f32.rnd (1 - v) - v = -(f32.rnd (1 - v) - (1 - v)) by ring, abs_neg]; exact e
    · have : v = 1 / 2 := le_antisymm h h2
      rw [this, show (1 : ℚ) - 1 / 2 = 1 / 2 by norm_num, rnd32_half]; norm_num

/-- **C120: inverting twice** restores every sample up to `2^-23`, and exactly those that are at least 1/2. -/
theorem C120_invert_twice (m : PixelType) {D : Type} [GenericImage D (Pix Fl m.ch)] [LawfulImage D (Pix Fl m.ch)] (img : D) (wf : WF img)
    (hu : UnitImage img) :
    ∃ img' img'', invert (invertPixelF m) img = .ok img' ∧ invert (invertPixelF m) img' = .ok img'' ∧ WF img'' ∧
      PixelRel (fun p q => ∀ k v, p k = .fin v → ∃ w, q k = .fin w ∧ |w - v| ≤ 1 / 2 ^ 23 ∧ (1 / 2 ≤ v → w = v)) img img'' := by
  obtain ⟨d, e1, e2, hu', e3, e4⟩ := C120_invert m img wf hu
  have hw : widthOf d = widthOf img := by simp [widthOf, e3]
  have hh : heightOf d = heightOf img := by simp [heightOf, e3]
  obtain ⟨d', g1, g2, -, g3, g4⟩ := C120_invert m d e2 hu'
  refine ⟨d, d', e1, g1, g2, g3.trans e3, fun x y p hx hy hp => ?_⟩
  obtain ⟨q, hq, n1, n2⟩ := e4 x y p hx hy hp
  obtain ⟨r, hr, k1, k2⟩ := g4 x y q (hw ▸ hx) (hh ▸ hy) hq
  refine ⟨r, hr, fun k v hv => ?_⟩
  obtain ⟨v', h, hrp, h0, h1⟩ := hu x y p hx hy hp k
  rw [hv, Fl.fin.injEq] at h
  subst h
  rcases Nat.lt_or_ge k.val (m.ch - m.alphas) with hk | hk
  · exact ⟨_, (k1 k hk _ (n1 k hk v hv).1).1, invert_twice_sample hrp h0 h1⟩
  · exact ⟨v, by rw [k2 k hk, n2 k hk, hv], by simp, fun _ => rfl⟩

/-! ## Contrast -/

/-- **C120: `contrast_in_place` never fails** on `f32` images: for every contrast and all samples, NaN and infinities included. -/
theorem C120_contrast_total {D : Type} [GenericImage D (Pix Fl n)] [LawfulImage D (Pix Fl n)] (c : Fl) (img : D) (wf : WF img) :
    ∃ img', contrastInPlace Samp.float c img = .ok img' ∧ WF img' ∧ dims img' = dims img := by
  obtain ⟨d, e1, e2, e3, -⟩ := map_loop (d0 := img) (mapPixel (contrastSample Samp.float (contrastPercent c)))
    (fun p k => contrastedF (contrastPercent c) (p k)) wf (fun x y p _ _ _ => seqFin_ok fun k => contrastSample_float _ _)
  exact ⟨d, e1, e2, e3⟩

/-- `q` is `p` with the contrast changed by `c` percent: every sample (alpha too) `v` becomes `(v - 1/2) * ((100 + c) / 100)² + 1/2`, cut to
`0 ..= 1`, up to `2^-19`. -/
def Contrasted (c : ℚ) (p q : Pix Fl n) : Prop :=
  ∀ k v, p k = .fin v → ∃ w, q k = .fin w ∧ 0 ≤ w ∧ w ≤ 1 ∧ |w - max 0 (min ((v - 1 / 2) * ((100 + c) / 100) ^ 2 + 1 / 2) 1)| ≤ 1 / 2 ^ 19

theorem contrasted_of {c : ℚ} (hc : |c| ≤ 100) {p : Pix Fl n} (hp : UnitPix p) :
    Contrasted c p (fun k => contrastedF (contrastPercent (.fin c)) (p k)) := by
  intro k v hv
  obtain ⟨v', h, hr, h0, h1⟩ := hp k
  rw [hv, Fl.fin.injEq] at h
  subst h
  obtain ⟨w, a, b, c', d⟩ := contrast_float_near hc hr h0 h1
  exact ⟨w, by simp only [hv, a], b, c', d⟩

/-- **C120: `contrast_in_place`** is accurate for contrasts from -100 to 100. -/
theorem C120_contrast {D : Type} [GenericImage D (Pix Fl n)] [LawfulImage D (Pix Fl n)] {c : ℚ} (hc : |c| ≤ 100) (img : D) (wf : WF img)
    (hu : UnitImage img) :
    ∃ img', contrastInPlace Samp.float (.fin c) img = .ok img' ∧ WF img' ∧ PixelRel (Contrasted c) img img' := by
  obtain ⟨d, e1, e2, e3, e4⟩ := map_loop (d0 := img) (mapPixel (contrastSample Samp.float (contrastPercent (.fin c))))
    (fun p k => contrastedF (contrastPercent (.fin c)) (p k)) wf (fun x y p _ _ _ => seqFin_ok fun k => contrastSample_float _ _)
  exact ⟨d, e1, e2, e3, fun x y p hx hy hp => ⟨_, e4 x y p hx hy hp, contrasted_of hc (hu x y p hx hy hp)⟩⟩

/-- **C120: `contrast`** does the same on a copy. -/
theorem C120_contrast_copy {I : Type} (hn : n < 256) [GenericImageView I (Pix Fl n)] [LawfulView I (Pix Fl n)] {c : ℚ} (hc : |c| ≤ 100)
    (img : I) (wf : WF img) (hw : 0 < widthOf img ∨ heightOf img ≤ 1) (hs : widthOf img * heightOf img * n < 2 ^ 64) (hu : UnitImage img) :
    ∃ out : ImageBuffer Fl n, contrastCopy Samp.float (.fin c) img = .ok out ∧ out.Inv ∧ PixelRel (Contrasted c) img out := by
  obtain ⟨o, e1, e2, e3, e4⟩ := overPixels_spec (img := img)
    (out := (⟨widthOf img, heightOf img, List.replicate (widthOf img * heightOf img * n) (.fin 0)⟩ : ImageBuffer Fl n))
    (mapPixel (contrastSample Samp.float (contrastPercent (.fin c)))) (fun p k => contrastedF (contrastPercent (.fin c)) (p k)) wf
    (ImageBuffer.new_inv (width_lt wf) (height_lt wf) hs) hw rfl rfl (fun x y p _ _ _ => seqFin_ok fun k => contrastSample_float _ _)
  refine ⟨o, ?_, e2, e3, fun x y p hx hy hp => ⟨_, e4 x y p hx hy hp, contrasted_of hc (hu x y p hx hy hp)⟩⟩
  unfold contrastCopy
  rw [show Samp.float.zero = .fin 0 from rfl, ImageBuffer.new_ok hn (width_lt wf) hs]
  exact e1

/-- **C120: `contrast` keeps the order of samples.** -/
theorem C120_contrast_monotone {D : Type} [GenericImage D (Pix Fl n)] [LawfulImage D (Pix Fl n)] {c : ℚ} (hc : |c| ≤ 100) (img : D) (wf : WF img)
    (hu : UnitImage img) :
    ∃ img', contrastInPlace Samp.float (.fin c) img = .ok img' ∧
      ∀ x y x' y' p p' q q', x < widthOf img → y < heightOf img → x' < widthOf img → y' < heightOf img →
        getPixel img x y = .ok p → getPixel img x' y' = .ok p' → getPixel img' x y = .ok q → getPixel img' x' y' = .ok q' →
        ∀ k k' v v' w w', p k = .fin v → p' k' = .fin v' → q k = .fin w → q' k' = .fin w' → v ≤ v' → w ≤ w' := by
  obtain ⟨d, e1, e2, e3, e4⟩ := map_loop (d0 := img) (mapPixel (contrastSample Samp.float (contrastPercent (.fin c))))
    (fun p k => contrastedF (contrastPercent (.fin c)) (p k)) wf (fun x y p _ _ _ => seqFin_ok fun k => contrastSample_float _ _)
  refine ⟨d, e1, ?_⟩
  intro x y x' y' p p' q q' hx hy hx' hy' hp hp' hq hq' k k' v v' w w' hv hv' hw hw' hle
  have a := (e4 x y p hx hy hp).symm.trans hq
  have a' := (e4 x' y' p' hx' hy' hp').symm.trans hq'
  have b := congrFun (Except.ok.inj a) k
  have b' := congrFun (Except.ok.inj a') k'
  simp only [hv, hw] at b
  simp only [hv', hw'] at b'
  obtain ⟨u, h, hr, h0, h1⟩ := hu x y p hx hy hp k
  rw [hv, Fl.fin.injEq] at h
  subst h
  obtain ⟨u, h, hr', h0', h1'⟩ := hu x' y' p' hx' hy' hp' k'
  rw [hv', Fl.fin.injEq] at h
  subst h
  exact contrast_float_mono hc hr hr' h0 hle h1' b b'

/-! ## Hue -/

variable {trig : Trig} {value : Int} {c s : ℚ}

/-- `q` is `p` with the hue turned: every colour sample is the row of the matrix, below 0 cut to 0, up to `2^-20`; alpha is kept. Nothing is cut at 1. -/
def HueTurned (c s : ℚ) (p q : Pix Fl n) : Prop :=
  ∀ r g b, n = 3 ∨ n = 4 → (∀ h0 : 0 < n, p ⟨0, h0⟩ = .fin r) → (∀ h1 : 1 < n, p ⟨1, h1⟩ = .fin g) → (∀ h2 : 2 < n, p ⟨2, h2⟩ = .fin b) →
    (∀ k : Fin n, k.val < 3 → ∃ w, q k = .fin w ∧ |w - max 0 (hueRowExact k.val c s r g b)| ≤ 1 / 2 ^ 20) ∧
    ∀ k : Fin n, k.val = 3 → q k = p k

theorem hueTurned_of (h : GoodTrig trig value c s) {p : Pix Fl n} (hp : UnitPix p) :
    HueTurned c s p (huePixelF (hueMatrixOf trig value) p) := by
  intro r g b hn hr hg hb
  obtain ⟨h1, h2, hc, hs⟩ := h
  have hn3 : 2 < n := by rcases hn with h | h <;> omega
  have ab : ∀ {k : Fin n} {v : ℚ}, p k = .fin v → |v| ≤ 1 := by
    intro k v hv
    obtain ⟨v', h, -, a, b⟩ := hp k
    rw [hv, Fl.fin.injEq] at h
    subst h
    rw [abs_of_nonneg a]; exact b
  have k0 : channels4 Samp.float p 0 = .fin r := by
    unfold channels4; rw [dif_pos (show ((0 : Fin 4) : ℕ) < n by simp; omega)]; exact hr (by omega)
  have k1 : channels4 Samp.float p 1 = .fin g := by
    unfold channels4; rw [dif_pos (show ((1 : Fin 4) : ℕ) < n by simp; omega)]; exact hg (by omega)
  have k2 : channels4 Samp.float p 2 = .fin b := by
    unfold channels4; rw [dif_pos (show ((2 : Fin 4) : ℕ) < n by simp; omega)]; exact hb (by omega)
  have hmat : hueMatrixOf trig value = hueMatrix (.fin c) (.fin s) := by unfold hueMatrixOf; simp only [h1, h2]
  have row : ∀ i : ℕ, i < 3 → ∃ w, (clampF (hueRow (hueMatrixOf trig value) i (.fin r) (.fin g) (.fin b)) (.fin 0) (.fin 255)).toF32 = .fin w ∧
      |w - max 0 (hueRowExact i c s r g b)| ≤ 1 / 2 ^ 20 := by
    intro i hi
    obtain ⟨q, e, hq, hB⟩ := row_near_float hc hs hi (ab (hr (by omega))) (ab (hg (by omega))) (ab (hb (by omega)))
    rw [hmat, e]
    obtain ⟨w, a, -, b⟩ := toF32_clamp_near hq hB
    exact ⟨w, a, b⟩
  constructor
  · intro k hk
    unfold huePixelF fromChannels4
    simp only [k0, k1, k2, dif_pos (show k.val < 4 by omega)]
    have : k.val = 0 ∨ k.val = 1 ∨ k.val = 2 := by omega
    rcases this with e | e | e
    · rw [show (⟨k.val, by omega⟩ : Fin 4) = 0 from Fin.ext e, e]; exact row 0 (by omega)
    · rw [show (⟨k.val, by omega⟩ : Fin 4) = 1 from Fin.ext e, e]; exact row 1 (by omega)
    · rw [show (⟨k.val, by omega⟩ : Fin 4) = 2 from Fin.ext e, e]; exact row 2 (by omega)
  · intro k hk
    obtain ⟨v, hv, hrv, h0, h1⟩ := hp k
    have hk4 : channels4 Samp.float p 3 = p k := by
      unfold channels4
      rw [dif_pos (show ((3 : Fin 4) : ℕ) < n by have := k.isLt; simp; omega)]
      congr 1; exact Fin.ext hk.symm
    unfold huePixelF fromChannels4
    simp only [dif_pos (show k.val < 4 by omega)]
    rw [show (⟨k.val, by omega⟩ : Fin 4) = 3 from Fin.ext hk]
    show (clampF (channels4 Samp.float p 3) (.fin 0) (.fin 255)).toF32 = p k
    rw [hk4, hv, clampF_fin (by norm_num), min_eq_left (by linarith), max_eq_right h0]
    unfold Fl.toF32
    simp only
    rw [ofRat32 (by rw [abs_of_nonneg h0]; exact h1.trans (by norm_num)), hrv]

/-- **C120: `huerotate_in_place`.** -/
theorem C120_hue {D : Type} [GenericImage D (Pix Fl n)] [LawfulImage D (Pix Fl n)] (h : GoodTrig trig value c s) (img : D) (wf : WF img)
    (hu : UnitImage img) :
    ∃ img', huerotateInPlaceF trig value img = .ok img' ∧ WF img' ∧ PixelRel (HueTurned c s) img img' := by
  obtain ⟨d, e1, e2, e3, e4⟩ := map_loop (d0 := img) (fun p => .ok (huePixelF (hueMatrixOf trig value) p)) _ wf (fun x y p _ _ _ => rfl)
  exact ⟨d, e1, e2, e3, fun x y p hx hy hp => ⟨_, e4 x y p hx hy hp, hueTurned_of h (hu x y p hx hy hp)⟩⟩

/-- **C120: `huerotate`** does the same on a copy. -/
theorem C120_hue_copy {I : Type} (hn : n < 256) [GenericImageView I (Pix Fl n)] [LawfulView I (Pix Fl n)] (h : GoodTrig trig value c s) (img : I)
    (wf : WF img) (hs : widthOf img * heightOf img * n < 2 ^ 64) (hu : UnitImage img) :
    ∃ out : ImageBuffer Fl n, huerotateF trig value img = .ok out ∧ out.Inv ∧ PixelRel (HueTurned c s) img out := by
  have hnew := ImageBuffer.new_inv (ch := n) (z := Fl.fin 0) (width_lt wf) (height_lt wf) hs
  obtain ⟨d', g1, g2, g3, g4, -⟩ := copy_loop (D := ImageBuffer Fl n) (w := widthOf img) (h := heightOf img)
    (body := fun x y (d : ImageBuffer Fl n) => do
      let p ← getPixel img x y
      d.putPixel x y (huePixelF (hueMatrixOf trig value) p))
    (d0 := (⟨widthOf img, heightOf img, List.replicate (widthOf img * heightOf img * n) (.fin 0)⟩ : ImageBuffer Fl n))
    (fun x y => do
      let p ← getPixel img x y
      .ok (huePixelF (hueMatrixOf trig value) p))
    (fun x y => (x, y)) hnew
    (fun x y hx hy => by
      obtain ⟨p, hp⟩ := get_ok wf hx hy
      exact ⟨huePixelF (hueMatrixOf trig value) p, by rw [hp]; rfl⟩)
    (fun x y hx hy => ⟨hx, hy⟩) (fun x y x' y' _ _ _ _ h => by simpa using h)
    (fun x y hx hy d _ _ q hq => by
      obtain ⟨p, hp⟩ := get_ok wf hx hy
      rw [hp, ok_bind] at hq ⊢
      cases hq; rfl)
  refine ⟨d', ?_, g2, g3, ?_⟩
  · unfold huerotateF
    dsimp only
    rw [ImageBuffer.new_ok hn (width_lt wf) hs]
    exact g1
  · intro x y p hx hy hp
    refine ⟨huePixelF (hueMatrixOf trig value) p, ?_, hueTurned_of h (hu x y p hx hy hp)⟩
    rw [g4 x y hx hy, hp, ok_bind]

/-! ## Luminance -/

/-- The colour samples of `q` are the luminance of `p`, up to `2^-23`; alpha (the fourth sample) is kept; a grey pixel is unchanged. -/
def GrayOf (p q : Pix Fl n) : Prop :=
  ∀ r g b, (∀ h0 : 0 < n, p ⟨0, h0⟩ = .fin r) → (∀ h1 : 1 < n, p ⟨1, h1⟩ = .fin g) → (∀ h2 : 2 < n, p ⟨2, h2⟩ = .fin b) →
    (∃ l, (∀ k : Fin n, k.val < 3 → q k = .fin l) ∧ 0 ≤ l ∧ l ≤ 1 ∧ |l - (2126 * r + 7152 * g + 722 * b) / 10000| ≤ 1 / 2 ^ 23 ∧
      (r = g → g = b → l = b)) ∧
    ∀ k : Fin n, k.val = 3 → q k = p k

theorem gray_core {p : Pix Fl n} (hn : 2 < n) (hp : UnitPix p) {r g b : ℚ} (hr : p ⟨0, by omega⟩ = .fin r) (hg : p ⟨1, by omega⟩ = .fin g)
    (hb : p ⟨2, hn⟩ = .fin b) :
    ∃ l, rgbToLumaF (.fin r) (.fin g) (.fin b) = .fin l ∧ 0 ≤ l ∧ l ≤ 1 ∧ |l - (2126 * r + 7152 * g + 722 * b) / 10000| ≤ 1 / 2 ^ 23 ∧
      (r = g → g = b → l = b) := by
  have un : ∀ {k : Fin n} {v : ℚ}, p k = .fin v → f32.rnd v = v ∧ 0 ≤ v ∧ v ≤ 1 := by
    intro k v hv
    obtain ⟨v', h, a⟩ := hp k
    rw [hv, Fl.fin.injEq] at h
    subst h
    exact a
  obtain ⟨l, a1, a2, a3, a4⟩ := luma_float_near (un hr).2 (un hg).2 (un hb).2
  refine ⟨l, a1, a2, a3, a4, fun h1 h2 => ?_⟩
  subst h1 h2
  obtain ⟨c1, c2, c3⟩ := un hr
  rw [luma_float_grey c1 (by rw [abs_of_nonneg c2]; exact c3.trans (by norm_num)), Fl.fin.injEq] at a1
  exact a1.symm

/-- **C120: `DynamicImage::grayscale` of an RGB image with `f32` samples.** -/
theorem C120_gray_rgb {I : Type} [GenericImageView I (Pix Fl 3)] [LawfulView I (Pix Fl 3)] (img : I) (wf : WF img)
    (hw : 0 < widthOf img ∨ heightOf img ≤ 1) (hs : widthOf img * heightOf img * 3 < 2 ^ 64) (hu : UnitImage img) :
    ∃ out, grayscaleRgbF img = .ok out ∧ out.Inv ∧ PixelRel GrayOf img out := by
  obtain ⟨o, e1, e2, e3, e4⟩ := overPixels_spec (img := img)
    (out := (⟨widthOf img, heightOf img, List.replicate (widthOf img * heightOf img * 3) (.fin 0)⟩ : ImageBuffer Fl 3))
    (fun p => .ok (grayPixelRgbF p)) grayPixelRgbF wf
    (ImageBuffer.new_inv (width_lt wf) (height_lt wf) hs) hw rfl rfl (fun x y p _ _ _ => rfl)
  refine ⟨o, ?_, e2, e3, fun x y p hx hy hp => ⟨_, e4 x y p hx hy hp, ?_⟩⟩
  · unfold grayscaleRgbF
    rw [ImageBuffer.new_ok (by norm_num) (width_lt wf) hs]
    exact e1
  · intro r g b hr hg hb
    obtain ⟨l, a, rest⟩ := gray_core (by norm_num) (hu x y p hx hy hp) (hr (by omega)) (hg (by omega)) (hb (by omega))
    have el : rgbToLumaF (p 0) (p 1) (p 2) = .fin l := by
      rw [show p 0 = .fin r from hr (by omega), show p 1 = .fin g from hg (by omega), show p 2 = .fin b from hb (by omega)]; exact a
    refine ⟨⟨l, fun k hk => ?_, rest⟩, fun k hk => by omega⟩
    unfold grayPixelRgbF
    simp only [el]
    match k with | 0 => rfl | 1 => rfl | 2 => rfl

/-- **C120: `DynamicImage::grayscale` of an RGBA image with `f32` samples.** -/
theorem C120_gray_rgba {I : Type} [GenericImageView I (Pix Fl 4)] [LawfulView I (Pix Fl 4)] (img : I) (wf : WF img)
    (hw : 0 < widthOf img ∨ heightOf img ≤ 1) (hs : widthOf img * heightOf img * 4 < 2 ^ 64) (hu : UnitImage img) :
    ∃ out, grayscaleRgbaF img = .ok out ∧ out.Inv ∧ PixelRel GrayOf img out := by
  obtain ⟨o, e1, e2, e3, e4⟩ := overPixels_spec (img := img)
    (out := (⟨widthOf img, heightOf img, List.replicate (widthOf img * heightOf img * 4) (.fin 0)⟩ : ImageBuffer Fl 4))
    (fun p => .ok (grayPixelRgbaF p)) grayPixelRgbaF wf
    (ImageBuffer.new_inv (width_lt wf) (height_lt wf) hs) hw rfl rfl (fun x y p _ _ _ => rfl)
  refine ⟨o, ?_, e2, e3, fun x y p hx hy hp => ⟨_, e4 x y p hx hy hp, ?_⟩⟩
  · unfold grayscaleRgbaF
    rw [ImageBuffer.new_ok (by norm_num) (width_lt wf) hs]
    exact e1
  · intro r g b hr hg hb
    obtain ⟨l, a, rest⟩ := gray_core (by norm_num) (hu x y p hx hy hp) (hr (by omega)) (hg (by omega)) (hb (by omega))
    have el : rgbToLumaF (p 0) (p 1) (p 2) = .fin l := by
      rw [show p 0 = .fin r from hr (by omega), show p 1 = .fin g from hg (by omega), show p 2 = .fin b from hb (by omega)]; exact a
    refine ⟨⟨l, fun k hk => ?_, rest⟩, fun k hk => ?_⟩
    · unfold grayPixelRgbaF
      simp only [el]
      match k with | 0 => rfl | 1 => rfl | 2 => rfl
    · have : k = 3 := Fin.ext hk
      subst this; rfl

/-! ## Brightening -/

/-- `q` is `p` brightened, as it is done: a colour sample becomes 1 when it reaches 1 together with the value and 0 otherwise; alpha is kept. -/
def BrightenedHard (alphas : Nat) (value : Int) (p q : Pix Fl n) : Prop :=
  ∀ k v, p k = .fin v → q k = .fin (if k.val < n - alphas then (if 1 ≤ v + value then 1 else 0) else v)

/-- **C120 for `brighten_in_place`**: it succeeds, but its result has only the samples 0 and 1 (see `C120_brighten_false`). -/
theorem C120_brighten_partial {D : Type} [GenericImage D (Pix Fl n)] [LawfulImage D (Pix Fl n)] (alphas : Nat) (hv : -2 ^ 31 ≤ value)
    (hv' : value < 2 ^ 31 - 1) (img : D) (wf : WF img) (hu : UnitImage img) :
    ∃ img', brightenInPlaceF alphas value img = .ok img' ∧ WF img' ∧ PixelRel (BrightenedHard alphas value) img img' := by
  obtain ⟨d, e1, e2, e3, e4⟩ := map_loop (d0 := img) (mapWithAlpha alphas (brightenSampleF value) .ok)
    (fun p k => if k.val < n - alphas then (match p k with | .fin v => .fin (if 1 ≤ v + value then 1 else 0) | a => a) else p k) wf
    (fun x y p hx hy hp => by
      refine seqFin_ok fun k => ?_
      obtain ⟨v, h, -, h0, h1⟩ := hu x y p hx hy hp k
      simp only [h]
      split
      · exact brighten_float h0 h1 hv hv'
      · rfl)
  refine ⟨d, e1, e2, e3, fun x y p hx hy hp => ⟨_, e4 x y p hx hy hp, fun k v h => ?_⟩⟩
  simp only [h]
  split <;> rfl

/-- **C120 is false for `brighten`**: brightening an `f32` image by 0 turns a middle grey black, and a NaN sample makes it panic. -/
theorem C120_brighten_false :
    brightenInPlaceF (D := ImageBuffer Fl 3) 0 0 ⟨1, 1, [.fin (1 / 2), .fin (1 / 4), .fin 1]⟩ =
      .ok ⟨1, 1, [.fin 0, .fin 0, .fin 1]⟩ ∧
    brightenInPlaceF (D := ImageBuffer Fl 3) 0 0 ⟨1, 1, [.nan, .fin 0, .fin 1]⟩ = panicR := by
  constructor <;> decide +kernel

/-! ## The hypotheses are met -/

/-- A picture of one pixel. -/
def floatDot : ImageBuffer Fl 4 := ⟨1, 1, [.fin (1 / 2), .fin (1 / 4), .fin 1, .fin (3 / 4)]⟩

theorem floatDot_unit : UnitImage floatDot := by
  intro x y p hx hy hp
  have hx : x < 1 := hx
  have hy : y < 1 := hy
  obtain rfl : x = 0 := by omega
  obtain rfl : y = 0 := by omega
  have hr : ∀ m : ℤ, |m| < 2 ^ 24 → f32.rnd (m / 4) = m / 4 := fun m hm =>
    rnd_dyadic m (-2) (by norm_num; ring) hm (by norm_num)
  have h : getPixel floatDot 0 0 = .ok (px4 (.fin (1 / 2)) (.fin (1 / 4)) (.fin 1) (.fin (3 / 4))) := by decide +kernel
  have := Except.ok.inj (hp.symm.trans h)
  subst this
  intro k
  match k with
  | 0 => exact ⟨1 / 2, rfl, rnd32_half, by norm_num, by norm_num⟩
  | 1 => exact ⟨1 / 4, rfl, by have := hr 1 (by norm_num); simpa using this, by norm_num, by norm_num⟩
  | 2 => exact ⟨1, rfl, rnd32_one, by norm_num, by norm_num⟩
  | 3 => exact ⟨3 / 4, rfl, by have := hr 3 (by norm_num); simpa using this, by norm_num, by norm_num⟩

theorem floatDot_wf : WF floatDot := show ImageBuffer.Inv _ from ⟨by decide, by decide, by decide, by decide⟩

example : invert (invertPixelF .rgba) floatDot = .ok ⟨1, 1, [.fin (1 / 2), .fin (3 / 4), .fin 0, .fin (3 / 4)]⟩ := by decide +kernel
example : contrastInPlace Samp.float (.fin 100) floatDot = .ok ⟨1, 1, [.fin (1 / 2), .fin 0, .fin 1, .fin 1]⟩ := by decide +kernel
example : ∃ img', contrastInPlace Samp.float (.fin 25) floatDot = .ok img' ∧ WF img' ∧ PixelRel (Contrasted 25) floatDot img' :=
  C120_contrast (by norm_num [abs_of_pos]) floatDot floatDot_wf floatDot_unit
example : ∃ img', huerotateInPlaceF (trigOf 0 1) 90 floatDot = .ok img' ∧ WF img' ∧ PixelRel (HueTurned 0 1) floatDot img' :=
  C120_hue ⟨rfl, rfl, by norm_num, by norm_num⟩ floatDot floatDot_wf floatDot_unit
example : ∃ out, grayscaleRgbaF floatDot = .ok out ∧ out.Inv ∧ PixelRel GrayOf floatDot out :=
  C120_gray_rgba floatDot floatDot_wf (by decide) (by decide) floatDot_unit

end Verif
