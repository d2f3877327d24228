import Verif.Proofs.Blend
import Verif.Proofs.Color

/-!
# Blending (C49)
-/

namespace Verif

/-! ## Specification -/

/-- Opacity of a top of opacity `fa / M` over a bottom of opacity `ba / M`. -/
def overOpacity (M ba fa : ℚ) : ℚ := 1 - (1 - ba / M) * (1 - fa / M)

/-- The source-over colour, on the scale `0..M`, of the sample `fc` with alpha `fa` over `bc` with alpha `ba`: the
average of the two colours weighted by how much each contributes to the opacity. -/
def overColour (M bc ba fc fa : ℚ) : ℚ := (fc * (fa / M) + bc * (ba / M * (1 - fa / M))) / overOpacity M ba fa

/-- `n` is `x` rounded down, up to a relative error of `M / 2^18` (1/1028 for `u8`, 1/4 for `u16`). -/
def TruncOf (M : ℚ) (n : ℕ) (x : ℚ) : Prop := (n : ℚ) ≤ x + M / 2 ^ 18 ∧ x - M / 2 ^ 18 < n + 1

/-! ## Common part of the two formulas -/

theorem Tm_quot {T : Prim} (hT : T.Small) (x : ℕ) : Tm 16 ((x : ℚ) / T.max) := by
  have hm0 : (0 : ℚ) < T.max := by exact_mod_cast hT.max_pos
  have hmq : (T.max : ℚ) ≤ 2 ^ 16 := by exact_mod_cast hT.max_lt.le
  rcases Nat.eq_zero_or_pos x with rfl | hp
  · left; simp
  · right
    have : (1 : ℚ) ≤ x := by exact_mod_cast hp
    gcongr

theorem quot_le {T : Prim} (hT : T.Small) {x : ℕ} (hx : x ≤ T.max) : (x : ℚ) / T.max ≤ 1 := by
  have hm0 : (0 : ℚ) < T.max := by exact_mod_cast hT.max_pos
  rw [div_le_one hm0]; exact_mod_cast hx

theorem overOpacity_eq (M ba fa : ℚ) : overOpacity M ba fa = exactAlpha (ba / M) (fa / M) := by
  unfold overOpacity exactAlpha; ring

theorem overColour_eq {M : ℚ} (hM : 0 < M) (bc ba fc fa : ℚ) :
    overColour M bc ba fc fa = M * (exactNum (bc / M) (ba / M) (fc / M) (fa / M) / exactAlpha (ba / M) (fa / M)) := by
  unfold overColour exactNum
  rw [overOpacity_eq, ← mul_div_assoc]
  field_simp

/-- The final alpha computed from alphas in range: finite, zero only if both are zero, and accurate. -/
theorem blend_alpha {T : Prim} (hT : T.Small) {ba fa : ℕ} (hb : ba ≤ T.max) (hf : fa ≤ T.max) :
    ∃ A : ℚ, alphaFinal (unitF32 T ba) (unitF32 T fa) = .fin A ∧
      Near (12 / 2 ^ 24) (overOpacity T.max ba fa) A (overOpacity T.max ba fa) ∧ Tm 18 A ∧ A ≤ 2 := by
  obtain ⟨b, eb, nb, b1, tb, -, -, -⟩ := unit_ok hT hb
  obtain ⟨f, ef, nf, f1, tf, -, -, -⟩ := unit_ok hT hf
  obtain ⟨A, eA, nA, tA, A2⟩ := alphaFinal_ok nb nf (Tm_quot hT ba).nonneg (quot_le hT hb) (Tm_quot hT fa).nonneg
    (quot_le hT hf) tb tf (Tm_quot hT ba) (Tm_quot hT fa) b1 f1
  rw [eb, ef, overOpacity_eq]
  exact ⟨A, eA, nA, tA, A2⟩

theorem overOpacity_bounds {T : Prim} (hT : T.Small) {ba fa : ℕ} (hb : ba ≤ T.max) (hf : fa ≤ T.max) :
    0 ≤ overOpacity T.max ba fa ∧ overOpacity T.max ba fa ≤ 1 := by
  have h1 := quot_le hT hb
  have h2 := quot_le hT hf
  have h3 := (Tm_quot hT ba).nonneg
  have h4 := (Tm_quot hT fa).nonneg
  unfold overOpacity
  constructor <;> nlinarith

theorem overOpacity_pos {T : Prim} (hT : T.Small) {ba fa : ℕ} (hb : ba ≤ T.max) (hf : fa ≤ T.max)
    (h : 0 < ba ∨ 0 < fa) : 0 < overOpacity T.max ba fa := by
  have hm0 : (0 : ℚ) < T.max := by exact_mod_cast hT.max_pos
  have h1 := quot_le hT hb
  have h2 := quot_le hT hf
  have h3 := (Tm_quot hT ba).nonneg
  have h4 := (Tm_quot hT fa).nonneg
  unfold overOpacity
  rcases h with h | h
  · have : (0 : ℚ) < ba / T.max := by
      have : (0 : ℚ) < ba := by exact_mod_cast h
      positivity
    nlinarith
  · have : (0 : ℚ) < fa / T.max := by
      have : (0 : ℚ) < fa := by exact_mod_cast h
      positivity
    nlinarith

theorem blend_channel {T : Prim} (hT : T.Small) {bc ba fc fa : ℕ} (hbc : bc ≤ T.max) (hb : ba ≤ T.max)
    (hfc : fc ≤ T.max) (hf : fa ≤ T.max) (hpos : 0 < overOpacity T.max ba fa) {A : ℚ}
    (nA : Near (12 / 2 ^ 24) (overOpacity T.max ba fa) A (overOpacity T.max ba fa)) (A2 : A ≤ 2) :
    ∃ n : ℕ, blendChannel T (unitF32 T bc) (unitF32 T ba) (unitF32 T fc) (unitF32 T fa) (.fin A) = .ok n ∧
      n ≤ T.max ∧ TruncOf T.max n (overColour T.max bc ba fc fa) := by
  have hm0 : (0 : ℚ) < T.max := by exact_mod_cast hT.max_pos
  obtain ⟨s, es, ns, s1, ts, -, -, -⟩ := unit_ok hT hbc
  obtain ⟨b, eb, nb, b1, tb, -, -, -⟩ := unit_ok hT hb
  obtain ⟨r, er, nr, r1, tr, -, -, -⟩ := unit_ok hT hfc
  obtain ⟨f, ef, nf, f1, tf, fM, fl, -⟩ := unit_ok hT hf
  have td : Tm 17 (1 - f) := by
    rcases Nat.lt_or_ge fa T.max with h | h
    · exact fl h
    · left; rw [fM (by omega)]; ring
  rw [overOpacity_eq] at hpos nA
  obtain ⟨X, eX, nX, X0⟩ := blendChannel_ok hT ns nb nr nf (Tm_quot hT bc).nonneg (quot_le hT hbc)
    (Tm_quot hT ba).nonneg (quot_le hT hb) (Tm_quot hT fc).nonneg (quot_le hT hfc) (Tm_quot hT fa).nonneg
    (quot_le hT hf) ts tb tr tf td s1 b1 r1 hpos nA A2
  rw [← overColour_eq hm0] at nX
  have hle : overColour T.max bc ba fc fa ≤ T.max := by
    rw [overColour_eq hm0]
    have : exactNum ((bc : ℚ) / T.max) (ba / T.max) (fc / T.max) (fa / T.max) / exactAlpha (ba / T.max) (fa / T.max)
        ≤ 1 := by
      rw [div_le_one hpos]
      have h1 := quot_le hT hbc
      have h2 := quot_le hT hfc
      have h3 := (Tm_quot hT ba).nonneg
      have h4 := (Tm_quot hT fa).nonneg
      have h5 := quot_le hT hf
      have a1 : (fc : ℚ) / T.max * (fa / T.max) ≤ 1 * (fa / T.max) := by gcongr
      have a2 : (bc : ℚ) / T.max * (ba / T.max) ≤ 1 * (ba / T.max) := by gcongr
      have a3 : (bc : ℚ) / T.max * (ba / T.max) * (1 - fa / T.max) ≤ 1 * (ba / T.max) * (1 - fa / T.max) := by
        have : (0 : ℚ) ≤ 1 - fa / T.max := by linarith
        gcongr
      unfold exactNum exactAlpha
      linarith
    have := mul_le_mul_of_nonneg_left this hm0.le
    linarith
  obtain ⟨n, en, n1, n2, n3⟩ := castU_near hT nX X0 hle
  refine ⟨n, ?_, n1, n2, n3⟩
  rw [es, eb, er, ef, eX, en]; rfl

theorem blend_alpha_out {T : Prim} (hT : T.Small) {ba fa : ℕ} (hb : ba ≤ T.max) (hf : fa ≤ T.max) {A : ℚ}
    (nA : Near (12 / 2 ^ 24) (overOpacity T.max ba fa) A (overOpacity T.max ba fa)) (tA : Tm 18 A) (A2 : A ≤ 2) :
    ∃ n : ℕ, unwrapR (((maxF32 T).mul f32 (.fin A)).castU T.bits) = .ok n ∧ n ≤ T.max ∧
      TruncOf T.max n (T.max * overOpacity T.max ba fa) := by
  have hm0 : (0 : ℚ) < T.max := by exact_mod_cast hT.max_pos
  obtain ⟨h0, h1⟩ := overOpacity_bounds hT hb hf
  obtain ⟨X, eX, nX, X0⟩ := alphaOut_ok hT h1 nA tA A2
  obtain ⟨n, en, n1, n2, n3⟩ := castU_near hT nX X0 (by
    have := mul_le_mul_of_nonneg_left h1 hm0.le
    linarith)
  exact ⟨n, by rw [eX, en]; rfl, n1, n2, n3⟩

theorem near_pos {α A : ℚ} (h : 0 < α) (n : Near (12 / 2 ^ 24) α A α) : A ≠ 0 := by
  obtain ⟨a, b⟩ := n.bounds
  intro h0
  rw [h0] at a
  linarith

theorem near_zero {α A : ℚ} (h : α = 0) (n : Near (12 / 2 ^ 24) α A α) : A = 0 := by
  obtain ⟨a, b⟩ := n.bounds
  rw [h] at a b
  linarith

/-- The source-over result: a copy of what the channels and the alpha should be, up to `TruncOf`, when anything is
visible. -/
theorem overColour_transparent {M : ℚ} (hM : 0 < M) (bc ba fc : ℚ) (hb : 0 < ba) :
    overColour M bc ba fc 0 = bc := by
  unfold overColour overOpacity
  have h : ba / M ≠ 0 := by positivity
  rw [show (1 : ℚ) - (1 - ba / M) * (1 - 0 / M) = ba / M by ring,
    show fc * (0 / M) + bc * (ba / M * (1 - 0 / M)) = bc * (ba / M) by ring, mul_div_assoc, div_self h, mul_one]

theorem overColour_opaque {M : ℚ} (hM : 0 < M) (bc ba fc : ℚ) : overColour M bc ba fc M = fc := by
  unfold overColour overOpacity
  rw [div_self hM.ne']
  simp

theorem TruncOf_self {T : Prim} (n : ℕ) : TruncOf T.max n n := by
  have : (0 : ℚ) ≤ (T.max : ℚ) / 2 ^ 18 := by positivity
  constructor <;> linarith

/-! ## C49 -/

/-- Pixels without alpha are opaque: blending replaces the bottom, for every sample type. -/
theorem C49_no_alpha (T : Prim) :
    (∀ a b : Pix Nat 1, blendPixel T .luma a b = .ok b) ∧ (∀ a b : Pix Nat 3, blendPixel T .rgb a b = .ok b) :=
  ⟨fun _ _ => rfl, fun _ _ => rfl⟩

/-- RGBA: a fully transparent top leaves the bottom unchanged and a fully opaque top replaces it, for every sample
type and all pixels. -/
theorem C49_rgba_extremes (T : Prim) (bottom top : Pix Nat 4) :
    (top 3 = 0 → blendPixel T .rgba bottom top = .ok bottom) ∧
    (top 3 = T.max → blendPixel T .rgba bottom top = .ok top) := by
  have hpos : T.max ≠ 0 := by cases T <;> decide
  constructor
  · intro h; simp [blendPixel, blendRgba, h]
  · intro h
    simp only [blendPixel, blendRgba]
    rw [if_neg (by omega), if_pos h]

/-- RGBA, 8 and 16 bits: blending never panics, keeps samples in range, and unless both pixels are fully transparent
every sample is the exact source-over value rounded down (up to `MAX / 2^18`). -/
theorem C49_rgba (T : Prim) (hT : T = .u8 ∨ T = .u16) (bottom top : Pix Nat 4) (hb : ∀ c, bottom c ≤ T.max)
    (ht : ∀ c, top c ≤ T.max) :
    ∃ out, blendPixel T .rgba bottom top = .ok out ∧ (∀ c, out c ≤ T.max) ∧
      (0 < bottom 3 ∨ 0 < top 3 →
        (∀ c : Fin 4, c ≠ 3 → TruncOf T.max (out c) (overColour T.max (bottom c) (bottom 3) (top c) (top 3))) ∧
        TruncOf T.max (out 3) (T.max * overOpacity T.max (bottom 3) (top 3))) := by
  have hm0 : (0 : ℚ) < T.max := by exact_mod_cast Prim.Small.max_pos hT
  simp only [blendPixel, blendRgba]
  split
  · next h0 =>
    refine ⟨bottom, rfl, hb, fun h => ⟨fun c _ => ?_, ?_⟩⟩
    · rw [h0]
      have h3 : 0 < bottom 3 := by omega
      have := overColour_transparent hm0 (bottom c) (bottom 3) (top c) (by exact_mod_cast h3)
      rw [Nat.cast_zero, this]
      exact TruncOf_self _
    · rw [h0]
      have : (T.max : ℚ) * overOpacity T.max (bottom 3) (0 : ℕ) = bottom 3 := by
        unfold overOpacity
        push_cast
        field_simp
        ring
      rw [this]
      exact TruncOf_self _
  split
  · next h1 =>
    refine ⟨top, rfl, ht, fun h => ⟨fun c _ => ?_, ?_⟩⟩
    · rw [h1, overColour_opaque hm0]; exact TruncOf_self _
    · rw [h1]
      have : (T.max : ℚ) * overOpacity T.max (bottom 3) T.max = (T.max : ℕ) := by
        unfold overOpacity
        rw [div_self hm0.ne']
        ring
      rw [this]
      exact TruncOf_self _
  next h0 h1 =>
  obtain ⟨A, eA, nA, tA, A2⟩ := blend_alpha hT (hb 3) (ht 3)
  have hpos := overOpacity_pos hT (hb 3) (ht 3) (Or.inr (by omega))
  rw [eA, if_neg (fun e => near_pos hpos nA (Fl.fin.inj e))]
  obtain ⟨n0, e0, m0, t0⟩ := blend_channel hT (hb 0) (hb 3) (ht 0) (ht 3) hpos nA A2
  obtain ⟨n1, e1, m1, t1⟩ := blend_channel hT (hb 1) (hb 3) (ht 1) (ht 3) hpos nA A2
  obtain ⟨n2, e2, m2, t2⟩ := blend_channel hT (hb 2) (hb 3) (ht 2) (ht 3) hpos nA A2
  obtain ⟨n3, e3, m3, t3⟩ := blend_alpha_out hT (hb 3) (ht 3) nA tA A2
  rw [e0, e1, e2, e3]
  refine ⟨px4 n0 n1 n2 n3, rfl, ?_, fun _ => ⟨?_, t3⟩⟩
  · intro c
    match c with
    | 0 => exact m0
    | 1 => exact m1
    | 2 => exact m2
    | 3 => exact m3
  · intro c hc
    match c, hc with
    | 0, _ => exact t0
    | 1, _ => exact t1
    | 2, _ => exact t2
    | 3, hc => exact absurd rfl hc

/-- Grey with alpha, 8 and 16 bits: blending never panics, keeps samples in range, leaves the bottom alone if both
pixels are fully transparent, and otherwise every sample is the exact source-over value rounded down (up to
`MAX / 2^18`). Missing: transparent tops leaving the bottom unchanged and opaque tops replacing it, which are false
(`C49_lumaA_transparent_false`, `C49_lumaA_opaque_false`). -/
theorem C49_lumaA_partial (T : Prim) (hT : T = .u8 ∨ T = .u16) (bottom top : Pix Nat 2)
    (hb : ∀ c, bottom c ≤ T.max) (ht : ∀ c, top c ≤ T.max) :
    ∃ out, blendPixel T .lumaA bottom top = .ok out ∧ (∀ c, out c ≤ T.max) ∧
      (bottom 1 = 0 → top 1 = 0 → out = bottom) ∧
      (0 < bottom 1 ∨ 0 < top 1 →
        TruncOf T.max (out 0) (overColour T.max (bottom 0) (bottom 1) (top 0) (top 1)) ∧
        TruncOf T.max (out 1) (T.max * overOpacity T.max (bottom 1) (top 1))) := by
  simp only [blendPixel, blendLumaA]
  obtain ⟨A, eA, nA, tA, A2⟩ := blend_alpha hT (hb 1) (ht 1)
  rw [eA]
  by_cases hz : 0 < bottom 1 ∨ 0 < top 1
  · have hpos := overOpacity_pos hT (hb 1) (ht 1) hz
    rw [if_neg (fun e => near_pos hpos nA (Fl.fin.inj e))]
    obtain ⟨n0, e0, m0, t0⟩ := blend_channel hT (hb 0) (hb 1) (ht 0) (ht 1) hpos nA A2
    obtain ⟨n3, e3, m3, t3⟩ := blend_alpha_out hT (hb 1) (ht 1) nA tA A2
    rw [e0, e3]
    refine ⟨px2 n0 n3, rfl, ?_, fun h1 h2 => by omega, fun _ => ⟨t0, t3⟩⟩
    intro c
    match c with
    | 0 => exact m0
    | 1 => exact m3
  · have hα : overOpacity T.max (bottom 1) (top 1) = 0 := by
      rw [show bottom 1 = 0 by omega, show top 1 = 0 by omega]
      unfold overOpacity
      simp
    rw [if_pos (by rw [near_zero hα nA])]
    exact ⟨bottom, rfl, hb, fun _ _ => rfl, fun h => absurd h hz⟩

/-- `LumaA`: a fully transparent top can change the bottom (grey 3, alpha 11 becomes grey 2). -/
theorem C49_lumaA_transparent_false :
    ∃ (bottom top : Pix Nat 2), (∀ c, bottom c ≤ Prim.u8.max) ∧ (∀ c, top c ≤ Prim.u8.max) ∧ top 1 = 0 ∧
      ∃ out, blendPixel .u8 .lumaA bottom top = .ok out ∧ out 0 ≠ bottom 0 := by
  refine ⟨px2 3 11, px2 7 0, by decide, by decide, rfl, ?_⟩
  have h : (blendPixel .u8 .lumaA (px2 3 11) (px2 7 0)).map (fun p => (p 0, p 1)) = .ok (2, 11) := by decide +kernel
  cases he : blendPixel .u8 .lumaA (px2 3 11) (px2 7 0) with
  | error e => rw [he] at h; exact nomatch h
  | ok p =>
    rw [he] at h
    have : (p 0, p 1) = (2, 11) := Except.ok.inj h
    exact ⟨p, rfl, by rw [(Prod.mk.inj this).1]; decide⟩

/-- `LumaA`: a fully opaque top need not replace the bottom (over alpha 140 the result has alpha 254). -/
theorem C49_lumaA_opaque_false :
    ∃ (bottom top : Pix Nat 2), (∀ c, bottom c ≤ Prim.u8.max) ∧ (∀ c, top c ≤ Prim.u8.max) ∧ top 1 = Prim.u8.max ∧
      ∃ out, blendPixel .u8 .lumaA bottom top = .ok out ∧ out 1 ≠ top 1 := by
  refine ⟨px2 0 140, px2 7 255, by decide, by decide, rfl, ?_⟩
  have h : (blendPixel .u8 .lumaA (px2 0 140) (px2 7 255)).map (fun p => (p 0, p 1)) = .ok (7, 254) := by
    decide +kernel
  cases he : blendPixel .u8 .lumaA (px2 0 140) (px2 7 255) with
  | error e => rw [he] at h; exact nomatch h
  | ok p =>
    rw [he] at h
    have : (p 0, p 1) = (7, 254) := Except.ok.inj h
    exact ⟨p, rfl, by rw [(Prod.mk.inj this).2]; decide⟩

/-- `Rgba<u32>`: blending two valid pixels can panic. -/
theorem C49_u32_false :
    ∃ (bottom top : Pix Nat 4), (∀ c, bottom c ≤ Prim.u32.max) ∧ (∀ c, top c ≤ Prim.u32.max) ∧
      blendPixel .u32 .rgba bottom top = panicR := by
  refine ⟨px4 0 0 0 0, px4 0 0 0 (2 ^ 32 - 2), by decide, by decide, ?_⟩
  have h : (blendPixel .u32 .rgba (px4 0 0 0 0) (px4 0 0 0 (2 ^ 32 - 2))).map (fun p => p 0) = panicR := by
    decide +kernel
  cases he : blendPixel .u32 .rgba (px4 0 0 0 0) (px4 0 0 0 (2 ^ 32 - 2)) with
  | error e => rw [he] at h; exact congrArg Except.error (Except.error.inj h)
  | ok p => rw [he] at h; exact nomatch h

/-! ## C58 -/

/-- Blending onto a fully opaque RGBA pixel (8 and 16 bits) gives alpha `MAX` or `MAX - 1`. Missing: exactly `MAX`,
which is false (`C58_opaque_bottom_false`). -/
theorem C58_opaque_bottom_partial (T : Prim) (hT : T = .u8 ∨ T = .u16) (bottom top : Pix Nat 4)
    (hb : ∀ c, bottom c ≤ T.max) (ht : ∀ c, top c ≤ T.max) (ho : bottom 3 = T.max) :
    ∃ out, blendPixel T .rgba bottom top = .ok out ∧ (out 3 = T.max ∨ out 3 + 1 = T.max) := by
  obtain ⟨out, e, h1, h2⟩ := C49_rgba T hT bottom top hb ht
  have hm0 : (0 : ℚ) < T.max := by exact_mod_cast Prim.Small.max_pos hT
  have hm : (T.max : ℚ) < 2 ^ 16 := by exact_mod_cast Prim.Small.max_lt hT
  have hpos := Prim.Small.max_pos hT
  obtain ⟨-, h3⟩ := h2 (Or.inl (by omega))
  refine ⟨out, e, ?_⟩
  have h4 := h3.2
  rw [ho] at h4
  have : (T.max : ℚ) * overOpacity T.max T.max (top 3) = T.max := by
    unfold overOpacity
    rw [div_self hm0.ne']
    ring
  rw [this] at h4
  have h5 : (T.max : ℚ) < (out 3 + 2 : ℕ) := by
    push_cast
    have : (T.max : ℚ) / 2 ^ 18 < 2 ^ 16 / 2 ^ 18 := by gcongr
    linarith
  have h6 : T.max < out 3 + 2 := by exact_mod_cast h5
  have := h1 3
  omega

/-- A half transparent pixel blended onto an opaque one can leave alpha 254. -/
theorem C58_opaque_bottom_false :
    ∃ (bottom top : Pix Nat 4), (∀ c, bottom c ≤ Prim.u8.max) ∧ (∀ c, top c ≤ Prim.u8.max) ∧
      bottom 3 = Prim.u8.max ∧ ∃ out, blendPixel .u8 .rgba bottom top = .ok out ∧ out 3 ≠ Prim.u8.max := by
  refine ⟨px4 10 20 30 255, px4 200 100 0 128, by decide, by decide, rfl, ?_⟩
  have h : (blendPixel .u8 .rgba (px4 10 20 30 255) (px4 200 100 0 128)).map (fun p => p 3) = .ok 254 := by
    decide +kernel
  cases he : blendPixel .u8 .rgba (px4 10 20 30 255) (px4 200 100 0 128) with
  | error e => rw [he] at h; exact nomatch h
  | ok p =>
    rw [he] at h
    have : p 3 = 254 := Except.ok.inj h
    exact ⟨p, rfl, by rw [this]; decide⟩

/-- A half transparent top over an opaque bottom. -/
example : (blendPixel .u8 .rgba (px4 10 20 30 255) (px4 200 100 0 128)).map (fun p => (p 0, p 1, p 2, p 3)) =
    .ok (105, 60, 14, 254) := by decide +kernel
example : overColour 255 10 255 200 128 = 5374 / 51 := by norm_num [overColour, overOpacity]
example : ∀ c, (px4 10 20 30 255) c ≤ Prim.u8.max := by decide

end Verif
