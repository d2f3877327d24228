import Verif.Proofs.FloatImage

/-!
# Rounding errors of the blend of `f32` pixels
-/

namespace Verif

/-- Opacity of a top of opacity `fa` over a bottom of opacity `ba`. -/
def opacityF (ba fa : ℚ) : ℚ := 1 - (1 - ba) * (1 - fa)

/-- Amount of colour, before the division by the opacity. -/
def premulF (bc ba fc fa : ℚ) : ℚ := fc * fa + bc * ba * (1 - fa)

variable {bc ba fc fa : ℚ}

theorem rnd_err_pos {q : ℚ} (h : 0 ≤ q) : q - (q / 2 ^ 24 + 1 / 2 ^ 100) ≤ f32.rnd q ∧ f32.rnd q ≤ q + (q / 2 ^ 24 + 1 / 2 ^ 100) := by
  have := rnd_err32 q
  rw [abs_of_nonneg h, abs_le] at this
  constructor <;> linarith

/-- The rounded alpha. -/
theorem alphaFinal_float (hb0 : 0 ≤ ba) (hb1 : ba ≤ 1) (hf0 : 0 ≤ fa) (hf1 : fa ≤ 1) (hA : 1 / 2 ^ 60 ≤ opacityF ba fa) :
    ∃ A : ℚ, alphaFinal (.fin ba) (.fin fa) = .fin A ∧ f32.rnd A = A ∧ 0 < A ∧ A ≤ 2 ∧ |A - opacityF ba fa| ≤ 6 / 2 ^ 24 * opacityF ba fa := by
  have s0 : 0 ≤ ba + fa := by linarith
  have m0 : 0 ≤ ba * fa := mul_nonneg hb0 hf0
  have mb : ba * fa ≤ ba := by nlinarith
  have mf : ba * fa ≤ fa := by nlinarith
  have eA : opacityF ba fa = ba + fa - ba * fa := by unfold opacityF; ring
  rw [eA] at hA ⊢
  set A0 := ba + fa - ba * fa with hA0
  have A0le : A0 ≤ 1 := by nlinarith
  obtain ⟨s1, s2⟩ := rnd_err_pos s0
  obtain ⟨m1, m2⟩ := rnd_err_pos m0
  set S := f32.rnd (ba + fa)
  set M := f32.rnd (ba * fa)
  have t : (1 : ℚ) / 2 ^ 100 ≤ A0 / 2 ^ 40 := by
    have : (1 : ℚ) / 2 ^ 100 = 1 / 2 ^ 60 / 2 ^ 40 := by norm_num
    rw [this]; exact div_le_div_of_nonneg_right hA (by norm_num)
  have hA1 : 0 < A0 := lt_of_lt_of_le (by norm_num) hA
  have d1 : S - M - A0 ≤ (3 / 2 ^ 24 + 2 / 2 ^ 40) * A0 := by linarith
  have d2 : -((3 / 2 ^ 24 + 2 / 2 ^ 40) * A0) ≤ S - M - A0 := by linarith
  have hSM : 0 ≤ S - M := by linarith
  obtain ⟨r1, r2⟩ := rnd_err_pos hSM
  have r3 : (S - M) / 2 ^ 24 ≤ (3 / 2) / 2 ^ 24 * A0 := by linarith
  have hS : |ba + fa| ≤ 2 ^ 127 := by rw [abs_of_nonneg s0]; exact (show ba + fa ≤ 2 by linarith).trans (by norm_num)
  have hM : |ba * fa| ≤ 2 ^ 127 := by rw [abs_of_nonneg m0]; exact (show ba * fa ≤ 1 by linarith).trans (by norm_num)
  have hD : |S - M| ≤ 2 ^ 127 := by rw [abs_of_nonneg hSM]; exact (show S - M ≤ 2 by linarith).trans (by norm_num)
  refine ⟨f32.rnd (S - M), ?_, rnd_idem _, by linarith, by linarith, ?_⟩
  · unfold alphaFinal
    rw [fl_add, fl_mul, ofRat32 hS, ofRat32 hM, fl_sub, ofRat32 hD]
  · rw [abs_le]; constructor <;> linarith

theorem premulF_le (hb0 : 0 ≤ ba) (hf0 : 0 ≤ fa) (hf1 : fa ≤ 1) (hbc : bc ≤ 1) (hfc : fc ≤ 1) :
    premulF bc ba fc fa ≤ opacityF ba fa := by
  have h1 : fc * fa ≤ fa := by nlinarith
  have h2 : bc * ba ≤ ba := by nlinarith
  have h3 : bc * ba * (1 - fa) ≤ ba * (1 - fa) := mul_le_mul_of_nonneg_right h2 (by linarith)
  unfold premulF opacityF
  nlinarith

set_option maxHeartbeats 1000000 in
/-- One colour channel: the rounded result is near the exact source-over colour. -/
theorem blendChannelF_near (hb0 : 0 ≤ ba) (hb1 : ba ≤ 1) (hf0 : 0 ≤ fa) (hf1 : fa ≤ 1) (hbc0 : 0 ≤ bc) (hbc1 : bc ≤ 1) (hfc0 : 0 ≤ fc)
    (hfc1 : fc ≤ 1) (hA : 1 / 2 ^ 60 ≤ opacityF ba fa) {A : ℚ} (hA0 : 0 < A) (hAn : |A - opacityF ba fa| ≤ 6 / 2 ^ 24 * opacityF ba fa) :
    ∃ w : ℚ, blendChannelF (.fin bc) (.fin ba) (.fin fc) (.fin fa) (.fin A) = .fin w ∧ 0 ≤ w ∧
      |w - premulF bc ba fc fa / opacityF ba fa| ≤ 1 / 2 ^ 20 := by
  set A0 := opacityF ba fa
  set N := premulF bc ba fc fa with hN
  have hNA : N ≤ A0 := premulF_le hb0 hf0 hf1 hbc1 hfc1
  have hA1 : 0 < A0 := lt_of_lt_of_le (by norm_num) hA
  have A0le : A0 ≤ 1 := by
    show 1 - (1 - ba) * (1 - fa) ≤ 1
    nlinarith
  have t : (1 : ℚ) / 2 ^ 100 ≤ A0 / 2 ^ 40 := by
    have : (1 : ℚ) / 2 ^ 100 = 1 / 2 ^ 60 / 2 ^ 40 := by norm_num
    rw [this]; exact div_le_div_of_nonneg_right hA (by norm_num)
  set F := fc * fa with hF
  have F0 : 0 ≤ F := mul_nonneg hfc0 hf0
  have F1 : F ≤ 1 := mul_le_one₀ hfc1 hf0 hf1
  set G := bc * ba with hG
  have G0 : 0 ≤ G := mul_nonneg hbc0 hb0
  have G1 : G ≤ 1 := mul_le_one₀ hbc1 hb0 hb1
  set d := 1 - fa with hd
  have d0 : 0 ≤ d := by linarith
  have d1 : d ≤ 1 := by linarith
  have hNe : N = F + G * d := rfl
  have Gd0 : 0 ≤ G * d := mul_nonneg G0 d0
  have Gd1 : G * d ≤ 1 := mul_le_one₀ G1 d0 d1
  obtain ⟨p1, p1'⟩ := rnd_err_pos F0
  obtain ⟨p2, p2'⟩ := rnd_err_pos G0
  obtain ⟨p3, p3'⟩ := rnd_err_pos d0
  have P10 : 0 ≤ f32.rnd F := f32.rnd_nonneg F0
  have P20 : 0 ≤ f32.rnd G := f32.rnd_nonneg G0
  have D0 : 0 ≤ f32.rnd d := f32.rnd_nonneg d0
  have P11 : f32.rnd F ≤ 1 := (rnd_between f32.rnd_zero rnd32_one F0 F1).2
  have P21 : f32.rnd G ≤ 1 := (rnd_between f32.rnd_zero rnd32_one G0 G1).2
  have D1 : f32.rnd d ≤ 1 := (rnd_between f32.rnd_zero rnd32_one d0 d1).2
  -- the product of bottom colour and the rest of the opacity
  have q0 : 0 ≤ f32.rnd G * f32.rnd d := mul_nonneg P20 D0
  have q1 : f32.rnd G * f32.rnd d ≤ 1 := mul_le_one₀ P21 D0 D1
  have q2 : f32.rnd G * f32.rnd d ≤ G * d + (5 / 2 ^ 25 * (G * d) + 3 / 2 ^ 100) := by
    have a : f32.rnd G * f32.rnd d ≤ (G + (G / 2 ^ 24 + 1 / 2 ^ 100)) * (d + (d / 2 ^ 24 + 1 / 2 ^ 100)) :=
      mul_le_mul p2' p3' D0 (by positivity)
    have b : (G + (G / 2 ^ 24 + 1 / 2 ^ 100)) * (d + (d / 2 ^ 24 + 1 / 2 ^ 100)) =
        G * d * ((1 + 1 / 2 ^ 24) * (1 + 1 / 2 ^ 24)) + (G + d) * ((1 + 1 / 2 ^ 24) * (1 / 2 ^ 100)) + 1 / 2 ^ 100 * (1 / 2 ^ 100) := by ring
    have c : G * d * ((1 + 1 / 2 ^ 24) * (1 + 1 / 2 ^ 24)) ≤ G * d * (1 + 5 / 2 ^ 25) := mul_le_mul_of_nonneg_left (by norm_num) Gd0
    have e : (G + d) * ((1 + 1 / 2 ^ 24) * (1 / 2 ^ 100)) ≤ 2 * ((1 + 1 / 2 ^ 24) * (1 / 2 ^ 100)) :=
      mul_le_mul_of_nonneg_right (by linarith) (by norm_num)
    have f : 2 * ((1 + 1 / 2 ^ 24) * (1 / 2 ^ 100)) + 1 / 2 ^ 100 * (1 / 2 ^ 100) ≤ (3 : ℚ) / 2 ^ 100 := by norm_num
    linarith
  have q3 : G * d - (5 / 2 ^ 25 * (G * d) + 3 / 2 ^ 100) ≤ f32.rnd G * f32.rnd d := by
    by_cases hg : G - (G / 2 ^ 24 + 1 / 2 ^ 100) ≤ 0
    · have : G ≤ 2 / 2 ^ 100 := by
        by_contra h
        linarith [show (2 : ℚ) / 2 ^ 100 / 2 ^ 24 ≤ 1 / 2 ^ 110 by norm_num, show (1 : ℚ) / 2 ^ 110 < 1 / 2 ^ 100 by norm_num]
      have : G * d ≤ 2 / 2 ^ 100 := (mul_le_of_le_one_right G0 d1).trans this
      linarith [show (2 : ℚ) / 2 ^ 100 ≤ 3 / 2 ^ 100 by norm_num, mul_nonneg (show (0 : ℚ) ≤ 5 / 2 ^ 25 by norm_num) Gd0]
    · by_cases hdd : d - (d / 2 ^ 24 + 1 / 2 ^ 100) ≤ 0
      · have : d ≤ 2 / 2 ^ 100 := by
          by_contra h
          linarith [show (2 : ℚ) / 2 ^ 100 / 2 ^ 24 ≤ 1 / 2 ^ 110 by norm_num, show (1 : ℚ) / 2 ^ 110 < 1 / 2 ^ 100 by norm_num]
        have : G * d ≤ 2 / 2 ^ 100 := (mul_le_of_le_one_left d0 G1).trans this
        linarith [show (2 : ℚ) / 2 ^ 100 ≤ 3 / 2 ^ 100 by norm_num, mul_nonneg (show (0 : ℚ) ≤ 5 / 2 ^ 25 by norm_num) Gd0]
      · have a : (G - (G / 2 ^ 24 + 1 / 2 ^ 100)) * (d - (d / 2 ^ 24 + 1 / 2 ^ 100)) ≤ f32.rnd G * f32.rnd d :=
          mul_le_mul p2 p3 (not_le.1 hdd).le P20
        have b : (G - (G / 2 ^ 24 + 1 / 2 ^ 100)) * (d - (d / 2 ^ 24 + 1 / 2 ^ 100)) =
            G * d * ((1 - 1 / 2 ^ 24) * (1 - 1 / 2 ^ 24)) - (G + d) * ((1 - 1 / 2 ^ 24) * (1 / 2 ^ 100)) + 1 / 2 ^ 100 * (1 / 2 ^ 100) := by ring
        have c : G * d * (1 - 5 / 2 ^ 25) ≤ G * d * ((1 - 1 / 2 ^ 24) * (1 - 1 / 2 ^ 24)) := mul_le_mul_of_nonneg_left (by norm_num) Gd0
        have e : (G + d) * ((1 - 1 / 2 ^ 24) * (1 / 2 ^ 100)) ≤ 2 * ((1 - 1 / 2 ^ 24) * (1 / 2 ^ 100)) :=
          mul_le_mul_of_nonneg_right (by linarith) (by norm_num)
        have f : 2 * ((1 - 1 / 2 ^ 24) * (1 / 2 ^ 100)) ≤ (3 : ℚ) / 2 ^ 100 := by norm_num
        have g : (0 : ℚ) ≤ 1 / 2 ^ 100 * (1 / 2 ^ 100) := by norm_num
        linarith
  obtain ⟨u1, u2⟩ := rnd_err_pos q0
  have U0 := f32.rnd_nonneg q0
  have U1 := (rnd_between f32.rnd_zero rnd32_one q0 q1).2
  set X := f32.rnd (f32.rnd G * f32.rnd d)
  have v0 : 0 ≤ f32.rnd F + X := by linarith
  obtain ⟨w1, w2⟩ := rnd_err_pos v0
  have W0 := f32.rnd_nonneg v0
  set N1 := f32.rnd (f32.rnd F + X)
  have hN1 : |N1 - N| ≤ 7 / 2 ^ 24 * A0 := by
    have : N ≤ A0 := hNA
    rw [abs_le]
    constructor
    · linarith
    · linarith
  -- the quotient
  have hAn' := abs_le.1 hAn
  have z0 : 0 ≤ N1 / A := div_nonneg W0 hA0.le
  have N0 : 0 ≤ N := by rw [hNe]; linarith
  have hAlow : A0 * (1 - 6 / 2 ^ 24) ≤ A := by linarith
  have hq : |N1 / A - N / A0| ≤ 14 / 2 ^ 24 := by
    have e : N1 / A - N / A0 = ((N1 - N) - N / A0 * (A - A0)) / A := by
      field_simp
      ring
    rw [e, abs_div, abs_of_pos hA0, div_le_iff₀ hA0]
    have r1 : N / A0 ≤ 1 := by rw [div_le_one hA1]; exact hNA
    have r0 : 0 ≤ N / A0 := div_nonneg N0 hA1.le
    have k1 : |N / A0 * (A - A0)| ≤ 1 * (6 / 2 ^ 24 * A0) := by
      rw [abs_mul, abs_of_nonneg r0]; exact mul_le_mul r1 hAn (abs_nonneg _) (by norm_num)
    have k2 := abs_sub (N1 - N) (N / A0 * (A - A0))
    have k3 : 14 / 2 ^ 24 * (A0 * (1 - 6 / 2 ^ 24)) ≤ 14 / 2 ^ 24 * A := mul_le_mul_of_nonneg_left hAlow (by norm_num)
    have k4 : (13 : ℚ) / 2 ^ 24 * A0 ≤ 14 / 2 ^ 24 * (A0 * (1 - 6 / 2 ^ 24)) := by
      have : (14 : ℚ) / 2 ^ 24 * (A0 * (1 - 6 / 2 ^ 24)) = A0 * (14 / 2 ^ 24 * (1 - 6 / 2 ^ 24)) := by ring
      rw [this, mul_comm]
      exact mul_le_mul_of_nonneg_left (by norm_num) hA1.le
    linarith
  have hNA1 : N / A0 ≤ 1 := by rw [div_le_one hA1]; exact hNA
  have zle : N1 / A ≤ 9 / 8 := by
    have := (abs_le.1 hq).2
    linarith [show (14 : ℚ) / 2 ^ 24 ≤ 1 / 8 by norm_num]
  obtain ⟨y1, y2⟩ := rnd_err_pos z0
  have Y0 := f32.rnd_nonneg z0
  have big : ∀ {q : ℚ}, 0 ≤ q → q ≤ 2 → |q| ≤ 2 ^ 127 := fun h0 h1 => by rw [abs_of_nonneg h0]; exact h1.trans (by norm_num)
  refine ⟨f32.rnd (N1 / A), ?_, Y0, ?_⟩
  · unfold blendChannelF
    simp only
    rw [fl_mul, fl_mul, fl_sub, ofRat32 (big G0 (by linarith)), ofRat32 (big F0 (by linarith)), ofRat32 (big d0 (by linarith)), fl_mul,
      ofRat32 (big q0 (by linarith)), fl_add, ofRat32 (big v0 (by linarith)), fl_div _ hA0.ne', ofRat32 (big z0 (by linarith)), fl_mul, one_mul,
      ofRat32 (big Y0 (by linarith)), rnd_idem]
  · rw [abs_le] at hq ⊢
    constructor <;> linarith [show (16 : ℚ) / 2 ^ 24 = 1 / 2 ^ 20 by norm_num, show (1 : ℚ) / 2 ^ 100 ≤ 1 / 2 ^ 30 by norm_num]

end Verif
