import Verif.Spec.SampleLanczos
import Mathlib.Analysis.SpecialFunctions.Integrals.Basic
import Mathlib.Analysis.Real.Pi.Bounds
import Mathlib.Analysis.SpecialFunctions.Trigonometric.Bounds

/-!
# Bounds for the Lanczos kernel
-/

namespace Verif
open Real

theorem sinc_integral (x : ℝ) : sinc x = ∫ t in (0 : ℝ)..1, cos (t * x) := by
  rcases eq_or_ne x 0 with rfl | h
  · simp
  · rw [intervalIntegral.integral_comp_mul_right (f := cos) h]
    simp [sinc_of_ne_zero h]
    field_simp

theorem sinc_lip (x y : ℝ) : |sinc x - sinc y| ≤ |x - y| / 2 := by
  have cx : ∀ x : ℝ, IntervalIntegrable (fun t : ℝ => cos (t * x)) MeasureTheory.volume 0 1 := fun x =>
    (by fun_prop : Continuous fun t : ℝ => cos (t * x)).intervalIntegrable _ _
  rw [sinc_integral x, sinc_integral y, ← intervalIntegral.integral_sub (cx x) (cx y)]
  refine (intervalIntegral.abs_integral_le_integral_abs (by norm_num)).trans ?_
  have h : ∫ t in (0 : ℝ)..1, t * |x - y| = |x - y| / 2 := by
    rw [intervalIntegral.integral_mul_const, integral_id]; ring
  rw [← h]
  refine intervalIntegral.integral_mono_on (by norm_num) ?_ ?_ ?_
  · exact (by fun_prop : Continuous fun t : ℝ => |cos (t * x) - cos (t * y)|).intervalIntegrable _ _
  · exact (by fun_prop : Continuous fun t : ℝ => t * |x - y|).intervalIntegrable _ _
  · intro t ht
    refine (abs_cos_sub_cos_le _ _).trans ?_
    rw [← mul_sub, abs_mul, abs_of_nonneg ht.1]

/-- Without the cut. -/
noncomputable def lanczosFree (t : ℝ) : ℝ := sinc (π * t) * sinc (π * t / 3)

theorem lanczosFree_lip (u v : ℝ) : |lanczosFree u - lanczosFree v| ≤ 11 / 5 * |u - v| := by
  unfold lanczosFree
  have h1 := sinc_lip (π * u) (π * v)
  have h2 := sinc_lip (π * u / 3) (π * v / 3)
  rw [← mul_sub, abs_mul, abs_of_pos pi_pos] at h1
  rw [← sub_div, ← mul_sub, abs_div, abs_mul, abs_of_pos pi_pos, abs_of_pos (by norm_num : (0 : ℝ) < 3)] at h2
  have e : sinc (π * u) * sinc (π * u / 3) - sinc (π * v) * sinc (π * v / 3) =
    (sinc (π * u) - sinc (π * v)) * sinc (π * u / 3) + sinc (π * v) * (sinc (π * u / 3) - sinc (π * v / 3)) := by ring
  rw [e]
  refine (abs_add_le _ _).trans ?_
  rw [abs_mul, abs_mul]
  have a1 := abs_sinc_le_one (π * u / 3)
  have a2 := abs_sinc_le_one (π * v)
  have hp : π < 3.15 := pi_lt_d2
  have s1 : |sinc (π * u) - sinc (π * v)| * |sinc (π * u / 3)| ≤ |sinc (π * u) - sinc (π * v)| * 1 :=
    mul_le_mul_of_nonneg_left a1 (abs_nonneg _)
  have s2 : |sinc (π * v)| * |sinc (π * u / 3) - sinc (π * v / 3)| ≤ 1 * |sinc (π * u / 3) - sinc (π * v / 3)| :=
    mul_le_mul_of_nonneg_right a2 (abs_nonneg _)
  have s3 : π * |u - v| ≤ 3.15 * |u - v| := mul_le_mul_of_nonneg_right hp.le (abs_nonneg _)
  have := abs_nonneg (u - v)
  linarith

theorem lanczosFree_even (u : ℝ) : lanczosFree (-u) = lanczosFree u := by
  unfold lanczosFree
  rw [mul_neg, neg_div, sinc_neg, sinc_neg]

theorem lanczosFree_abs (u : ℝ) : lanczosFree |u| = lanczosFree u := by
  rcases abs_choice u with h | h <;> rw [h]
  exact lanczosFree_even u

theorem lanczosFree_three : lanczosFree 3 = 0 := by
  unfold lanczosFree
  rw [show π * 3 / 3 = π by ring, sinc_of_ne_zero pi_ne_zero, sin_pi]
  simp

theorem lanczosR_even (u : ℝ) : lanczosR (-u) = lanczosR u := by
  unfold lanczosR
  rw [abs_neg, mul_neg, neg_div, sinc_neg, sinc_neg]

theorem lanczosR_abs (u : ℝ) : lanczosR |u| = lanczosR u := by
  rcases abs_choice u with h | h <;> rw [h]
  exact lanczosR_even u

theorem lanczosR_in {u : ℝ} (h : |u| < 3) : lanczosR u = lanczosFree u := if_pos h
theorem lanczosR_out {u : ℝ} (h : 3 ≤ |u|) : lanczosR u = 0 := if_neg (not_lt.2 h)

theorem lanczosR_cut (u : ℝ) : lanczosR u = lanczosFree (min |u| 3) := by
  rcases lt_or_ge |u| 3 with h | h
  · rw [lanczosR_in h, min_eq_left h.le, lanczosFree_abs]
  · rw [lanczosR_out h, min_eq_right h, lanczosFree_three]

theorem lanczosR_lip (u v : ℝ) : |lanczosR u - lanczosR v| ≤ 11 / 5 * |u - v| := by
  rw [lanczosR_cut, lanczosR_cut]
  refine (lanczosFree_lip _ _).trans ?_
  refine mul_le_mul_of_nonneg_left ?_ (by norm_num)
  refine (abs_min_sub_min_le_max _ _ _ _).trans ?_
  rw [sub_self, abs_zero, max_eq_left (abs_nonneg _)]
  exact abs_abs_sub_abs_le _ _

theorem lanczosR_le (u : ℝ) : |lanczosR u| ≤ 1 := by
  rw [lanczosR_cut]
  unfold lanczosFree
  rw [abs_mul]
  exact mul_le_one₀ (abs_sinc_le_one _) (abs_nonneg _) (abs_sinc_le_one _)

theorem sinc_nonneg {x : ℝ} (h0 : 0 ≤ x) (h1 : x ≤ π) : 0 ≤ sinc x := by
  rcases h0.eq_or_lt with rfl | h
  · simp
  · rw [sinc_of_ne_zero h.ne']
    exact div_nonneg (sin_nonneg_of_nonneg_of_le_pi h0 h1) h0

theorem sinc_ge {x : ℝ} : 1 - x ^ 2 / 6 ≤ sinc x := by
  rcases eq_or_ne x 0 with rfl | h
  · simp
  · have key : ∀ y : ℝ, 0 < y → 1 - y ^ 2 / 6 ≤ sinc y := by
      intro y hy
      rw [sinc_of_ne_zero hy.ne', le_div_iff₀ hy]
      have := sin_ge_sub_cube hy.le
      linarith [show (1 - y ^ 2 / 6) * y = y - y ^ 3 / 6 by ring]
    rcases lt_or_gt_of_ne h with h | h
    · have := key (-x) (by linarith)
      rwa [sinc_neg, neg_sq] at this
    · exact key x h

theorem sinc_pos_jordan {x : ℝ} (h0 : 0 ≤ x) (h1 : x ≤ π / 2) : 2 / π ≤ sinc x := by
  rcases h0.eq_or_lt with rfl | h
  · simp only [sinc_zero]
    rw [div_le_one pi_pos]
    linarith [pi_gt_three]
  · rw [sinc_of_ne_zero h.ne', le_div_iff₀ h]
    exact mul_le_sin h0 h1

theorem lanczosFree_inner {u : ℝ} (h0 : 0 ≤ u) (h1 : u ≤ 1) : 0 ≤ lanczosFree u := by
  have hp := pi_pos
  unfold lanczosFree
  refine mul_nonneg (sinc_nonneg (by positivity) ?_) (sinc_nonneg (by positivity) ?_)
  · nlinarith
  · rw [div_le_iff₀ (by norm_num)]; nlinarith

theorem lanczosFree_outer {u : ℝ} (h0 : 2 ≤ u) (h1 : u ≤ 3) : 0 ≤ lanczosFree u := by
  have hp := pi_pos
  unfold lanczosFree
  have h : (0 : ℝ) < π * u := by positivity
  refine mul_nonneg ?_ (sinc_nonneg (by positivity) ?_)
  · rw [sinc_of_ne_zero h.ne']
    refine div_nonneg ?_ h.le
    rw [show π * u = π * (u - 2) + 2 * π by ring, sin_add_two_pi]
    exact sin_nonneg_of_nonneg_of_le_pi (mul_nonneg hp.le (by linarith)) (by nlinarith)
  · rw [div_le_iff₀ (by norm_num)]; nlinarith

theorem pi_sq_lo : (9.8 : ℝ) < π ^ 2 := by have := pi_gt_d2; nlinarith
theorem pi_sq_hi : π ^ 2 < (9.93 : ℝ) := by have := pi_lt_d2; have := pi_pos; nlinarith

/-- The middle. -/
theorem lanczosFree_mid {d : ℝ} (h0 : 0 ≤ d) (h1 : d ≤ 1 / 2) : (59 : ℝ) / 100 ≤ lanczosFree d := by
  have hp := pi_pos
  have hp2 := pi_lt_d2
  have a1 : 2 / π ≤ sinc (π * d) := sinc_pos_jordan (by positivity) (by nlinarith)
  have a2 : (95 : ℝ) / 100 ≤ sinc (π * d / 3) := by
    refine le_trans ?_ sinc_ge
    have : (π * d / 3) ^ 2 = π ^ 2 * d ^ 2 / 9 := by ring
    rw [this]
    have := pi_sq_hi
    have : d ^ 2 ≤ 1 / 4 := by nlinarith
    nlinarith [sq_nonneg d]
  have a3 : (63 : ℝ) / 100 ≤ 2 / π := by
    rw [le_div_iff₀ hp]; norm_num at hp2 ⊢; linarith
  unfold lanczosFree
  have : (63 : ℝ) / 100 * (95 / 100) ≤ sinc (π * d) * sinc (π * d / 3) :=
    mul_le_mul (a3.trans a1) a2 (by norm_num) (le_trans (by norm_num) (a3.trans a1))
  linarith

/-- The two middle pixels. -/
theorem lanczosFree_two {d : ℝ} (h0 : 0 ≤ d) (h1 : d ≤ 1 / 2) : 1 ≤ lanczosFree d + lanczosFree (1 - d) := by
  have hp := pi_pos
  have hlo := pi_sq_lo
  have hhi := pi_sq_hi
  have hd2 : d ^ 2 ≤ 1 / 4 := by nlinarith
  have a1 : 1 - 1.655 * d ^ 2 ≤ sinc (π * d) := by
    refine le_trans ?_ sinc_ge
    have : (π * d) ^ 2 = π ^ 2 * d ^ 2 := by ring
    rw [this]; nlinarith [sq_nonneg d]
  have a2 : 1 - 0.184 * d ^ 2 ≤ sinc (π * d / 3) := by
    refine le_trans ?_ sinc_ge
    have : (π * d / 3) ^ 2 = π ^ 2 * d ^ 2 / 9 := by ring
    rw [this]; nlinarith [sq_nonneg d]
  have f1 : 1 - 1.839 * d ^ 2 ≤ lanczosFree d := by
    unfold lanczosFree
    have : (1 - 1.655 * d ^ 2) * (1 - 0.184 * d ^ 2) ≤ sinc (π * d) * sinc (π * d / 3) :=
      mul_le_mul a1 a2 (by nlinarith) (le_trans (by nlinarith) a1)
    nlinarith [sq_nonneg d, sq_nonneg (d ^ 2)]
  have b2 : (0.81 : ℝ) ≤ sinc (π * (1 - d) / 3) := by
    refine le_trans ?_ sinc_ge
    have : (π * (1 - d) / 3) ^ 2 = π ^ 2 * (1 - d) ^ 2 / 9 := by ring
    rw [this]
    have : (1 - d) ^ 2 ≤ 1 := by nlinarith
    nlinarith [sq_nonneg (1 - d)]
  have hpos : 0 < π * (1 - d) := by
    have : 0 < 1 - d := by linarith
    positivity
  have hs : 2 * d ≤ sin (π * (1 - d)) := by
    rw [show π * (1 - d) = π - π * d by ring, sin_pi_sub]
    have := mul_le_sin (x := π * d) (by positivity) (by nlinarith)
    have e : 2 / π * (π * d) = 2 * d := by field_simp
    linarith
  have b1 : 0.63 * (d / (1 - d)) ≤ sinc (π * (1 - d)) := by
    rw [sinc_of_ne_zero hpos.ne', le_div_iff₀ hpos]
    have e : 0.63 * (d / (1 - d)) * (π * (1 - d)) = 0.63 * π * d := by
      have : 1 - d ≠ 0 := by linarith
      field_simp
    rw [e]
    have := pi_lt_d2
    nlinarith
  have f2 : 0.81 * (0.63 * (d / (1 - d))) ≤ lanczosFree (1 - d) := by
    unfold lanczosFree
    rw [mul_comm]
    have h3 : 0 ≤ 0.63 * (d / (1 - d)) := mul_nonneg (by norm_num) (div_nonneg h0 (by linarith))
    exact mul_le_mul b1 b2 (by norm_num) (h3.trans b1)
  have f3 : 1.839 * d ^ 2 ≤ 0.81 * (0.63 * (d / (1 - d))) := by
    rw [show (0.81 : ℝ) * (0.63 * (d / (1 - d))) = 0.5103 * d / (1 - d) by ring, le_div_iff₀ (by linarith)]
    have h4 : d * (1 - d) ≤ 1 / 4 := by nlinarith [sq_nonneg (d - 1 / 2)]
    nlinarith [mul_le_mul_of_nonneg_left h4 h0]
  linarith

/-- One negative lobe. -/
theorem lanczosFree_lobe {d : ℝ} (h0 : 0 ≤ d) (h1 : d ≤ 1) : -lanczosFree (1 + d) ≤ 3 / π ^ 2 * (sin (π * d) / (1 + d) ^ 2) := by
  have hp := pi_pos
  have h : (0 : ℝ) < 1 + d := by linarith
  have e1 : sin (π * (1 + d)) = -sin (π * d) := by rw [show π * (1 + d) = π * d + π by ring, sin_add_pi]
  have e : -lanczosFree (1 + d) = 3 / π ^ 2 * (sin (π * d) / (1 + d) ^ 2) * sin (π * (1 + d) / 3) := by
    unfold lanczosFree
    rw [sinc_of_ne_zero (by positivity), sinc_of_ne_zero (by positivity), e1]
    field_simp
  rw [e]
  have hs : 0 ≤ sin (π * d) := sin_nonneg_of_nonneg_of_le_pi (by positivity) (by nlinarith)
  refine mul_le_of_le_one_right (by positivity) (sin_le_one _)

theorem lanczosFree_neg {d : ℝ} (h0 : 0 ≤ d) (h1 : d ≤ 1) : lanczosFree (1 + d) ≤ 0 := by
  have hp := pi_pos
  have e1 : sin (π * (1 + d)) = -sin (π * d) := by rw [show π * (1 + d) = π * d + π by ring, sin_add_pi]
  unfold lanczosFree
  rw [sinc_of_ne_zero (by positivity), e1]
  have hs : 0 ≤ sin (π * d) := sin_nonneg_of_nonneg_of_le_pi (by positivity) (by nlinarith)
  refine mul_nonpos_of_nonpos_of_nonneg (div_nonpos_of_nonpos_of_nonneg (by linarith) (by positivity)) (sinc_nonneg (by positivity) ?_)
  rw [div_le_iff₀ (by norm_num)]; nlinarith

theorem three_pi_sq : 3 / π ^ 2 ≤ (0.3062 : ℝ) := by
  rw [div_le_iff₀ (by positivity)]
  linarith [pi_sq_lo]

/-- One lobe alone. -/
theorem lanczosFree_lobe_le {d : ℝ} (h0 : 0 ≤ d) (h1 : d ≤ 1) : -lanczosFree (1 + d) ≤ (19 : ℝ) / 100 := by
  have hp := pi_pos
  have hp2 := pi_lt_d2
  refine (lanczosFree_lobe h0 h1).trans ?_
  have hs1 := sin_le_one (π * d)
  have hs2 := sin_le (x := π * d) (by positivity)
  have hs0 : 0 ≤ sin (π * d) := sin_nonneg_of_nonneg_of_le_pi (by positivity) (by nlinarith)
  have : sin (π * d) / (1 + d) ^ 2 ≤ 0.61 := by
    rw [div_le_iff₀ (by positivity)]
    rcases le_total d (3 / 10) with h | h
    · have : sin (π * d) ≤ 3.15 * d := hs2.trans (mul_le_mul_of_nonneg_right hp2.le h0)
      nlinarith
    · nlinarith
  calc 3 / π ^ 2 * (sin (π * d) / (1 + d) ^ 2) ≤ 0.3062 * 0.61 :=
        mul_le_mul three_pi_sq this (by positivity) (by norm_num)
    _ ≤ _ := by norm_num

/-- Both lobes. -/
theorem lanczosFree_pair {d : ℝ} (h0 : 0 ≤ d) (h1 : d ≤ 1 / 2) : -lanczosFree (1 + d) - lanczosFree (2 - d) ≤ (32 : ℝ) / 100 := by
  have hp := pi_pos
  have hp2 := pi_lt_d2
  have a1 := lanczosFree_lobe h0 (by linarith : d ≤ 1)
  have a2 := lanczosFree_lobe (d := 1 - d) (by linarith) (by linarith)
  rw [show 1 + (1 - d) = 2 - d by ring, show π * (1 - d) = π - π * d by ring, sin_pi_sub] at a2
  have hs1 := sin_le_one (π * d)
  have hs2 := sin_le (x := π * d) (by positivity)
  have hs0 : 0 ≤ sin (π * d) := sin_nonneg_of_nonneg_of_le_pi (by positivity) (by nlinarith)
  have key : sin (π * d) / (1 + d) ^ 2 + sin (π * d) / (2 - d) ^ 2 ≤ 1.04 := by
    rcases le_total d (3 / 10) with h | h
    · have hs3 : sin (π * d) ≤ 3.15 * d := hs2.trans (mul_le_mul_of_nonneg_right hp2.le h0)
      have b1 : sin (π * d) / (1 + d) ^ 2 ≤ 0.58 := by
        rw [div_le_iff₀ (by positivity)]; nlinarith
      have b2 : sin (π * d) / (2 - d) ^ 2 ≤ 0.46 := by
        rw [div_le_iff₀ (by nlinarith)]; nlinarith
      linarith
    · have b1 : sin (π * d) / (1 + d) ^ 2 + sin (π * d) / (2 - d) ^ 2 ≤ 1 / (1 + d) ^ 2 + 1 / (2 - d) ^ 2 := by
        gcongr
      refine b1.trans ?_
      have b2 : 1 / (1 + d) ^ 2 ≤ 0.592 := by
        rw [div_le_iff₀ (by positivity)]; nlinarith
      have b3 : 1 / (2 - d) ^ 2 ≤ 0.448 := by
        rw [div_le_iff₀ (by nlinarith)]; nlinarith
      linarith
  calc -lanczosFree (1 + d) - lanczosFree (2 - d) ≤ 3 / π ^ 2 * (sin (π * d) / (1 + d) ^ 2) + 3 / π ^ 2 * (sin (π * d) / (2 - d) ^ 2) := by linarith
    _ = 3 / π ^ 2 * (sin (π * d) / (1 + d) ^ 2 + sin (π * d) / (2 - d) ^ 2) := by ring
    _ ≤ 0.3062 * 1.04 := mul_le_mul three_pi_sq key (by positivity) (by norm_num)
    _ ≤ _ := by norm_num

end Verif
