import Verif.Proofs.Cosines
import Verif.Proofs.JpegDct

/-! # The integer transform of the JPEG encoder approximates the discrete cosine transform -/

namespace Verif
namespace Jpeg

open Real Finset JpegSpec

theorem γ_9 : γ 9 = -γ 7 := γ_sub16 (m := 7) (by norm_num)
theorem γ_11 : γ 11 = -γ 5 := γ_sub16 (m := 5) (by norm_num)
theorem γ_13 : γ 13 = -γ 3 := γ_sub16 (m := 3) (by norm_num)
theorem γ_15 : γ 15 = -γ 1 := γ_sub16 (m := 1) (by norm_num)
theorem γ_16 : γ 16 = -γ 0 := γ_add16 0
theorem γ_17 : γ 17 = -γ 1 := γ_add16 1
theorem γ_18 : γ 18 = -γ 2 := γ_add16 2
theorem γ_19 : γ 19 = -γ 3 := γ_add16 3
theorem γ_20 : γ 20 = -γ 4 := γ_add16 4
theorem γ_21 : γ 21 = -γ 5 := γ_add16 5
theorem γ_22 : γ 22 = -γ 6 := γ_add16 6
theorem γ_23 : γ 23 = -γ 7 := γ_add16 7
theorem γ_24 : γ 24 = -γ 8 := γ_add16 8
theorem γ_25 : γ 25 = γ 7 := by rw [show γ 25 = -γ 9 from γ_add16 9, γ_9]; exact neg_neg _
theorem γ_26 : γ 26 = γ 6 := by rw [show γ 26 = -γ 10 from γ_add16 10, γ_10]; exact neg_neg _
theorem γ_27 : γ 27 = γ 5 := by rw [show γ 27 = -γ 11 from γ_add16 11, γ_11]; exact neg_neg _
theorem γ_28 : γ 28 = γ 4 := by rw [show γ 28 = -γ 12 from γ_add16 12, γ_12]; exact neg_neg _
theorem γ_29 : γ 29 = γ 3 := by rw [show γ 29 = -γ 13 from γ_add16 13, γ_13]; exact neg_neg _
theorem γ_30 : γ 30 = γ 2 := by rw [show γ 30 = -γ 14 from γ_add16 14, γ_14]; exact neg_neg _
theorem γ_31 : γ 31 = γ 1 := by rw [show γ 31 = -γ 15 from γ_add16 15, γ_15]; exact neg_neg _
theorem γ_32 : γ 32 = γ 0 := by rw [show γ 32 = -γ 16 from γ_add16 16, γ_16]; exact neg_neg _
theorem γ_33 : γ 33 = γ 1 := by rw [show γ 33 = -γ 17 from γ_add16 17, γ_17]; exact neg_neg _
theorem γ_34 : γ 34 = γ 2 := by rw [show γ 34 = -γ 18 from γ_add16 18, γ_18]; exact neg_neg _
theorem γ_35 : γ 35 = γ 3 := by rw [show γ 35 = -γ 19 from γ_add16 19, γ_19]; exact neg_neg _
theorem γ_36 : γ 36 = γ 4 := by rw [show γ 36 = -γ 20 from γ_add16 20, γ_20]; exact neg_neg _
theorem γ_37 : γ 37 = γ 5 := by rw [show γ 37 = -γ 21 from γ_add16 21, γ_21]; exact neg_neg _
theorem γ_38 : γ 38 = γ 6 := by rw [show γ 38 = -γ 22 from γ_add16 22, γ_22]; exact neg_neg _
theorem γ_39 : γ 39 = γ 7 := by rw [show γ 39 = -γ 23 from γ_add16 23, γ_23]; exact neg_neg _
theorem γ_40 : γ 40 = γ 8 := by rw [show γ 40 = -γ 24 from γ_add16 24, γ_24]; exact neg_neg _
theorem γ_41 : γ 41 = -γ 7 := by rw [show γ 41 = -γ 25 from γ_add16 25, γ_25]
theorem γ_42 : γ 42 = -γ 6 := by rw [show γ 42 = -γ 26 from γ_add16 26, γ_26]
theorem γ_43 : γ 43 = -γ 5 := by rw [show γ 43 = -γ 27 from γ_add16 27, γ_27]
theorem γ_44 : γ 44 = -γ 4 := by rw [show γ 44 = -γ 28 from γ_add16 28, γ_28]
theorem γ_45 : γ 45 = -γ 3 := by rw [show γ 45 = -γ 29 from γ_add16 29, γ_29]
theorem γ_46 : γ 46 = -γ 2 := by rw [show γ 46 = -γ 30 from γ_add16 30, γ_30]
theorem γ_47 : γ 47 = -γ 1 := by rw [show γ 47 = -γ 31 from γ_add16 31, γ_31]
theorem γ_48 : γ 48 = -γ 0 := by rw [show γ 48 = -γ 32 from γ_add16 32, γ_32]
theorem γ_49 : γ 49 = -γ 1 := by rw [show γ 49 = -γ 33 from γ_add16 33, γ_33]
theorem γ_50 : γ 50 = -γ 2 := by rw [show γ 50 = -γ 34 from γ_add16 34, γ_34]
theorem γ_51 : γ 51 = -γ 3 := by rw [show γ 51 = -γ 35 from γ_add16 35, γ_35]
theorem γ_52 : γ 52 = -γ 4 := by rw [show γ 52 = -γ 36 from γ_add16 36, γ_36]
theorem γ_53 : γ 53 = -γ 5 := by rw [show γ 53 = -γ 37 from γ_add16 37, γ_37]
theorem γ_54 : γ 54 = -γ 6 := by rw [show γ 54 = -γ 38 from γ_add16 38, γ_38]
theorem γ_55 : γ 55 = -γ 7 := by rw [show γ 55 = -γ 39 from γ_add16 39, γ_39]
theorem γ_56 : γ 56 = -γ 8 := by rw [show γ 56 = -γ 40 from γ_add16 40, γ_40]
theorem γ_57 : γ 57 = γ 7 := by rw [show γ 57 = -γ 41 from γ_add16 41, γ_41]; exact neg_neg _
theorem γ_58 : γ 58 = γ 6 := by rw [show γ 58 = -γ 42 from γ_add16 42, γ_42]; exact neg_neg _
theorem γ_59 : γ 59 = γ 5 := by rw [show γ 59 = -γ 43 from γ_add16 43, γ_43]; exact neg_neg _
theorem γ_60 : γ 60 = γ 4 := by rw [show γ 60 = -γ 44 from γ_add16 44, γ_44]; exact neg_neg _
theorem γ_61 : γ 61 = γ 3 := by rw [show γ 61 = -γ 45 from γ_add16 45, γ_45]; exact neg_neg _
theorem γ_62 : γ 62 = γ 2 := by rw [show γ 62 = -γ 46 from γ_add16 46, γ_46]; exact neg_neg _
theorem γ_63 : γ 63 = γ 1 := by rw [show γ 63 = -γ 47 from γ_add16 47, γ_47]; exact neg_neg _
theorem γ_64 : γ 64 = γ 0 := by rw [show γ 64 = -γ 48 from γ_add16 48, γ_48]; exact neg_neg _
theorem γ_65 : γ 65 = γ 1 := by rw [show γ 65 = -γ 49 from γ_add16 49, γ_49]; exact neg_neg _
theorem γ_66 : γ 66 = γ 2 := by rw [show γ 66 = -γ 50 from γ_add16 50, γ_50]; exact neg_neg _
theorem γ_67 : γ 67 = γ 3 := by rw [show γ 67 = -γ 51 from γ_add16 51, γ_51]; exact neg_neg _
theorem γ_68 : γ 68 = γ 4 := by rw [show γ 68 = -γ 52 from γ_add16 52, γ_52]; exact neg_neg _
theorem γ_69 : γ 69 = γ 5 := by rw [show γ 69 = -γ 53 from γ_add16 53, γ_53]; exact neg_neg _
theorem γ_70 : γ 70 = γ 6 := by rw [show γ 70 = -γ 54 from γ_add16 54, γ_54]; exact neg_neg _
theorem γ_71 : γ 71 = γ 7 := by rw [show γ 71 = -γ 55 from γ_add16 55, γ_55]; exact neg_neg _
theorem γ_72 : γ 72 = γ 8 := by rw [show γ 72 = -γ 56 from γ_add16 56, γ_56]; exact neg_neg _
theorem γ_73 : γ 73 = -γ 7 := by rw [show γ 73 = -γ 57 from γ_add16 57, γ_57]
theorem γ_74 : γ 74 = -γ 6 := by rw [show γ 74 = -γ 58 from γ_add16 58, γ_58]
theorem γ_75 : γ 75 = -γ 5 := by rw [show γ 75 = -γ 59 from γ_add16 59, γ_59]
theorem γ_76 : γ 76 = -γ 4 := by rw [show γ 76 = -γ 60 from γ_add16 60, γ_60]
theorem γ_77 : γ 77 = -γ 3 := by rw [show γ 77 = -γ 61 from γ_add16 61, γ_61]
theorem γ_78 : γ 78 = -γ 2 := by rw [show γ 78 = -γ 62 from γ_add16 62, γ_62]
theorem γ_79 : γ 79 = -γ 1 := by rw [show γ 79 = -γ 63 from γ_add16 63, γ_63]
theorem γ_80 : γ 80 = -γ 0 := by rw [show γ 80 = -γ 64 from γ_add16 64, γ_64]
theorem γ_81 : γ 81 = -γ 1 := by rw [show γ 81 = -γ 65 from γ_add16 65, γ_65]
theorem γ_82 : γ 82 = -γ 2 := by rw [show γ 82 = -γ 66 from γ_add16 66, γ_66]
theorem γ_83 : γ 83 = -γ 3 := by rw [show γ 83 = -γ 67 from γ_add16 67, γ_67]
theorem γ_84 : γ 84 = -γ 4 := by rw [show γ 84 = -γ 68 from γ_add16 68, γ_68]
theorem γ_85 : γ 85 = -γ 5 := by rw [show γ 85 = -γ 69 from γ_add16 69, γ_69]
theorem γ_86 : γ 86 = -γ 6 := by rw [show γ 86 = -γ 70 from γ_add16 70, γ_70]
theorem γ_87 : γ 87 = -γ 7 := by rw [show γ 87 = -γ 71 from γ_add16 71, γ_71]
theorem γ_88 : γ 88 = -γ 8 := by rw [show γ 88 = -γ 72 from γ_add16 72, γ_72]
theorem γ_89 : γ 89 = γ 7 := by rw [show γ 89 = -γ 73 from γ_add16 73, γ_73]; exact neg_neg _
theorem γ_90 : γ 90 = γ 6 := by rw [show γ 90 = -γ 74 from γ_add16 74, γ_74]; exact neg_neg _
theorem γ_91 : γ 91 = γ 5 := by rw [show γ 91 = -γ 75 from γ_add16 75, γ_75]; exact neg_neg _
theorem γ_92 : γ 92 = γ 4 := by rw [show γ 92 = -γ 76 from γ_add16 76, γ_76]; exact neg_neg _
theorem γ_93 : γ 93 = γ 3 := by rw [show γ 93 = -γ 77 from γ_add16 77, γ_77]; exact neg_neg _
theorem γ_94 : γ 94 = γ 2 := by rw [show γ 94 = -γ 78 from γ_add16 78, γ_78]; exact neg_neg _
theorem γ_95 : γ 95 = γ 1 := by rw [show γ 95 = -γ 79 from γ_add16 79, γ_79]; exact neg_neg _
theorem γ_96 : γ 96 = γ 0 := by rw [show γ 96 = -γ 80 from γ_add16 80, γ_80]; exact neg_neg _
theorem γ_97 : γ 97 = γ 1 := by rw [show γ 97 = -γ 81 from γ_add16 81, γ_81]; exact neg_neg _
theorem γ_98 : γ 98 = γ 2 := by rw [show γ 98 = -γ 82 from γ_add16 82, γ_82]; exact neg_neg _
theorem γ_99 : γ 99 = γ 3 := by rw [show γ 99 = -γ 83 from γ_add16 83, γ_83]; exact neg_neg _
theorem γ_100 : γ 100 = γ 4 := by rw [show γ 100 = -γ 84 from γ_add16 84, γ_84]; exact neg_neg _
theorem γ_101 : γ 101 = γ 5 := by rw [show γ 101 = -γ 85 from γ_add16 85, γ_85]; exact neg_neg _
theorem γ_102 : γ 102 = γ 6 := by rw [show γ 102 = -γ 86 from γ_add16 86, γ_86]; exact neg_neg _
theorem γ_103 : γ 103 = γ 7 := by rw [show γ 103 = -γ 87 from γ_add16 87, γ_87]; exact neg_neg _
theorem γ_104 : γ 104 = γ 8 := by rw [show γ 104 = -γ 88 from γ_add16 88, γ_88]; exact neg_neg _
theorem γ_105 : γ 105 = -γ 7 := by rw [show γ 105 = -γ 89 from γ_add16 89, γ_89]

/-- The transform of eight values, scaled by √8. -/
noncomputable def E (a : ℕ → ℝ) (u : ℕ) : ℝ := √2 * dctScale u * ∑ x ∈ range 8, a x * γ ((2 * x + 1) * u)

theorem E_0 (a : ℕ → ℝ) : E a 0 = a 0 + a 1 + a 2 + a 3 + a 4 + a 5 + a 6 + a 7 := by
  have h2 : √2 ≠ 0 := by simp
  unfold E dctScale
  simp only [Nat.mul_zero, γ_0, mul_one, if_true, sum_range_succ, sum_range_zero]
  field_simp
  ring

theorem E_pos (a : ℕ → ℝ) {u : ℕ} (h : u ≠ 0) : E a u = a 0 * (√2 * γ u) + a 1 * (√2 * γ (3 * u)) + a 2 * (√2 * γ (5 * u)) +
    a 3 * (√2 * γ (7 * u)) + a 4 * (√2 * γ (9 * u)) + a 5 * (√2 * γ (11 * u)) + a 6 * (√2 * γ (13 * u)) + a 7 * (√2 * γ (15 * u)) := by
  unfold E dctScale
  rw [if_neg h]
  simp only [sum_range_succ, sum_range_zero]
  norm_num
  ring

theorem E_1 (a : ℕ → ℝ) : E a 1 = κ 1 * (a 0 - a 7) + κ 3 * (a 1 - a 6) + κ 5 * (a 2 - a 5) + κ 7 * (a 3 - a 4) := by
  rw [E_pos a (by norm_num)]
  norm_num only [γ_11, γ_13, γ_15, γ_9]
  unfold κ
  ring

theorem E_2 (a : ℕ → ℝ) : E a 2 = κ 2 * (a 0 + a 7 - (a 3 + a 4)) + κ 6 * (a 1 + a 6 - (a 2 + a 5)) := by
  rw [E_pos a (by norm_num)]
  norm_num only [γ_10, γ_14, γ_18, γ_22, γ_26, γ_30]
  unfold κ
  ring

theorem E_3 (a : ℕ → ℝ) : E a 3 = κ 3 * (a 0 - a 7) - κ 7 * (a 1 - a 6) - κ 1 * (a 2 - a 5) - κ 5 * (a 3 - a 4) := by
  rw [E_pos a (by norm_num)]
  norm_num only [γ_15, γ_21, γ_27, γ_33, γ_39, γ_45, γ_9]
  unfold κ
  ring

theorem E_4 (a : ℕ → ℝ) : E a 4 = a 0 + a 7 + (a 3 + a 4) - (a 1 + a 6 + (a 2 + a 5)) := by
  rw [E_pos a (by norm_num)]
  norm_num only [γ_12, γ_20, γ_28, γ_36, γ_44, γ_52, γ_60]
  have h := κ4
  unfold κ at h
  simp only [mul_neg, h]
  ring

theorem E_5 (a : ℕ → ℝ) : E a 5 = κ 5 * (a 0 - a 7) - κ 1 * (a 1 - a 6) + κ 7 * (a 2 - a 5) + κ 3 * (a 3 - a 4) := by
  rw [E_pos a (by norm_num)]
  norm_num only [γ_15, γ_25, γ_35, γ_45, γ_55, γ_65, γ_75]
  unfold κ
  ring

theorem E_6 (a : ℕ → ℝ) : E a 6 = κ 6 * (a 0 + a 7 - (a 3 + a 4)) - κ 2 * (a 1 + a 6 - (a 2 + a 5)) := by
  rw [E_pos a (by norm_num)]
  norm_num only [γ_18, γ_30, γ_42, γ_54, γ_66, γ_78, γ_90]
  unfold κ
  ring

theorem E_7 (a : ℕ → ℝ) : E a 7 = κ 7 * (a 0 - a 7) - κ 5 * (a 1 - a 6) + κ 3 * (a 2 - a 5) - κ 1 * (a 3 - a 4) := by
  rw [E_pos a (by norm_num)]
  norm_num only [γ_105, γ_21, γ_35, γ_49, γ_63, γ_77, γ_91]
  unfold κ
  ring


/-! ## The error of the two passes -/

theorem floor11 (N : ℤ) : |((N / 2 ^ 11 : ℤ) : ℝ) - ((N : ℝ) - 1024) / 2048| ≤ 1 / 2 := by
  have h1 : N / 2 ^ 11 * 2048 ≤ N := by omega
  have h2 : N < N / 2 ^ 11 * 2048 + 2048 := by omega
  have h2 : N + 1 ≤ N / 2 ^ 11 * 2048 + 2048 := h2
  have h1' : ((N / 2 ^ 11 : ℤ) : ℝ) * 2048 ≤ N := by exact_mod_cast h1
  have h2' : (N : ℝ) + 1 ≤ ((N / 2 ^ 11 : ℤ) : ℝ) * 2048 + 2048 := by exact_mod_cast h2
  rw [abs_le]
  constructor <;> linarith

theorem floor15 (N : ℤ) : (N : ℝ) / 32768 - 1 ≤ ((N / 2 ^ 15 : ℤ) : ℝ) ∧ ((N / 2 ^ 15 : ℤ) : ℝ) ≤ (N : ℝ) / 32768 := by
  have h1 : N / 2 ^ 15 * 32768 ≤ N := by omega
  have h2 : N < N / 2 ^ 15 * 32768 + 32768 := by omega
  have h2 : N + 1 ≤ N / 2 ^ 15 * 32768 + 32768 := h2
  have h1' : ((N / 2 ^ 15 : ℤ) : ℝ) * 32768 ≤ N := by exact_mod_cast h1
  have h2' : (N : ℝ) + 1 ≤ ((N / 2 ^ 15 : ℤ) : ℝ) * 32768 + 32768 := by exact_mod_cast h2
  constructor <;> linarith

theorem floor2 (N : ℤ) : (N : ℝ) / 4 - 3 / 4 ≤ ((N / 2 ^ 2 : ℤ) : ℝ) ∧ ((N / 2 ^ 2 : ℤ) : ℝ) ≤ (N : ℝ) / 4 := by
  have h1 : N / 2 ^ 2 * 4 ≤ N := by omega
  have h2 : N ≤ N / 2 ^ 2 * 4 + 3 := by omega
  have h1' : ((N / 2 ^ 2 : ℤ) : ℝ) * 4 ≤ N := by exact_mod_cast h1
  have h2' : (N : ℝ) ≤ ((N / 2 ^ 2 : ℤ) : ℝ) * 4 + 3 := by exact_mod_cast h2
  constructor <;> linarith

/-- A constant of the code differs from the exact one by at most `e`; the product with a value differs accordingly. -/
theorem mul_near {c k e d D : ℝ} (h1 : k - e ≤ c) (h2 : c ≤ k + e) (hd : |d| ≤ D) : |c * d - k * d| ≤ e * D := by
  rw [← sub_mul, abs_mul]
  have : |c - k| ≤ e := by rw [abs_le]; constructor <;> linarith
  exact mul_le_mul this hd (abs_nonneg _) (le_trans (abs_nonneg _) this)


/-- The weighted sum of four differences, with the constants of the code and with the exact ones. -/
theorem sum4_near {c0 c1 c2 c3 k0 k1 k2 k3 e0 e1 e2 e3 d0 d1 d2 d3 D : ℝ}
    (h0 : k0 - e0 ≤ c0 ∧ c0 ≤ k0 + e0) (h1 : k1 - e1 ≤ c1 ∧ c1 ≤ k1 + e1) (h2 : k2 - e2 ≤ c2 ∧ c2 ≤ k2 + e2)
    (h3 : k3 - e3 ≤ c3 ∧ c3 ≤ k3 + e3) (g0 : |d0| ≤ D) (g1 : |d1| ≤ D) (g2 : |d2| ≤ D) (g3 : |d3| ≤ D) :
    |(c0 * d0 + c1 * d1 + c2 * d2 + c3 * d3) - (k0 * d0 + k1 * d1 + k2 * d2 + k3 * d3)| ≤ (e0 + e1 + e2 + e3) * D := by
  have a0 := abs_le.1 (mul_near h0.1 h0.2 g0)
  have a1 := abs_le.1 (mul_near h1.1 h1.2 g1)
  have a2 := abs_le.1 (mul_near h2.1 h2.2 g2)
  have a3 := abs_le.1 (mul_near h3.1 h3.2 g3)
  rw [abs_le]
  constructor <;> linarith

/-- The constants of the four odd coefficients. -/
theorem oddOut_near (u0 u1 u2 u3 : ℤ) {D : ℝ} (g0 : |(u0 : ℝ)| ≤ D) (g1 : |(u1 : ℝ)| ≤ D) (g2 : |(u2 : ℝ)| ≤ D) (g3 : |(u3 : ℝ)| ≤ D) :
    |((oddOut u0 u1 u2 u3).1 : ℝ) - 1024 - 8192 * (κ 1 * u0 + κ 3 * u1 + κ 5 * u2 + κ 7 * u3)| ≤ 2.48 * D ∧
    |((oddOut u0 u1 u2 u3).2.1 : ℝ) - 1024 - 8192 * (κ 3 * u0 - κ 7 * u1 - κ 1 * u2 - κ 5 * u3)| ≤ 2.48 * D ∧
    |((oddOut u0 u1 u2 u3).2.2.1 : ℝ) - 1024 - 8192 * (κ 5 * u0 - κ 1 * u1 + κ 7 * u2 + κ 3 * u3)| ≤ 2.48 * D ∧
    |((oddOut u0 u1 u2 u3).2.2.2 : ℝ) - 1024 - 8192 * (κ 7 * u0 - κ 5 * u1 + κ 3 * u2 - κ 1 * u3)| ≤ 2.48 * D := by
  obtain ⟨k1a, k1b⟩ := κ1
  obtain ⟨k3a, k3b⟩ := κ3
  obtain ⟨k5a, k5b⟩ := κ5
  obtain ⟨k7a, k7b⟩ := κ7
  have hD : 0 ≤ D := le_trans (abs_nonneg _) g0
  norm_num at k1a k1b k3a k3b k5a k5b k7a k7b
  refine ⟨?_, ?_, ?_, ?_⟩
  · have h := abs_le.1 (sum4_near (c0 := 11363) (c1 := 9633) (c2 := 6437) (c3 := 2260) (k0 := 8192 * κ 1) (k1 := 8192 * κ 3) (k2 := 8192 * κ 5)
      (k3 := 8192 * κ 7) (e0 := 0.38) (e1 := 0.23) (e2 := 0.6) (e3 := 0.18)
      (by norm_num; constructor <;> linarith) (by norm_num; constructor <;> linarith) (by norm_num; constructor <;> linarith)
      (by norm_num; constructor <;> linarith) g0 g1 g2 g3)
    have e : ((oddOut u0 u1 u2 u3).1 : ℝ) = 11363 * u0 + 9633 * u1 + 6437 * u2 + 2260 * u3 + 1024 := by
      unfold oddOut; push_cast; ring
    rw [e, abs_le]
    norm_num at h ⊢
    constructor <;> linarith
  · have h := abs_le.1 (sum4_near (c0 := 9633) (c1 := -2259) (c2 := -11362) (c3 := -6436) (k0 := 8192 * κ 3) (k1 := -(8192 * κ 7))
      (k2 := -(8192 * κ 1)) (k3 := -(8192 * κ 5)) (e0 := 0.23) (e1 := 1.18) (e2 := 0.64) (e3 := 0.42)
      (by norm_num; constructor <;> linarith) (by norm_num; constructor <;> linarith) (by norm_num; constructor <;> linarith)
      (by norm_num; constructor <;> linarith) g0 g1 g2 g3)
    have e : ((oddOut u0 u1 u2 u3).2.1 : ℝ) = 9633 * u0 + -2259 * u1 + -11362 * u2 + -6436 * u3 + 1024 := by
      unfold oddOut; push_cast; ring
    rw [e, abs_le]
    norm_num at h ⊢
    constructor <;> linarith
  · have h := abs_le.1 (sum4_near (c0 := 6437) (c1 := -11362) (c2 := 2261) (c3 := 9633) (k0 := 8192 * κ 5) (k1 := -(8192 * κ 1))
      (k2 := 8192 * κ 7) (k3 := 8192 * κ 3) (e0 := 0.6) (e1 := 0.64) (e2 := 0.84) (e3 := 0.23)
      (by norm_num; constructor <;> linarith) (by norm_num; constructor <;> linarith) (by norm_num; constructor <;> linarith)
      (by norm_num; constructor <;> linarith) g0 g1 g2 g3)
    have e : ((oddOut u0 u1 u2 u3).2.2.1 : ℝ) = 6437 * u0 + -11362 * u1 + 2261 * u2 + 9633 * u3 + 1024 := by
      unfold oddOut; push_cast; ring
    rw [e, abs_le]
    norm_num at h ⊢
    constructor <;> linarith
  · have h := abs_le.1 (sum4_near (c0 := 2260) (c1 := -6436) (c2 := 9633) (c3 := -11363) (k0 := 8192 * κ 7) (k1 := -(8192 * κ 5))
      (k2 := 8192 * κ 3) (k3 := -(8192 * κ 1)) (e0 := 0.18) (e1 := 0.42) (e2 := 0.23) (e3 := 0.38)
      (by norm_num; constructor <;> linarith) (by norm_num; constructor <;> linarith) (by norm_num; constructor <;> linarith)
      (by norm_num; constructor <;> linarith) g0 g1 g2 g3)
    have e : ((oddOut u0 u1 u2 u3).2.2.2 : ℝ) = 2260 * u0 + -6436 * u1 + 9633 * u2 + -11363 * u3 + 1024 := by
      unfold oddOut; push_cast; ring
    rw [e, abs_le]
    norm_num at h ⊢
    constructor <;> linarith

/-- The constants of coefficients two and six. -/
theorem even_near (d0 d1 : ℝ) {D : ℝ} (g0 : |d0| ≤ D) (g1 : |d1| ≤ D) :
    |10703 * d0 + 4433 * d1 - 8192 * (κ 2 * d0 + κ 6 * d1)| ≤ 1.14 * D ∧
    |4433 * d0 - 10704 * d1 - 8192 * (κ 6 * d0 - κ 2 * d1)| ≤ 1.14 * D := by
  obtain ⟨k2a, k2b⟩ := κ2
  obtain ⟨k6a, k6b⟩ := κ6
  have hD : 0 ≤ D := le_trans (abs_nonneg _) g0
  norm_num at k2a k2b k6a k6b
  constructor
  · have h0 := abs_le.1 (mul_near (c := 10703) (k := 8192 * κ 2) (e := 0.37) (by norm_num; linarith) (by norm_num; linarith) g0)
    have h1 := abs_le.1 (mul_near (c := 4433) (k := 8192 * κ 6) (e := 0.49) (by norm_num; linarith) (by norm_num; linarith) g1)
    rw [abs_le]
    norm_num at h0 h1 ⊢
    constructor <;> linarith
  · have h0 := abs_le.1 (mul_near (c := 4433) (k := 8192 * κ 6) (e := 0.49) (by norm_num; linarith) (by norm_num; linarith) g0)
    have h1 := abs_le.1 (mul_near (c := 10704) (k := 8192 * κ 2) (e := 0.65) (by norm_num; linarith) (by norm_num; linarith) g1)
    rw [abs_le]
    norm_num at h0 h1 ⊢
    constructor <;> linarith

theorem cast_abs_le {z : ℤ} {n : ℤ} (h : -n ≤ z ∧ z ≤ n) : |(z : ℝ)| ≤ n := by
  rw [abs_le]
  exact ⟨by exact_mod_cast h.1, by exact_mod_cast h.2⟩

/-- The first pass: four times the transform of the row. -/
theorem row_near (a : ℕ → ℤ) (ha : ∀ x, x < 8 → 0 ≤ a x ∧ a x ≤ 255) (u : ℕ) (hu : u < 8) :
    |((rowOut (a 0) (a 1) (a 2) (a 3) (a 4) (a 5) (a 6) (a 7)).getD u 0 : ℝ) - 4 * E (fun x => (a x : ℝ) - 128) u| ≤ 0.82 := by
  have b0 := ha 0 (by norm_num)
  have b1 := ha 1 (by norm_num)
  have b2 := ha 2 (by norm_num)
  have b3 := ha 3 (by norm_num)
  have b4 := ha 4 (by norm_num)
  have b5 := ha 5 (by norm_num)
  have b6 := ha 6 (by norm_num)
  have b7 := ha 7 (by norm_num)
  obtain ⟨o1, o3, o5, o7⟩ := oddOut_near (a 0 - a 7) (a 1 - a 6) (a 2 - a 5) (a 3 - a 4) (D := ((255 : ℤ) : ℝ))
    (cast_abs_le (by omega)) (cast_abs_le (by omega)) (cast_abs_le (by omega)) (cast_abs_le (by omega))
  obtain ⟨e2, e6⟩ := even_near ((a 0 + a 7 - (a 3 + a 4) : ℤ) : ℝ) ((a 1 + a 6 - (a 2 + a 5) : ℤ) : ℝ) (D := ((510 : ℤ) : ℝ))
    (cast_abs_le (by omega)) (cast_abs_le (by omega))
  unfold rowOut
  dsimp only
  have hodd : ∀ (N : ℤ) (X : ℝ), |(N : ℝ) - 1024 - 8192 * X| ≤ 2.48 * ((255 : ℤ) : ℝ) → |((N / 2 ^ 11 : ℤ) : ℝ) - 4 * X| ≤ 0.82 := by
    intro N X h
    have h1 := abs_le.1 h
    have h2 := abs_le.1 (floor11 N)
    rw [abs_le]
    norm_num at h1 h2 ⊢
    constructor <;> linarith
  have heven : ∀ (N : ℤ) (Y X : ℝ), (N : ℝ) = Y + 1024 → |Y - 8192 * X| ≤ 1.14 * ((510 : ℤ) : ℝ) → |((N / 2 ^ 11 : ℤ) : ℝ) - 4 * X| ≤ 0.82 := by
    intro N Y X hN h
    have h1 := abs_le.1 h
    have h2 := abs_le.1 (floor11 N)
    rw [hN] at h2
    rw [abs_le]
    norm_num at h1 h2 ⊢
    constructor <;> linarith
  push_cast at o1 o3 o5 o7 e2 e6
  rcases u with _ | _ | _ | _ | _ | _ | _ | _ | u
  all_goals simp only [List.getD_cons_succ, List.getD_cons_zero, Nat.zero_add, Nat.reduceAdd]
  · rw [E_0]; push_cast
    rw [abs_le]; constructor <;> (norm_num; linarith)
  · rw [E_1]
    exact hodd _ _ (by push_cast; refine le_trans (le_of_eq ?_) o1; congr 1; ring)
  · rw [E_2]
    exact heven _ (10703 * ((a 0 + a 7 - (a 3 + a 4) : ℤ) : ℝ) + 4433 * ((a 1 + a 6 - (a 2 + a 5) : ℤ) : ℝ)) _ (by push_cast; ring)
      (by push_cast; refine le_trans (le_of_eq ?_) e2; congr 1; ring)
  · rw [E_3]
    exact hodd _ _ (by push_cast; refine le_trans (le_of_eq ?_) o3; congr 1; ring)
  · rw [E_4]; push_cast
    rw [abs_le]; constructor <;> (norm_num; linarith)
  · rw [E_5]
    exact hodd _ _ (by push_cast; refine le_trans (le_of_eq ?_) o5; congr 1; ring)
  · rw [E_6]
    exact heven _ (4433 * ((a 0 + a 7 - (a 3 + a 4) : ℤ) : ℝ) - 10704 * ((a 1 + a 6 - (a 2 + a 5) : ℤ) : ℝ)) _ (by push_cast; ring)
      (by push_cast; refine le_trans (le_of_eq ?_) e6; congr 1; ring)
  · rw [E_7]
    exact hodd _ _ (by push_cast; refine le_trans (le_of_eq ?_) o7; congr 1; ring)
  · omega

/-- The second pass: a fourth of the transform of the column. -/
theorem col_near (m : ℕ → ℤ) (hm : ∀ y, y < 8 → -4096 ≤ m y ∧ m y ≤ 4096) (v : ℕ) (hv : v < 8) :
    |((colOut (m 0) (m 1) (m 2) (m 3) (m 4) (m 5) (m 6) (m 7)).getD v 0 : ℝ) - E (fun y => (m y : ℝ)) v / 4| ≤ 1.6 := by
  have b0 := hm 0 (by norm_num)
  have b1 := hm 1 (by norm_num)
  have b2 := hm 2 (by norm_num)
  have b3 := hm 3 (by norm_num)
  have b4 := hm 4 (by norm_num)
  have b5 := hm 5 (by norm_num)
  have b6 := hm 6 (by norm_num)
  have b7 := hm 7 (by norm_num)
  obtain ⟨o1, o3, o5, o7⟩ := oddOut_near (m 0 - m 7) (m 1 - m 6) (m 2 - m 5) (m 3 - m 4) (D := ((8192 : ℤ) : ℝ))
    (cast_abs_le (by omega)) (cast_abs_le (by omega)) (cast_abs_le (by omega)) (cast_abs_le (by omega))
  obtain ⟨e2, e6⟩ := even_near ((m 0 + m 7 - (m 3 + m 4) : ℤ) : ℝ) ((m 1 + m 6 - (m 2 + m 5) : ℤ) : ℝ) (D := ((16384 : ℤ) : ℝ))
    (cast_abs_le (by omega)) (cast_abs_le (by omega))
  unfold colOut
  dsimp only
  have hodd : ∀ (N : ℤ) (X : ℝ), |(N : ℝ) - 1024 - 8192 * X| ≤ 2.48 * ((8192 : ℤ) : ℝ) → |((N / 2 ^ 15 : ℤ) : ℝ) - X / 4| ≤ 1.6 := by
    intro N X h
    have h1 := abs_le.1 h
    have h2 := floor15 N
    rw [abs_le]
    norm_num at h1 h2 ⊢
    constructor <;> linarith
  have heven : ∀ (N : ℤ) (Y X : ℝ), (N : ℝ) = Y + 16384 → |Y - 8192 * X| ≤ 1.14 * ((16384 : ℤ) : ℝ) → |((N / 2 ^ 15 : ℤ) : ℝ) - X / 4| ≤ 1.6 := by
    intro N Y X hN h
    have h1 := abs_le.1 h
    have h2 := floor15 N
    rw [hN] at h2
    rw [abs_le]
    norm_num at h1 h2 ⊢
    constructor <;> linarith
  have hquart : ∀ (N : ℤ) (X : ℝ), (N : ℝ) = X + 2 → |((N / 2 ^ 2 : ℤ) : ℝ) - X / 4| ≤ 1.6 := by
    intro N X h
    have h2 := floor2 N
    rw [h] at h2
    rw [abs_le]
    norm_num at h2 ⊢
    constructor <;> linarith
  push_cast at o1 o3 o5 o7 e2 e6
  rcases v with _ | _ | _ | _ | _ | _ | _ | _ | v
  all_goals simp only [List.getD_cons_succ, List.getD_cons_zero, Nat.zero_add, Nat.reduceAdd]
  · rw [E_0]
    exact hquart _ _ (by push_cast; ring)
  · rw [E_1]
    exact hodd _ _ (by push_cast; exact o1)
  · rw [E_2]
    exact heven _ (10703 * ((m 0 + m 7 - (m 3 + m 4) : ℤ) : ℝ) + 4433 * ((m 1 + m 6 - (m 2 + m 5) : ℤ) : ℝ)) _ (by push_cast; ring) (by push_cast; exact e2)
  · rw [E_3]
    exact hodd _ _ (by push_cast; exact o3)
  · rw [E_4]
    exact hquart _ _ (by push_cast; ring)
  · rw [E_5]
    exact hodd _ _ (by push_cast; exact o5)
  · rw [E_6]
    exact heven _ (4433 * ((m 0 + m 7 - (m 3 + m 4) : ℤ) : ℝ) - 10704 * ((m 1 + m 6 - (m 2 + m 5) : ℤ) : ℝ)) _ (by push_cast; ring) (by push_cast; exact e6)
  · rw [E_7]
    exact hodd _ _ (by push_cast; exact o7)
  · omega

/-- A small perturbation has a small transform. -/
theorem E_small (δ : ℕ → ℝ) {b : ℝ} (h : ∀ x, x < 8 → |δ x| ≤ b) (v : ℕ) (hv : v < 8) : |E δ v| ≤ 8 * b := by
  have b0 := abs_le.1 (h 0 (by norm_num))
  have b1 := abs_le.1 (h 1 (by norm_num))
  have b2 := abs_le.1 (h 2 (by norm_num))
  have b3 := abs_le.1 (h 3 (by norm_num))
  have b4 := abs_le.1 (h 4 (by norm_num))
  have b5 := abs_le.1 (h 5 (by norm_num))
  have b6 := abs_le.1 (h 6 (by norm_num))
  have b7 := abs_le.1 (h 7 (by norm_num))
  have hb : 0 ≤ b := le_trans (abs_nonneg _) (h 0 (by norm_num))
  obtain ⟨k1a, k1b⟩ := κ1
  obtain ⟨k2a, k2b⟩ := κ2
  obtain ⟨k3a, k3b⟩ := κ3
  obtain ⟨k5a, k5b⟩ := κ5
  obtain ⟨k6a, k6b⟩ := κ6
  obtain ⟨k7a, k7b⟩ := κ7
  have hmul : ∀ {k K d e : ℝ}, 0 ≤ k → k ≤ K → -e ≤ d ∧ d ≤ e → 0 ≤ e → -(K * e) ≤ k * d ∧ k * d ≤ K * e := by
    intro k K d e h0 h1 h2 h3
    have : |k * d| ≤ K * e := by
      rw [abs_mul, abs_of_nonneg h0]
      exact mul_le_mul h1 (abs_le.2 h2) (abs_nonneg _) (le_trans h0 h1)
    exact abs_le.1 this
  have n1 := κ_nonneg (m := 1) (by norm_num)
  have n2 := κ_nonneg (m := 2) (by norm_num)
  have n3 := κ_nonneg (m := 3) (by norm_num)
  have n5 := κ_nonneg (m := 5) (by norm_num)
  have n6 := κ_nonneg (m := 6) (by norm_num)
  have n7 := κ_nonneg (m := 7) (by norm_num)
  have d07 : -(2 * b) ≤ δ 0 - δ 7 ∧ δ 0 - δ 7 ≤ 2 * b := by constructor <;> linarith
  have d16 : -(2 * b) ≤ δ 1 - δ 6 ∧ δ 1 - δ 6 ≤ 2 * b := by constructor <;> linarith
  have d25 : -(2 * b) ≤ δ 2 - δ 5 ∧ δ 2 - δ 5 ≤ 2 * b := by constructor <;> linarith
  have d34 : -(2 * b) ≤ δ 3 - δ 4 ∧ δ 3 - δ 4 ≤ 2 * b := by constructor <;> linarith
  have s0 : -(4 * b) ≤ δ 0 + δ 7 - (δ 3 + δ 4) ∧ δ 0 + δ 7 - (δ 3 + δ 4) ≤ 4 * b := by constructor <;> linarith
  have s1 : -(4 * b) ≤ δ 1 + δ 6 - (δ 2 + δ 5) ∧ δ 1 + δ 6 - (δ 2 + δ 5) ≤ 4 * b := by constructor <;> linarith
  have h2b : 0 ≤ 2 * b := by linarith
  have h4b : 0 ≤ 4 * b := by linarith
  rw [abs_le]
  rcases v with _ | _ | _ | _ | _ | _ | _ | _ | v
  all_goals try simp only [Nat.zero_add, Nat.reduceAdd]
  · rw [E_0]; constructor <;> linarith
  · have q0 := hmul n1 k1b d07 h2b
    have q1 := hmul n3 k3b d16 h2b
    have q2 := hmul n5 k5b d25 h2b
    have q3 := hmul n7 k7b d34 h2b
    rw [E_1]; norm_num at q0 q1 q2 q3; constructor <;> linarith
  · have q0 := hmul n2 k2b s0 h4b
    have q1 := hmul n6 k6b s1 h4b
    rw [E_2]; norm_num at q0 q1; constructor <;> linarith
  · have q0 := hmul n3 k3b d07 h2b
    have q1 := hmul n7 k7b d16 h2b
    have q2 := hmul n1 k1b d25 h2b
    have q3 := hmul n5 k5b d34 h2b
    rw [E_3]; norm_num at q0 q1 q2 q3; constructor <;> linarith
  · rw [E_4]; constructor <;> linarith
  · have q0 := hmul n5 k5b d07 h2b
    have q1 := hmul n1 k1b d16 h2b
    have q2 := hmul n7 k7b d25 h2b
    have q3 := hmul n3 k3b d34 h2b
    rw [E_5]; norm_num at q0 q1 q2 q3; constructor <;> linarith
  · have q0 := hmul n6 k6b s0 h4b
    have q1 := hmul n2 k2b s1 h4b
    rw [E_6]; norm_num at q0 q1; constructor <;> linarith
  · have q0 := hmul n7 k7b d07 h2b
    have q1 := hmul n5 k5b d16 h2b
    have q2 := hmul n3 k3b d25 h2b
    have q3 := hmul n1 k1b d34 h2b
    rw [E_7]; norm_num at q0 q1 q2 q3; constructor <;> linarith
  · omega

theorem E_add (a b : ℕ → ℝ) (u : ℕ) : E (fun x => a x + b x) u = E a u + E b u := by
  unfold E
  rw [← mul_add, ← sum_add_distrib]
  congr 1
  apply sum_congr rfl
  intro x _
  ring

theorem E_smul (c : ℝ) (a : ℕ → ℝ) (u : ℕ) : E (fun x => c * a x) u = c * E a u := by
  unfold E
  rw [mul_left_comm, mul_sum (a := c)]
  congr 1
  apply sum_congr rfl
  intro x _
  ring

/-- The two-dimensional transform, in terms of the one-dimensional ones. -/
theorem dct_eq (s : ℕ → ℝ) (v u : ℕ) : 8 * dct s v u = E (fun y => E (fun x => s (8 * y + x) - 128) u) v := by
  have h2 : √2 * √2 = 2 := Real.mul_self_sqrt (by norm_num)
  have h : ∀ y, E (fun x => s (8 * y + x) - 128) u = √2 * dctScale u * ∑ x ∈ range 8, (s (8 * y + x) - 128) * γ ((2 * x + 1) * u) := fun y => rfl
  have h3 : E (fun y => E (fun x => s (8 * y + x) - 128) u) v =
      √2 * dctScale v * ∑ y ∈ range 8, (√2 * dctScale u * ∑ x ∈ range 8, (s (8 * y + x) - 128) * γ ((2 * x + 1) * u)) * γ ((2 * y + 1) * v) := rfl
  rw [h3]
  have h4 : ∑ y ∈ range 8, (√2 * dctScale u * ∑ x ∈ range 8, (s (8 * y + x) - 128) * γ ((2 * x + 1) * u)) * γ ((2 * y + 1) * v) =
      √2 * dctScale u * ∑ y ∈ range 8, ∑ x ∈ range 8,
        (s (8 * y + x) - 128) * Real.cos ((2 * x + 1) * u * Real.pi / 16) * Real.cos ((2 * y + 1) * v * Real.pi / 16) := by
    rw [mul_sum]
    apply sum_congr rfl
    intro y _
    rw [mul_assoc, sum_mul]
    congr 1
    apply sum_congr rfl
    intro x _
    unfold γ
    push_cast
    rfl
  rw [h4]
  unfold dct
  generalize (∑ y ∈ range 8, ∑ x ∈ range 8,
        (s (8 * y + x) - 128) * Real.cos ((2 * x + 1) * u * Real.pi / 16) * Real.cos ((2 * y + 1) * v * Real.pi / 16)) = S
  linear_combination (-(dctScale u * dctScale v * S)) * h2

/-- **The integer transform differs from eight times the exact one by at most 3.24.** -/
theorem out_near (f : ℕ → ℤ) (hf : ∀ i, i < 64 → 0 ≤ f i ∧ f i ≤ 255) (v u : ℕ) (hv : v < 8) (hu : u < 8) :
    |(out f v u : ℝ) - 8 * dct (fun i => (f i : ℝ)) v u| ≤ 3.24 := by
  have hmid : ∀ y, y < 8 → |(mid f y u : ℝ) - 4 * E (fun x => (f (8 * y + x) : ℝ) - 128) u| ≤ 0.82 := by
    intro y hy
    have h := row_near (fun x => f (y * 8 + x)) (fun x hx => hf _ (by omega)) u hu
    have e : (fun x => (f (8 * y + x) : ℝ) - 128) = fun x => (f (y * 8 + x) : ℝ) - 128 := by
      funext x; rw [Nat.mul_comm]
    rw [e]
    exact h
  have hb : ∀ y, y < 8 → -4096 ≤ mid f y u ∧ mid f y u ≤ 4096 := by
    intro y hy
    have := mid_bound hf y u hy
    by_cases h0 : u = 0
    · have := this.1 h0; omega
    · have := this.2 h0; omega
  have h1 := abs_le.1 (col_near (fun y => mid f y u) hb v hv)
  have h2 := abs_le.1 (E_small (fun y => (mid f y u : ℝ) - 4 * E (fun x => (f (8 * y + x) : ℝ) - 128) u) hmid v hv)
  have e : (fun y => ((mid f y u : ℤ) : ℝ)) =
      fun y => 4 * E (fun x => (f (8 * y + x) : ℝ) - 128) u + ((mid f y u : ℝ) - 4 * E (fun x => (f (8 * y + x) : ℝ) - 128) u) := by
    funext y; ring
  have e2 : E (fun y => ((mid f y u : ℤ) : ℝ)) v = _ := congrArg (fun g => E g v) e
  rw [E_add, E_smul] at e2
  rw [dct_eq, abs_le]
  have ho : out f v u = (colOut (mid f 0 u) (mid f 1 u) (mid f 2 u) (mid f 3 u) (mid f 4 u) (mid f 5 u) (mid f 6 u) (mid f 7 u)).getD v 0 := rfl
  rw [← ho, e2] at h1
  norm_num at h1 h2 ⊢
  constructor <;> linarith

/-- **A coefficient of the file, multiplied by the entry of the table, differs from the exact transform by at most half the
entry and 4/3.** -/
theorem coeff_near (f : ℕ → ℤ) (hf : ∀ i, i < 64 → 0 ≤ f i ∧ f i ≤ 255) (v u : ℕ) (hv : v < 8) (hu : u < 8) (q : ℕ) (h1 : 1 ≤ q) (h2 : q ≤ 255) :
    |(quantize (out f v u) q : ℝ) * q - dct (fun i => (f i : ℝ)) v u| ≤ (q : ℝ) / 2 + 4 / 3 := by
  have ho := abs_le.1 (out_near f hf v u hv hu)
  have hb := out_bound hf v u
  obtain ⟨hq, -⟩ := quantize_eq (out f v u) q (by omega) h1 h2
  rw [hq]
  obtain ⟨d, hd⟩ : ∃ d, out f v u = d := ⟨_, rfl⟩
  rw [hd] at ho ⊢
  have hd8 : -7 ≤ d.tdiv 8 * 8 - d ∧ d.tdiv 8 * 8 - d ≤ 7 := by
    rcases tdiv8 d with h | h <;> omega
  have ha : (-7 : ℝ) ≤ (d.tdiv 8 : ℤ) * 8 - d := by exact_mod_cast hd8.1
  have hb : ((d.tdiv 8 : ℤ) : ℝ) * 8 - d ≤ 7 := by exact_mod_cast hd8.2
  obtain ⟨n, hn⟩ : ∃ n, d.tdiv 8 = n := ⟨_, rfl⟩
  rw [hn] at ha hb ⊢
  have hr : |((roundHalfAway ((n : ℚ) / q) : ℤ) : ℚ) - (n : ℚ) / q| ≤ 1 / 2 := by
    unfold roundHalfAway
    split
    swap
    · have a := Int.floor_le (-((n : ℚ) / q) + 1 / 2)
      have b := Int.lt_floor_add_one (-((n : ℚ) / q) + 1 / 2)
      rw [abs_le]; push_cast; constructor <;> linarith
    · have a := Int.floor_le ((n : ℚ) / q + 1 / 2)
      have b := Int.lt_floor_add_one ((n : ℚ) / q + 1 / 2)
      rw [abs_le]; constructor <;> linarith
  have hr' : |((roundHalfAway ((n : ℚ) / q) : ℤ) : ℝ) - (n : ℝ) / q| ≤ 1 / 2 := by
    have := (Rat.cast_le (K := ℝ)).2 hr
    push_cast at this
    exact this
  have hqp : (0 : ℝ) < q := by exact_mod_cast h1
  have hr2 : |((roundHalfAway ((n : ℚ) / q) : ℤ) : ℝ) * q - n| ≤ q / 2 := by
    have e : ((roundHalfAway ((n : ℚ) / q) : ℤ) : ℝ) * q - n = (((roundHalfAway ((n : ℚ) / q) : ℤ) : ℝ) - (n : ℝ) / q) * q := by
      field_simp
    rw [e, abs_mul, abs_of_pos hqp]
    nlinarith
  have h3 := abs_le.1 hr2
  rw [abs_le]
  norm_num at ho
  constructor <;> linarith

end Jpeg
end Verif
