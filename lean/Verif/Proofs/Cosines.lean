import Verif.Spec.Dct
import Mathlib.Tactic.Linarith
import Mathlib.Tactic.Ring
import Mathlib.Tactic.NormNum

/-! # The cosines of multiples of π/16 -/

namespace Verif
namespace Jpeg

open Real

/-- `cos (m * π / 16)` -/
noncomputable def γ (m : ℕ) : ℝ := Real.cos (m * π / 16)

theorem γ_add16 (m : ℕ) : γ (m + 16) = -γ m := by
  unfold γ
  push_cast
  rw [show ((m : ℝ) + 16) * π / 16 = m * π / 16 + π by ring, Real.cos_add_pi]

theorem γ_sub16 {m : ℕ} (h : m ≤ 16) : γ (16 - m) = -γ m := by
  unfold γ
  push_cast [Nat.cast_sub h]
  rw [show ((16 : ℝ) - m) * π / 16 = π - m * π / 16 by ring, Real.cos_pi_sub]

theorem γ_0 : γ 0 = 1 := by simp [γ]
theorem γ_8 : γ 8 = 0 := by
  unfold γ
  rw [show ((8 : ℕ) : ℝ) * π / 16 = π / 2 by push_cast; ring, Real.cos_pi_div_two]
theorem γ_4 : γ 4 = √2 / 2 := by
  unfold γ
  rw [show ((4 : ℕ) : ℝ) * π / 16 = π / 4 by push_cast; ring, Real.cos_pi_div_four]

theorem γ_sq (m : ℕ) : γ m ^ 2 = (1 + γ (2 * m)) / 2 := by
  unfold γ
  rw [Real.cos_sq]
  push_cast
  rw [show 2 * ((m : ℝ) * π / 16) = 2 * m * π / 16 by ring]
  ring

theorem γ_nonneg {m : ℕ} (h : m ≤ 8) : 0 ≤ γ m := by
  unfold γ
  have hm : (m : ℝ) ≤ 8 := by exact_mod_cast h
  apply Real.cos_nonneg_of_neg_pi_div_two_le_of_le
  · have := Real.pi_pos
    have : (0 : ℝ) ≤ m * π / 16 := by positivity
    linarith
  · have := Real.pi_pos
    nlinarith

/-- `√2 * cos (m * π / 16)` -/
noncomputable def κ (m : ℕ) : ℝ := √2 * γ m

theorem κ_sq (m : ℕ) : κ m * κ m = 1 + γ (2 * m) := by
  unfold κ
  have h2 : √2 * √2 = 2 := Real.mul_self_sqrt (by norm_num)
  have := γ_sq m
  calc √2 * γ m * (√2 * γ m) = √2 * √2 * γ m ^ 2 := by ring
    _ = _ := by rw [h2, this]; ring

theorem κ_nonneg {m : ℕ} (h : m ≤ 8) : 0 ≤ κ m := mul_nonneg (Real.sqrt_nonneg _) (γ_nonneg h)

theorem lo {x a : ℝ} (h0 : 0 ≤ x) (h : a * a ≤ x * x) (_ha : 0 ≤ a) : a ≤ x := by
  by_contra hc
  push Not at hc
  nlinarith

theorem hi {x a : ℝ} (h0 : 0 ≤ x) (h : x * x ≤ a * a) (ha : 0 ≤ a) : x ≤ a := lo ha h h0

theorem γ4_bounds : 0.70710678 ≤ γ 4 ∧ γ 4 ≤ 0.70710679 := by
  have h : γ 4 * γ 4 = 1 / 2 := by
    have := γ_sq 4
    rw [show 2 * 4 = 8 from rfl, γ_8] at this
    rw [← pow_two, this]; norm_num
  have h0 := γ_nonneg (m := 4) (by norm_num)
  exact ⟨lo h0 (by rw [h]; norm_num) (by norm_num), hi h0 (by rw [h]; norm_num) (by norm_num)⟩

theorem γ2_bounds : 0.9238795 ≤ γ 2 ∧ γ 2 ≤ 0.9238796 := by
  obtain ⟨a, b⟩ := γ4_bounds
  have h : γ 2 * γ 2 = (1 + γ 4) / 2 := by rw [← pow_two]; exact γ_sq 2
  have h0 := γ_nonneg (m := 2) (by norm_num)
  exact ⟨lo h0 (by rw [h]; norm_num at a b ⊢; linarith) (by norm_num), hi h0 (by rw [h]; norm_num at a b ⊢; linarith) (by norm_num)⟩

theorem γ6_bounds : 0.3826834 ≤ γ 6 ∧ γ 6 ≤ 0.3826835 := by
  obtain ⟨a, b⟩ := γ4_bounds
  have h : γ 6 * γ 6 = (1 - γ 4) / 2 := by
    rw [← pow_two, γ_sq 6, show 2 * 6 = 16 - 4 from rfl, γ_sub16 (by norm_num)]; ring
  have h0 := γ_nonneg (m := 6) (by norm_num)
  exact ⟨lo h0 (by rw [h]; norm_num at a b ⊢; linarith) (by norm_num), hi h0 (by rw [h]; norm_num at a b ⊢; linarith) (by norm_num)⟩

theorem κ4 : κ 4 = 1 := by
  unfold κ
  rw [γ_4]
  have h2 : √2 * √2 = 2 := Real.mul_self_sqrt (by norm_num)
  linarith

theorem κ_bounds {m : ℕ} (hm : m ≤ 8) {g a b x y : ℝ} (hg : γ (2 * m) = g) (h1 : a ≤ g) (h2 : g ≤ b) (hx : 0 ≤ x) (hy : 0 ≤ y)
    (hxa : x * x ≤ 1 + a) (hyb : 1 + b ≤ y * y) : x ≤ κ m ∧ κ m ≤ y := by
  have h := κ_sq m
  have h0 := κ_nonneg hm
  rw [hg] at h
  exact ⟨lo h0 (by linarith) hx, hi h0 (by linarith) hy⟩

theorem γ_10 : γ 10 = -γ 6 := γ_sub16 (m := 6) (by norm_num)
theorem γ_12 : γ 12 = -γ 4 := γ_sub16 (m := 4) (by norm_num)
theorem γ_14 : γ 14 = -γ 2 := γ_sub16 (m := 2) (by norm_num)

theorem κ1 : 11362.62 / 8192 ≤ κ 1 ∧ κ 1 ≤ 11362.64 / 8192 :=
  κ_bounds (by norm_num) rfl γ2_bounds.1 γ2_bounds.2 (by norm_num) (by norm_num) (by norm_num) (by norm_num)
theorem κ2 : 10703.35 / 8192 ≤ κ 2 ∧ κ 2 ≤ 10703.37 / 8192 :=
  κ_bounds (by norm_num) rfl γ4_bounds.1 γ4_bounds.2 (by norm_num) (by norm_num) (by norm_num) (by norm_num)
theorem κ3 : 9632.77 / 8192 ≤ κ 3 ∧ κ 3 ≤ 9632.78 / 8192 :=
  κ_bounds (by norm_num) rfl γ6_bounds.1 γ6_bounds.2 (by norm_num) (by norm_num) (by norm_num) (by norm_num)
theorem κ5 : 6436.41 / 8192 ≤ κ 5 ∧ κ 5 ≤ 6436.42 / 8192 :=
  κ_bounds (by norm_num) γ_10 (neg_le_neg γ6_bounds.2) (neg_le_neg γ6_bounds.1) (by norm_num) (by norm_num) (by norm_num) (by norm_num)
theorem κ6 : 4433.47 / 8192 ≤ κ 6 ∧ κ 6 ≤ 4433.49 / 8192 :=
  κ_bounds (by norm_num) γ_12 (neg_le_neg γ4_bounds.2) (neg_le_neg γ4_bounds.1) (by norm_num) (by norm_num) (by norm_num) (by norm_num)
theorem κ7 : 2260.16 / 8192 ≤ κ 7 ∧ κ 7 ≤ 2260.18 / 8192 :=
  κ_bounds (by norm_num) γ_14 (neg_le_neg γ2_bounds.2) (neg_le_neg γ2_bounds.1) (by norm_num) (by norm_num) (by norm_num) (by norm_num)

end Jpeg
end Verif
