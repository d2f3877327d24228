import Verif.Spec.JpegSamples
import Mathlib.LinearAlgebra.Matrix.NonsingularInverse
import Mathlib.Tactic.Linarith
import Mathlib.Tactic.Ring
import Mathlib.Tactic.FieldSimp
import Mathlib.Algebra.Order.BigOperators.Ring.Finset

/-!
# The cosine transform is an isometry
-/

namespace Verif
namespace JpegSpec

open Finset

/-- The matrix of the transform of eight numbers. -/
noncomputable def basis (u x : ℕ) : ℝ := 1 / 2 * dctScale u * Real.cos ((2 * x + 1) * u * Real.pi / 16)

theorem dct_basis (s : ℕ → ℝ) (v u : ℕ) : dct s v u = ∑ y ∈ range 8, ∑ x ∈ range 8, (s (8 * y + x) - 128) * basis u x * basis v y := by
  unfold dct basis
  rw [mul_sum]
  refine sum_congr rfl fun y _ => ?_
  rw [mul_sum]
  refine sum_congr rfl fun x _ => ?_
  ring

theorem idct_basis (c : ℕ → ℕ → ℝ) (y x : ℕ) : idct c y x = 128 + ∑ v ∈ range 8, ∑ u ∈ range 8, c v u * basis u x * basis v y := by
  unfold idct basis
  rw [mul_sum]
  congr 1
  refine sum_congr rfl fun y _ => ?_
  rw [mul_sum]
  refine sum_congr rfl fun x _ => ?_
  ring

/-- Sums of cosines. -/
theorem cos_sum {m : ℕ} (h0 : 0 < m) (h : m < 16) : ∑ x ∈ range 8, Real.cos ((2 * x + 1) * (m * Real.pi / 16)) = 0 := by
  set a := (m : ℝ) * Real.pi / 16 with ha
  have hpi := Real.pi_pos
  have hm0 : (0 : ℝ) < m := by exact_mod_cast h0
  have hm1 : (m : ℝ) < 16 := by exact_mod_cast h
  have hsin : 0 < Real.sin a := by
    refine Real.sin_pos_of_pos_of_lt_pi (by positivity) ?_
    rw [ha, div_lt_iff₀ (by norm_num)]
    nlinarith
  have tel : ∀ n : ℕ, 2 * Real.sin a * ∑ x ∈ range n, Real.cos ((2 * x + 1) * a) = Real.sin (2 * n * a) := by
    intro n
    induction n with
    | zero => simp
    | succ n ih =>
      rw [sum_range_succ, mul_add, ih]
      have e1 : 2 * ((n + 1 : ℕ) : ℝ) * a = (2 * n + 1) * a + a := by push_cast; ring
      have e2 : 2 * (n : ℝ) * a = (2 * n + 1) * a - a := by ring
      rw [e1, e2, Real.sin_add, Real.sin_sub]
      ring
  have h8 := tel 8
  have e3 : 2 * ((8 : ℕ) : ℝ) * a = m * Real.pi := by rw [ha]; push_cast; ring
  rw [e3, Real.sin_nat_mul_pi] at h8
  rcases mul_eq_zero.1 h8 with h | h
  · linarith
  · exact h

theorem cos_prod {u v : ℕ} (hu : u < 8) (hv : v < 8) (huv : u ≠ v) :
    ∑ x ∈ range 8, Real.cos ((2 * x + 1) * u * Real.pi / 16) * Real.cos ((2 * x + 1) * v * Real.pi / 16) = 0 := by
  wlog h : v < u generalizing u v
  · rw [← this hv hu huv.symm (by omega)]
    exact sum_congr rfl fun x _ => mul_comm _ _
  have e : ∀ x : ℕ, Real.cos ((2 * x + 1) * u * Real.pi / 16) * Real.cos ((2 * x + 1) * v * Real.pi / 16) =
      1 / 2 * (Real.cos ((2 * x + 1) * ((u - v : ℕ) * Real.pi / 16)) + Real.cos ((2 * x + 1) * ((u + v : ℕ) * Real.pi / 16))) := by
    intro x
    have e1 : (2 * (x : ℝ) + 1) * ((u - v : ℕ) * Real.pi / 16) = (2 * x + 1) * u * Real.pi / 16 - (2 * x + 1) * v * Real.pi / 16 := by
      rw [Nat.cast_sub h.le]; ring
    have e2 : (2 * (x : ℝ) + 1) * ((u + v : ℕ) * Real.pi / 16) = (2 * x + 1) * u * Real.pi / 16 + (2 * x + 1) * v * Real.pi / 16 := by
      push_cast; ring
    rw [e1, e2, Real.cos_sub, Real.cos_add]
    ring
  rw [sum_congr rfl fun x _ => e x, ← mul_sum, sum_add_distrib, cos_sum (by omega) (by omega), cos_sum (by omega) (by omega)]
  ring

theorem cos_square {u : ℕ} (h0 : 0 < u) (hu : u < 8) : ∑ x ∈ range 8, Real.cos ((2 * x + 1) * u * Real.pi / 16) ^ 2 = 4 := by
  have e : ∀ x : ℕ, Real.cos ((2 * x + 1) * u * Real.pi / 16) ^ 2 = 1 / 2 + 1 / 2 * Real.cos ((2 * x + 1) * ((2 * u : ℕ) * Real.pi / 16)) := by
    intro x
    have e1 : (2 * (x : ℝ) + 1) * ((2 * u : ℕ) * Real.pi / 16) = 2 * ((2 * x + 1) * u * Real.pi / 16) := by push_cast; ring
    rw [e1, Real.cos_two_mul]
    ring
  rw [sum_congr rfl fun x _ => e x, sum_add_distrib, ← mul_sum, cos_sum (by omega) (by omega)]
  norm_num

/-- The rows of the matrix are orthonormal. -/
theorem basis_rows {u v : ℕ} (hu : u < 8) (hv : v < 8) : ∑ x ∈ range 8, basis u x * basis v x = if u = v then 1 else 0 := by
  have e : ∀ x : ℕ, basis u x * basis v x =
      1 / 4 * dctScale u * dctScale v * (Real.cos ((2 * x + 1) * u * Real.pi / 16) * Real.cos ((2 * x + 1) * v * Real.pi / 16)) := by
    intro x; unfold basis; ring
  rw [sum_congr rfl fun x _ => e x, ← mul_sum]
  split
  · rename_i h
    subst h
    rcases Nat.eq_zero_or_pos u with rfl | h0
    · simp only [dctScale, if_true, Nat.cast_zero, mul_zero, zero_mul, zero_div, Real.cos_zero, mul_one, sum_const, card_range]
      have := Real.mul_self_sqrt (show (0 : ℝ) ≤ 2 by norm_num)
      have h2 : √2 ≠ 0 := by
        intro h; rw [h] at this; norm_num at this
      field_simp
      norm_num
    · have : ∀ x : ℕ, Real.cos ((2 * x + 1) * u * Real.pi / 16) * Real.cos ((2 * x + 1) * u * Real.pi / 16) =
          Real.cos ((2 * x + 1) * u * Real.pi / 16) ^ 2 := fun x => (sq _).symm
      rw [sum_congr rfl fun x _ => this x, cos_square h0 hu]
      unfold dctScale
      rw [if_neg (by omega)]
      norm_num
  · rename_i h
    rw [cos_prod hu hv h, mul_zero]

/-- So are its columns. -/
theorem basis_cols {x y : ℕ} (hx : x < 8) (hy : y < 8) : ∑ u ∈ range 8, basis u x * basis u y = if x = y then 1 else 0 := by
  let M : Matrix (Fin 8) (Fin 8) ℝ := Matrix.of fun u x => basis u x
  have h1 : M * M.transpose = 1 := by
    ext u v
    rw [Matrix.mul_apply, Matrix.one_apply]
    have := basis_rows u.2 v.2
    rw [← Fin.sum_univ_eq_sum_range (fun x => basis u x * basis v x)] at this
    refine Eq.trans this ?_
    simp only [Fin.ext_iff]
  have h2 : M.transpose * M = 1 := mul_eq_one_comm.1 h1
  have h3 := congrFun (congrFun h2 ⟨x, hx⟩) ⟨y, hy⟩
  rw [Matrix.mul_apply, Matrix.one_apply] at h3
  rw [← Fin.sum_univ_eq_sum_range (fun u => basis u x * basis u y)]
  refine Eq.trans h3 ?_
  simp only [Fin.ext_iff]

/-- The transform keeps sums of squares. -/
theorem basis_isometry (f : ℕ → ℝ) : ∑ x ∈ range 8, (∑ u ∈ range 8, f u * basis u x) ^ 2 = ∑ u ∈ range 8, f u ^ 2 := by
  have e : ∀ x, (∑ u ∈ range 8, f u * basis u x) ^ 2 = ∑ u ∈ range 8, ∑ v ∈ range 8, f u * f v * (basis u x * basis v x) := by
    intro x
    rw [sq, sum_mul_sum]
    refine sum_congr rfl fun u _ => sum_congr rfl fun v _ => ?_
    ring
  rw [sum_congr rfl fun x _ => e x, sum_comm]
  refine sum_congr rfl fun u hu => ?_
  rw [sum_comm]
  rw [mem_range] at hu
  have : ∀ v ∈ range 8, ∑ x ∈ range 8, f u * f v * (basis u x * basis v x) = if u = v then f u * f v else 0 := by
    intro v hv
    rw [mem_range] at hv
    rw [← mul_sum, basis_rows hu hv]
    split <;> simp
  rw [sum_congr rfl this, sum_ite_eq, if_pos (mem_range.2 hu), sq]

/-- The transform in one direction, and back. -/
theorem basis_inverse (f : ℕ → ℝ) {x : ℕ} (hx : x < 8) : ∑ u ∈ range 8, (∑ x' ∈ range 8, f x' * basis u x') * basis u x = f x := by
  have e : ∀ u, (∑ x' ∈ range 8, f x' * basis u x') * basis u x = ∑ x' ∈ range 8, f x' * (basis u x' * basis u x) := by
    intro u
    rw [sum_mul]
    exact sum_congr rfl fun _ _ => by ring
  rw [sum_congr rfl fun u _ => e u, sum_comm]
  have : ∀ x' ∈ range 8, ∑ u ∈ range 8, f x' * (basis u x' * basis u x) = if x' = x then f x' else 0 := by
    intro x' hx'
    rw [← mul_sum, basis_cols (mem_range.1 hx') hx]
    split <;> simp
  rw [sum_congr rfl this, sum_ite_eq', if_pos (mem_range.2 hx)]

/-- The inverse transform of the transform is the samples. -/
theorem idct_dct (s : ℕ → ℝ) {y x : ℕ} (hy : y < 8) (hx : x < 8) : idct (dct s) y x = s (8 * y + x) := by
  rw [idct_basis]
  have e : ∀ v ∈ range 8, ∑ u ∈ range 8, dct s v u * basis u x * basis v y =
      (∑ y' ∈ range 8, (s (8 * y' + x) - 128) * basis v y') * basis v y := by
    intro v _
    rw [← sum_mul]
    congr 1
    have e1 : ∀ u, dct s v u = ∑ x' ∈ range 8, (∑ y' ∈ range 8, (s (8 * y' + x') - 128) * basis v y') * basis u x' := by
      intro u
      rw [dct_basis, sum_comm]
      refine sum_congr rfl fun x' _ => ?_
      rw [sum_mul]
      exact sum_congr rfl fun _ _ => by ring
    rw [sum_congr rfl fun u _ => by rw [e1 u]]
    exact basis_inverse (fun x' => ∑ y' ∈ range 8, (s (8 * y' + x') - 128) * basis v y') hx
  rw [sum_congr rfl e, basis_inverse (fun y' => s (8 * y' + x) - 128) hy]
  ring

/-- The error of the samples, as a sum of squares, is that of the coefficients. -/
theorem idct_error (c : ℕ → ℕ → ℝ) (s : ℕ → ℝ) :
    ∑ y ∈ range 8, ∑ x ∈ range 8, (idct c y x - s (8 * y + x)) ^ 2 = ∑ v ∈ range 8, ∑ u ∈ range 8, (c v u - dct s v u) ^ 2 := by
  have e : ∀ y ∈ range 8, ∑ x ∈ range 8, (idct c y x - s (8 * y + x)) ^ 2 = ∑ u ∈ range 8, (∑ v ∈ range 8, (c v u - dct s v u) * basis v y) ^ 2 := by
    intro y hy
    rw [← basis_isometry fun u => ∑ v ∈ range 8, (c v u - dct s v u) * basis v y]
    refine sum_congr rfl fun x hx => ?_
    congr 1
    rw [← idct_dct s (mem_range.1 hy) (mem_range.1 hx), idct_basis, idct_basis, add_sub_add_left_eq_sub, ← sum_sub_distrib]
    have e2 : ∀ u, (∑ v ∈ range 8, (c v u - dct s v u) * basis v y) * basis u x = ∑ v ∈ range 8, (c v u - dct s v u) * basis v y * basis u x :=
      fun u => sum_mul ..
    rw [sum_congr rfl fun u _ => e2 u, sum_comm]
    refine sum_congr rfl fun v _ => ?_
    rw [← sum_sub_distrib]
    exact sum_congr rfl fun _ _ => by ring
  rw [sum_congr rfl e, sum_comm]
  rw [sum_congr rfl fun u _ => basis_isometry (fun v => c v u - dct s v u), sum_comm]

theorem sum_blocks (f : ℕ → ℝ) (n : ℕ) : ∑ k ∈ range (8 * n), f k = ∑ v ∈ range n, ∑ u ∈ range 8, f (8 * v + u) := by
  induction n with
  | zero => rfl
  | succ n ih => rw [sum_range_succ, ← ih, Nat.mul_succ, sum_range_add]

/-- The error of a single sample. -/
theorem idct_near {c : List Int} {q : List Nat} {s : ℕ → ℝ} (h : BlockNear c q s) {y x : ℕ} (hy : y < 8) (hx : x < 8) :
    |idct (fun v u => (c.getD (8 * v + u) 0 : ℝ) * (q.getD (8 * v + u) 0 : ℝ)) y x - s (8 * y + x)| ≤ tableError q := by
  unfold tableError
  refine Real.abs_le_sqrt ?_
  have h1 := idct_error (fun v u => (c.getD (8 * v + u) 0 : ℝ) * (q.getD (8 * v + u) 0 : ℝ)) s
  have h2 : (idct (fun v u => (c.getD (8 * v + u) 0 : ℝ) * (q.getD (8 * v + u) 0 : ℝ)) y x - s (8 * y + x)) ^ 2 ≤
      ∑ y ∈ range 8, ∑ x ∈ range 8, (idct (fun v u => (c.getD (8 * v + u) 0 : ℝ) * (q.getD (8 * v + u) 0 : ℝ)) y x - s (8 * y + x)) ^ 2 := by
    refine le_trans ?_ (single_le_sum (f := fun y => ∑ x ∈ range 8,
      (idct (fun v u => (c.getD (8 * v + u) 0 : ℝ) * (q.getD (8 * v + u) 0 : ℝ)) y x - s (8 * y + x)) ^ 2)
      (fun _ _ => sum_nonneg fun _ _ => sq_nonneg _) (mem_range.2 hy))
    exact single_le_sum (f := fun x => (idct (fun v u => (c.getD (8 * v + u) 0 : ℝ) * (q.getD (8 * v + u) 0 : ℝ)) y x - s (8 * y + x)) ^ 2)
      (fun _ _ => sq_nonneg _) (mem_range.2 hx)
  refine h2.trans (h1.le.trans ?_)
  have h3 : ∑ k ∈ range 64, ((q.getD k 0 : ℝ) / 2 + 4 / 3) ^ 2 = ∑ v ∈ range 8, ∑ u ∈ range 8, ((q.getD (8 * v + u) 0 : ℝ) / 2 + 4 / 3) ^ 2 := by
    exact sum_blocks _ 8
  rw [h3]
  refine sum_le_sum fun v hv => sum_le_sum fun u hu => ?_
  exact sq_le_sq' (by linarith [(abs_le.1 (h.near v u (mem_range.1 hv) (mem_range.1 hu))).1])
    (abs_le.1 (h.near v u (mem_range.1 hv) (mem_range.1 hu))).2

end JpegSpec
end Verif
