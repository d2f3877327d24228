import Verif.Spec.Avif
import Mathlib.Algebra.Order.Group.MinMax
import Mathlib.Tactic.NormNum

/-!
# AVIF: accuracy of the fixed-point conversion of a pixel
-/

namespace Verif
namespace Avif

open Jpeg (i32)

/-- The weights that the code's matrices stand for. -/
def Matrix.weights : Matrix → ℚ × ℚ
  | .bt601 => (299 / 1000, 114 / 1000)
  | .bt709 => (2126 / 10000, 722 / 10000)
  | .bt2020 => (2627 / 10000, 593 / 10000)
  | .smpte240 => (87 / 1000, 212 / 1000)
  | .bt470_6 => (2220 / 10000, 713 / 10000)
  | .identity => (0, 0)

/-- The transform for a matrix, a range and a depth. -/
def transformOf (m : Matrix) (r : Range) (d : Nat) : R Transform := do
  let k ← m.krKb
  inverseTransform (2 ^ d - 1) (r.yuvRange d).rangeY (r.yuvRange d).rangeUv k.1 k.2

/-- The coefficients are small, and near those of the exact conversion. -/
def Transform.good (t : Transform) (r : Range) (d : Nat) (kr kb : ℚ) : Bool :=
  let c := r.yuvRange d
  let M : ℚ := 2 ^ d - 1
  let ey := |(t.yCoef : ℚ) / 2048 - M / c.rangeY|
  let er := |(t.crCoef : ℚ) / 2048 - 2 * (1 - kr) * (M / c.rangeUv)|
  let eb := |(t.cbCoef : ℚ) / 2048 - 2 * (1 - kb) * (M / c.rangeUv)|
  let e1 := |(t.gCoef1 : ℚ) / 2048 - 2 * (1 - kr) * kr / (1 - kr - kb) * (M / c.rangeUv)|
  let e2 := |(t.gCoef2 : ℚ) / 2048 - 2 * (1 - kb) * kb / (1 - kr - kb) * (M / c.rangeUv)|
  decide (0 ≤ t.yCoef ∧ t.yCoef < 5000 ∧ 0 ≤ t.crCoef ∧ t.crCoef < 5000 ∧ 0 ≤ t.cbCoef ∧ t.cbCoef < 5000 ∧ 0 ≤ t.gCoef1 ∧ t.gCoef1 < 5000 ∧
    0 ≤ t.gCoef2 ∧ t.gCoef2 < 5000) &&
  decide (M * ey + 2 ^ (d - 1) * er ≤ 2 ^ (d - 8) / 5) && decide (M * ey + 2 ^ (d - 1) * eb ≤ 2 ^ (d - 8) / 5) &&
  decide (M * ey + 2 ^ (d - 1) * e1 + 2 ^ (d - 1) * e2 ≤ 2 ^ (d - 8) / 5)

def goodTransform (m : Matrix) (r : Range) (d : Nat) : Bool :=
  match transformOf m r d with
  | .ok t => t.good r d m.weights.1 m.weights.2
  | .error _ => false

theorem goodTransform_all (m : Matrix) (r : Range) (d : Nat) (hm : m ≠ .identity) (hd : d = 8 ∨ d = 10 ∨ d = 12) : goodTransform m r d = true := by
  rcases hd with rfl | rfl | rfl <;> cases r <;> cases m <;> first | exact absurd rfl hm | decide +kernel

theorem transform_ok (m : Matrix) (r : Range) (d : Nat) (hm : m ≠ .identity) (hd : d = 8 ∨ d = 10 ∨ d = 12) :
    ∃ t, transformOf m r d = .ok t ∧ t.good r d m.weights.1 m.weights.2 = true := by
  have h := goodTransform_all m r d hm hd
  unfold goodTransform at h
  split at h
  · next t ht => exact ⟨t, ht, h⟩
  · simp at h

/-- Rounding to the nearest sample and limiting. -/
def quantized (d : Nat) (N : Int) : Nat := (max 0 (min ((N + 1024) / 2048) (2 ^ d - 1))).toNat

theorem i32_ok {v : Int} (h1 : -2 ^ 31 ≤ v) (h2 : v < 2 ^ 31) : i32 v = .ok v := by unfold i32; rw [if_pos ⟨h1, h2⟩]

theorem pow_cases {d : Nat} (hd : d = 8 ∨ d = 10 ∨ d = 12) : (2 : ℤ) ^ d ≤ 4096 ∧ 256 ≤ (2 : ℤ) ^ d := by
  rcases hd with rfl | rfl | rfl <;> norm_num

theorem quantized_lt {d : Nat} (N : Int) : quantized d N < 2 ^ d := by
  unfold quantized
  have : (0 : ℤ) < 2 ^ d := by positivity
  have h : ((2 ^ d : ℕ) : ℤ) = 2 ^ d := by push_cast; rfl
  omega

theorem asSample_eq {d : Nat} (hd : d = 8 ∨ d = 10 ∨ d = 12) {v : Int} (h0 : 0 ≤ v) (h1 : v < 2 ^ d) : asSample d v = v.toNat := by
  unfold asSample
  rcases hd with rfl | rfl | rfl
  · rw [if_neg (by omega), Int.emod_eq_of_lt h0 h1]
  · rw [if_pos (by omega), Int.emod_eq_of_lt h0 (by omega)]
  · rw [if_pos (by omega), Int.emod_eq_of_lt h0 (by omega)]

theorem solid_eq {d : Nat} (hd : d = 8 ∨ d = 10 ∨ d = 12) : solid d = 2 ^ d - 1 := by rcases hd with rfl | rfl | rfl <;> rfl

theorem qrshr_eq {d : Nat} (hd : d = 8 ∨ d = 10 ∨ d = 12) {N : Int} (h1 : -2 ^ 30 ≤ N) (h2 : N ≤ 2 ^ 30) :
    (qrshr d N >>= fun r => (.ok (asSample d r) : R Nat)) = .ok (quantized d N) := by
  unfold qrshr
  rw [i32_ok (by omega) (by omega), ok_bind, ok_bind]
  have hp := pow_cases hd
  rw [asSample_eq hd (by omega) (by omega)]
  rfl

theorem qrshr_ok {d : Nat} {N : Int} (h1 : -2 ^ 30 ≤ N) (h2 : N ≤ 2 ^ 30) : qrshr d N = .ok (max 0 (min ((N + 1024) / 2048) (2 ^ d - 1))) := by
  unfold qrshr
  rw [i32_ok (by omega) (by omega), ok_bind]

theorem mul_bound {a b : ℤ} (ha : |a| ≤ 4096) (hb0 : 0 ≤ b) (hb : b < 5000) : |a * b| ≤ 4096 * 5000 := by
  rw [abs_mul, abs_of_nonneg hb0]
  exact mul_le_mul ha (by omega) hb0 (by norm_num)

theorem yuvRange_bound (r : Range) {d : Nat} (hd : d = 8 ∨ d = 10 ∨ d = 12) : (r.yuvRange d).biasY < 2 ^ d ∧ (r.yuvRange d).biasUv = 2 ^ (d - 1) := by
  rcases hd with rfl | rfl | rfl <;> cases r <;> decide

theorem good_small {t : Transform} {r : Range} {d : Nat} {kr kb : ℚ} (h : t.good r d kr kb = true) :
    (0 ≤ t.yCoef ∧ t.yCoef < 5000) ∧ (0 ≤ t.crCoef ∧ t.crCoef < 5000) ∧ (0 ≤ t.cbCoef ∧ t.cbCoef < 5000) ∧ (0 ≤ t.gCoef1 ∧ t.gCoef1 < 5000) ∧
      (0 ≤ t.gCoef2 ∧ t.gCoef2 < 5000) := by
  simp only [Transform.good, Bool.and_eq_true, decide_eq_true_eq] at h
  omega

/-- A pixel is three rounded sums. -/
theorem pixel_eq {d : Nat} (hd : d = 8 ∨ d = 10 ∨ d = 12) {t : Transform} {r : Range} {kr kb : ℚ} (hg : t.good r d kr kb = true) {y u v : Nat}
    (hy : y < 2 ^ d) (hu : u < 2 ^ d) (hv : v < 2 ^ d) : pixel d t (r.yuvRange d) y u v =
      .ok [quantized d (((y : Int) - (r.yuvRange d).biasY) * t.yCoef + t.crCoef * ((v : Int) - 2 ^ (d - 1))),
        quantized d (((y : Int) - (r.yuvRange d).biasY) * t.yCoef - t.gCoef1 * ((v : Int) - 2 ^ (d - 1)) - t.gCoef2 * ((u : Int) - 2 ^ (d - 1))),
        quantized d (((y : Int) - (r.yuvRange d).biasY) * t.yCoef + t.cbCoef * ((u : Int) - 2 ^ (d - 1))), 2 ^ d - 1] := by
  obtain ⟨⟨a1, a2⟩, ⟨b1, b2⟩, ⟨c1, c2⟩, ⟨d1, d2⟩, ⟨e1, e2⟩⟩ := good_small hg
  obtain ⟨hb, hc⟩ := yuvRange_bound r hd
  have hp := pow_cases hd
  have hp2 : ((2 ^ d : ℕ) : ℤ) = 2 ^ d := by push_cast; rfl
  have hp3 : ((2 ^ (d - 1) : ℕ) : ℤ) = 2 ^ (d - 1) := by push_cast; rfl
  have hp4 : (0 : ℤ) ≤ 2 ^ (d - 1) ∧ (2 : ℤ) ^ (d - 1) ≤ 4096 := by rcases hd with rfl | rfl | rfl <;> norm_num
  have hY : |(y : ℤ) - (r.yuvRange d).biasY| ≤ 4096 := abs_le.mpr (by omega)
  have hU : |(u : ℤ) - 2 ^ (d - 1)| ≤ 4096 := abs_le.mpr (by omega)
  have hV : |(v : ℤ) - 2 ^ (d - 1)| ≤ 4096 := abs_le.mpr (by omega)
  have y1 := abs_le.mp (mul_bound hY a1 a2)
  have r1 := abs_le.mp (mul_bound hV b1 b2)
  have r2 := abs_le.mp (mul_bound hU c1 c2)
  have r3 := abs_le.mp (mul_bound hV d1 d2)
  have r4 := abs_le.mp (mul_bound hU e1 e2)
  have hY' := abs_le.mp hY
  have hU' := abs_le.mp hU
  have hV' := abs_le.mp hV
  rw [mul_comm _ t.crCoef] at r1
  rw [mul_comm _ t.cbCoef] at r2
  rw [mul_comm _ t.gCoef1] at r3
  rw [mul_comm _ t.gCoef2] at r4
  unfold pixel
  rw [hc, hp3]
  generalize hgy : ((y : ℤ) - (r.yuvRange d).biasY) * t.yCoef = Y at *
  generalize hgr : t.crCoef * ((v : ℤ) - 2 ^ (d - 1)) = A at *
  generalize hgb : t.cbCoef * ((u : ℤ) - 2 ^ (d - 1)) = B at *
  generalize hg1 : t.gCoef1 * ((v : ℤ) - 2 ^ (d - 1)) = C at *
  generalize hg2 : t.gCoef2 * ((u : ℤ) - 2 ^ (d - 1)) = D at *
  rw [i32_ok (by omega) (by omega), ok_bind, hgy, i32_ok (by omega) (by omega), ok_bind, i32_ok (by omega) (by omega), ok_bind,
    i32_ok (by omega) (by omega), ok_bind, hgr, i32_ok (by omega) (by omega), ok_bind, i32_ok (by omega) (by omega), ok_bind,
    qrshr_ok (by omega) (by omega), ok_bind, hgb, i32_ok (by omega) (by omega), ok_bind, i32_ok (by omega) (by omega), ok_bind,
    qrshr_ok (by omega) (by omega), ok_bind, hg1, i32_ok (by omega) (by omega), ok_bind, i32_ok (by omega) (by omega), ok_bind,
    hg2, i32_ok (by omega) (by omega), ok_bind, i32_ok (by omega) (by omega), ok_bind, qrshr_ok (by omega) (by omega), ok_bind]
  rw [asSample_eq hd (by omega) (by omega), asSample_eq hd (by omega) (by omega), asSample_eq hd (by omega) (by omega), solid_eq hd]
  rfl

/-- Rounding and limiting stay within half a unit of the limited exact value. -/
theorem quantized_near {d : Nat} {N : Int} {q e : ℚ} (h : |(N : ℚ) / 2048 - (2 ^ d - 1) * q| ≤ e) :
    |(quantized d N : ℚ) - (2 ^ d - 1) * limited q| ≤ 1 / 2 + e := by
  have hM : (0 : ℚ) ≤ 2 ^ d - 1 := by
    have : (1 : ℚ) ≤ 2 ^ d := one_le_pow₀ (by norm_num)
    linarith
  have hz : (0 : ℤ) ≤ max 0 (min ((N + 1024) / 2048) (2 ^ d - 1)) := le_max_left _ _
  have e1 : ((quantized d N : ℕ) : ℚ) = max 0 (min ((((N + 1024) / 2048 : ℤ)) : ℚ) (2 ^ d - 1)) := by
    unfold quantized
    have : (((max 0 (min ((N + 1024) / 2048) (2 ^ d - 1)) : ℤ).toNat : ℕ) : ℤ) = max 0 (min ((N + 1024) / 2048) (2 ^ d - 1)) := Int.toNat_of_nonneg hz
    have h2 : (((max 0 (min ((N + 1024) / 2048) (2 ^ d - 1)) : ℤ).toNat : ℕ) : ℚ) = ((max 0 (min ((N + 1024) / 2048) (2 ^ d - 1)) : ℤ) : ℚ) := by
      exact_mod_cast congrArg (fun z : ℤ => (z : ℚ)) this
    rw [h2]
    push_cast
    rfl
  have e2 : (2 ^ d - 1) * limited q = max 0 (min ((2 ^ d - 1) * q) (2 ^ d - 1)) := by
    unfold limited
    rw [mul_max_of_nonneg _ _ hM, mul_min_of_nonneg _ _ hM, mul_zero, mul_one]
  rw [e1, e2]
  refine (abs_max_sub_max_le_max _ _ _ _).trans ?_
  rw [sub_self, abs_zero]
  have he : 0 ≤ e := (abs_nonneg _).trans h
  apply max_le (by linarith)
  refine (abs_min_sub_min_le_max _ _ _ _).trans ?_
  rw [sub_self, abs_zero]
  apply max_le _ (by linarith)
  set z := (N + 1024) / 2048 with hz'
  have hb : z * 2048 ≤ N + 1024 ∧ N + 1024 < z * 2048 + 2048 := by omega
  have hb1 : (z : ℚ) * 2048 ≤ N + 1024 := by exact_mod_cast hb.1
  have hb2 : (N : ℚ) + 1024 < z * 2048 + 2048 := by exact_mod_cast hb.2
  have h3 : |(z : ℚ) - (N : ℚ) / 2048| ≤ 1 / 2 := abs_le.mpr ⟨by linarith, by linarith⟩
  have : (z : ℚ) - (2 ^ d - 1) * q = ((z : ℚ) - (N : ℚ) / 2048) + ((N : ℚ) / 2048 - (2 ^ d - 1) * q) := by ring
  rw [this]
  exact (abs_add_le _ _).trans (add_le_add h3 h)

/-- The largest error of a decoded sample, in units of the sample. -/
def tolerance (d : Nat) : ℚ := 1 / 2 + 2 ^ (d - 8) / 5

theorem luma_eq (r : Range) {d : Nat} (hd : d = 8 ∨ d = 10 ∨ d = 12) (s : Nat) :
    (2 ^ d - 1) * luma r d s = ((s : ℚ) - (r.yuvRange d).biasY) * ((2 ^ d - 1) / (r.yuvRange d).rangeY) := by
  rcases hd with rfl | rfl | rfl <;> cases r <;> simp [luma, Range.yuvRange] <;> ring

theorem difference_eq (r : Range) {d : Nat} (hd : d = 8 ∨ d = 10 ∨ d = 12) (s : Nat) :
    (2 ^ d - 1) * difference r d s = ((s : ℚ) - 2 ^ (d - 1)) * ((2 ^ d - 1) / (r.yuvRange d).rangeUv) := by
  rcases hd with rfl | rfl | rfl <;> cases r <;> simp [difference, Range.yuvRange] <;> ring

theorem prod_near {a c k A : ℚ} (ha : |a| ≤ A) : |a * c - a * k| ≤ A * |c - k| := by
  rw [← mul_sub, abs_mul]
  exact mul_le_mul_of_nonneg_right ha (abs_nonneg _)

theorem sample_bounds (r : Range) {d : Nat} (hd : d = 8 ∨ d = 10 ∨ d = 12) {y u : Nat} (hy : y < 2 ^ d) (hu : u < 2 ^ d) :
    |(y : ℚ) - (r.yuvRange d).biasY| ≤ 2 ^ d - 1 ∧ |(u : ℚ) - 2 ^ (d - 1)| ≤ 2 ^ (d - 1) := by
  obtain ⟨hb, -⟩ := yuvRange_bound r hd
  have h1 : (y : ℚ) ≤ 2 ^ d - 1 := by
    have : (y : ℚ) + 1 ≤ 2 ^ d := by exact_mod_cast hy
    linarith
  have h2 : ((r.yuvRange d).biasY : ℚ) ≤ 2 ^ d - 1 := by
    have : ((r.yuvRange d).biasY : ℚ) + 1 ≤ 2 ^ d := by exact_mod_cast hb
    linarith
  have h3 : (u : ℚ) ≤ 2 * 2 ^ (d - 1) := by
    have : (u : ℚ) ≤ 2 ^ d := by exact_mod_cast hu.le
    have e : (2 : ℚ) ^ d = 2 * 2 ^ (d - 1) := by rcases hd with rfl | rfl | rfl <;> norm_num
    linarith
  have h4 : (0 : ℚ) ≤ y := Nat.cast_nonneg _
  have h5 : (0 : ℚ) ≤ u := Nat.cast_nonneg _
  have h6 : (0 : ℚ) ≤ (r.yuvRange d).biasY := Nat.cast_nonneg _
  exact ⟨abs_le.mpr ⟨by linarith, by linarith⟩, abs_le.mpr ⟨by linarith, by linarith⟩⟩

/-- The list of a decoded pixel shows the colours `q` (0 is black, 1 is white) within the tolerance, and is opaque. -/
def Shown (d : Nat) (q : Fin 3 → ℚ) (px : List Nat) : Prop :=
  ∃ r g b, px = [r, g, b, 2 ^ d - 1] ∧ r < 2 ^ d ∧ g < 2 ^ d ∧ b < 2 ^ d ∧ |(r : ℚ) - (2 ^ d - 1) * limited (q 0)| ≤ tolerance d ∧
    |(g : ℚ) - (2 ^ d - 1) * limited (q 1)| ≤ tolerance d ∧ |(b : ℚ) - (2 ^ d - 1) * limited (q 2)| ≤ tolerance d

theorem pixel_shown {d : Nat} (hd : d = 8 ∨ d = 10 ∨ d = 12) {t : Transform} {r : Range} {kr kb : ℚ} (hk : 1 - kr - kb ≠ 0)
    (hg : t.good r d kr kb = true) {y u v : Nat} (hy : y < 2 ^ d) (hu : u < 2 ^ d) (hv : v < 2 ^ d) :
    ∃ px, pixel d t (r.yuvRange d) y u v = .ok px ∧ Shown d (colours kr kb (luma r d y) (difference r d u) (difference r d v)) px := by
  refine ⟨_, pixel_eq hd hg hy hu hv, _, _, _, rfl, quantized_lt _, quantized_lt _, quantized_lt _, ?_, ?_, ?_⟩
  all_goals
    apply quantized_near
    obtain ⟨hY, hU⟩ := sample_bounds r hd hy hu
    obtain ⟨-, hV⟩ := sample_bounds r hd hy hv
    have ly := luma_eq r hd y
    have lu := difference_eq r hd u
    have lv := difference_eq r hd v
    simp only [Transform.good, Bool.and_eq_true, decide_eq_true_eq] at hg
    obtain ⟨⟨⟨-, g1⟩, g2⟩, g3⟩ := hg
    generalize hM : ((2 : ℚ) ^ d - 1) = M at *
    generalize hEy : M / ((r.yuvRange d).rangeY : ℚ) = Ey at *
    generalize hEu : M / ((r.yuvRange d).rangeUv : ℚ) = Eu at *
    generalize hB : (2 : ℚ) ^ (d - 1) = B at *
    have n1 := prod_near (c := (t.yCoef : ℚ) / 2048) (k := Ey) hY
  · have n2 := prod_near (c := (t.crCoef : ℚ) / 2048) (k := 2 * (1 - kr) * Eu) hV
    refine le_trans ?_ g1
    refine le_trans (le_of_eq ?_) ((abs_add_le _ _).trans (add_le_add n1 n2))
    congr 1
    simp only [colours]
    rw [mul_add, ly, show M * (2 * (1 - kr) * difference r d v) = 2 * (1 - kr) * (M * difference r d v) by ring, lv]
    push_cast
    rw [hB]
    ring
  · have n2 := prod_near (c := (t.gCoef1 : ℚ) / 2048) (k := 2 * (1 - kr) * kr / (1 - kr - kb) * Eu) hV
    have n3 := prod_near (c := (t.gCoef2 : ℚ) / 2048) (k := 2 * (1 - kb) * kb / (1 - kr - kb) * Eu) hU
    rw [← abs_neg] at n2 n3
    refine le_trans ?_ g3
    refine le_trans (le_of_eq ?_) ((abs_add_three _ _ _).trans (add_le_add (add_le_add n1 n2) n3))
    congr 1
    have e : M * colours kr kb (luma r d y) (difference r d u) (difference r d v) 1 = M * luma r d y - 2 * (1 - kr) * kr / (1 - kr - kb) * (M * difference r d v) -
        2 * (1 - kb) * kb / (1 - kr - kb) * (M * difference r d u) := by
      simp only [colours]
      field_simp
      ring
    rw [e, ly, lu, lv]
    push_cast
    rw [hB]
    ring
  · have n2 := prod_near (c := (t.cbCoef : ℚ) / 2048) (k := 2 * (1 - kb) * Eu) hU
    refine le_trans ?_ g2
    refine le_trans (le_of_eq ?_) ((abs_add_le _ _).trans (add_le_add n1 n2))
    congr 1
    simp only [colours]
    rw [mul_add, ly, show M * (2 * (1 - kb) * difference r d u) = 2 * (1 - kb) * (M * difference r d u) by ring, lu]
    push_cast
    rw [hB]
    ring

/-- The factor of a limited-range sample without chroma. -/
theorem scaled_ok {d : Nat} (hd : d = 8 ∨ d = 10 ∨ d = 12) {r : Range} {coef : Int} (h0 : 0 ≤ coef) (h1 : coef < 5000)
    (he : ((2 : ℚ) ^ d - 1) * |(coef : ℚ) / 2048 - (2 ^ d - 1) / (r.yuvRange d).rangeY| ≤ 2 ^ (d - 8) / 5) {s : Nat} (hs : s < 2 ^ d) :
    ∃ v, scaled d coef (r.yuvRange d).biasY s = .ok v ∧ v < 2 ^ d ∧ |(v : ℚ) - (2 ^ d - 1) * limited (luma r d s)| ≤ tolerance d := by
  obtain ⟨hb, -⟩ := yuvRange_bound r hd
  have hp := pow_cases hd
  have hp2 : ((2 ^ d : ℕ) : ℤ) = 2 ^ d := by push_cast; rfl
  have hY : |(s : ℤ) - (r.yuvRange d).biasY| ≤ 4096 := abs_le.mpr (by omega)
  have y1 := abs_le.mp (mul_bound hY h0 h1)
  have hY' := abs_le.mp hY
  refine ⟨quantized d (((s : ℤ) - (r.yuvRange d).biasY) * coef), ?_, quantized_lt _, ?_⟩
  · unfold scaled
    rw [i32_ok (by omega) (by omega), ok_bind, i32_ok (by omega) (by omega), ok_bind, qrshr_eq hd (by omega) (by omega)]
  · apply quantized_near
    refine le_trans ?_ he
    obtain ⟨hY, -⟩ := sample_bounds r hd hs hs
    refine le_trans (le_of_eq ?_) (prod_near (c := (coef : ℚ) / 2048) (k := (2 ^ d - 1) / (r.yuvRange d).rangeY) hY)
    rw [luma_eq r hd]
    congr 1
    push_cast
    ring

theorem good_luma {t : Transform} {r : Range} {d : Nat} {kr kb : ℚ} (h : t.good r d kr kb = true) :
    ((2 : ℚ) ^ d - 1) * |(t.yCoef : ℚ) / 2048 - (2 ^ d - 1) / (r.yuvRange d).rangeY| ≤ 2 ^ (d - 8) / 5 := by
  simp only [Transform.good, Bool.and_eq_true, decide_eq_true_eq] at h
  refine le_trans ?_ h.1.1.2
  have : (0 : ℚ) ≤ 2 ^ (d - 1) * |(t.crCoef : ℚ) / 2048 - 2 * (1 - kr) * ((2 ^ d - 1) / (r.yuvRange d).rangeUv)| := by positivity
  linarith

theorem gbrCoef_ok {d : Nat} (hd : d = 8 ∨ d = 10 ∨ d = 12) : 0 ≤ gbrCoef d (Range.tv.yuvRange d) ∧ gbrCoef d (Range.tv.yuvRange d) < 5000 ∧
    ((2 : ℚ) ^ d - 1) * |(gbrCoef d (Range.tv.yuvRange d) : ℚ) / 2048 - (2 ^ d - 1) / (Range.tv.yuvRange d).rangeY| ≤ 2 ^ (d - 8) / 5 := by
  rcases hd with rfl | rfl | rfl <;> decide +kernel

end Avif
end Verif
