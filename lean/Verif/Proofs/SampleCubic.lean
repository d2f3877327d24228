import Verif.Proofs.SampleTriangle
import Verif.Spec.SampleCubic

/-!
# The Catmull-Rom kernel
-/

namespace Verif

/-- The part of the kernel up to one pixel from the centre. -/
def cubicIn (a : ℚ) : ℚ := 3 / 2 * a ^ 3 - 5 / 2 * a ^ 2 + 1

/-- The part of the kernel from one to two pixels from the centre. -/
def cubicOut (a : ℚ) : ℚ := -1 / 2 * a ^ 3 + 5 / 2 * a ^ 2 - 4 * a + 2

theorem cubic_split (t : ℚ) : cubic t = cubicIn (min |t| 1) + cubicOut (max 1 (min |t| 2)) := by
  have ht := abs_nonneg t
  unfold cubic
  split_ifs with h1 h2
  · rw [min_eq_left h1, max_eq_left (le_trans (min_le_left _ _) h1)]
    unfold cubicIn cubicOut; ring
  · rw [min_eq_right (not_le.1 h1).le, min_eq_left h2, max_eq_right (not_le.1 h1).le]
    unfold cubicIn cubicOut; ring
  · rw [min_eq_right (not_le.1 h1).le, min_eq_right (not_le.1 h2).le]
    norm_num [cubicIn, cubicOut]

theorem cubicIn_lip {a b : ℚ} (ha : 0 ≤ a) (ha1 : a ≤ 1) (hb : 0 ≤ b) (hb1 : b ≤ 1) :
    |cubicIn a - cubicIn b| ≤ 3 / 2 * |a - b| := by
  have e : cubicIn a - cubicIn b = (3 / 2 * (a ^ 2 + a * b + b ^ 2) - 5 / 2 * (a + b)) * (a - b) := by
    unfold cubicIn; ring
  rw [e, abs_mul]
  refine mul_le_mul_of_nonneg_right ?_ (abs_nonneg _)
  rw [abs_le]
  constructor
  · nlinarith [sq_nonneg (a + b - 10 / 9), sq_nonneg (a - b)]
  · nlinarith [mul_nonneg ha (sub_nonneg.2 ha1), mul_nonneg hb (sub_nonneg.2 hb1), mul_nonneg ha (sub_nonneg.2 hb1)]

theorem cubicOut_lip {a b : ℚ} (ha : 1 ≤ a) (ha1 : a ≤ 2) (hb : 1 ≤ b) (hb1 : b ≤ 2) :
    |cubicOut a - cubicOut b| ≤ 3 / 2 * |a - b| := by
  have e : cubicOut a - cubicOut b = (-1 / 2 * (a ^ 2 + a * b + b ^ 2) + 5 / 2 * (a + b) - 4) * (a - b) := by
    unfold cubicOut; ring
  rw [e, abs_mul]
  refine mul_le_mul_of_nonneg_right ?_ (abs_nonneg _)
  rw [abs_le]
  constructor
  · nlinarith [mul_nonneg (sub_nonneg.2 ha) (sub_nonneg.2 ha1), mul_nonneg (sub_nonneg.2 hb) (sub_nonneg.2 hb1),
      mul_nonneg (sub_nonneg.2 ha) (sub_nonneg.2 hb1)]
  · nlinarith [sq_nonneg (a + b - 10 / 3), sq_nonneg (a - b)]

theorem cubic_lip (t u : ℚ) : |cubic t - cubic u| ≤ 3 / 2 * |t - u| := by
  rw [cubic_split, cubic_split]
  have ht := abs_nonneg t
  have hu := abs_nonneg u
  have h0 : |(|t| - |u|)| ≤ |t - u| := abs_abs_sub_abs_le t u
  have h1 := cubicIn_lip (a := min |t| 1) (b := min |u| 1) (le_min ht (by norm_num)) (min_le_right _ _)
    (le_min hu (by norm_num)) (min_le_right _ _)
  have h2 := cubicOut_lip (a := max 1 (min |t| 2)) (b := max 1 (min |u| 2)) (le_max_left _ _)
    (max_le (by norm_num) (min_le_right _ _)) (le_max_left _ _) (max_le (by norm_num) (min_le_right _ _))
  have h3 : |min |t| 1 - min |u| 1| + |max 1 (min |t| 2) - max 1 (min |u| 2)| ≤ |(|t| - |u|)| := by
    generalize |t| = a at *
    generalize |u| = b at *
    rcases le_total a 1 with h | h <;> rcases le_total b 1 with h' | h' <;>
    rcases le_total a 2 with k | k <;> rcases le_total b 2 with k' | k' <;>
    simp only [min_eq_left, min_eq_right, max_eq_left, max_eq_right, h, h', k, k', show (1 : ℚ) ≤ 2 by norm_num] <;>
    (rcases le_total a b with q | q <;> simp only [abs_of_nonneg, abs_of_nonpos, sub_nonneg, sub_nonpos, q, h, h', k, k', sub_self, abs_zero,
      add_zero, zero_add, show |(1 : ℚ) - 2| = 1 by norm_num, show |(2 : ℚ) - 1| = 1 by norm_num] <;> linarith)
  have e : cubicIn (min |t| 1) + cubicOut (max 1 (min |t| 2)) - (cubicIn (min |u| 1) + cubicOut (max 1 (min |u| 2))) =
    (cubicIn (min |t| 1) - cubicIn (min |u| 1)) + (cubicOut (max 1 (min |t| 2)) - cubicOut (max 1 (min |u| 2))) := by ring
  rw [e]
  refine (abs_add_le _ _).trans ?_
  linarith

theorem cubic_even (t : ℚ) : cubic (-t) = cubic t := by unfold cubic; rw [abs_neg]

theorem cubic_zero {t : ℚ} (h : 2 ≤ |t|) : cubic t = 0 := by
  unfold cubic
  rw [if_neg (by linarith)]
  split_ifs with h2
  · have : |t| = 2 := le_antisymm h2 h
    rw [this]; norm_num
  · rfl

theorem cubic_pos {t : ℚ} (h : |t| ≤ 1) : 0 ≤ cubic t := by
  have ht := abs_nonneg t
  unfold cubic
  rw [if_pos h]
  generalize |t| = a at *
  nlinarith [mul_nonneg ht (sub_nonneg.2 h), mul_nonneg (mul_nonneg ht (sub_nonneg.2 h)) ht]

theorem cubic_mid {t : ℚ} (h : |t| ≤ 1 / 2) : 9 / 16 ≤ cubic t := by
  have ht := abs_nonneg t
  unfold cubic
  rw [if_pos (by linarith)]
  generalize |t| = a at *
  nlinarith [mul_nonneg ht (sub_nonneg.2 h), mul_nonneg (mul_nonneg ht (sub_nonneg.2 h)) ht]

theorem cubic_lobe (t : ℚ) : -(2 / 27) ≤ cubic t := by
  have ht := abs_nonneg t
  rcases le_total |t| 1 with h | h
  · linarith [cubic_pos h]
  rcases le_total 2 |t| with h2 | h2
  · rw [cubic_zero h2]; norm_num
  rcases h.eq_or_lt with h' | h'
  · linarith [cubic_pos (t := t) h'.symm.le]
  unfold cubic
  rw [if_neg (by linarith), if_pos h2]
  generalize |t| = a at *
  -- (a - 1)(2 - a)² ≤ 4/27
  nlinarith [mul_nonneg (sq_nonneg (a - 4 / 3)) (by linarith : (0 : ℚ) ≤ 7 / 3 - a)]

theorem cubic_le (t : ℚ) : |cubic t| ≤ 1 := by
  have ht := abs_nonneg t
  have h0 := cubic_lobe t
  rw [abs_le]
  refine ⟨by linarith, ?_⟩
  unfold cubic
  split_ifs with h h2
  · generalize |t| = a at *
    nlinarith [mul_nonneg (mul_nonneg ht (sub_nonneg.2 h)) ht, mul_nonneg ht ht]
  · have h1 := (not_le.1 h).le
    generalize |t| = a at *
    nlinarith [mul_nonneg (sub_nonneg.2 h1) (sq_nonneg (2 - a))]
  · norm_num

/-- The two taps in the negative lobes when enlarging. -/
theorem cubic_pair {d : ℚ} (h0 : 0 ≤ d) (h1 : d ≤ 1 / 2) : -(1 / 8) ≤ cubic (1 + d) + cubic (2 - d) := by
  unfold cubic
  rw [abs_of_nonneg (by linarith), abs_of_nonneg (by linarith)]
  rcases h0.eq_or_lt with rfl | h
  · norm_num
  · rw [if_neg (by linarith), if_pos (by linarith), if_neg (by linarith), if_pos (by linarith)]
    nlinarith [sq_nonneg (d - 1 / 2)]

theorem rstep {q q' e B : ℚ} (h : |q - q'| ≤ e) (hB : |q| ≤ B) : |f32.rnd q - q'| ≤ e + B / 2 ^ 24 + 1 / 2 ^ 100 := by
  have := rnd_err_le hB
  have e' : f32.rnd q - q' = (f32.rnd q - q) + (q - q') := by ring
  rw [e']
  refine (abs_add_le _ _).trans (by linarith)

set_option maxHeartbeats 1000000 in
theorem cubic_value (t : ℚ) : ∃ k, catmullromKernel (.fin t) = .fin k ∧ |k - cubic t| ≤ 1 / 2 ^ 17 := by
  have ht := abs_nonneg t
  unfold catmullromKernel bcCubicSpline cubic
  rw [show (Fl.fin t).abs = .fin |t| from rfl]
  generalize |t| = a at *
  have big : ∀ {q : ℚ}, |q| ≤ 1000 → f32.ofRat q = .fin (f32.rnd q) := fun h => ofRat32 (h.trans (by norm_num))
  have hlt : ∀ b : ℚ, ((Fl.fin a).lt (.fin b) = true) = (a < b) := by intro b; simp [Fl.lt]
  have tiny : (1 : ℚ) / 2 ^ 100 ≤ 1 / 2 ^ 30 := by norm_num
  by_cases h1 : a < 1
  · have hq1 : a * a ≤ 1 := by nlinarith
    have hq0 : 0 ≤ a * a := by positivity
    have s1 := rstep (q := a * a) (q' := a * a) (e := 0) (B := 1) (by simp) (by rw [abs_of_nonneg hq0]; exact hq1)
    set a2 := f32.rnd (a * a) with ha2
    have s1' := abs_le.1 s1
    have e2 : |a2 * a - a * a * a| ≤ 2 / 2 ^ 24 := by
      rw [← sub_mul, abs_mul, abs_of_nonneg ht]
      calc |a2 - a * a| * a ≤ (2 / 2 ^ 24) * 1 := by
            refine mul_le_mul (s1.trans (by norm_num)) h1.le ht (by norm_num)
        _ = _ := by ring
    have hc1 : a * a * a ≤ 1 := by nlinarith
    have hc0 : 0 ≤ a * a * a := by positivity
    have e2' := abs_le.1 e2
    have s2 := rstep (q := a2 * a) (B := 2) e2 (by rw [abs_le]; constructor <;> linarith [show (2 : ℚ) / 2 ^ 24 ≤ 1 by norm_num])
    set a3 := f32.rnd (a2 * a) with ha3
    have s2' := abs_le.1 s2
    have e3 : |9 * a3 - 9 * (a * a * a)| ≤ 45 / 2 ^ 24 := by rw [abs_le]; constructor <;> linarith [show (2 : ℚ) / 2 ^ 24 + 2 / 2 ^ 24 + 1 / 2 ^ 100 ≤ 5 / 2 ^ 24 by norm_num]
    have e3' := abs_le.1 e3
    have s3 := rstep (q := 9 * a3) (B := 10) e3 (by rw [abs_le]; constructor <;> linarith [show (45 : ℚ) / 2 ^ 24 ≤ 1 by norm_num])
    set b3 := f32.rnd (9 * a3)
    have s3' := abs_le.1 s3
    have e4 : |-15 * a2 - (-15 * (a * a))| ≤ 16 / 2 ^ 24 := by rw [abs_le]; constructor <;> linarith [show (15 : ℚ) * (0 + 1 / 2 ^ 24 + 1 / 2 ^ 100) ≤ 16 / 2 ^ 24 by norm_num]
    have e4' := abs_le.1 e4
    have s4 := rstep (q := -15 * a2) (B := 16) e4 (by rw [abs_le]; constructor <;> linarith [show (16 : ℚ) / 2 ^ 24 ≤ 1 by norm_num])
    set b2 := f32.rnd (-15 * a2)
    have s4' := abs_le.1 s4
    have e5 : |b3 + b2 - (9 * (a * a * a) + -15 * (a * a))| ≤ 88 / 2 ^ 24 := by
      rw [abs_le]; constructor <;> linarith [show (45 : ℚ) / 2 ^ 24 + 10 / 2 ^ 24 + 1 / 2 ^ 100 + (16 / 2 ^ 24 + 16 / 2 ^ 24 + 1 / 2 ^ 100) ≤ 88 / 2 ^ 24 by norm_num]
    have e5' := abs_le.1 e5
    have s5 := rstep (B := 30) e5 (by rw [abs_le]; constructor <;> linarith [show (88 : ℚ) / 2 ^ 24 ≤ 1 by norm_num])
    set c := f32.rnd (b3 + b2)
    have s5' := abs_le.1 s5
    have e6 : |c + 6 - (9 * (a * a * a) + -15 * (a * a) + 6)| ≤ 119 / 2 ^ 24 := by
      rw [abs_le]; constructor <;> linarith [show (88 : ℚ) / 2 ^ 24 + 30 / 2 ^ 24 + 1 / 2 ^ 100 ≤ 119 / 2 ^ 24 by norm_num]
    have e6' := abs_le.1 e6
    have s6 := rstep (B := 40) e6 (by rw [abs_le]; constructor <;> linarith [show (119 : ℚ) / 2 ^ 24 ≤ 1 by norm_num])
    set d := f32.rnd (c + 6)
    have s6' := abs_le.1 s6
    have e7 : |d / 6 - (9 * (a * a * a) + -15 * (a * a) + 6) / 6| ≤ 27 / 2 ^ 24 := by
      rw [abs_le]; constructor <;> linarith [show ((119 : ℚ) / 2 ^ 24 + 40 / 2 ^ 24 + 1 / 2 ^ 100) / 6 ≤ 27 / 2 ^ 24 by norm_num]
    have e7' := abs_le.1 e7
    have s7 := rstep (B := 10) e7 (by rw [abs_le]; constructor <;> linarith [show (27 : ℚ) / 2 ^ 24 ≤ 1 by norm_num])
    refine ⟨f32.rnd (d / 6), ?_, ?_⟩
    · simp only [hlt, if_pos h1]
      rw [fl_mul, big (by rw [abs_of_nonneg hq0]; linarith), fl_mul, big (by rw [abs_le]; constructor <;> linarith [show (2 : ℚ) / 2 ^ 24 ≤ 1 by norm_num]), fl_mul, fl_mul,
        big (by rw [abs_le]; constructor <;> linarith [show (45 : ℚ) / 2 ^ 24 ≤ 1 by norm_num]), big (by rw [abs_le]; constructor <;> linarith [show (16 : ℚ) / 2 ^ 24 ≤ 1 by norm_num]), fl_add,
        big (by rw [abs_le]; constructor <;> linarith [show (88 : ℚ) / 2 ^ 24 ≤ 1 by norm_num]), fl_add, big (by rw [abs_le]; constructor <;> linarith [show (119 : ℚ) / 2 ^ 24 ≤ 1 by norm_num]),
        fl_div _ (by norm_num), big (by rw [abs_le]; constructor <;> linarith [show (27 : ℚ) / 2 ^ 24 ≤ 1 by norm_num])]
    · rw [if_pos h1.le, show 3 / 2 * a ^ 3 - 5 / 2 * a ^ 2 + 1 = (9 * (a * a * a) + -15 * (a * a) + 6) / 6 by ring]
      exact s7.trans (by norm_num)
  by_cases h2 : a < 2
  · have h1' := not_lt.1 h1
    have hq1 : a * a ≤ 4 := by nlinarith
    have hq0 : 0 ≤ a * a := by positivity
    have s1 := rstep (q := a * a) (q' := a * a) (e := 0) (B := 4) (by simp) (by rw [abs_of_nonneg hq0]; exact hq1)
    set a2 := f32.rnd (a * a) with ha2
    have s1' := abs_le.1 s1
    have e2 : |a2 * a - a * a * a| ≤ 10 / 2 ^ 24 := by
      rw [← sub_mul, abs_mul, abs_of_nonneg ht]
      calc |a2 - a * a| * a ≤ (5 / 2 ^ 24) * 2 := by
            refine mul_le_mul (s1.trans (by norm_num)) h2.le ht (by norm_num)
        _ = _ := by ring
    have hc1 : a * a * a ≤ 8 := by nlinarith
    have hc0 : 0 ≤ a * a * a := by positivity
    have e2' := abs_le.1 e2
    have s2 := rstep (q := a2 * a) (B := 9) e2 (by rw [abs_le]; constructor <;> linarith [show (10 : ℚ) / 2 ^ 24 ≤ 1 by norm_num])
    set a3 := f32.rnd (a2 * a) with ha3
    have s2' := abs_le.1 s2
    have e3 : |-3 * a3 - -3 * (a * a * a)| ≤ 60 / 2 ^ 24 := by rw [abs_le]; constructor <;> linarith [show (10 : ℚ) / 2 ^ 24 + 9 / 2 ^ 24 + 1 / 2 ^ 100 ≤ 20 / 2 ^ 24 by norm_num]
    have e3' := abs_le.1 e3
    have s3 := rstep (q := -3 * a3) (B := 25) e3 (by rw [abs_le]; constructor <;> linarith [show (60 : ℚ) / 2 ^ 24 ≤ 1 by norm_num])
    set b3 := f32.rnd (-3 * a3)
    have s3' := abs_le.1 s3
    have e4 : |15 * a2 - (15 * (a * a))| ≤ 75 / 2 ^ 24 := by rw [abs_le]; constructor <;> linarith [show (0 + 4 / 2 ^ 24 + 1 / 2 ^ 100) ≤ (5 : ℚ) / 2 ^ 24 by norm_num]
    have e4' := abs_le.1 e4
    have s4 := rstep (q := 15 * a2) (B := 61) e4 (by rw [abs_le]; constructor <;> linarith [show (75 : ℚ) / 2 ^ 24 ≤ 1 by norm_num])
    set b2 := f32.rnd (15 * a2)
    have s4' := abs_le.1 s4
    have e5 : |b3 + b2 - (-3 * (a * a * a) + 15 * (a * a))| ≤ 222 / 2 ^ 24 := by
      rw [abs_le]; constructor <;> linarith [show (60 : ℚ) / 2 ^ 24 + 25 / 2 ^ 24 + 1 / 2 ^ 100 + (75 / 2 ^ 24 + 61 / 2 ^ 24 + 1 / 2 ^ 100) ≤ 222 / 2 ^ 24 by norm_num]
    have e5' := abs_le.1 e5
    have s5 := rstep (B := 70) e5 (by rw [abs_le]; constructor <;> linarith [show (222 : ℚ) / 2 ^ 24 ≤ 1 by norm_num])
    set c := f32.rnd (b3 + b2)
    have s5' := abs_le.1 s5
    have s8 := rstep (q := -24 * a) (q' := -24 * a) (e := 0) (B := 48) (by simp) (by rw [abs_le]; constructor <;> linarith)
    set g := f32.rnd (-24 * a)
    have s8' := abs_le.1 s8
    have e9 : |c + g - (-3 * (a * a * a) + 15 * (a * a) + -24 * a)| ≤ 342 / 2 ^ 24 := by
      rw [abs_le]; constructor <;> linarith [show (222 : ℚ) / 2 ^ 24 + 70 / 2 ^ 24 + 1 / 2 ^ 100 + (0 + 48 / 2 ^ 24 + 1 / 2 ^ 100) ≤ 342 / 2 ^ 24 by norm_num]
    have e9' := abs_le.1 e9
    have s9 := rstep (B := 80) e9 (by rw [abs_le]; constructor <;> linarith [show (342 : ℚ) / 2 ^ 24 ≤ 1 by norm_num])
    set h := f32.rnd (c + g)
    have s9' := abs_le.1 s9
    have e6 : |h + 12 - (-3 * (a * a * a) + 15 * (a * a) + -24 * a + 12)| ≤ 423 / 2 ^ 24 := by
      rw [abs_le]; constructor <;> linarith [show (342 : ℚ) / 2 ^ 24 + 80 / 2 ^ 24 + 1 / 2 ^ 100 ≤ 423 / 2 ^ 24 by norm_num]
    have e6' := abs_le.1 e6
    have s6 := rstep (B := 100) e6 (by rw [abs_le]; constructor <;> linarith [show (423 : ℚ) / 2 ^ 24 ≤ 1 by norm_num])
    set d := f32.rnd (h + 12)
    have s6' := abs_le.1 s6
    have e7 : |d / 6 - (-3 * (a * a * a) + 15 * (a * a) + -24 * a + 12) / 6| ≤ 88 / 2 ^ 24 := by
      rw [abs_le]; constructor <;> linarith [show ((423 : ℚ) / 2 ^ 24 + 100 / 2 ^ 24 + 1 / 2 ^ 100) / 6 ≤ 88 / 2 ^ 24 by norm_num]
    have e7' := abs_le.1 e7
    have s7 := rstep (B := 20) e7 (by rw [abs_le]; constructor <;> linarith [show (88 : ℚ) / 2 ^ 24 ≤ 1 by norm_num])
    refine ⟨f32.rnd (d / 6), ?_, ?_⟩
    · simp only [hlt, if_neg h1, if_pos h2]
      rw [fl_mul, big (by rw [abs_of_nonneg hq0]; linarith), fl_mul, big (by rw [abs_le]; constructor <;> linarith [show (10 : ℚ) / 2 ^ 24 ≤ 1 by norm_num]), fl_mul, fl_mul,
        big (by rw [abs_le]; constructor <;> linarith [show (60 : ℚ) / 2 ^ 24 ≤ 1 by norm_num]), big (by rw [abs_le]; constructor <;> linarith [show (75 : ℚ) / 2 ^ 24 ≤ 1 by norm_num]), fl_add,
        big (by rw [abs_le]; constructor <;> linarith [show (222 : ℚ) / 2 ^ 24 ≤ 1 by norm_num]), fl_mul, big (by rw [abs_le]; constructor <;> linarith), fl_add,
        big (by rw [abs_le]; constructor <;> linarith [show (342 : ℚ) / 2 ^ 24 ≤ 1 by norm_num]), fl_add, big (by rw [abs_le]; constructor <;> linarith [show (423 : ℚ) / 2 ^ 24 ≤ 1 by norm_num]),
        fl_div _ (by norm_num), big (by rw [abs_le]; constructor <;> linarith [show (88 : ℚ) / 2 ^ 24 ≤ 1 by norm_num])]
    · have e : (-3 * (a * a * a) + 15 * (a * a) + -24 * a + 12) / 6 = -1 / 2 * a ^ 3 + 5 / 2 * a ^ 2 - 4 * a + 2 := by ring
      have key : (if a ≤ 1 then 3 / 2 * a ^ 3 - 5 / 2 * a ^ 2 + 1 else
          if a ≤ 2 then -1 / 2 * a ^ 3 + 5 / 2 * a ^ 2 - 4 * a + 2 else 0) = (-3 * (a * a * a) + 15 * (a * a) + -24 * a + 12) / 6 := by
        rw [e]
        split_ifs with k1 k2
        · have : a = 1 := le_antisymm k1 h1'
          rw [this]; norm_num
        · rfl
        · exact absurd h2.le k2
      rw [key]
      exact s7.trans (by norm_num)
  · refine ⟨0, ?_, ?_⟩
    · simp only [hlt, if_neg h1, if_neg h2]
      rw [fl_div _ (by norm_num), big (by norm_num)]
      norm_num
    · have h2' := not_lt.1 h2
      rw [if_neg (by linarith)]
      split_ifs with k
      · have : a = 2 := le_antisymm k h2'
        rw [this]; norm_num
      · norm_num

end Verif
