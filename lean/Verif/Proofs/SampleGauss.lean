import Verif.Proofs.SampleTriangle

/-!
# The Gaussian kernel
-/

namespace Verif

/-- What is assumed of the library's `exp`, `sqrt` and `PI`: roughly right values. -/
structure Libm.Ok (L : Libm) : Prop where
  pi : ∃ p, L.pi = .fin p ∧ 3 ≤ p ∧ p ≤ 4
  sqrt : ∀ q, 6 ≤ q → q ≤ 8 → ∃ z, L.sqrt (.fin q) = .fin z ∧ 2 ≤ z ∧ z ≤ 3
  exp : ∀ q, q ≤ 0 → ∃ e, L.exp (.fin q) = .fin e ∧ 0 ≤ e ∧ e ≤ 2 ∧ (-3 ≤ q → 1 / 2 ^ 6 ≤ e)

theorem rnd_rough {x : ℚ} (h : 1 / 2 ^ 100 ≤ x) : x * (99 / 100) ≤ f32.rnd x ∧ f32.rnd x ≤ x * (101 / 100) := by
  have hx : 0 < x := lt_of_lt_of_le (by norm_num) h
  have := rnd_near (F := f32) (Or.inl rfl) (Or.inr h)
  rw [show f32.p = 24 from rfl, abs_le] at this
  have h1 : x / 2 ^ 24 ≤ x / 100 := by gcongr; norm_num
  constructor <;> linarith

theorem gauss_value {L : Libm} (hL : L.Ok) {r t : ℚ} (hr : 1 / 32 ≤ r) (hr' : r ≤ 2 ^ 12) (ht : |t| ≤ 2 ^ 14) :
    ∃ k, gaussian L (.fin t) (.fin r) = .fin k ∧ 0 ≤ k ∧ k ≤ 2 ^ 10 ∧ (t ^ 2 ≤ 4 * r ^ 2 → 1 / 2 ^ 23 ≤ k) := by
  obtain ⟨p, ep, p1, p2⟩ := hL.pi
  have hr0 : 0 < r := by linarith
  -- the factor
  have e1 : (Fl.fin 2).mul f32 (.fin p) = .fin (f32.rnd (2 * p)) := by
    rw [fl_mul, ofRat32]
    rw [abs_of_nonneg (by linarith)]; linarith [show (8 : ℚ) ≤ 2 ^ 127 by norm_num]
  have b1 : 6 ≤ f32.rnd (2 * p) := by
    have := nat_le_rnd wide32 (q := 2 * p) (n := 6) (by decide) (by push_cast; linarith)
    exact_mod_cast this
  have b2 : f32.rnd (2 * p) ≤ 8 := by
    have := rnd_le_nat wide32 (q := 2 * p) (by linarith) (n := 8) (by decide) (by push_cast; linarith)
    exact_mod_cast this
  obtain ⟨z, ez, z1, z2⟩ := hL.sqrt _ b1 b2
  have hzr : 2 * r ≤ z * r ∧ z * r ≤ 3 * r := ⟨by gcongr, by gcongr⟩
  have e2 : (Fl.fin z).mul f32 (.fin r) = .fin (f32.rnd (z * r)) := by
    rw [fl_mul, ofRat32]
    rw [abs_of_nonneg (by positivity)]
    linarith [show (3 : ℚ) * 2 ^ 12 ≤ 2 ^ 127 by norm_num]
  obtain ⟨c1, c2⟩ := rnd_rough (x := z * r) (by linarith [show (1 : ℚ) / 2 ^ 100 ≤ 1 / 32 by norm_num])
  set d := f32.rnd (z * r)
  have hd0 : 0 < d := by linarith
  have hd1 : r ≤ d := by linarith
  have hd2 : d ≤ 4 * r := by linarith
  have e3 : (Fl.fin 1).div f32 (.fin d) = .fin (f32.rnd (1 / d)) := by
    rw [fl_div _ hd0.ne', ofRat32]
    rw [abs_of_nonneg (by positivity)]
    calc 1 / d ≤ 1 / (1 / 32) := by gcongr; linarith
      _ ≤ 2 ^ 127 := by norm_num
  have hinv1 : 1 / d ≤ 32 := by
    calc 1 / d ≤ 1 / (1 / 32) := by gcongr; linarith
      _ = 32 := by norm_num
  have hinv2 : 1 / 2 ^ 14 ≤ 1 / d := by
    have : d ≤ 2 ^ 14 := by linarith [show (2 : ℚ) ^ 14 = 4 * 2 ^ 12 by norm_num]
    gcongr
  obtain ⟨c3, c4⟩ := rnd_rough (x := 1 / d) (le_trans (by norm_num) hinv2)
  set k := f32.rnd (1 / d)
  have hk1 : 1 / 2 ^ 15 ≤ k := by linarith [show (1 : ℚ) / 2 ^ 15 ≤ 1 / 2 ^ 14 * (99 / 100) by norm_num]
  have hk2 : k ≤ 33 := by linarith
  -- the exponent
  have ht2 : t * t ≤ 2 ^ 28 := by
    have := abs_nonneg t
    have h1 : |t| * |t| ≤ 2 ^ 14 * 2 ^ 14 := by gcongr
    rw [abs_mul_abs_self] at h1
    linarith [show (2 : ℚ) ^ 28 = 2 ^ 14 * 2 ^ 14 by norm_num]
  have htt : 0 ≤ t * t := mul_self_nonneg t
  have e4 : (Fl.fin t).mul f32 (.fin t) = .fin (f32.rnd (t * t)) := by
    rw [fl_mul, ofRat32]
    rw [abs_of_nonneg htt]; exact ht2.trans (by norm_num)
  have hx := rnd_near_abs (F := f32) (Or.inl rfl) htt
  rw [show f32.p = 24 from rfl, abs_le] at hx
  have hx0 := f32.rnd_nonneg htt
  set xx := f32.rnd (t * t)
  have hxx : xx ≤ t * t * (101 / 100) + 1 / 2 ^ 100 := by
    have : t * t / 2 ^ 24 ≤ t * t / 100 := by gcongr; norm_num
    linarith
  have hrr : 1 / 2 ^ 10 ≤ r * r := by
    calc (1 : ℚ) / 2 ^ 10 = 1 / 32 * (1 / 32) := by norm_num
      _ ≤ r * r := by gcongr
  have hrr' : r * r ≤ 2 ^ 24 := by
    calc r * r ≤ 2 ^ 12 * 2 ^ 12 := by gcongr
      _ = 2 ^ 24 := by norm_num
  have e5 : (Fl.fin r).mul f32 (.fin r) = .fin (f32.rnd (r * r)) := by
    rw [fl_mul, ofRat32]
    rw [abs_of_nonneg (by positivity)]; exact hrr'.trans (by norm_num)
  obtain ⟨c5, c6⟩ := rnd_rough (x := r * r) (le_trans (by norm_num) hrr)
  set rr := f32.rnd (r * r)
  have e6 : (Fl.fin 2).mul f32 (.fin rr) = .fin (f32.rnd (2 * rr)) := by
    rw [fl_mul, ofRat32]
    rw [abs_of_nonneg (by linarith)]
    exact le_trans (b := (2 : ℚ) ^ 26) (by linarith [show (2 : ℚ) ^ 26 = 4 * 2 ^ 24 by norm_num]) (by norm_num)
  obtain ⟨c7, c8⟩ := rnd_rough (x := 2 * rr) (by linarith [show (1 : ℚ) / 2 ^ 100 ≤ 1 / 2 ^ 10 / 2 by norm_num])
  set q := f32.rnd (2 * rr)
  have hq : 19 / 10 * (r * r) ≤ q := by linarith
  have hq0 : 0 < q := by linarith
  have hdiv0 : 0 ≤ xx / q := div_nonneg hx0 hq0.le
  have hdivb : xx / q ≤ 2 ^ 60 := by
    rw [div_le_iff₀ hq0]
    have h1 : (2 : ℚ) ^ 60 * (1 / 2 ^ 10) ≤ 2 ^ 60 * q := by
      refine mul_le_mul_of_nonneg_left ?_ (by norm_num)
      linarith
    linarith [show (2 : ℚ) ^ 28 * (101 / 100) + 1 / 2 ^ 100 ≤ 2 ^ 60 * (1 / 2 ^ 10) by norm_num]
  have e7 : ((Fl.fin xx).neg).div f32 (.fin q) = .fin (f32.rnd (-xx / q)) := by
    rw [show (Fl.fin xx).neg = .fin (-xx) from rfl, fl_div _ hq0.ne', ofRat32]
    rw [neg_div, abs_neg, abs_of_nonneg hdiv0]; exact hdivb.trans (by norm_num)
  have hneg : f32.rnd (-xx / q) = -f32.rnd (xx / q) := by rw [neg_div, f32.rnd_neg]
  have hrq0 := f32.rnd_nonneg hdiv0
  obtain ⟨e, ee, e0, e1', e2'⟩ := hL.exp (f32.rnd (-xx / q)) (by rw [hneg]; linarith)
  have hke0 : 0 ≤ k * e := by positivity
  have hke1 : k * e ≤ 66 := by
    calc k * e ≤ 33 * 2 := by gcongr
      _ = 66 := by norm_num
  refine ⟨f32.rnd (k * e), ?_, f32.rnd_nonneg hke0, ?_, ?_⟩
  · unfold gaussian
    simp only [ep, e1, ez, e2, e3, e4, e5, e6, e7, ee]
    rw [fl_mul, ofRat32]
    rw [abs_of_nonneg hke0]; linarith [show (66 : ℚ) ≤ 2 ^ 127 by norm_num]
  · have := rnd_le_nat wide32 hke0 (n := 1024) (by decide) (by push_cast; linarith)
    norm_num at this ⊢
    exact this
  · intro h4
    have h5 : xx / q ≤ 22 / 10 := by
      rw [div_le_iff₀ hq0]
      linarith [show t ^ 2 = t * t by ring, show r ^ 2 = r * r by ring, show (1 : ℚ) / 2 ^ 100 ≤ 1 / 2 ^ 10 * (1 / 10) by norm_num]
    have h6 : f32.rnd (xx / q) ≤ 3 := by
      have := rnd_le_nat wide32 hdiv0 (n := 3) (by decide) (by push_cast; linarith)
      exact_mod_cast this
    have h7 := e2' (by rw [hneg]; linarith)
    have h8 : 1 / 2 ^ 21 ≤ k * e := by
      calc (1 : ℚ) / 2 ^ 21 = 1 / 2 ^ 15 * (1 / 2 ^ 6) := by norm_num
        _ ≤ k * e := by gcongr
    obtain ⟨c9, -⟩ := rnd_rough (x := k * e) (le_trans (by norm_num) h8)
    linarith [show (1 : ℚ) / 2 ^ 23 ≤ 1 / 2 ^ 21 * (99 / 100) by norm_num]

theorem gaussian_nonneg {L : Libm} (hL : L.Ok) : NonnegKernel (FilterType.gaussian.method L) 3 (1 / 2 ^ 23) (2 ^ 10) (9 / 16) where
  support := rfl
  s_lo := by norm_num
  b_lo := by norm_num
  B_hi := by norm_num
  value t ht := by
    obtain ⟨k, h1, h2, h3, -⟩ := gauss_value hL (r := 1 / 2) (t := t) (by norm_num) (by norm_num)
      (by linarith [show (4 : ℚ) ≤ 2 ^ 14 by norm_num])
    exact ⟨k, h1, h2, h3⟩
  middle t k ht hk := by
    obtain ⟨k', h1, -, -, h4⟩ := gauss_value hL (r := 1 / 2) (t := t) (by norm_num) (by norm_num)
      (by linarith [show (9 / 16 : ℚ) ≤ 2 ^ 14 by norm_num])
    have : gaussian L (.fin t) (.fin (1 / 2)) = .fin k := hk
    rw [this] at h1
    obtain rfl := Fl.fin.inj h1
    refine h4 ?_
    have h0 := abs_nonneg t
    have : |t| * |t| ≤ 9 / 16 * (9 / 16) := by gcongr
    rw [abs_mul_abs_self] at this
    linarith [show t ^ 2 = t * t by ring]

/-- The kernel of `blur`. -/
theorem blur_nonneg {L : Libm} (hL : L.Ok) {r : ℚ} (hr : 1 / 32 ≤ r) (hr' : r ≤ 2 ^ 11) (hrep : f32.rnd (2 * r) = 2 * r)
    {s : ℚ} (hs : s = 2 * r) (hq : 1 / 8 ≤ r) :
    NonnegKernel (blurFilter L (.fin r)) s (1 / 2 ^ 23) (2 ^ 10) (1 / 16) where
  support := by
    unfold blurFilter
    have : ¬ (Fl.fin r).le (.fin 0) = true := by simp [Fl.le]; linarith
    simp only [if_neg this]
    rw [fl_mul, ofRat32, hrep, hs]
    rw [abs_of_nonneg (by linarith)]; linarith [show (2 : ℚ) * 2 ^ 11 ≤ 2 ^ 127 by norm_num]
  s_lo := by linarith
  b_lo := by norm_num
  B_hi := by norm_num
  value t ht := by
    have : ¬ (Fl.fin r).le (.fin 0) = true := by simp [Fl.le]; linarith
    unfold blurFilter
    simp only [if_neg this]
    obtain ⟨k, h1, h2, h3, -⟩ := gauss_value hL (r := r) (t := t) (by linarith) (by linarith [show (2 : ℚ) ^ 11 ≤ 2 ^ 12 by norm_num])
      (by linarith [show (2 : ℚ) * 2 ^ 11 + 1 ≤ 2 ^ 14 by norm_num])
    exact ⟨k, h1, h2, h3⟩
  middle t k ht hk := by
    have hn : ¬ (Fl.fin r).le (.fin 0) = true := by simp [Fl.le]; linarith
    unfold blurFilter at hk
    simp only [if_neg hn] at hk
    obtain ⟨k', h1, -, -, h4⟩ := gauss_value hL (r := r) (t := t) (by linarith) (by linarith [show (2 : ℚ) ^ 11 ≤ 2 ^ 12 by norm_num])
      (by linarith [show (1 / 16 : ℚ) ≤ 2 ^ 14 by norm_num])
    rw [hk] at h1
    obtain rfl := Fl.fin.inj h1
    refine h4 ?_
    have h0 := abs_nonneg t
    have h5 : |t| * |t| ≤ 1 / 16 * (1 / 16) := by gcongr
    rw [abs_mul_abs_self] at h5
    have h6 : (1 : ℚ) / 32 * (1 / 32) ≤ r * r := by gcongr
    linarith [show t ^ 2 = t * t by ring, show r ^ 2 = r * r by ring]

end Verif
