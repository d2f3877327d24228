import Verif.Model.FloatOps

/-!
# Error analysis of float computations
-/

namespace Verif

/-! ## When operations stay finite -/

/-- A format whose exponents go well beyond its precision on both sides. -/
structure Fmt.Wide (F : Fmt) : Prop where
  p : 0 < F.p
  emin : F.emin ≤ 0
  emax : F.p ≤ F.emax

theorem wide32 : f32.Wide := ⟨by decide, by decide, by decide⟩
theorem wide64 : f64.Wide := ⟨by decide, by decide, by decide⟩

theorem ofRat_fin {F : Fmt} (hF : F.Wide) {q : ℚ} (h0 : 0 ≤ q) {n : ℕ} (hn : n < 2 ^ F.p) (h : q ≤ n) :
    F.ofRat q = .fin (F.rnd q) := by
  unfold Fmt.ofRat
  rw [if_pos]
  rw [abs_of_nonneg (F.rnd_nonneg h0)]
  calc F.rnd q ≤ F.rnd n := F.rnd_mono hF.p h0 h
    _ = n := F.rnd_nat hn hF.emin
    _ < 2 ^ F.p := by exact_mod_cast hn
    _ = (2 : ℚ) ^ (F.p : ℤ) := (zpow_natCast _ _).symm
    _ ≤ 2 ^ F.emax := zpow_le_zpow_right₀ (by norm_num) hF.emax

theorem rnd_le_nat {F : Fmt} (hF : F.Wide) {q : ℚ} (h0 : 0 ≤ q) {n : ℕ} (hn : n < 2 ^ F.p) (h : q ≤ n) :
    F.rnd q ≤ n := by
  rw [← F.rnd_nat hn hF.emin]; exact F.rnd_mono hF.p h0 h

theorem nat_le_rnd {F : Fmt} (hF : F.Wide) {q : ℚ} {n : ℕ} (hn : n < 2 ^ F.p) (h : (n : ℚ) ≤ q) :
    n ≤ F.rnd q := by
  rw [← F.rnd_nat hn hF.emin]; exact F.rnd_mono hF.p (by positivity) h

theorem ofNat_fin {F : Fmt} (hF : F.Wide) {n : ℕ} (hn : n < 2 ^ F.p) : Fl.ofNat F n = .fin n := by
  unfold Fl.ofNat
  rw [ofRat_fin hF (by positivity) hn le_rfl, F.rnd_nat hn hF.emin]

/-! ## Relative error -/

/-- Zero, or large enough not to be a subnormal `f32` (or `f64`). -/
def Tame (q : ℚ) : Prop := q = 0 ∨ 1 / 2 ^ 100 ≤ q

theorem rnd_near {F : Fmt} (hF : F = f32 ∨ F = f64) {q : ℚ} (h : Tame q) : |F.rnd q - q| ≤ q / 2 ^ F.p := by
  rcases h with rfl | h
  · simp
  · have hq : 0 < q := lt_of_lt_of_le (by positivity) h
    have hr := F.rnd_rel (q := q) (by
      rw [abs_of_pos hq]
      refine le_trans ?_ h
      rw [show (1 : ℚ) / 2 ^ 100 = 2 ^ (-100 : ℤ) by norm_num]
      exact zpow_le_zpow_right₀ (by norm_num) (by rcases hF with rfl | rfl <;> decide))
    rwa [abs_of_pos hq] at hr

/-- Rounding error of any non-negative value. -/
theorem rnd_near_abs {F : Fmt} (hF : F = f32 ∨ F = f64) {q : ℚ} (h : 0 ≤ q) :
    |F.rnd q - q| ≤ q / 2 ^ F.p + 1 / 2 ^ 100 := by
  rcases le_or_gt (1 / 2 ^ 100) q with hq | hq
  · have := rnd_near hF (q := q) (Or.inr hq)
    have : (0 : ℚ) ≤ 1 / 2 ^ 100 := by positivity
    linarith
  · have hp : 0 < F.p := by rcases hF with rfl | rfl <;> decide
    have h1 := F.rnd_mono hp h hq.le
    have h0 := F.rnd_nonneg h
    have e : F.rnd (1 / 2 ^ 100) = 1 / 2 ^ 100 := by
      have := F.rnd_exact (m := 1) (e := -100) (by
        have : (2 : ℤ) ^ 1 ≤ 2 ^ F.p := pow_le_pow_right₀ (by norm_num) hp
        simp; omega) (by rcases hF with rfl | rfl <;> decide)
      rw [show (1 : ℚ) / 2 ^ 100 = ((1 : ℤ) : ℚ) * 2 ^ (-100 : ℤ) by norm_num]
      exact this
    rw [e] at h1
    have : 0 ≤ q / 2 ^ F.p := by positivity
    rw [abs_le]
    constructor <;> linarith

/-- `x` approximates `y` up to `e * s`. -/
def Near (e s x y : ℚ) : Prop := |x - y| ≤ e * s

theorem Near.bounds {e s x y : ℚ} (h : Near e s x y) : y - e * s ≤ x ∧ x ≤ y + e * s := by
  unfold Near at h; rw [abs_le] at h; constructor <;> linarith

theorem near_of {e s x y : ℚ} (h1 : y - e * s ≤ x) (h2 : x ≤ y + e * s) : Near e s x y := by
  unfold Near; rw [abs_le]; constructor <;> linarith

theorem Near.mono {e e' s s' x y : ℚ} (h : Near e s x y) (he : e ≤ e') (hs : s ≤ s') (h0 : 0 ≤ e') (hs0 : 0 ≤ s) :
    Near e' s' x y := by
  have : e * s ≤ e' * s' := by
    calc e * s ≤ e' * s := by gcongr
      _ ≤ e' * s' := by gcongr
  exact le_trans h this

theorem near_refl {e s x : ℚ} (he : 0 ≤ e) (hs : 0 ≤ s) : Near e s x x := by
  unfold Near; simp; positivity

theorem Near.trans {e e' s x y z : ℚ} (h : Near e s x y) (h' : Near e' s y z) : Near (e + e') s x z := by
  obtain ⟨a, b⟩ := h.bounds
  obtain ⟨c, d⟩ := h'.bounds
  apply near_of <;> linarith

theorem Near.add {e s s' x y x' y' : ℚ} (h : Near e s x y) (h' : Near e s' x' y') :
    Near e (s + s') (x + x') (y + y') := by
  obtain ⟨a, b⟩ := h.bounds
  obtain ⟨c, d⟩ := h'.bounds
  apply near_of <;> linarith

theorem Near.sub {e s s' x y x' y' : ℚ} (h : Near e s x y) (h' : Near e s' x' y') :
    Near e (s + s') (x - x') (y - y') := by
  obtain ⟨a, b⟩ := h.bounds
  obtain ⟨c, d⟩ := h'.bounds
  apply near_of <;> linarith

/-- Products, with `|y| ≤ s`, `|y'| ≤ s'`. -/
theorem Near.mul {e e' s s' x y x' y' : ℚ} (h : Near e s x y) (h' : Near e' s' x' y') (hy0 : 0 ≤ y) (hy : y ≤ s)
    (hy0' : 0 ≤ y') (hy' : y' ≤ s') (he : 0 ≤ e) :
    Near (e + e' + e * e') (s * s') (x * x') (y * y') := by
  have hs : 0 ≤ s := hy0.trans hy
  have hs' : 0 ≤ s' := hy0'.trans hy'
  unfold Near at *
  have : x * x' - y * y' = (x - y) * (x' - y') + (x - y) * y' + y * (x' - y') := by ring
  rw [this]
  calc _ ≤ |(x - y) * (x' - y')| + |(x - y) * y'| + |y * (x' - y')| := abs_add_three _ _ _
    _ = |x - y| * |x' - y'| + |x - y| * y' + y * |x' - y'| := by
        rw [abs_mul, abs_mul, abs_mul, abs_of_nonneg hy0, abs_of_nonneg hy0']
    _ ≤ e * s * (e' * s') + e * s * s' + s * (e' * s') := by gcongr
    _ = _ := by ring

/-- Quotients of approximations relative to the divisor. -/
theorem Near.div {e e' s x y z : ℚ} (hs : 0 < s) (h : Near e s x y) (h' : Near e' s z s) (hy0 : 0 ≤ y) (hy : y ≤ s)
    (he : 0 ≤ e) (he' : 0 ≤ e') (he1 : e' < 1) : Near ((e + e') / (1 - e')) 1 (x / z) (y / s) := by
  obtain ⟨a, b⟩ := h.bounds
  obtain ⟨c, d⟩ := h'.bounds
  have h1 : 0 < 1 - e' := by linarith
  have hz : (1 - e') * s ≤ z := by linarith
  have hz0 : 0 < z := lt_of_lt_of_le (by positivity) hz
  have hys : y / s ≤ 1 := by rw [div_le_one hs]; exact hy
  have hys0 : 0 ≤ y / s := by positivity
  have hyy : y = y / s * s := by field_simp
  have hk : (e + e') / (1 - e') * ((1 - e') * s) = (e + e') * s := by field_simp
  have hk0 : 0 ≤ (e + e') / (1 - e') := by positivity
  have hk1 : (e + e') * s ≤ (e + e') / (1 - e') * z := by rw [← hk]; gcongr
  have m1 : y / s * (e' * s) ≤ 1 * (e' * s) := by gcongr
  apply near_of
  · rw [mul_one, le_div_iff₀ hz0, sub_mul]
    have : y / s * z ≤ y / s * (s + e' * s) := by gcongr
    have : y / s * (s + e' * s) = y + y / s * (e' * s) := by rw [mul_add, ← hyy]
    linarith
  · rw [mul_one, div_le_iff₀ hz0, add_mul]
    have : y / s * (s - e' * s) ≤ y / s * z := by gcongr
    have : y / s * (s - e' * s) = y - y / s * (e' * s) := by rw [mul_sub, ← hyy]
    linarith

/-- Rounding an approximation. -/
theorem Near.rnd {e s x y : ℚ} (h : Near e s x y) (ht : Tame x) (hy : y ≤ s) :
    Near (e + (1 + e) / 2 ^ 24) s (f32.rnd x) y := by
  obtain ⟨a, b⟩ := h.bounds
  have hr := rnd_near (F := f32) (Or.inl rfl) ht
  rw [show (f32.p) = 24 from rfl, abs_le] at hr
  have : x / 2 ^ 24 ≤ (y + e * s) / 2 ^ 24 := by gcongr
  have : (y + e * s) / 2 ^ 24 ≤ (s + e * s) / 2 ^ 24 := by gcongr
  have : (s + e * s) / 2 ^ 24 = (1 + e) / 2 ^ 24 * s := by ring
  apply near_of <;> linarith

/-- Zero, or at least `2^-k`. -/
def Tm (k : ℕ) (q : ℚ) : Prop := q = 0 ∨ 1 / 2 ^ k ≤ q

namespace Tm
variable {k l : ℕ} {q r : ℚ}

theorem nonneg (h : Tm k q) : 0 ≤ q := by
  rcases h with rfl | h
  · exact le_rfl
  · exact le_trans (by positivity) h

theorem mono (h : Tm k q) (hk : k ≤ l) : Tm l q := by
  rcases h with rfl | h
  · exact Or.inl rfl
  · refine Or.inr (le_trans ?_ h)
    have : (2 : ℚ) ^ k ≤ 2 ^ l := pow_le_pow_right₀ (by norm_num) hk
    gcongr

theorem tame (h : Tm k q) (hk : k ≤ 100) : Tame q := h.mono hk

theorem add (h : Tm k q) (h' : Tm k r) : Tm k (q + r) := by
  rcases h with rfl | h
  · rwa [zero_add]
  · exact Or.inr (by have := h'.nonneg; linarith)

theorem mul (h : Tm k q) (h' : Tm l r) : Tm (k + l) (q * r) := by
  rcases h with rfl | h
  · exact Or.inl (by ring)
  rcases h' with rfl | h'
  · exact Or.inl (by ring)
  refine Or.inr ?_
  have hq : (0 : ℚ) ≤ q := le_trans (by positivity) h
  calc (1 : ℚ) / 2 ^ (k + l) = 1 / 2 ^ k * (1 / 2 ^ l) := by rw [pow_add]; field_simp
    _ ≤ q * r := by gcongr

theorem rnd (h : Tm k q) (hk : k ≤ 100) : Tm (k + 1) (f32.rnd q) := by
  have hr := rnd_near (F := f32) (Or.inl rfl) (h.tame hk)
  rcases h with rfl | h
  · simp [Tm]
  · refine Or.inr ?_
    rw [show (f32.p) = 24 from rfl, abs_le] at hr
    have : (1 : ℚ) / 2 ^ (k + 1) = 1 / 2 ^ k / 2 := by rw [pow_succ]; field_simp
    have hq : (0 : ℚ) ≤ q := le_trans (by positivity) h
    rw [this]
    have : q / 2 ^ 24 ≤ q / 2 := by gcongr; norm_num
    linarith

end Tm

end Verif
