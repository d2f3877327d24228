import Verif.Proofs.Float

/-!
# Rounding of values of either sign
-/

namespace Verif

theorem rne_neg (q : ℚ) : rne (-q) = -rne q := by
  have key : ∀ q : ℚ, 0 ≤ q - ⌊q⌋ ∧ q - ⌊q⌋ < 1 := fun q =>
    ⟨by have := Int.floor_le q; linarith, by have := Int.lt_floor_add_one q; linarith⟩
  obtain ⟨h1, h2⟩ := key q
  rcases eq_or_lt_of_le h1 with h0 | h0
  · have : q = ((⌊q⌋ : ℤ) : ℚ) := by linarith
    rw [this, ← Int.cast_neg, rne_int, rne_int]
  · have hf : ⌊-q⌋ = -⌊q⌋ - 1 := by
      rw [Int.floor_eq_iff]; push_cast; constructor <;> linarith
    unfold rne
    rw [hf]
    push_cast
    split_ifs <;> first | omega | (exfalso; linarith)

namespace Fmt
variable (F : Fmt)

theorem unit_neg (q : ℚ) : F.unit (-q) = F.unit q := by unfold unit; rw [abs_neg]

theorem rnd_neg (q : ℚ) : F.rnd (-q) = -F.rnd q := by
  unfold rnd; rw [F.unit_neg, neg_div, rne_neg]; push_cast; ring

theorem rnd_mono' (hp : 0 < F.p) {q r : ℚ} (h : q ≤ r) : F.rnd q ≤ F.rnd r := by
  rcases le_total 0 q with hq | hq
  · exact F.rnd_mono hp hq h
  · rcases le_total 0 r with hr | hr
    · have h1 : 0 ≤ F.rnd (-q) := F.rnd_nonneg (by linarith)
      have h2 := F.rnd_nonneg hr
      rw [F.rnd_neg] at h1
      linarith
    · have := F.rnd_mono hp (q := -r) (r := -q) (by linarith) (by linarith)
      rw [F.rnd_neg, F.rnd_neg] at this
      linarith

end Fmt

/-- A value of moderate size rounds to a finite float. -/
theorem ofRat_fin' {F : Fmt} (hF : F.Wide) {q : ℚ} {n : ℕ} (hn : n < 2 ^ F.p) (h : |q| ≤ n) :
    F.ofRat q = .fin (F.rnd q) := by
  rcases le_total 0 q with h0 | h0
  · exact ofRat_fin hF h0 hn (by rwa [abs_of_nonneg h0] at h)
  · have := ofRat_fin hF (q := -q) (by linarith) hn (by rwa [abs_of_nonpos h0] at h)
    unfold Fmt.ofRat at this ⊢
    rw [F.rnd_neg, abs_neg] at this
    by_cases hc : |F.rnd q| < 2 ^ F.emax
    · rw [if_pos hc]
    · rw [if_neg hc] at this; cases this

theorem rnd_err {F : Fmt} (hF : F = f32 ∨ F = f64) (q : ℚ) : |F.rnd q - q| ≤ |q| / 2 ^ F.p + 1 / 2 ^ 100 := by
  rcases le_total 0 q with h0 | h0
  · rw [abs_of_nonneg h0]; exact rnd_near_abs hF h0
  · have := rnd_near_abs hF (q := -q) (by linarith)
    rw [F.rnd_neg] at this
    rw [abs_of_nonpos h0]
    rwa [show -F.rnd q - -q = -(F.rnd q - q) by ring, abs_neg] at this

theorem rnd_err32 (q : ℚ) : |f32.rnd q - q| ≤ |q| / 2 ^ 24 + 1 / 2 ^ 100 := rnd_err (Or.inl rfl) q

theorem abs_rnd (F : Fmt) (q : ℚ) : |F.rnd q| = F.rnd |q| := by
  rcases le_total 0 q with h0 | h0
  · rw [abs_of_nonneg h0, abs_of_nonneg (F.rnd_nonneg h0)]
  · rw [abs_of_nonpos h0, F.rnd_neg, abs_of_nonpos]
    have := F.rnd_nonneg (q := -q) (by linarith)
    rw [F.rnd_neg] at this
    linarith

/-- `m * 2^e` with few bits is a float. -/
theorem rnd_dyadic {q : ℚ} (m e : ℤ) (hq : q = m * 2 ^ e) (hm : |m| < 2 ^ 24) (he : -149 ≤ e) : f32.rnd q = q := by
  rw [hq]; exact f32.rnd_exact hm he

theorem rnd_half {n : ℕ} (hn : 2 * n + 1 < 2 ^ 24) : f32.rnd (n + 1 / 2) = n + 1 / 2 := by
  refine rnd_dyadic (2 * n + 1 : ℤ) (-1) ?_ (by rw [abs_of_nonneg (by positivity)]; exact_mod_cast hn) (by norm_num)
  rw [zpow_neg_one]; push_cast; ring

theorem rnd_nat32 {n : ℕ} (hn : n ≤ 2 ^ 24) : f32.rnd n = n := by
  rcases eq_or_lt_of_le hn with rfl | hn
  · exact rnd_dyadic 1 24 (by norm_num) (by norm_num) (by norm_num)
  · exact f32.rnd_nat hn (by decide)

theorem ofRat32 {q : ℚ} (h : |q| ≤ 2 ^ 127) : f32.ofRat q = .fin (f32.rnd q) := by
  unfold Fmt.ofRat
  rw [if_pos]
  rw [abs_rnd]
  have h1 : f32.rnd |q| ≤ f32.rnd (2 ^ 127) := f32.rnd_mono' (by decide) h
  have h2 : f32.rnd (2 ^ 127) = 2 ^ 127 :=
    rnd_dyadic 1 127 (by norm_num) (by norm_num) (by norm_num)
  rw [h2] at h1
  refine lt_of_le_of_lt h1 ?_
  rw [show f32.emax = 128 from rfl]
  norm_num

theorem ofNat32 {n : ℕ} (hn : n ≤ 2 ^ 24) : Fl.ofNat f32 n = .fin n := by
  unfold Fl.ofNat
  rw [ofRat32, rnd_nat32 hn]
  rw [abs_of_nonneg (by positivity)]
  calc (n : ℚ) ≤ 2 ^ 24 := by exact_mod_cast hn
    _ ≤ 2 ^ 127 := by norm_num

end Verif

namespace Verif

/-! ## Operations on finite values -/

theorem fl_add (a b : ℚ) : (Fl.fin a).add f32 (.fin b) = f32.ofRat (a + b) := rfl
theorem fl_mul (a b : ℚ) : (Fl.fin a).mul f32 (.fin b) = f32.ofRat (a * b) := rfl
theorem fl_sub (a b : ℚ) : (Fl.fin a).sub f32 (.fin b) = f32.ofRat (a - b) := by
  show f32.ofRat (a + -b) = _
  rw [sub_eq_add_neg]
theorem fl_div (a : ℚ) {b : ℚ} (hb : b ≠ 0) : (Fl.fin a).div f32 (.fin b) = f32.ofRat (a / b) := by
  simp only [Fl.div, if_neg hb]

/-! ## Relative errors -/

/-- A rounded value has 24 significant bits. -/
theorem rnd_form (q : ℚ) : ∃ m e : ℤ, f32.rnd q = m * 2 ^ e ∧ |m| < 2 ^ 24 ∧ -149 ≤ e := by
  set u := f32.unit q with hu
  have hpos := Fmt.two_zpow_pos u
  have hq : |q / 2 ^ u| < 2 ^ 24 := by
    rw [abs_div, abs_of_pos hpos, div_lt_iff₀ hpos]
    have h1 := Int.lt_zpow_succ_log_self (b := 2) (by norm_num) |q|
    push_cast at h1
    have h2 : Int.log 2 |q| - 23 ≤ u := by
      rw [hu]; unfold Fmt.unit
      rw [show f32.p = 24 from rfl]
      have := le_max_left (Int.log 2 |q| - ((24 : ℕ) - 1 : ℤ)) f32.emin
      omega
    refine h1.trans_le ?_
    rw [show (2 : ℚ) ^ 24 = 2 ^ (24 : ℤ) by norm_num, ← zpow_add₀ (by norm_num)]
    exact zpow_le_zpow_right₀ (by norm_num) (by omega)
  have hm : |rne (q / 2 ^ u)| ≤ 2 ^ 24 := by
    rw [abs_lt] at hq
    rw [abs_le]
    constructor
    · exact int_le_rne (by push_cast; linarith)
    · exact rne_le_int (by push_cast; linarith)
  have he : -149 ≤ u := by rw [hu]; unfold Fmt.unit; exact le_max_right _ _
  have hr : f32.rnd q = rne (q / 2 ^ u) * 2 ^ u := rfl
  rcases lt_or_eq_of_le hm with h | h
  · exact ⟨_, u, hr, h, he⟩
  · rcases abs_eq (by norm_num : (0 : ℤ) ≤ 2 ^ 24) |>.1 h with h | h
    · refine ⟨1, u + 24, ?_, by norm_num, by omega⟩
      rw [hr, h, zpow_add₀ (by norm_num)]; push_cast; norm_num [mul_comm]
    · refine ⟨-1, u + 24, ?_, by norm_num, by omega⟩
      rw [hr, h, zpow_add₀ (by norm_num)]; push_cast; norm_num [mul_comm]

/-- Rounding twice is rounding once. -/
theorem rnd_idem (q : ℚ) : f32.rnd (f32.rnd q) = f32.rnd q := by
  obtain ⟨m, e, h1, h2, h3⟩ := rnd_form q
  exact rnd_dyadic m e h1 h2 h3

/-- Twice a value is exact. -/
theorem rnd_double {r : ℚ} (h : f32.rnd r = r) : f32.rnd (2 * r) = 2 * r := by
  obtain ⟨m, e, h1, h2, h3⟩ := rnd_form r
  refine rnd_dyadic m (e + 1) ?_ h2 (by omega)
  rw [← h, h1, zpow_add₀ (by norm_num)]
  ring

/-- `x` is within relative error `e` of `y > 0`. -/
def Rel (e x y : ℚ) : Prop := y * (1 - e) ≤ x ∧ x ≤ y * (1 + e)

namespace Rel
variable {e e' x y x' y' : ℚ}

theorem mono (h : Rel e x y) (he : e ≤ e') (hy : 0 ≤ y) : Rel e' x y := by
  obtain ⟨h1, h2⟩ := h
  have : y * e ≤ y * e' := by gcongr
  constructor <;> linarith

theorem pos (h : Rel e x y) (he : e < 1) (hy : 0 < y) : 0 < x :=
  lt_of_lt_of_le (mul_pos hy (by linarith)) h.1

theorem mul (h : Rel e x y) (h' : Rel e' x' y') (he0 : 0 ≤ e) (he0' : 0 ≤ e') (he : e < 1) (he' : e' < 1)
    (hy : 0 < y) (hy' : 0 < y') : Rel (e + e' + e * e') (x * x') (y * y') := by
  have hx := h.pos he hy
  have hx' := h'.pos he' hy'
  have a := mul_le_mul h.1 h'.1 (mul_nonneg hy'.le (by linarith)) hx.le
  have b := mul_le_mul h.2 h'.2 hx'.le (mul_nonneg hy.le (by linarith))
  have e1 : y * (1 - e) * (y' * (1 - e')) = y * y' * (1 - (e + e' + e * e')) + 2 * (y * y') * (e * e') := by ring
  have e2 : y * (1 + e) * (y' * (1 + e')) = y * y' * (1 + (e + e' + e * e')) := by ring
  have : 0 ≤ 2 * (y * y') * (e * e') := by positivity
  constructor <;> linarith

theorem div (h : Rel e x y) (h' : Rel e' x' y') (he0 : 0 ≤ e) (he0' : 0 ≤ e') (he' : e' < 1)
    (hy : 0 < y) (hy' : 0 < y') : Rel ((e + e') / (1 - e')) (x / x') (y / y') := by
  have hx' := h'.pos he' hy'
  have h1 : 0 < 1 - e' := by linarith
  constructor
  · rw [le_div_iff₀ hx']
    have : y / y' * (1 - (e + e') / (1 - e')) * x' ≤ y * (1 - e) := by
      rcases le_total (1 - (e + e') / (1 - e')) 0 with hn | hp
      · rcases le_total e 1 with h1' | h1'
        · have : y / y' * (1 - (e + e') / (1 - e')) * x' ≤ 0 := by
            have := mul_nonneg (div_nonneg hy.le hy'.le) hx'.le
            nlinarith
          have : 0 ≤ y * (1 - e) := mul_nonneg hy.le (by linarith)
          linarith
        · -- e ≥ 1: compare directly
          have k : y / y' * (1 - (e + e') / (1 - e')) * x' ≤ y / y' * (1 - (e + e') / (1 - e')) * (y' * (1 - e')) := by
            have h3 := h'.1
            have : y / y' * (1 - (e + e') / (1 - e')) ≤ 0 := mul_nonpos_of_nonneg_of_nonpos (div_nonneg hy.le hy'.le) hn
            nlinarith
          refine k.trans ?_
          have : y / y' * (1 - (e + e') / (1 - e')) * (y' * (1 - e')) = y * (1 - e' - (e + e')) := by
            field_simp
          rw [this]
          have : 0 ≤ y * e' := by positivity
          nlinarith
      · have k : y / y' * (1 - (e + e') / (1 - e')) * x' ≤ y / y' * (1 - (e + e') / (1 - e')) * (y' * (1 + e')) := by
          have h3 := h'.2
          gcongr
        refine k.trans ?_
        have : y / y' * (1 - (e + e') / (1 - e')) * (y' * (1 + e')) = y * ((1 + e') - (e + e') * ((1 + e') / (1 - e'))) := by
          field_simp
        rw [this]
        have : 1 ≤ (1 + e') / (1 - e') := by rw [le_div_iff₀ h1]; linarith
        have : (e + e') * 1 ≤ (e + e') * ((1 + e') / (1 - e')) := by gcongr
        nlinarith
    linarith [h.1]
  · rw [div_le_iff₀ hx']
    have : y / y' * (1 + (e + e') / (1 - e')) * (y' * (1 - e')) ≤ y / y' * (1 + (e + e') / (1 - e')) * x' := by
      have h3 := h'.1
      have : 0 ≤ y / y' * (1 + (e + e') / (1 - e')) := by positivity
      gcongr
    have e2 : y / y' * (1 + (e + e') / (1 - e')) * (y' * (1 - e')) = y * (1 + e) := by
      field_simp; ring
    linarith [h.2]

theorem rnd (h : Rel e x y) (_he : 0 ≤ e) (_hy : 0 ≤ y) (ht : 1 / 2 ^ 100 ≤ x) : Rel (e + (1 + e) / 2 ^ 24) (f32.rnd x) y := by
  have hr := rnd_near (F := f32) (Or.inl rfl) (Or.inr ht)
  rw [show (f32.p) = 24 from rfl, abs_le] at hr
  have : x / 2 ^ 24 ≤ y * (1 + e) / 2 ^ 24 := by have := h.2; gcongr
  have e1 : y * (1 - (e + (1 + e) / 2 ^ 24)) = y * (1 - e) - y * (1 + e) / 2 ^ 24 := by ring
  have e2 : y * (1 + (e + (1 + e) / 2 ^ 24)) = y * (1 + e) + y * (1 + e) / 2 ^ 24 := by ring
  have := h.1
  have := h.2
  constructor <;> linarith

theorem refl (x : ℚ) : Rel 0 x x := ⟨by linarith, by linarith⟩

end Rel

/-- An integer as a float. -/
theorem ofNat_rel {n : ℕ} (h0 : 0 < n) (h : n < 2 ^ 32) :
    ∃ q, Fl.ofNat f32 n = .fin q ∧ Rel (1 / 2 ^ 24) q n ∧ f32.rnd q = q := by
  refine ⟨f32.rnd n, ?_, ?_, rnd_idem _⟩
  · unfold Fl.ofNat
    refine ofRat32 ?_
    rw [abs_of_nonneg (by positivity)]
    calc (n : ℚ) ≤ 2 ^ 32 := by exact_mod_cast h.le
      _ ≤ 2 ^ 127 := by norm_num
  · have := (Rel.refl (n : ℚ)).rnd le_rfl (by positivity) (by
      calc (1 : ℚ) / 2 ^ 100 ≤ 1 := by norm_num
        _ ≤ n := by exact_mod_cast h0)
    norm_num at this ⊢
    exact this

end Verif
