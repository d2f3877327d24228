import Verif.Proofs.Hue

/-!
# The arithmetic of the gradients
-/

namespace Verif

theorem ofRatF {F : Fmt} (hF : F = f32 ∨ F = f64) {q : ℚ} (h : |q| ≤ 2 ^ 100) : F.ofRat q = .fin (F.rnd q) := by
  rcases hF with rfl | rfl
  · exact ofRat32 (h.trans (by norm_num))
  · exact ofRat64 (two_1023 h)

theorem p_pos {F : Fmt} (hF : F = f32 ∨ F = f64) : 0 < F.p := by rcases hF with rfl | rfl <;> decide

theorem rnd_intF {F : Fmt} (hF : F = f32 ∨ F = f64) {n : ℤ} (hn : |n| < 2 ^ F.p) : F.rnd n = n :=
  F.rnd_int hn (by rcases hF with rfl | rfl <;> decide)

theorem rnd_zeroF (F : Fmt) : F.rnd 0 = 0 := by simp [Fmt.rnd, rne]

theorem rnd_oneF {F : Fmt} (hF : F = f32 ∨ F = f64) : F.rnd 1 = 1 := by
  have := rnd_intF hF (n := 1) (by rcases hF with rfl | rfl <;> decide)
  simpa using this

/-- The interpolation ratio as computed. -/
def ratioQ (F : Fmt) (y h : ℕ) : ℚ := F.rnd (F.rnd y / F.rnd h)

/-- The interpolated value as computed, before the cast. -/
def lerpQ (F : Fmt) (a b : ℕ) (t : ℚ) : ℚ := F.rnd (a + F.rnd (((b : ℤ) - a : ℤ) * t))

variable {F : Fmt}

theorem one_le_rnd (hF : F = f32 ∨ F = f64) {h : ℕ} (hh : 1 ≤ h) : 1 ≤ F.rnd h := by
  rw [← rnd_oneF hF]; exact F.rnd_mono' (p_pos hF) (by exact_mod_cast hh)

theorem ratioQ_bounds (hF : F = f32 ∨ F = f64) {y h : ℕ} (hh : 1 ≤ h) (hy : y ≤ h) :
    0 ≤ ratioQ F y h ∧ ratioQ F y h ≤ 1 := by
  have h1 := one_le_rnd hF hh
  have h0 : 0 ≤ F.rnd y := F.rnd_nonneg (by positivity)
  refine ⟨F.rnd_nonneg (by positivity), ?_⟩
  rw [← rnd_oneF hF]
  apply F.rnd_mono' (p_pos hF)
  rw [div_le_one (by linarith)]
  exact F.rnd_mono' (p_pos hF) (by exact_mod_cast hy)

theorem ratioQ_mono (hF : F = f32 ∨ F = f64) {y z h : ℕ} (hh : 1 ≤ h) (hy : y ≤ z) : ratioQ F y h ≤ ratioQ F z h := by
  have h1 := one_le_rnd hF hh
  apply F.rnd_mono' (p_pos hF)
  exact div_le_div_of_nonneg_right (F.rnd_mono' (p_pos hF) (by exact_mod_cast hy)) (by linarith)

theorem ratioQ_zero (h : ℕ) : ratioQ F 0 h = 0 := by simp [ratioQ]

theorem ratioQ_one (hF : F = f32 ∨ F = f64) {h : ℕ} (hh : 1 ≤ h) : ratioQ F h h = 1 := by
  have h1 := one_le_rnd hF hh
  unfold ratioQ
  rw [div_self (by linarith), rnd_oneF hF]

theorem natAbs_sub_lt {a b n : ℕ} (ha : a < n) (hb : b < n) : |((b : ℤ) - a : ℤ)| < n := by
  rw [abs_lt]; constructor <;> omega

/-- Between the end points. -/
theorem lerpQ_bounds (hF : F = f32 ∨ F = f64) {a b : ℕ} (ha : a < 2 ^ F.p) (hb : b < 2 ^ F.p) {t : ℚ} (h0 : 0 ≤ t)
    (h1 : t ≤ 1) : (min a b : ℕ) ≤ lerpQ F a b t ∧ lerpQ F a b t ≤ (max a b : ℕ) := by
  have hd : |((b : ℤ) - a : ℤ)| < 2 ^ F.p := by exact_mod_cast natAbs_sub_lt ha hb
  have ed := rnd_intF hF hd
  have ea : F.rnd (a : ℚ) = a := by
    have := rnd_intF hF (n := a) (by rw [abs_of_nonneg (by positivity)]; exact_mod_cast ha); exact_mod_cast this
  have eb : F.rnd (b : ℚ) = b := by
    have := rnd_intF hF (n := b) (by rw [abs_of_nonneg (by positivity)]; exact_mod_cast hb); exact_mod_cast this
  rcases le_total a b with h | h
  · rw [min_eq_left h, max_eq_right h]
    have hq : (0 : ℚ) ≤ (((b : ℤ) - a : ℤ) : ℚ) := by
      have : (0 : ℤ) ≤ (b : ℤ) - a := by omega
      exact_mod_cast this
    have l : 0 ≤ F.rnd ((((b : ℤ) - a : ℤ) : ℚ) * t) := F.rnd_nonneg (mul_nonneg hq h0)
    have u : F.rnd ((((b : ℤ) - a : ℤ) : ℚ) * t) ≤ (((b : ℤ) - a : ℤ) : ℚ) := by
      have := F.rnd_mono' (p_pos hF) (mul_le_of_le_one_right hq h1)
      rwa [ed] at this
    constructor
    · rw [← ea]; exact F.rnd_mono' (p_pos hF) (by linarith)
    · rw [← eb]; exact F.rnd_mono' (p_pos hF) (by push_cast at u ⊢; linarith)
  · rw [min_eq_right h, max_eq_left h]
    have hq : (((b : ℤ) - a : ℤ) : ℚ) ≤ 0 := by
      have : (b : ℤ) - a ≤ 0 := by omega
      exact_mod_cast this
    have u : F.rnd ((((b : ℤ) - a : ℤ) : ℚ) * t) ≤ 0 := by
      have := F.rnd_mono' (p_pos hF) (mul_nonpos_of_nonpos_of_nonneg hq h0)
      rwa [rnd_zeroF] at this
    have l : (((b : ℤ) - a : ℤ) : ℚ) ≤ F.rnd ((((b : ℤ) - a : ℤ) : ℚ) * t) := by
      have h2 : (((b : ℤ) - a : ℤ) : ℚ) ≤ (((b : ℤ) - a : ℤ) : ℚ) * t := by
        have := mul_le_mul_of_nonpos_left h1 hq; linarith
      have := F.rnd_mono' (p_pos hF) h2
      rwa [ed] at this
    constructor
    · rw [← eb]; exact F.rnd_mono' (p_pos hF) (by push_cast at l ⊢; linarith)
    · rw [← ea]; exact F.rnd_mono' (p_pos hF) (by linarith)

theorem lerpQ_mono (hF : F = f32 ∨ F = f64) {a b : ℕ} (h : a ≤ b) {t u : ℚ} (htu : t ≤ u) :
    lerpQ F a b t ≤ lerpQ F a b u := by
  have hq : (0 : ℚ) ≤ (((b : ℤ) - a : ℤ) : ℚ) := by
    have : (0 : ℤ) ≤ (b : ℤ) - a := by omega
    exact_mod_cast this
  apply F.rnd_mono' (p_pos hF)
  have := F.rnd_mono' (p_pos hF) (mul_le_mul_of_nonneg_left htu hq)
  linarith

theorem lerpQ_anti (hF : F = f32 ∨ F = f64) {a b : ℕ} (h : b ≤ a) {t u : ℚ} (htu : t ≤ u) :
    lerpQ F a b u ≤ lerpQ F a b t := by
  have hq : (((b : ℤ) - a : ℤ) : ℚ) ≤ 0 := by
    have : (b : ℤ) - a ≤ 0 := by omega
    exact_mod_cast this
  apply F.rnd_mono' (p_pos hF)
  have := F.rnd_mono' (p_pos hF) (mul_le_mul_of_nonpos_left htu hq)
  linarith

theorem lerpQ_start (hF : F = f32 ∨ F = f64) {a b : ℕ} (ha : a < 2 ^ F.p) : lerpQ F a b 0 = a := by
  have := rnd_intF hF (n := a) (by rw [abs_of_nonneg (by positivity)]; exact_mod_cast ha)
  simpa [lerpQ, rnd_zeroF] using this

theorem lerpQ_stop (hF : F = f32 ∨ F = f64) {a b : ℕ} (ha : a < 2 ^ F.p) (hb : b < 2 ^ F.p) : lerpQ F a b 1 = b := by
  have hd : |((b : ℤ) - a : ℤ)| < 2 ^ F.p := by exact_mod_cast natAbs_sub_lt ha hb
  unfold lerpQ
  rw [mul_one, rnd_intF hF hd]
  have := rnd_intF hF (n := b) (by rw [abs_of_nonneg (by positivity)]; exact_mod_cast hb)
  rw [show (a : ℚ) + (((b : ℤ) - a : ℤ) : ℚ) = b by push_cast; ring]
  exact_mod_cast this

/-- The ratio is accurate. -/
theorem ratioQ_near (hF : F = f32 ∨ F = f64) {y h : ℕ} (hh : 1 ≤ h) (hy : y ≤ h) :
    |ratioQ F y h - (y : ℚ) / h| ≤ 5 / 2 ^ F.p := by
  have hp : (0 : ℚ) < 2 ^ F.p := by positivity
  have hp24 : (1 : ℚ) / 2 ^ F.p ≤ 1 / 2 ^ 24 := by rcases hF with rfl | rfl <;> norm_num [f32, f64]
  have hp100 : (1 : ℚ) / 2 ^ 100 ≤ 1 / 2 ^ 20 * (1 / 2 ^ F.p) := by
    rcases hF with rfl | rfl <;> norm_num [f32, f64]
  obtain ⟨b0, b1⟩ := ratioQ_bounds hF hh hy
  have e1 := rnd_err hF (y : ℚ)
  have e2 := rnd_err hF (h : ℚ)
  have e3 := rnd_err hF (F.rnd y / F.rnd h)
  set ε : ℚ := 1 / 2 ^ F.p with hε
  set τ : ℚ := 1 / 2 ^ 100
  have div_ε : ∀ x : ℚ, x / 2 ^ F.p = x * ε := fun x => by rw [hε]; ring
  rw [div_ε] at e1 e2 e3
  rw [show (5 : ℚ) / 2 ^ F.p = 5 * ε from div_ε 5]
  have hε0 : 0 < ε := by positivity
  have hτ0 : 0 ≤ τ := by positivity
  clear_value ε τ
  have hh1 : (1 : ℚ) ≤ h := by exact_mod_cast hh
  have hyh : (y : ℚ) ≤ h := by exact_mod_cast hy
  have hy0 : (0 : ℚ) ≤ y := by positivity
  rw [abs_of_nonneg hy0] at e1
  rw [abs_of_nonneg (by positivity : (0 : ℚ) ≤ h)] at e2
  have h1 := one_le_rnd hF hh
  set Y := F.rnd (y : ℚ)
  set H := F.rnd (h : ℚ)
  have hY0 : 0 ≤ Y := F.rnd_nonneg hy0
  have hYH : Y ≤ H := F.rnd_mono' (p_pos hF) hyh
  have hq0 : 0 ≤ Y / H := by positivity
  have hq1 : Y / H ≤ 1 := by rw [div_le_one (by linarith)]; exact hYH
  rw [abs_of_nonneg hq0] at e3
  have e4 : |Y / H - (y : ℚ) / h| ≤ 3 * ε := by
    have hHp : 0 < H := by linarith
    have hhp : (0 : ℚ) < h := by linarith
    have : Y / H - (y : ℚ) / h = ((Y - y) * h - y * (H - h)) / (H * h) := by field_simp; ring
    rw [this, abs_div, abs_of_pos (by positivity : 0 < H * h), div_le_iff₀ (by positivity)]
    have n1 : |(Y - y) * h - y * (H - h)| ≤ (y * ε + τ) * h + y * (h * ε + τ) := by
      refine (abs_sub _ _).trans (add_le_add ?_ ?_)
      · rw [abs_mul, abs_of_pos hhp]; exact mul_le_mul_of_nonneg_right e1 hhp.le
      · rw [abs_mul, abs_of_nonneg hy0]; exact mul_le_mul_of_nonneg_left e2 hy0
    have n2 : h * (1 - 1 / 2 ^ 10) ≤ H := by
      rw [abs_le] at e2
      have : (h : ℚ) * ε ≤ h * (1 / 2 ^ 24) := mul_le_mul_of_nonneg_left hp24 hhp.le
      have : τ ≤ 1 / 2 ^ 20 := hp100.trans (by have := mul_le_mul_of_nonneg_left hp24 (by norm_num : (0:ℚ) ≤ 1 / 2 ^ 20); linarith)
      linarith [e2.1]
    have n3 : (y * ε + τ) * h + y * (h * ε + τ) ≤ 2 * (h * h * ε) + 2 * (h * τ) := by
      have a1 : (y : ℚ) * ε * h ≤ h * ε * h := by gcongr
      have a2 : (y : ℚ) * (h * ε) ≤ h * (h * ε) := by gcongr
      have a3 : (y : ℚ) * τ ≤ h * τ := mul_le_mul_of_nonneg_right hyh hτ0
      linarith
    have n4 : (h : ℚ) * τ ≤ h * h * (1 / 2 ^ 20 * ε) := by
      have : (h : ℚ) * τ ≤ h * (1 / 2 ^ 20 * ε) := mul_le_mul_of_nonneg_left hp100 hhp.le
      have : (h : ℚ) * (1 / 2 ^ 20 * ε) ≤ h * h * (1 / 2 ^ 20 * ε) := by
        apply mul_le_mul_of_nonneg_right _ (by positivity)
        nlinarith
      linarith
    have n5 : 3 * ε * (h * (1 - 1 / 2 ^ 10) * h) ≤ 3 * ε * (H * h) := by gcongr
    have hhe : 0 ≤ (h : ℚ) * h * ε := by positivity
    have n6 : 3 * ε * ((h : ℚ) * (1 - 1 / 2 ^ 10) * h) = (3 - 3 / 2 ^ 10) * (h * h * ε) := by ring
    have n7 : (h : ℚ) * h * (1 / 2 ^ 20 * ε) = 1 / 2 ^ 20 * (h * h * ε) := by ring
    rw [n6] at n5
    rw [n7] at n4
    linarith
  have e5 : |ratioQ F y h - Y / H| ≤ ε + τ := by
    refine e3.trans ?_
    have : Y / H * ε ≤ 1 * ε := mul_le_mul_of_nonneg_right hq1 hε0.le
    linarith
  have := abs_add_le (ratioQ F y h - Y / H) (Y / H - (y : ℚ) / h)
  rw [sub_add_sub_cancel] at this
  linarith

/-- The interpolated value is accurate. -/
theorem lerpQ_near (hF : F = f32 ∨ F = f64) {a b m : ℕ} (hm1 : 1 ≤ m) (ha : a ≤ m) (hb : b ≤ m) {t r : ℚ}
    (h0 : 0 ≤ t) (h1 : t ≤ 1) (ht : |t - r| ≤ 5 / 2 ^ F.p) :
    |lerpQ F a b t - (a + ((b : ℚ) - a) * r)| ≤ 9 / 2 ^ F.p * m := by
  have hp24 : (1 : ℚ) / 2 ^ F.p ≤ 1 / 2 ^ 24 := by rcases hF with rfl | rfl <;> norm_num [f32, f64]
  have hp100 : (1 : ℚ) / 2 ^ 100 ≤ 1 / 2 ^ 20 * (1 / 2 ^ F.p) := by
    rcases hF with rfl | rfl <;> norm_num [f32, f64]
  have hm : (1 : ℚ) ≤ m := by exact_mod_cast hm1
  have haq : (a : ℚ) ≤ m := by exact_mod_cast ha
  have hbq : (b : ℚ) ≤ m := by exact_mod_cast hb
  have ha0 : (0 : ℚ) ≤ a := by positivity
  have hb0 : (0 : ℚ) ≤ b := by positivity
  set D : ℚ := (b : ℚ) - a with hD
  have hDm : |D| ≤ m := by rw [abs_le]; constructor <;> linarith
  have hDt : |D * t| ≤ m := by
    rw [abs_mul, abs_of_nonneg h0]
    calc |D| * t ≤ m * 1 := mul_le_mul hDm h1 h0 (by linarith)
      _ = m := mul_one _
  have e1 := rnd_err hF (D * t)
  have e2 := rnd_err hF ((a : ℚ) + F.rnd (D * t))
  have hl : lerpQ F a b t = F.rnd ((a : ℚ) + F.rnd (D * t)) := by
    unfold lerpQ; rw [show ((((b : ℤ) - a : ℤ)) : ℚ) = D by push_cast; rfl]
  rw [hl]
  set ε : ℚ := 1 / 2 ^ F.p with hε
  set τ : ℚ := 1 / 2 ^ 100
  have div_ε : ∀ x : ℚ, x / 2 ^ F.p = x * ε := fun x => by rw [hε]; ring
  rw [div_ε] at e1 e2 ht ⊢
  have hε0 : 0 < ε := by positivity
  have hτ : τ ≤ 1 / 2 ^ 20 * ε := hp100
  clear_value ε τ
  set P := F.rnd (D * t)
  have k1 : |D * t| * ε ≤ m * ε := mul_le_mul_of_nonneg_right hDt hε0.le
  have k2 : |P - D * t| ≤ m * ε + τ := e1.trans (by linarith)
  have k3 : |D * t - D * r| ≤ m * (5 * ε) := by
    rw [← mul_sub, abs_mul]; exact mul_le_mul hDm ht (abs_nonneg _) (by linarith)
  have hmε : m * ε ≤ m * (1 / 2 ^ 24) := mul_le_mul_of_nonneg_left hp24 (by linarith)
  have hτ2 : τ ≤ 1 / 2 ^ 20 * (m * ε) := by
    have : ε ≤ m * ε := by nlinarith
    have : 1 / 2 ^ 20 * ε ≤ 1 / 2 ^ 20 * (m * ε) := mul_le_mul_of_nonneg_left this (by norm_num)
    linarith
  have k4 : |(a : ℚ) + P| ≤ 2 * m + 1 / 2 ^ 10 * m := by
    have : |P| ≤ |P - D * t| + |D * t| := by
      have := abs_add_le (P - D * t) (D * t); rwa [sub_add_cancel] at this
    have := abs_add_le (a : ℚ) P
    rw [abs_of_nonneg ha0] at this
    linarith
  have k5 : |(a : ℚ) + P| * ε ≤ (2 * m + 1 / 2 ^ 10 * m) * ε := mul_le_mul_of_nonneg_right k4 hε0.le
  have k6 : |F.rnd ((a : ℚ) + P) - (a + P)| ≤ 2 * (m * ε) + 1 / 2 ^ 10 * (m * ε) + τ := by linarith
  have k7 : F.rnd ((a : ℚ) + P) - (a + D * r) = (F.rnd ((a : ℚ) + P) - (a + P)) + (P - D * t) + (D * t - D * r) := by ring
  rw [k7]
  refine (abs_add_le _ _).trans ?_
  have := abs_add_le (F.rnd ((a : ℚ) + P) - (a + P)) (P - D * t)
  have hmε0 : 0 ≤ m * ε := by positivity
  linarith

/-! ## `lerp` -/

theorem lerpFmt_or (T : Prim) : lerpFmt T = f32 ∨ lerpFmt T = f64 := by cases T <;> simp [lerpFmt]

theorem max_lt_p {T : Prim} (hT : T ≠ .u64) : T.max < 2 ^ (lerpFmt T).p := by
  cases T
  · decide
  · decide
  · decide
  · exact absurd rfl hT

theorem ofNatF (hF : F = f32 ∨ F = f64) {n : ℕ} (hn : n < 2 ^ F.p) : Fl.ofNat F n = .fin n := by
  unfold Fl.ofNat
  rw [ofRatF hF, show F.rnd (n : ℚ) = n by
    have := rnd_intF hF (n := n) (by rw [abs_of_nonneg (by positivity)]; exact_mod_cast hn); exact_mod_cast this]
  rw [abs_of_nonneg (by positivity)]
  have : (n : ℚ) ≤ 2 ^ F.p := by exact_mod_cast hn.le
  refine this.trans ?_
  rcases hF with rfl | rfl <;> norm_num [f32, f64]

/-- The ratio as the code computes it. -/
theorem ratio_ok (hF : F = f32 ∨ F = f64) {y h : ℕ} (hh : 1 ≤ h) (hy : y ≤ h) (h32 : h < 2 ^ 32) :
    (Fl.ofNat F y).div F (Fl.ofNat F h) = .fin (ratioQ F y h) := by
  have big : ∀ n : ℕ, n < 2 ^ 32 → Fl.ofNat F n = .fin (F.rnd n) := by
    intro n hn
    apply ofRatF hF
    rw [abs_of_nonneg (by positivity)]
    have : (n : ℚ) ≤ 2 ^ 32 := by exact_mod_cast hn.le
    exact this.trans (by norm_num)
  rw [big y (by omega), big h h32]
  have h1 := one_le_rnd hF hh
  have h0 : 0 ≤ F.rnd y := F.rnd_nonneg (by positivity)
  have hYH : F.rnd y ≤ F.rnd h := F.rnd_mono' (p_pos hF) (by exact_mod_cast hy)
  simp only [Fl.div]
  rw [if_neg (by linarith)]
  apply ofRatF hF
  rw [abs_of_nonneg (by positivity)]
  have : F.rnd y / F.rnd h ≤ 1 := by rw [div_le_one (by linarith)]; exact hYH
  exact this.trans (by norm_num)

theorem lerp_ok {T : Prim} (hT : T ≠ .u64) {a b : ℕ} (ha : a ≤ T.max) (hb : b ≤ T.max) {t : ℚ} (h0 : 0 ≤ t) (h1 : t ≤ 1) :
    lerp T a b (.fin t) = .ok ⌊lerpQ (lerpFmt T) a b t⌋.toNat := by
  have hF := lerpFmt_or T
  have hm := max_lt_p hT
  set F := lerpFmt T with hFd
  have ha' : a < 2 ^ F.p := by omega
  have hb' : b < 2 ^ F.p := by omega
  obtain ⟨l, u⟩ := lerpQ_bounds hF ha' hb' h0 h1
  have hd : |((b : ℤ) - a : ℤ)| < 2 ^ F.p := by exact_mod_cast natAbs_sub_lt ha' hb'
  have hpb : (2 : ℚ) ^ F.p ≤ 2 ^ 53 := by rcases hF with h | h <;> rw [h] <;> norm_num [f32, f64]
  have hdq : |(((b : ℤ) - a : ℤ) : ℚ)| ≤ 2 ^ 53 := by
    have : |(((b : ℤ) - a : ℤ) : ℚ)| ≤ 2 ^ F.p := by exact_mod_cast hd.le
    linarith
  have s1 : (Fl.fin (b : ℚ)).sub F (.fin a) = .fin (((b : ℤ) - a : ℤ) : ℚ) := by
    show F.ofRat ((b : ℚ) + -a) = _
    rw [show (b : ℚ) + -a = (((b : ℤ) - a : ℤ) : ℚ) by push_cast; ring, ofRatF hF (hdq.trans (by norm_num)), rnd_intF hF hd]
  set D : ℚ := (((b : ℤ) - a : ℤ) : ℚ)
  have hDt : |D * t| ≤ 2 ^ 53 := by
    rw [abs_mul, abs_of_nonneg h0]
    calc |D| * t ≤ 2 ^ 53 * 1 := mul_le_mul hdq h1 h0 (by norm_num)
      _ = 2 ^ 53 := mul_one _
  have s2 : (Fl.fin D).mul F (.fin t) = .fin (F.rnd (D * t)) := ofRatF hF (hDt.trans (by norm_num))
  have hP : |F.rnd (D * t)| ≤ 2 ^ 54 := by
    have e := rnd_err hF (D * t)
    have : |F.rnd (D * t)| ≤ |F.rnd (D * t) - D * t| + |D * t| := by
      have := abs_add_le (F.rnd (D * t) - D * t) (D * t); rwa [sub_add_cancel] at this
    have h3 : |D * t| / 2 ^ F.p ≤ |D * t| / 2 ^ 24 := by
      apply div_le_div_of_nonneg_left (abs_nonneg _) (by norm_num)
      rcases hF with h | h <;> rw [h] <;> norm_num [f32, f64]
    have h4 : |D * t| / 2 ^ 24 ≤ 2 ^ 53 / 2 ^ 24 := div_le_div_of_nonneg_right hDt (by norm_num)
    have : (1 : ℚ) / 2 ^ 100 ≤ 1 := by norm_num
    linarith
  have s3 : (Fl.fin (a : ℚ)).add F (.fin (F.rnd (D * t))) = .fin (lerpQ F a b t) := by
    apply ofRatF hF
    refine (abs_add_le _ _).trans ?_
    rw [abs_of_nonneg (by positivity : (0 : ℚ) ≤ a)]
    have : (a : ℚ) ≤ 2 ^ F.p := by exact_mod_cast ha'.le
    have : (2 : ℚ) ^ 53 + 2 ^ 54 ≤ 2 ^ 100 := by norm_num
    linarith
  have hl0 : 0 ≤ lerpQ F a b t := le_trans (by positivity) l
  have hum : lerpQ F a b t ≤ T.max := by
    refine u.trans ?_
    exact_mod_cast max_le ha hb
  unfold lerp
  simp only [← hFd]
  rw [ofNatF hF ha', ofNatF hF hb', ofNatF hF hm, s1, s2, s3]
  rw [if_neg (by simp [Fl.lt, hum]), if_neg (by simp [Fl.lt, hl0]), castU_ok hl0 (by linarith)]
  rfl

end Verif
