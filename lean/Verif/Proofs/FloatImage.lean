import Verif.Model.FloatImage
import Verif.Proofs.Contrast
import Verif.Proofs.Hue

/-!
# Arithmetic for the colour operations on `f32` samples
-/

namespace Verif

/-- The difference of 1 and an `f32` between 1/2 and 1 is an `f32`. -/
theorem sub_one_exact {w : ℚ} (hr : f32.rnd w = w) (h0 : 1 / 2 ≤ w) (h1 : w ≤ 1) : f32.rnd (1 - w) = 1 - w := by
  obtain ⟨m, e, hm, hb, he⟩ := rnd_form w
  rw [hr] at hm
  have he24 : -24 ≤ e := by
    by_contra hlt
    have h2 : (2 : ℚ) ^ e ≤ 2 ^ (-25 : ℤ) := zpow_le_zpow_right₀ (by norm_num) (by omega)
    have h3 : (m : ℚ) ≤ 2 ^ 24 - 1 := by
      have : m ≤ 2 ^ 24 - 1 := by have := (abs_lt.1 hb).2; omega
      exact_mod_cast this
    have hp : (0 : ℚ) < 2 ^ e := zpow_pos (by norm_num) e
    have : (m : ℚ) * 2 ^ e ≤ (2 ^ 24 - 1) * 2 ^ (-25 : ℤ) := by
      calc (m : ℚ) * 2 ^ e ≤ (2 ^ 24 - 1) * 2 ^ e := mul_le_mul_of_nonneg_right h3 hp.le
        _ ≤ _ := mul_le_mul_of_nonneg_left h2 (by norm_num)
    have h4 : ((2 : ℚ) ^ 24 - 1) * 2 ^ (-25 : ℤ) < 1 / 2 := by norm_num
    rw [hm] at h0
    exact absurd (h0.trans this) (not_le.2 h4)
  obtain ⟨k, hk⟩ : ∃ k : ℕ, e = -24 + k := ⟨(e + 24).toNat, by omega⟩
  have hw : w = ((m * 2 ^ k : ℤ) : ℚ) * 2 ^ (-24 : ℤ) := by
    rw [hm, hk, zpow_add₀ (by norm_num)]
    push_cast
    rw [zpow_natCast]; ring
  set K : ℤ := m * 2 ^ k
  have hK0 : 0 < K := by
    have : (0 : ℚ) < (K : ℚ) * 2 ^ (-24 : ℤ) := by rw [← hw]; linarith
    have h : (0 : ℚ) < K := by
      by_contra hn
      have := mul_nonpos_of_nonpos_of_nonneg (not_lt.1 hn) (zpow_pos (show (0 : ℚ) < 2 by norm_num) (-24)).le
      linarith
    exact_mod_cast h
  have hK1 : K ≤ 2 ^ 24 := by
    have : (K : ℚ) * 2 ^ (-24 : ℤ) ≤ 1 := by rw [← hw]; exact h1
    have h : (K : ℚ) ≤ 2 ^ 24 := by
      have h2 : (2 : ℚ) ^ (-24 : ℤ) = 1 / 2 ^ 24 := by norm_num
      rw [h2] at this
      have h3 : (K : ℚ) * (1 / 2 ^ 24) = K / 2 ^ 24 := by ring
      rw [h3, div_le_one (by norm_num)] at this
      exact this
    exact_mod_cast h
  refine rnd_dyadic (2 ^ 24 - K) (-24) ?_ ?_ (by norm_num)
  · rw [hw]; push_cast; norm_num; ring
  · rw [abs_lt]; constructor <;> omega

theorem rnd_unit_err {q : ℚ} (h : |q| ≤ 1) : |f32.rnd q - q| ≤ 1 / 2 ^ 23 := by
  have := rnd_err32 q
  have h2 : |q| / 2 ^ 24 ≤ 1 / 2 ^ 24 := div_le_div_of_nonneg_right h (by norm_num)
  have h3 : (1 : ℚ) / 2 ^ 24 + 1 / 2 ^ 100 ≤ 1 / 2 ^ 23 := by norm_num
  linarith

theorem rnd32_one : f32.rnd 1 = 1 := by
  have := rnd_nat32 (n := 1) (by norm_num)
  simpa using this

theorem rnd_between {q a b : ℚ} (ha : f32.rnd a = a) (hb : f32.rnd b = b) (h0 : a ≤ q) (h1 : q ≤ b) : a ≤ f32.rnd q ∧ f32.rnd q ≤ b := by
  have h := Fmt.rnd_mono' (F := f32) (by decide) h0
  have h' := Fmt.rnd_mono' (F := f32) (by decide) h1
  rw [ha] at h; rw [hb] at h'
  exact ⟨h, h'⟩

theorem invertSampleF_fin {v : ℚ} (h0 : 0 ≤ v) (h1 : v ≤ 1) : invertSampleF (.fin v) = .fin (f32.rnd (1 - v)) := by
  unfold invertSampleF
  rw [fl_sub, ofRat32]
  rw [abs_of_nonneg (by linarith)]
  exact (show 1 - v ≤ 1 by linarith).trans (by norm_num)

/-! ## Contrast -/

/-- The sample `contrast` stores. -/
def contrastedF (percent v : Fl) : Fl :=
  clampF (((((v.div f32 (.fin 1)).sub f32 (.fin (1 / 2))).mul f32 percent).add f32 (.fin (1 / 2))).mul f32 (.fin 1)) (.fin 0) (.fin 1)

theorem contrastSample_float (percent v : Fl) : contrastSample Samp.float percent v = .ok (contrastedF percent v) := rfl

/-- The exact result of `contrast` on the scale from 0 to 1, before it is cut. -/
def exactContrastF (q v : ℚ) : ℚ := (v - 1 / 2) * exactPct q + 1 / 2

theorem contrast_float_eq {v p : ℚ} (hr : f32.rnd v = v) (h0 : 0 ≤ v) (h1 : v ≤ 1) (hp0 : 0 ≤ p) (hp : p ≤ 5) :
    contrastedF (.fin p) (.fin v) = .fin (max 0 (min (f32.rnd (f32.rnd (f32.rnd (f32.rnd (v - 1 / 2) * p) + 1 / 2))) 1)) ∧
      |f32.rnd (v - 1 / 2)| ≤ 1 / 2 ∧ |f32.rnd (f32.rnd (v - 1 / 2) * p)| ≤ 5 := by
  have rh : f32.rnd (1 / 2) = 1 / 2 := rnd32_half
  have rh' : f32.rnd (-(1 / 2)) = -(1 / 2) := by rw [Fmt.rnd_neg, rh]
  have r5 : f32.rnd 5 = 5 := by have := rnd_nat32 (n := 5) (by norm_num); simpa using this
  have r5' : f32.rnd (-5) = -5 := by rw [Fmt.rnd_neg, r5]
  obtain ⟨x0, x1⟩ := rnd_between rh' rh (show -(1 / 2) ≤ v - 1 / 2 by linarith) (show v - 1 / 2 ≤ 1 / 2 by linarith)
  set x := f32.rnd (v - 1 / 2)
  have hxp : -5 ≤ x * p ∧ x * p ≤ 5 := by constructor <;> nlinarith
  obtain ⟨y0, y1⟩ := rnd_between r5' r5 hxp.1 hxp.2
  set y := f32.rnd (x * p)
  have hz : |y + 1 / 2| ≤ 6 := by rw [abs_le]; constructor <;> linarith
  have hz2 : |f32.rnd (y + 1 / 2) * 1| ≤ 7 := by
    have := rnd_err32 (y + 1 / 2)
    rw [abs_le] at this hz
    have h2 : |y + 1 / 2| / 2 ^ 24 ≤ 6 / 2 ^ 24 := div_le_div_of_nonneg_right (by rw [abs_le]; exact hz) (by norm_num)
    rw [abs_le]; constructor <;> linarith
  refine ⟨?_, by rw [abs_le]; exact ⟨x0, x1⟩, by rw [abs_le]; exact ⟨y0, y1⟩⟩
  unfold contrastedF
  rw [fl_div _ (by norm_num), div_one, ofRat32 (by rw [abs_of_nonneg h0]; exact h1.trans (by norm_num)), hr, fl_sub,
    ofRat32 (by rw [abs_le]; constructor <;> linarith [show (1 : ℚ) ≤ 2 ^ 127 by norm_num]), fl_mul,
    ofRat32 (by rw [abs_le]; constructor <;> linarith [show (5 : ℚ) ≤ 2 ^ 127 by norm_num]), fl_add,
    ofRat32 (hz.trans (by norm_num)), fl_mul, ofRat32 (hz2.trans (by norm_num)), mul_one, clampF_fin (by norm_num)]

theorem exactPct_bound {q : ℚ} (hq : |q| ≤ 100) : 0 ≤ exactPct q ∧ exactPct q ≤ 4 := by
  rw [abs_le] at hq
  unfold exactPct
  constructor
  · positivity
  · nlinarith

theorem pct_small {q : ℚ} (hq : |q| ≤ 100) :
    ∃ p : ℚ, contrastPercent (.fin q) = .fin p ∧ 0 ≤ p ∧ p ≤ 5 ∧ |p - exactPct q| ≤ 33 / 2 ^ 24 := by
  obtain ⟨p, h1, h2, h3⟩ := pct_near (q := q) (hq.trans (by norm_num))
  obtain ⟨a, b⟩ := exactPct_bound hq
  have h4 : |p - exactPct q| ≤ 33 / 2 ^ 24 := by
    refine h3.trans ?_
    have : 8 / 2 ^ 24 * exactPct q ≤ 8 / 2 ^ 24 * 4 := mul_le_mul_of_nonneg_left b (by norm_num)
    linarith [show (8 : ℚ) / 2 ^ 24 * 4 + 1 / 2 ^ 45 ≤ 33 / 2 ^ 24 by norm_num]
  refine ⟨p, h1, h2, ?_, h4⟩
  rw [abs_le] at h4
  linarith [show (33 : ℚ) / 2 ^ 24 ≤ 1 by norm_num]

theorem contrast_float_near {q v : ℚ} (hq : |q| ≤ 100) (hr : f32.rnd v = v) (h0 : 0 ≤ v) (h1 : v ≤ 1) :
    ∃ r : ℚ, contrastedF (contrastPercent (.fin q)) (.fin v) = .fin r ∧ 0 ≤ r ∧ r ≤ 1 ∧
      |r - max 0 (min (exactContrastF q v) 1)| ≤ 1 / 2 ^ 19 := by
  obtain ⟨p, e1, p0, p5, pn⟩ := pct_small hq
  obtain ⟨P0, P4⟩ := exactPct_bound hq
  obtain ⟨e2, bx, by'⟩ := contrast_float_eq hr h0 h1 p0 p5
  rw [e1, e2]
  refine ⟨_, rfl, le_max_left _ _, max_le (by norm_num) (min_le_right _ _), ?_⟩
  refine (clamp_lipschitz _ _ _).trans ?_
  have ex := rnd_err32 (v - 1 / 2)
  have ev : |v - 1 / 2| ≤ 1 / 2 := by rw [abs_le]; constructor <;> linarith
  set x := f32.rnd (v - 1 / 2)
  have ey := rnd_err32 (x * p)
  have hxp : |x * p| ≤ 5 / 2 := by
    rw [abs_mul, abs_of_nonneg p0]; nlinarith [abs_nonneg x]
  set y := f32.rnd (x * p)
  have ez := rnd_err32 (y + 1 / 2)
  rw [rnd_idem]
  set z := f32.rnd (y + 1 / 2)
  have t1 : |v - 1 / 2| / 2 ^ 24 ≤ 1 / 2 / 2 ^ 24 := div_le_div_of_nonneg_right ev (by norm_num)
  have t2 : |x * p| / 2 ^ 24 ≤ 5 / 2 / 2 ^ 24 := div_le_div_of_nonneg_right hxp (by norm_num)
  have hy1 : |y + 1 / 2| ≤ 11 / 2 := by
    rw [abs_le] at by' ⊢; constructor <;> linarith
  have t3 : |y + 1 / 2| / 2 ^ 24 ≤ 11 / 2 / 2 ^ 24 := div_le_div_of_nonneg_right hy1 (by norm_num)
  have k1 : |(x - (v - 1 / 2)) * p| ≤ (1 / 2 / 2 ^ 24 + 1 / 2 ^ 100) * 5 := by
    rw [abs_mul, abs_of_nonneg p0]
    exact mul_le_mul (by linarith) p5 p0 (by norm_num)
  have k2 : |(v - 1 / 2) * (p - exactPct q)| ≤ 1 / 2 * (33 / 2 ^ 24) := by
    rw [abs_mul]; exact mul_le_mul ev pn (abs_nonneg _) (by norm_num)
  have : z - exactContrastF q v = (z - (y + 1 / 2)) + (y - x * p) + (x - (v - 1 / 2)) * p + (v - 1 / 2) * (p - exactPct q) := by
    unfold exactContrastF; ring
  rw [this]
  have a1 := abs_add_le ((z - (y + 1 / 2)) + (y - x * p) + (x - (v - 1 / 2)) * p) ((v - 1 / 2) * (p - exactPct q))
  have a2 := abs_add_le ((z - (y + 1 / 2)) + (y - x * p)) ((x - (v - 1 / 2)) * p)
  have a3 := abs_add_le (z - (y + 1 / 2)) (y - x * p)
  have fin : (11 : ℚ) / 2 / 2 ^ 24 + 1 / 2 ^ 100 + (5 / 2 / 2 ^ 24 + 1 / 2 ^ 100) + (1 / 2 / 2 ^ 24 + 1 / 2 ^ 100) * 5 + 1 / 2 * (33 / 2 ^ 24) ≤
      1 / 2 ^ 19 := by norm_num
  linarith

theorem contrast_float_mono {q v w : ℚ} (hq : |q| ≤ 100) (hv : f32.rnd v = v) (hw : f32.rnd w = w) (h0 : 0 ≤ v) (h : v ≤ w) (h1 : w ≤ 1)
    {a b : ℚ} (ha : contrastedF (contrastPercent (.fin q)) (.fin v) = .fin a) (hb : contrastedF (contrastPercent (.fin q)) (.fin w) = .fin b) :
    a ≤ b := by
  obtain ⟨p, e1, p0, p5, -⟩ := pct_small hq
  rw [e1, (contrast_float_eq hv h0 (h.trans h1) p0 p5).1, Fl.fin.injEq] at ha
  rw [e1, (contrast_float_eq hw (h0.trans h) h1 p0 p5).1, Fl.fin.injEq] at hb
  rw [← ha, ← hb]
  have hm : ∀ {s t : ℚ}, s ≤ t → f32.rnd s ≤ f32.rnd t := fun h => Fmt.rnd_mono' (F := f32) (by decide) h
  have k1 : f32.rnd (v - 1 / 2) ≤ f32.rnd (w - 1 / 2) := hm (by linarith)
  have k2 := hm (mul_le_mul_of_nonneg_right k1 p0)
  have k3 := hm (show f32.rnd (f32.rnd (v - 1 / 2) * p) + 1 / 2 ≤ f32.rnd (f32.rnd (w - 1 / 2) * p) + 1 / 2 by linarith)
  exact max_le_max le_rfl (min_le_min (hm k3) le_rfl)

/-! ## Hue -/

theorem row_near_float {c s : ℚ} (hc : |c| ≤ 1) (hs : |s| ≤ 1) {i : ℕ} (hi : i < 3) {r g b : ℚ} (hr : |r| ≤ 1) (hg : |g| ≤ 1)
    (hb : |b| ≤ 1) :
    Ap (1 / 2 ^ 43) (3 * 3) (hueRow (hueMatrix (.fin c) (.fin s)) i (.fin r) (.fin g) (.fin b)) (hueRowExact i c s r g b) := by
  have h1 := (matrix_near hc hs (i := 3 * i) (by omega)).mul (Ap.exact hr rfl) (by norm_num)
  have h2 := (matrix_near hc hs (i := 3 * i + 1) (by omega)).mul (Ap.exact hg rfl) (by norm_num)
  have h3 := (matrix_near hc hs (i := 3 * i + 2) (by omega)).mul (Ap.exact hb rfl) (by norm_num)
  exact ((h1.add h2 (by norm_num)).add h3 (by norm_num)).mono (by norm_num) (by norm_num)

theorem toF32_clamp_near {q y : ℚ} (h : |q - y| ≤ 1 / 2 ^ 43) (hy : |y| ≤ 3 * 3) :
    ∃ r : ℚ, (clampF (.fin q) (.fin 0) (.fin 255)).toF32 = .fin r ∧ 0 ≤ r ∧ |r - max 0 y| ≤ 1 / 2 ^ 20 := by
  rw [clampF_fin (by norm_num)]
  have hq := Ap.size h hy
  have hy' := hy
  rw [abs_le] at hy hq h
  have hmin : min q 255 = q := min_eq_left (by linarith [show (1 : ℚ) / 2 ^ 43 ≤ 1 by norm_num])
  rw [hmin]
  have h0 : 0 ≤ max 0 q := le_max_left _ _
  have h10 : max 0 q ≤ 10 := max_le (by norm_num) (by linarith [show (1 : ℚ) / 2 ^ 43 ≤ 1 by norm_num])
  refine ⟨f32.rnd (max 0 q), ?_, f32.rnd_nonneg h0, ?_⟩
  · unfold Fl.toF32
    simp only
    rw [ofRat32]
    rw [abs_of_nonneg h0]; exact h10.trans (by norm_num)
  · have e := rnd_err32 (max 0 q)
    have t : |max 0 q| / 2 ^ 24 ≤ 10 / 2 ^ 24 := div_le_div_of_nonneg_right (by rw [abs_of_nonneg h0]; exact h10) (by norm_num)
    have l : |max 0 q - max 0 y| ≤ |q - y| := by
      rcases le_total 0 q with a | a <;> rcases le_total 0 y with b | b
      · rw [max_eq_right a, max_eq_right b]
      · rw [max_eq_right a, max_eq_left b, sub_zero, abs_of_nonneg a]; exact (le_abs_self _).trans' (by linarith)
      · rw [max_eq_left a, max_eq_right b, zero_sub, abs_neg, abs_of_nonneg b]; rw [abs_sub_comm]; exact (le_abs_self _).trans' (by linarith)
      · rw [max_eq_left a, max_eq_left b]; simp
    have l' : |q - y| ≤ 1 / 2 ^ 43 := by rw [abs_le]; exact h
    have := abs_add_le (f32.rnd (max 0 q) - max 0 q) (max 0 q - max 0 y)
    rw [sub_add_sub_cancel] at this
    linarith [show (10 : ℚ) / 2 ^ 24 + 1 / 2 ^ 100 + 1 / 2 ^ 43 ≤ 1 / 2 ^ 20 by norm_num]

/-! ## Luminance -/

theorem rnd64_between {q : ℚ} {n : ℕ} (hn : n < 2 ^ 53) (h0 : 0 ≤ q) (h1 : q ≤ n) : 0 ≤ f64.rnd q ∧ f64.rnd q ≤ n := by
  have h := Fmt.rnd_mono' (F := f64) (by decide) h1
  rw [f64.rnd_nat hn (by decide)] at h
  exact ⟨f64.rnd_nonneg h0, h⟩

theorem div_ofRat64 (a : ℚ) {b : ℚ} (hb : b ≠ 0) : (Fl.fin a).div f64 (.fin b) = f64.ofRat (a / b) := by
  unfold Fl.div; simp only [if_neg hb]

theorem ofRat64_small {q : ℚ} {n : ℕ} (hn : n < 2 ^ 53) (h0 : 0 ≤ q) (h1 : q ≤ n) : f64.ofRat q = .fin (f64.rnd q) := by
  apply ofRat64
  rw [abs_of_nonneg h0]
  apply two_1023
  calc q ≤ n := h1
    _ ≤ (2 : ℚ) ^ 53 := by exact_mod_cast hn.le
    _ ≤ 2 ^ 100 := by norm_num

theorem clampFromF64_small {q : ℚ} (h : |q| ≤ 2 ^ 100) : clampFromF64 (.fin q) = .fin (f32.rnd q) := by
  have hm : (2 : ℚ) ^ 100 < maxFinite32 := by unfold maxFinite32; norm_num
  have h' := h
  rw [abs_le] at h
  unfold clampFromF64
  rw [if_neg (by simp only [Fl.lt, decide_eq_true_eq]; linarith), if_neg (by simp only [Fl.lt, decide_eq_true_eq]; linarith)]
  unfold Fl.toF32
  simp only
  rw [ofRat32 (h'.trans (by norm_num))]

/-- The exact luminance. -/
def exactLuma (r g b : ℚ) : ℚ := (2126 * r + 7152 * g + 722 * b) / 10000

theorem luma_float_near {r g b : ℚ} (hr : 0 ≤ r ∧ r ≤ 1) (hg : 0 ≤ g ∧ g ≤ 1) (hb : 0 ≤ b ∧ b ≤ 1) :
    ∃ l : ℚ, rgbToLumaF (.fin r) (.fin g) (.fin b) = .fin l ∧ 0 ≤ l ∧ l ≤ 1 ∧ |l - exactLuma r g b| ≤ 1 / 2 ^ 23 := by
  have ab : ∀ {t : ℚ}, 0 ≤ t ∧ t ≤ 1 → |t| ≤ 1 := fun h => by rw [abs_of_nonneg h.1]; exact h.2
  have m1 := (Ap.exact (B := 2126) (y := 2126) (by norm_num) rfl).mul (Ap.exact (ab hr) rfl) (by norm_num)
  have m2 := (Ap.exact (B := 7152) (y := 7152) (by norm_num) rfl).mul (Ap.exact (ab hg) rfl) (by norm_num)
  have m3 := (Ap.exact (B := 722) (y := 722) (by norm_num) rfl).mul (Ap.exact (ab hb) rfl) (by norm_num)
  have m := ((m1.add m2 (by norm_num)).add m3 (by norm_num)).mono (δ' := 1 / 2 ^ 36) (B' := 10000) (by norm_num) (by norm_num)
  -- the value computed
  have c1 : (Fl.fin 2126).mul f64 (.fin r) = .fin (f64.rnd (2126 * r)) :=
    ofRat64_small (n := 2126) (by norm_num) (by linarith) (by push_cast; linarith)
  have c2 : (Fl.fin 7152).mul f64 (.fin g) = .fin (f64.rnd (7152 * g)) :=
    ofRat64_small (n := 7152) (by norm_num) (by linarith) (by push_cast; linarith)
  have c3 : (Fl.fin 722).mul f64 (.fin b) = .fin (f64.rnd (722 * b)) :=
    ofRat64_small (n := 722) (by norm_num) (by linarith) (by push_cast; linarith)
  obtain ⟨r0, r1⟩ := rnd64_between (n := 2126) (q := 2126 * r) (by norm_num) (by linarith) (by push_cast; linarith)
  obtain ⟨g0, g1⟩ := rnd64_between (n := 7152) (q := 7152 * g) (by norm_num) (by linarith) (by push_cast; linarith)
  obtain ⟨b0, b1⟩ := rnd64_between (n := 722) (q := 722 * b) (by norm_num) (by linarith) (by push_cast; linarith)
  rw [c1, c2, c3] at m
  set R := f64.rnd (2126 * r)
  set G := f64.rnd (7152 * g)
  set B := f64.rnd (722 * b)
  push_cast at r1 g1 b1
  have c4 : (Fl.fin R).add f64 (.fin G) = .fin (f64.rnd (R + G)) :=
    ofRat64_small (n := 9278) (by norm_num) (by linarith) (by push_cast; linarith)
  obtain ⟨s0, s1⟩ := rnd64_between (n := 9278) (q := R + G) (by norm_num) (by linarith) (by push_cast; linarith)
  rw [c4] at m
  set S := f64.rnd (R + G)
  push_cast at s1
  have c5 : (Fl.fin S).add f64 (.fin B) = .fin (f64.rnd (S + B)) :=
    ofRat64_small (n := 10000) (by norm_num) (by linarith) (by push_cast; linarith)
  obtain ⟨t0, t1⟩ := rnd64_between (n := 10000) (q := S + B) (by norm_num) (by linarith) (by push_cast; linarith)
  rw [c5] at m
  set T := f64.rnd (S + B)
  push_cast at t1
  obtain ⟨T', hT, hTn, -⟩ := m
  rw [Fl.fin.injEq] at hT
  rw [← hT] at hTn
  have d0 : 0 ≤ T / 10000 := by positivity
  have d1 : T / 10000 ≤ 1 := by rw [div_le_one (by norm_num)]; exact t1
  obtain ⟨u0, u1⟩ := rnd64_between (n := 1) (q := T / 10000) (by norm_num) d0 (by push_cast; exact d1)
  push_cast at u1
  have hL : rgbToLumaF (.fin r) (.fin g) (.fin b) = .fin (f32.rnd (f64.rnd (T / 10000))) := by
    unfold rgbToLumaF
    simp only
    rw [c1, c2, c3, c4, c5, div_ofRat64 _ (by norm_num), ofRat64_small (n := 1) (by norm_num) d0 (by push_cast; exact d1),
      clampFromF64_small (by rw [abs_of_nonneg u0]; exact u1.trans (by norm_num))]
  have rz : f32.rnd 0 = 0 := f32.rnd_zero
  obtain ⟨v0, v1⟩ := rnd_between rz rnd32_one u0 u1
  refine ⟨_, hL, v0, v1, ?_⟩
  have e1 := rnd_err32 (f64.rnd (T / 10000))
  have e2 := rnd_err (F := f64) (Or.inr rfl) (T / 10000)
  have k1 : |f64.rnd (T / 10000)| / 2 ^ 24 ≤ 1 / 2 ^ 24 := div_le_div_of_nonneg_right (by rw [abs_of_nonneg u0]; exact u1) (by norm_num)
  have k2 : |T / 10000| / 2 ^ 53 ≤ 1 / 2 ^ 53 := div_le_div_of_nonneg_right (by rw [abs_of_nonneg d0]; exact d1) (by norm_num)
  have k3 : |T / 10000 - exactLuma r g b| ≤ 1 / 2 ^ 36 := by
    have : T / 10000 - exactLuma r g b = (T - (2126 * r + 7152 * g + 722 * b)) / 10000 := by unfold exactLuma; ring
    rw [this, abs_div, abs_of_pos (show (0 : ℚ) < 10000 by norm_num), div_le_iff₀ (by norm_num)]
    refine hTn.trans ?_
    norm_num
  change |f64.rnd (T / 10000) - T / 10000| ≤ |T / 10000| / 2 ^ 53 + 1 / 2 ^ 100 at e2
  have a1 := abs_add_le (f32.rnd (f64.rnd (T / 10000)) - f64.rnd (T / 10000)) (f64.rnd (T / 10000) - exactLuma r g b)
  have a2 := abs_add_le (f64.rnd (T / 10000) - T / 10000) (T / 10000 - exactLuma r g b)
  rw [sub_add_sub_cancel] at a1 a2
  linarith [show (1 : ℚ) / 2 ^ 24 + 1 / 2 ^ 100 + (1 / 2 ^ 53 + 1 / 2 ^ 100) + 1 / 2 ^ 36 ≤ 1 / 2 ^ 23 by norm_num]

/-- The luminance of a grey is that grey, without any rounding. -/
theorem luma_float_grey {v : ℚ} (hr : f32.rnd v = v) (hv : |v| ≤ 2 ^ 100) : rgbToLumaF (.fin v) (.fin v) (.fin v) = .fin v := by
  obtain ⟨m, e, hm, hb, he⟩ := rnd_form v
  rw [hr] at hm
  have ex : ∀ k : ℕ, k ≤ 10000 → f64.ofRat ((k : ℚ) * v) = .fin (k * v) := by
    intro k hk
    have : (k : ℚ) * v = ((k * m : ℤ) : ℚ) * 2 ^ e := by rw [hm]; push_cast; ring
    rw [ofRat64]
    · rw [this, f64.rnd_exact]
      · rw [abs_mul, Nat.abs_cast]
        calc (k : ℤ) * |m| ≤ 10000 * 2 ^ 24 := mul_le_mul (by exact_mod_cast hk) hb.le (abs_nonneg _) (by norm_num)
          _ < 2 ^ f64.p := by decide
      · exact le_trans (by decide) he
    · rw [abs_mul, Nat.abs_cast]
      calc (k : ℚ) * |v| ≤ 10000 * 2 ^ 100 := mul_le_mul (by exact_mod_cast hk) hv (abs_nonneg _) (by norm_num)
        _ ≤ 2 ^ 200 := by norm_num
        _ ≤ 2 ^ 1023 := pow_le_pow_right₀ (by norm_num) (by norm_num)
  have c1 : (Fl.fin 2126).mul f64 (.fin v) = .fin (2126 * v) := by
    have := ex 2126 (by norm_num)
    rwa [show ((2126 : ℕ) : ℚ) = 2126 by norm_num] at this
  have c2 : (Fl.fin 7152).mul f64 (.fin v) = .fin (7152 * v) := by
    have := ex 7152 (by norm_num)
    rwa [show ((7152 : ℕ) : ℚ) = 7152 by norm_num] at this
  have c3 : (Fl.fin 722).mul f64 (.fin v) = .fin (722 * v) := by
    have := ex 722 (by norm_num)
    rwa [show ((722 : ℕ) : ℚ) = 722 by norm_num] at this
  have c4 : (Fl.fin (2126 * v)).add f64 (.fin (7152 * v)) = .fin (9278 * v) := by
    have := ex 9278 (by norm_num)
    rw [show ((9278 : ℕ) : ℚ) = 9278 by norm_num] at this
    rw [← this]
    show f64.ofRat _ = _
    congr 1; ring
  have c5 : (Fl.fin (9278 * v)).add f64 (.fin (722 * v)) = .fin (10000 * v) := by
    have := ex 10000 (by norm_num)
    rw [show ((10000 : ℕ) : ℚ) = 10000 by norm_num] at this
    rw [← this]
    show f64.ofRat _ = _
    congr 1; ring
  have c6 : f64.ofRat v = .fin v := by simpa using ex 1 (by norm_num)
  unfold rgbToLumaF
  simp only
  rw [c1, c2, c3, c4, c5, div_ofRat64 _ (by norm_num), mul_div_cancel_left₀ _ (by norm_num), c6, clampFromF64_small hv, hr]

/-! ## Brightening -/

/-- `brighten` of a sample: 1 when the sample and the value together reach 1, otherwise 0. -/
theorem brighten_float {v : ℚ} {value : ℤ} (h0 : 0 ≤ v) (h1 : v ≤ 1) (hv : -2 ^ 31 ≤ value) (hv' : value < 2 ^ 31 - 1) :
    brightenSampleF value (.fin v) = .ok (.fin (if 1 ≤ v + value then 1 else 0)) := by
  have hc : (Fl.fin v).castI32 = some ⌊v⌋ := by
    unfold Fl.castI32
    simp only
    rw [if_pos ⟨by linarith [show (0 : ℚ) < 2 ^ 31 by norm_num], by linarith [show (1 : ℚ) < 2 ^ 31 by norm_num]⟩, if_pos h0]
  have f0 : 0 ≤ ⌊v⌋ := Int.floor_nonneg.2 h0
  have f1 : ⌊v⌋ ≤ 1 := by
    have := Int.floor_le_floor h1; simpa using this
  have hiff : (1 : ℚ) ≤ v + value ↔ 1 ≤ ⌊v⌋ + value := by
    rw [← Int.floor_add_intCast, Int.le_floor]; norm_num
  unfold brightenSampleF
  rw [hc]
  show (do let d := clampInt (← addI32 ⌊v⌋ value) 0 1; Except.ok (f32.ofRat d)) = _
  unfold addI32
  rw [if_pos (by constructor <;> omega)]
  simp only [ok_bind]
  congr 1
  unfold clampInt
  by_cases h : (1 : ℚ) ≤ v + value
  · rw [if_pos h]
    rw [hiff] at h
    rw [if_neg (by omega)]
    have : (if ⌊v⌋ + value > 1 then (1 : ℤ) else ⌊v⌋ + value) = 1 := by split <;> omega
    rw [this, ofRat32 (by norm_num)]
    simpa using rnd32_one
  · rw [if_neg h]
    rw [hiff] at h
    have : (if ⌊v⌋ + value < 0 then (0 : ℤ) else if ⌊v⌋ + value > 1 then 1 else ⌊v⌋ + value) = 0 := by split <;> [rfl; split <;> omega]
    rw [this, ofRat32 (by norm_num)]
    simp

end Verif
