import Verif.Model.ColorAdjust
import Verif.Proofs.FloatSigned
import Verif.Proofs.Blend

/-!
# The arithmetic of `contrast`
-/

namespace Verif

/-! ## The order of floats -/

theorem ofRat_le {F : Fmt} (hp : 0 < F.p) {q r : ℚ} (h : q ≤ r) : (F.ofRat q).le (F.ofRat r) = true := by
  have hm := F.rnd_mono' hp h
  have hE : (0 : ℚ) < 2 ^ F.emax := Fmt.two_zpow_pos _
  unfold Fmt.ofRat
  split_ifs with h1 h2 h2
  · simpa [Fl.le] using hm
  · have : ¬ r < 0 := by
      intro hr
      have h3 : F.rnd r ≤ 0 := by
        have := F.rnd_mono' hp hr.le
        rwa [show F.rnd 0 = 0 by simp [Fmt.rnd, rne]] at this
      rw [abs_of_nonpos h3] at h2
      rw [abs_lt] at h1
      linarith [h1.1]
    simp [Fl.le, this]
  · have : q < 0 := by
      by_contra hq
      have h3 := F.rnd_nonneg (not_lt.mp hq)
      rw [abs_of_nonneg h3] at h1
      rw [abs_lt] at h2
      linarith [h2.2]
    simp [Fl.le, this]
  · simp only [Fl.le, Bool.or_eq_true, decide_eq_true_eq, Bool.not_eq_true', decide_eq_false_iff_not]
    rcases lt_or_ge q 0 with hq | hq
    · exact Or.inl hq
    · exact Or.inr (by linarith)

theorem ofRat_ne_nan {F : Fmt} (q : ℚ) : F.ofRat q ≠ .nan := by
  unfold Fmt.ofRat; split_ifs <;> simp

/-- Adding a finite number is monotone. -/
theorem add_le {F : Fmt} (hp : 0 < F.p) {a b : Fl} (h : a.le b = true) (c : ℚ) :
    (a.add F (.fin c)).le (b.add F (.fin c)) = true := by
  have hE : (0 : ℚ) < 2 ^ F.emax := Fmt.two_zpow_pos _
  rcases a with _ | s | a <;> rcases b with _ | t | b <;> simp only [Fl.le, Fl.add] at h ⊢
  · cases h
  · cases h
  · cases h
  · cases h
  · exact h
  · subst h
    unfold Fmt.ofRat; split_ifs <;> simp
  · cases h
  · unfold Fmt.ofRat; split_ifs <;> simp_all
  · exact ofRat_le hp (by have := of_decide_eq_true h; linarith)

/-- Multiplying by a positive number is monotone. -/
theorem mul_le {F : Fmt} (hp : 0 < F.p) {a b : Fl} (h : a.le b = true) {c : ℚ} (hc : 0 < c) :
    (a.mul F (.fin c)).le (b.mul F (.fin c)) = true := by
  have hc0 : c ≠ 0 := hc.ne'
  have hc1 : ¬ c < 0 := by linarith
  rcases a with _ | s | a <;> rcases b with _ | t | b <;> simp only [Fl.le, Fl.mul, if_neg hc0] at h ⊢
  · cases h
  · cases h
  · cases h
  · cases h
  · simpa [hc1] using h
  · subst h
    unfold Fmt.ofRat; split_ifs <;> simp [hc1]
  · cases h
  · unfold Fmt.ofRat; split_ifs <;> simp_all
  · exact ofRat_le hp (mul_le_mul_of_nonneg_right (of_decide_eq_true h) hc.le)

/-- `clamp` of a number that is not NaN is in the range, and clamping is monotone. -/
theorem clampF_spec {d : Fl} {m : ℚ} (hm : 0 ≤ m) (hd : d ≠ .nan) :
    ∃ e, clampF d (.fin 0) (.fin m) = .fin e ∧ 0 ≤ e ∧ e ≤ m := by
  rcases d with _ | s | q
  · exact absurd rfl hd
  · cases s
    · exact ⟨m, by simp [clampF, Fl.lt], hm, le_rfl⟩
    · exact ⟨0, by simp [clampF, Fl.lt], le_rfl, hm⟩
  · unfold clampF
    simp only [Fl.lt, decide_eq_true_eq]
    split_ifs with h1 h2
    · exact ⟨0, rfl, le_rfl, hm⟩
    · exact ⟨m, rfl, hm, le_rfl⟩
    · exact ⟨q, rfl, not_lt.mp h1, not_lt.mp h2⟩

theorem clampF_fin {q m : ℚ} (hm : 0 ≤ m) : clampF (.fin q) (.fin 0) (.fin m) = .fin (max 0 (min q m)) := by
  unfold clampF
  simp only [Fl.lt, decide_eq_true_eq]
  split_ifs with h1 h2
  · rw [max_eq_left (by simp [h1.le])]
  · rw [min_eq_right h2.le, max_eq_right hm]
  · rw [min_eq_left (not_lt.mp h2), max_eq_right (not_lt.mp h1)]

theorem clampF_le {d d' : Fl} {m e e' : ℚ} (hm : 0 ≤ m) (h : d.le d' = true)
    (he : clampF d (.fin 0) (.fin m) = .fin e) (he' : clampF d' (.fin 0) (.fin m) = .fin e') : e ≤ e' := by
  rcases d with _ | s | q <;> rcases d' with _ | t | r <;> simp only [Fl.le] at h
  · cases h
  · cases h
  · cases h
  · cases h
  · cases s <;> cases t <;> simp [clampF, Fl.lt] at h he he' <;> subst he <;> subst he' <;> first | exact le_rfl | exact hm
  · subst h
    have : e = 0 := by simpa [clampF, Fl.lt, eq_comm] using he
    subst this
    rw [clampF_fin hm] at he'
    rw [← Fl.fin.inj he']; exact le_max_left _ _
  · cases h
  · have ht : t = false := by simpa using h
    subst ht
    have : e' = m := by simpa [clampF, Fl.lt, eq_comm] using he'
    subst this
    rw [clampF_fin hm] at he
    rw [← Fl.fin.inj he]; exact max_le hm (min_le_right _ _)
  · rw [clampF_fin hm] at he he'
    rw [← Fl.fin.inj he, ← Fl.fin.inj he']
    exact max_le_max le_rfl (min_le_min (of_decide_eq_true h) le_rfl)

/-! ## The percentage -/

/-- A non-negative number or infinity. -/
def IsPct (p : Fl) : Prop := (∃ q, 0 ≤ q ∧ p = .fin q) ∨ p = .inf false

theorem square_pct {t : Fl} (ht : t ≠ .nan) : IsPct (t.mul f32 t) := by
  rcases t with _ | s | q
  · exact absurd rfl ht
  · right; cases s <;> rfl
  · have h0 : 0 ≤ q * q := mul_self_nonneg q
    show IsPct (f32.ofRat (q * q))
    unfold Fmt.ofRat
    split_ifs
    · exact Or.inl ⟨_, f32.rnd_nonneg h0, rfl⟩
    · right; simp [not_lt.mpr h0]

theorem contrastPercent_pct {c : Fl} (hc : c ≠ .nan) : IsPct (contrastPercent c) := by
  unfold contrastPercent
  apply square_pct
  have h1 : (Fl.fin 100).add f32 c ≠ .nan := by
    rcases c with _ | s | q
    · exact absurd rfl hc
    · simp [Fl.add]
    · exact ofRat_ne_nan _
  revert h1
  generalize (Fl.fin 100).add f32 c = t
  intro h1
  rcases t with _ | s | q
  · exact absurd rfl h1
  · simp [Fl.div]
  · rw [fl_div q (by norm_num)]; exact ofRat_ne_nan _

/-! ## One sample -/

/-- `c / max` and `c / max - 0.5` as computed. -/
def unitQ (T : Prim) (v : ℕ) : ℚ := f32.rnd ((v : ℚ) / T.max)
def centredQ (T : Prim) (v : ℕ) : ℚ := f32.rnd (unitQ T v - 1 / 2)

variable {T : Prim}

theorem unitQ_bounds (hT : T.Small) {v : ℕ} (hv : v ≤ T.max) : 0 ≤ unitQ T v ∧ unitQ T v ≤ 1 := by
  have hm : (0 : ℚ) < T.max := by exact_mod_cast hT.max_pos
  refine ⟨f32.rnd_nonneg (by positivity), ?_⟩
  have h1 : (v : ℚ) / T.max ≤ 1 := by rw [div_le_one hm]; exact_mod_cast hv
  have := f32.rnd_mono' (by decide) h1
  rwa [show f32.rnd 1 = 1 by have := rnd_nat32 (n := 1) (by norm_num); simpa using this] at this

theorem rnd32_half : f32.rnd (1 / 2) = 1 / 2 := by
  have := rnd_half (n := 0) (by norm_num); simpa using this

theorem centredQ_bounds (hT : T.Small) {v : ℕ} (hv : v ≤ T.max) : |centredQ T v| ≤ 1 / 2 := by
  obtain ⟨h1, h2⟩ := unitQ_bounds hT hv
  unfold centredQ
  rw [abs_rnd]
  have h3 : |unitQ T v - 1 / 2| ≤ 1 / 2 := by rw [abs_le]; constructor <;> linarith
  have := f32.rnd_mono' (by decide) h3
  rwa [rnd32_half] at this

theorem centredQ_mono (hT : T.Small) {v w : ℕ} (h : v ≤ w) : centredQ T v ≤ centredQ T w := by
  have hm : (0 : ℚ) < T.max := by exact_mod_cast hT.max_pos
  unfold centredQ
  apply f32.rnd_mono' (by decide)
  have : unitQ T v ≤ unitQ T w := f32.rnd_mono' (by decide)
    (div_le_div_of_nonneg_right (by exact_mod_cast h) hm.le)
  linarith

/-- `|v / max - 1/2|` is at least `1 / (2 max)`, because `max` is odd. -/
theorem centre_gap (hT : T.Small) (v : ℕ) : 1 / (2 * (T.max : ℚ)) ≤ |(v : ℚ) / T.max - 1 / 2| := by
  have hm : (0 : ℚ) < T.max := by exact_mod_cast hT.max_pos
  have e : (v : ℚ) / T.max - 1 / 2 = ((2 * (v : ℤ) - T.max : ℤ) : ℚ) / (2 * T.max) := by
    push_cast; field_simp
  rw [e, abs_div, abs_of_pos (by positivity : (0 : ℚ) < 2 * T.max)]
  apply div_le_div_of_nonneg_right _ (by positivity)
  have : (1 : ℤ) ≤ |2 * (v : ℤ) - T.max| := by
    refine Int.one_le_abs ?_
    rcases hT with rfl | rfl
    · show 2 * (v : ℤ) - 255 ≠ 0; omega
    · show 2 * (v : ℤ) - 65535 ≠ 0; omega
  exact_mod_cast this

theorem centredQ_near (hT : T.Small) {v : ℕ} (hv : v ≤ T.max) :
    |centredQ T v - ((v : ℚ) / T.max - 1 / 2)| ≤ 2 / 2 ^ 24 := by
  have hm : (0 : ℚ) < T.max := by exact_mod_cast hT.max_pos
  obtain ⟨h1, h2⟩ := unitQ_bounds hT hv
  have h3 : |(v : ℚ) / T.max| ≤ 1 := by
    rw [abs_of_nonneg (by positivity), div_le_one hm]; exact_mod_cast hv
  have e1 := rnd_err32 ((v : ℚ) / T.max)
  have e2 := rnd_err32 (unitQ T v - 1 / 2)
  have h4 : |unitQ T v - 1 / 2| ≤ 1 / 2 := by rw [abs_le]; constructor <;> linarith
  have e3 : |(v : ℚ) / T.max| / 2 ^ 24 ≤ 1 / 2 ^ 24 := div_le_div_of_nonneg_right h3 (by norm_num)
  have e4 : |unitQ T v - 1 / 2| / 2 ^ 24 ≤ (1 / 2) / 2 ^ 24 := div_le_div_of_nonneg_right h4 (by norm_num)
  have h5 : |unitQ T v - (v : ℚ) / T.max| ≤ 1 / 2 ^ 24 + 1 / 2 ^ 100 := e1.trans (by linarith)
  have h6 : |centredQ T v - (unitQ T v - 1 / 2)| ≤ (1 / 2) / 2 ^ 24 + 1 / 2 ^ 100 := e2.trans (by linarith)
  have : centredQ T v - ((v : ℚ) / T.max - 1 / 2) =
      (centredQ T v - (unitQ T v - 1 / 2)) + (unitQ T v - (v : ℚ) / T.max) := by ring
  rw [this]
  refine (abs_add_le _ _).trans ?_
  have : (1 : ℚ) / 2 ^ 100 ≤ 1 / 2 ^ 40 := by norm_num
  have : (2 : ℚ) * (1 / 2 ^ 40) ≤ 1 / 2 / 2 ^ 24 := by norm_num
  linarith

theorem centredQ_ne (hT : T.Small) {v : ℕ} (hv : v ≤ T.max) : centredQ T v ≠ 0 := by
  intro h
  have h1 := centredQ_near hT hv
  have h2 := centre_gap hT v
  rw [h, zero_sub, abs_neg] at h1
  have h3 : (T.max : ℚ) ≤ 2 ^ 16 := by exact_mod_cast hT.max_lt.le
  have hm : (0 : ℚ) < T.max := by exact_mod_cast hT.max_pos
  have : 1 / (2 * (2 : ℚ) ^ 16) ≤ 1 / (2 * (T.max : ℚ)) :=
    one_div_le_one_div_of_le (by positivity) (by linarith)
  have h4 : (2 : ℚ) / 2 ^ 24 < 1 / (2 * (2 : ℚ) ^ 16) := by norm_num
  linarith

/-- `(c / max - 0.5) * percent` as computed. -/
def scaledF (T : Prim) (percent : Fl) (v : ℕ) : Fl := (Fl.fin (centredQ T v)).mul f32 percent

theorem scaledF_ne_nan (hT : T.Small) {p : Fl} (hp : IsPct p) {v : ℕ} (hv : v ≤ T.max) : scaledF T p v ≠ .nan := by
  unfold scaledF
  rcases hp with ⟨q, hq, rfl⟩ | rfl
  · exact ofRat_ne_nan _
  · simp [Fl.mul, centredQ_ne hT hv]

theorem scaledF_mono (hT : T.Small) {p : Fl} (hp : IsPct p) {v w : ℕ} (hw : w ≤ T.max) (h : v ≤ w) :
    (scaledF T p v).le (scaledF T p w) = true := by
  have hm := centredQ_mono hT h
  unfold scaledF
  rcases hp with ⟨q, hq, rfl⟩ | rfl
  · exact ofRat_le (by decide) (mul_le_mul_of_nonneg_right hm hq)
  · have h1 := centredQ_ne hT (h.trans hw)
    have h2 := centredQ_ne hT hw
    simp only [Fl.mul, if_neg h1, if_neg h2, Fl.le]
    by_cases h3 : centredQ T v < 0
    · simp [h3]
    · have : ¬ centredQ T w < 0 := by push Not at h3 ⊢; linarith
      simp [h3, this]

/-- The value before clamping. -/
def beforeClamp (T : Prim) (percent : Fl) (v : ℕ) : Fl :=
  ((scaledF T percent v).add f32 (.fin (1 / 2))).mul f32 (.fin T.max)

theorem beforeClamp_ne_nan (hT : T.Small) {p : Fl} (hp : IsPct p) {v : ℕ} (hv : v ≤ T.max) :
    beforeClamp T p v ≠ .nan := by
  have hm : (T.max : ℚ) ≠ 0 := by exact_mod_cast hT.max_pos.ne'
  unfold beforeClamp
  have h := scaledF_ne_nan hT hp hv
  revert h
  generalize scaledF T p v = t
  intro h
  rcases t with _ | s | q
  · exact absurd rfl h
  · simp [Fl.add, Fl.mul, hm]
  · rw [fl_add]
    have := ofRat_ne_nan (F := f32) (q + 1 / 2)
    revert this
    generalize f32.ofRat (q + 1 / 2) = u
    intro h
    rcases u with _ | s | q
    · exact absurd rfl h
    · simp [Fl.mul, hm]
    · exact ofRat_ne_nan _

theorem contrastSample_eq (hT : T.Small) (p : Fl) {v : ℕ} (hv : v ≤ T.max) :
    contrastSample (Samp.uint T) p v = unwrapR ((clampF (beforeClamp T p v) (.fin 0) (.fin T.max)).castU T.bits) := by
  have hm : (T.max : ℚ) ≠ 0 := by exact_mod_cast hT.max_pos.ne'
  have hl := hT.max_lt
  have e1 : (Samp.uint T).toF32 (Samp.uint T).max = .fin T.max := ofNat32 (by show T.max ≤ _; omega)
  have e2 : (Samp.uint T).toF32 v = .fin v := ofNat32 (by omega)
  obtain ⟨h1, h2⟩ := unitQ_bounds hT hv
  have e3 : (Fl.fin (v : ℚ)).div f32 (.fin T.max) = .fin (unitQ T v) := by
    rw [fl_div _ hm, ofRat32]; rfl
    have hm : (0 : ℚ) < T.max := by exact_mod_cast hT.max_pos
    rw [abs_of_nonneg (by positivity)]
    have : (v : ℚ) / T.max ≤ 1 := by rw [div_le_one hm]; exact_mod_cast hv
    exact this.trans (by norm_num)
  have e4 : (Fl.fin (unitQ T v)).sub f32 (.fin (1 / 2)) = .fin (centredQ T v) := by
    rw [fl_sub, ofRat32]; rfl
    have : |unitQ T v - 1 / 2| ≤ 1 / 2 := by rw [abs_le]; constructor <;> linarith
    exact this.trans (by norm_num)
  unfold contrastSample
  simp only [e1, e2, e3, e4]
  rfl

/-- The result is in range, for every contrast that is not NaN. -/
theorem contrastSample_ok (hT : T.Small) {p : Fl} (hp : IsPct p) {v : ℕ} (hv : v ≤ T.max) :
    ∃ e : ℚ, clampF (beforeClamp T p v) (.fin 0) (.fin T.max) = .fin e ∧ 0 ≤ e ∧ e ≤ T.max ∧
      contrastSample (Samp.uint T) p v = .ok ⌊e⌋.toNat := by
  obtain ⟨e, h1, h2, h3⟩ := clampF_spec (m := T.max) (by positivity) (beforeClamp_ne_nan hT hp hv)
  refine ⟨e, h1, h2, h3, ?_⟩
  rw [contrastSample_eq hT p hv, h1, castU_ok h2 (by linarith)]; rfl

theorem beforeClamp_mono (hT : T.Small) {p : Fl} (hp : IsPct p) {v w : ℕ} (hw : w ≤ T.max) (h : v ≤ w) :
    (beforeClamp T p v).le (beforeClamp T p w) = true :=
  mul_le (by decide) (add_le (by decide) (scaledF_mono hT hp hw h) _) (by exact_mod_cast hT.max_pos)

theorem contrastSample_mono (hT : T.Small) {p : Fl} (hp : IsPct p) {v w a b : ℕ} (hw : w ≤ T.max) (h : v ≤ w)
    (ha : contrastSample (Samp.uint T) p v = .ok a) (hb : contrastSample (Samp.uint T) p w = .ok b) : a ≤ b := by
  obtain ⟨e, h1, -, -, h2⟩ := contrastSample_ok hT hp (h.trans hw)
  obtain ⟨e', h3, -, -, h4⟩ := contrastSample_ok hT hp hw
  rw [ha] at h2; rw [hb] at h4
  cases h2; cases h4
  exact Int.toNat_le_toNat (Int.floor_mono (clampF_le (by positivity) (beforeClamp_mono hT hp hw h) h1 h3))

/-! ## Accuracy -/

/-- The exact value of `((100 + q) / 100)²`. -/
def exactPct (q : ℚ) : ℚ := ((100 + q) / 100) ^ 2

theorem pct_near {q : ℚ} (hq : |q| ≤ 2 ^ 50) :
    ∃ p : ℚ, contrastPercent (.fin q) = .fin p ∧ 0 ≤ p ∧
      |p - exactPct q| ≤ 8 / 2 ^ 24 * exactPct q + 1 / 2 ^ 45 := by
  have hs : |100 + q| ≤ 2 ^ 51 := (abs_add_le _ _).trans (by rw [abs_of_pos (by norm_num : (0 : ℚ) < 100)]; linarith)
  set s : ℚ := 100 + q with hsd
  set s1 := f32.rnd s with hs1
  set t1 := f32.rnd (s1 / 100) with ht1
  set t : ℚ := s / 100 with htd
  have e1 : |s1 - s| ≤ |s| / 2 ^ 24 + 1 / 2 ^ 100 := rnd_err32 s
  have e2 : |t1 - s1 / 100| ≤ |s1 / 100| / 2 ^ 24 + 1 / 2 ^ 100 := rnd_err32 _
  have ha : |s1| ≤ |s| + |s1 - s| := by
    have := abs_add_le (s1 - s) s; rw [sub_add_cancel] at this; linarith
  have eabs : |s1 / 100| = |s1| / 100 := by rw [abs_div, abs_of_pos (by norm_num : (0 : ℚ) < 100)]
  have eabt : |t| = |s| / 100 := by rw [htd, abs_div, abs_of_pos (by norm_num : (0 : ℚ) < 100)]
  have e3 : |s1 / 100 - t| = |s1 - s| / 100 := by
    rw [htd, ← sub_div, abs_div, abs_of_pos (by norm_num : (0 : ℚ) < 100)]
  have ht : |t| ≤ 2 ^ 50 := by rw [eabt]; linarith
  have e4 : |t1 - t| ≤ 3 / 2 ^ 24 * |t| + 2 / 2 ^ 100 := by
    have h1 : |t1 - t| ≤ |t1 - s1 / 100| + |s1 / 100 - t| := by
      have := abs_add_le (t1 - s1 / 100) (s1 / 100 - t)
      rwa [sub_add_sub_cancel] at this
    rw [eabs] at e2
    rw [e3] at h1
    have h2 : |s| = 100 * |t| := by rw [eabt]; ring
    rw [h2] at e1 ha
    have h0 := abs_nonneg t
    have h3 : |s1| ≤ 101 * |t| + 1 / 2 ^ 100 := by linarith
    linarith
  have h0 := abs_nonneg t
  have e5 : |t1| ≤ 2 * |t| + 1 := by
    have := abs_add_le (t1 - t) t; rw [sub_add_cancel] at this
    have : (3 : ℚ) / 2 ^ 24 * |t| ≤ 1 / 2 * |t| := mul_le_mul_of_nonneg_right (by norm_num) h0
    have : (2 : ℚ) / 2 ^ 100 ≤ 1 := by norm_num
    linarith
  have hst : |s1 / 100| ≤ 2 ^ 127 := by
    rw [eabs]
    have h2 : |s| = 100 * |t| := by rw [eabt]; ring
    rw [h2] at e1 ha
    have : |s1| ≤ 101 * 2 ^ 50 + 1 := by linarith
    linarith
  have htt : |t1 * t1| ≤ 2 ^ 127 := by
    rw [abs_mul]
    have h1 : |t1| ≤ 2 ^ 52 := by linarith
    calc |t1| * |t1| ≤ 2 ^ 52 * 2 ^ 52 := mul_le_mul h1 h1 (abs_nonneg _) (by norm_num)
      _ ≤ 2 ^ 127 := by norm_num
  refine ⟨f32.rnd (t1 * t1), ?_, f32.rnd_nonneg (mul_self_nonneg _), ?_⟩
  · unfold contrastPercent
    simp only []
    rw [fl_add, ofRat32 (hs.trans (by norm_num)), fl_div _ (by norm_num), ofRat32 hst, fl_mul, ofRat32 htt]
  · have e6 := rnd_err32 (t1 * t1)
    have hP : exactPct q = |t| ^ 2 := by rw [sq_abs]; rfl
    set a := |t|
    set d := |t1 - t| with hd
    have hd0 : 0 ≤ d := abs_nonneg _
    have e7 : |t1 * t1 - t ^ 2| ≤ d * (d + 2 * a) := by
      have : t1 * t1 - t ^ 2 = (t1 - t) * ((t1 - t) + 2 * t) := by ring
      rw [this, abs_mul]
      apply mul_le_mul_of_nonneg_left _ hd0
      refine (abs_add_le _ _).trans ?_
      rw [abs_mul, abs_of_pos (by norm_num : (0 : ℚ) < 2)]
    have e8 : d * (d + 2 * a) ≤ (3 / 2 ^ 24 * a + 2 / 2 ^ 100) * (3 / 2 ^ 24 * a + 2 / 2 ^ 100 + 2 * a) :=
      mul_le_mul e4 (by linarith) (by positivity) (by positivity)
    have e9 : (3 / 2 ^ 24 * a + 2 / 2 ^ 100) * (3 / 2 ^ 24 * a + 2 / 2 ^ 100 + 2 * a) =
        (9 / 2 ^ 48 + 6 / 2 ^ 24) * a ^ 2 + (12 / 2 ^ 124 + 4 / 2 ^ 100) * a + 4 / 2 ^ 200 := by ring
    have e10 : (12 / 2 ^ 124 + 4 / 2 ^ 100) * a ≤ (12 / 2 ^ 124 + 4 / 2 ^ 100) * 2 ^ 50 :=
      mul_le_mul_of_nonneg_left ht (by norm_num)
    have e11 : |t1 * t1| ≤ a ^ 2 + d * (d + 2 * a) := by
      have := abs_add_le (t1 * t1 - t ^ 2) (t ^ 2)
      rw [sub_add_cancel, abs_of_nonneg (by positivity : (0 : ℚ) ≤ t ^ 2)] at this
      have h2 : t ^ 2 = a ^ 2 := (sq_abs t).symm
      linarith
    have e12 : |f32.rnd (t1 * t1) - t ^ 2| ≤ |f32.rnd (t1 * t1) - t1 * t1| + |t1 * t1 - t ^ 2| := by
      have := abs_add_le (f32.rnd (t1 * t1) - t1 * t1) (t1 * t1 - t ^ 2)
      rwa [sub_add_sub_cancel] at this
    have ht2 : t ^ 2 = a ^ 2 := (sq_abs t).symm
    rw [hP, ← ht2, ]
    have ha2 : 0 ≤ a ^ 2 := by positivity
    rw [ht2] at e12 e7 ⊢
    generalize a ^ 2 = A at *
    have : (12 / 2 ^ 124 + 4 / 2 ^ 100) * (2 : ℚ) ^ 50 ≤ 5 / 2 ^ 50 := by norm_num
    have : (4 : ℚ) / 2 ^ 200 ≤ 1 / 2 ^ 50 := by norm_num
    have : (1 : ℚ) / 2 ^ 100 ≤ 1 / 2 ^ 50 := by norm_num
    have hb : d * (d + 2 * a) ≤ (9 / 2 ^ 48 + 6 / 2 ^ 24) * A + 6 / 2 ^ 50 := by linarith
    have hc : |t1 * t1| / 2 ^ 24 ≤ (2 * A + 1) / 2 ^ 24 / 2 ^ 0 := by
      rw [pow_zero, div_one]
      apply div_le_div_of_nonneg_right _ (by norm_num)
      linarith
    have hc' : |t1 * t1| / 2 ^ 24 ≤ (A + ((9 / 2 ^ 48 + 6 / 2 ^ 24) * A + 6 / 2 ^ 50)) / 2 ^ 24 :=
      div_le_div_of_nonneg_right (by linarith) (by norm_num)
    linarith

/-- Clamping brings values no further apart. -/
theorem clamp_lipschitz (d D m : ℚ) : |max 0 (min d m) - max 0 (min D m)| ≤ |d - D| := by
  have key : ∀ a b : ℚ, a ≤ b → 0 ≤ max 0 (min b m) - max 0 (min a m) ∧
      max 0 (min b m) - max 0 (min a m) ≤ b - a := by
    intro a b h
    refine ⟨sub_nonneg.mpr (max_le_max le_rfl (min_le_min h le_rfl)), ?_⟩
    rcases le_total a m with h1 | h1
    · rw [min_eq_left h1]
      have h2 : min b m ≤ b := min_le_left _ _
      rcases le_total 0 a with h3 | h3
      · rw [max_eq_right h3]
        have : max 0 (min b m) ≤ b := max_le (by linarith) h2
        linarith
      · rw [max_eq_left h3]
        have : max 0 (min b m) ≤ b - a := max_le (by linarith) (by linarith)
        linarith
    · rw [min_eq_right h1, min_eq_right (h1.trans h)]; linarith
  rcases le_total d D with h | h
  · obtain ⟨h1, h2⟩ := key d D h
    rw [abs_sub_comm, abs_of_nonneg h1, abs_sub_comm, abs_of_nonneg (by linarith)]; exact h2
  · obtain ⟨h1, h2⟩ := key D d h
    rw [abs_of_nonneg h1, abs_of_nonneg (by linarith)]; exact h2

/-- The exact result before clamping. -/
def exactContrast (T : Prim) (q : ℚ) (v : ℕ) : ℚ := ((((v : ℚ) / T.max - 1 / 2) * exactPct q + 1 / 2)) * T.max

/-- The last two operations, when `(v / max - 1/2) * percent` has the error `E`. -/
theorem tail_near {W y E m : ℚ} (hm0 : 0 ≤ m) (hm : m ≤ 2 ^ 16) (hW : |W| ≤ 2) (hE : E ≤ 1 / 8) (hy : |y - W| ≤ E) :
    ∃ d : ℚ, ((Fl.fin y).add f32 (.fin (1 / 2))).mul f32 (.fin m) = .fin d ∧
      |d - (W + 1 / 2) * m| ≤ (E + 7 / 2 ^ 24) * m + 1 / 2 ^ 60 := by
  rw [abs_le] at hW hy
  have e1 := rnd_err32 (y + 1 / 2)
  have hz0 : |y + 1 / 2| ≤ 21 / 8 := by rw [abs_le]; constructor <;> linarith
  set z := f32.rnd (y + 1 / 2) with hz
  have e1' : |z - (y + 1 / 2)| ≤ 21 / 8 / 2 ^ 24 + 1 / 2 ^ 100 := by
    refine e1.trans ?_
    have := div_le_div_of_nonneg_right hz0 (by norm_num : (0 : ℚ) ≤ 2 ^ 24)
    linarith
  rw [abs_le] at e1'
  have hz1 : |z| ≤ 11 / 4 := by
    rw [abs_le] at hz0 ⊢
    have : (21 : ℚ) / 8 / 2 ^ 24 + 1 / 2 ^ 100 ≤ 1 / 8 := by norm_num
    constructor <;> linarith
  have hzm : |z * m| ≤ 11 / 4 * m := by
    rw [abs_mul, abs_of_nonneg hm0]; exact mul_le_mul_of_nonneg_right hz1 hm0
  have e2 := rnd_err32 (z * m)
  refine ⟨f32.rnd (z * m), ?_, ?_⟩
  · rw [fl_add, ofRat32 (hz0.trans (by norm_num)), fl_mul, ofRat32 (hzm.trans (by linarith))]
  · have e3 : |z - (W + 1 / 2)| ≤ E + 3 / 2 ^ 24 := by
      have : (1 : ℚ) / 2 ^ 100 ≤ 1 / 8 / 2 ^ 24 := by norm_num
      rw [abs_le]; constructor <;> linarith
    have e4 : |z * m - (W + 1 / 2) * m| ≤ (E + 3 / 2 ^ 24) * m := by
      rw [← sub_mul, abs_mul, abs_of_nonneg hm0]; exact mul_le_mul_of_nonneg_right e3 hm0
    have e5 : |z * m| / 2 ^ 24 ≤ 11 / 4 * m / 2 ^ 24 := div_le_div_of_nonneg_right hzm (by norm_num)
    have e6 : |f32.rnd (z * m) - (W + 1 / 2) * m| ≤ |f32.rnd (z * m) - z * m| + |z * m - (W + 1 / 2) * m| := by
      have := abs_add_le (f32.rnd (z * m) - z * m) (z * m - (W + 1 / 2) * m)
      rwa [sub_add_sub_cancel] at this
    have : (1 : ℚ) / 2 ^ 100 ≤ 1 / 2 ^ 60 := by norm_num
    linarith

/-- The error of `(c / max - 0.5) * percent`. -/
theorem contrast_scaled_near (hT : T.Small) {p P : ℚ} (hp : 0 ≤ p) {v : ℕ} (hv : v ≤ T.max) (hp2 : p ≤ 2 ^ 110) :
    scaledF T (.fin p) v = .fin (f32.rnd (centredQ T v * p)) ∧
    |f32.rnd (centredQ T v * p) - ((v : ℚ) / T.max - 1 / 2) * P| ≤
      3 / 2 ^ 24 * p + 1 / 2 * |p - P| + 1 / 2 ^ 100 := by
  have h1 := centredQ_bounds hT hv
  have h2 := centredQ_near hT hv
  have hm : (0 : ℚ) < T.max := by exact_mod_cast hT.max_pos
  have hX : |(v : ℚ) / T.max - 1 / 2| ≤ 1 / 2 := by
    have : (v : ℚ) / T.max ≤ 1 := by rw [div_le_one hm]; exact_mod_cast hv
    have : 0 ≤ (v : ℚ) / T.max := by positivity
    rw [abs_le]; constructor <;> linarith
  set x := centredQ T v
  set X := (v : ℚ) / T.max - 1 / 2
  have hxp : |x * p| ≤ 1 / 2 * p := by
    rw [abs_mul, abs_of_nonneg hp]; exact mul_le_mul_of_nonneg_right h1 hp
  refine ⟨?_, ?_⟩
  · unfold scaledF
    rw [fl_mul, ofRat32 (hxp.trans (by linarith))]
  · have e1 := rnd_err32 (x * p)
    have e2 : |x * p - X * P| ≤ 2 / 2 ^ 24 * p + 1 / 2 * |p - P| := by
      have : x * p - X * P = (x - X) * p + X * (p - P) := by ring
      rw [this]
      refine (abs_add_le _ _).trans (add_le_add ?_ ?_)
      · rw [abs_mul, abs_of_nonneg hp]; exact mul_le_mul_of_nonneg_right h2 hp
      · rw [abs_mul]; exact mul_le_mul_of_nonneg_right hX (abs_nonneg _)
    have e3 : |f32.rnd (x * p) - X * P| ≤ |f32.rnd (x * p) - x * p| + |x * p - X * P| := by
      have := abs_add_le (f32.rnd (x * p) - x * p) (x * p - X * P)
      rwa [sub_add_sub_cancel] at this
    have e4 : |x * p| / 2 ^ 24 ≤ 1 / 2 * p / 2 ^ 24 := div_le_div_of_nonneg_right hxp (by norm_num)
    linarith

/-- `n` is the truncation of a value within `δ` of `y`. -/
def TruncNear (δ y : ℚ) (n : ℕ) : Prop := (n : ℚ) ≤ y + δ ∧ y - δ < n + 1

theorem truncNear_of {T : Prim} {D d δ : ℚ} (h : |d - D| ≤ δ) :
    TruncNear δ (max 0 (min D T.max)) ⌊max 0 (min d (T.max : ℚ))⌋.toNat := by
  have h1 := (clamp_lipschitz d D T.max).trans h
  rw [abs_le] at h1
  set e := max 0 (min d (T.max : ℚ))
  have h0 : 0 ≤ e := le_max_left _ _
  have hf : ((⌊e⌋.toNat : ℕ) : ℚ) = (⌊e⌋ : ℚ) := by
    have : ((⌊e⌋.toNat : ℤ)) = ⌊e⌋ := Int.toNat_of_nonneg (Int.floor_nonneg.mpr h0)
    exact_mod_cast this
  unfold TruncNear
  rw [hf]
  have := Int.floor_le e
  have := Int.lt_floor_add_one e
  constructor <;> linarith

theorem contrastSample_near_small (hT : T.Small) {q : ℚ} (hq : |q| ≤ 100) {v : ℕ} (hv : v ≤ T.max) :
    ∃ n, contrastSample (Samp.uint T) (contrastPercent (.fin q)) v = .ok n ∧
      TruncNear (T.max / 2 ^ 18) (max 0 (min (exactContrast T q v) T.max)) n := by
  have hm : (0 : ℚ) < T.max := by exact_mod_cast hT.max_pos
  have hm16 : (T.max : ℚ) ≤ 2 ^ 16 := by exact_mod_cast hT.max_lt.le
  have hm255 : (255 : ℚ) ≤ T.max := by rcases hT with rfl | rfl <;> norm_num [Prim.max, Prim.bits]
  obtain ⟨p, e1, hp0, e2⟩ := pct_near (q := q) (hq.trans (by norm_num))
  have hP0 : 0 ≤ exactPct q := sq_nonneg _
  have hP4 : exactPct q ≤ 4 := by
    unfold exactPct
    rw [abs_le] at hq
    have h1 : 0 ≤ (100 + q) / 100 := by linarith
    have h2 : (100 + q) / 100 ≤ 2 := by linarith
    calc ((100 + q) / 100) ^ 2 ≤ 2 ^ 2 := by gcongr
      _ = 4 := by norm_num
  have e2' : |p - exactPct q| ≤ 33 / 2 ^ 24 := by
    have : (1 : ℚ) / 2 ^ 45 ≤ 1 / 2 ^ 24 := by norm_num
    linarith
  have hp5 : p ≤ 4 + 33 / 2 ^ 24 := by rw [abs_le] at e2'; linarith
  obtain ⟨s1, s2⟩ := contrast_scaled_near hT (P := exactPct q) hp0 hv (hp5.trans (by norm_num))
  have hX : |(v : ℚ) / T.max - 1 / 2| ≤ 1 / 2 := by
    have : (v : ℚ) / T.max ≤ 1 := by rw [div_le_one hm]; exact_mod_cast hv
    have : 0 ≤ (v : ℚ) / T.max := by positivity
    rw [abs_le]; constructor <;> linarith
  have hW : |((v : ℚ) / T.max - 1 / 2) * exactPct q| ≤ 2 := by
    rw [abs_mul, abs_of_nonneg hP0]
    calc |(v : ℚ) / T.max - 1 / 2| * exactPct q ≤ 1 / 2 * 4 := mul_le_mul hX hP4 hP0 (by norm_num)
      _ = 2 := by norm_num
  have hE : 3 / 2 ^ 24 * p + 1 / 2 * |p - exactPct q| + 1 / 2 ^ 100 ≤ 31 / 2 ^ 24 := by
    have : (3 : ℚ) / 2 ^ 24 * p ≤ 3 / 2 ^ 24 * (4 + 33 / 2 ^ 24) := mul_le_mul_of_nonneg_left hp5 (by norm_num)
    have : (3 : ℚ) / 2 ^ 24 * (33 / 2 ^ 24) + 1 / 2 ^ 100 ≤ 1 / 2 / 2 ^ 24 := by norm_num
    linarith
  obtain ⟨d, d1, d2⟩ := tail_near hm.le hm16 hW (E := 31 / 2 ^ 24) (by norm_num) (s2.trans hE)
  refine ⟨_, ?_, truncNear_of (d := d) ?_⟩
  · rw [contrastSample_eq hT _ hv, e1]
    unfold beforeClamp
    rw [s1, d1, clampF_fin hm.le, castU_ok (le_max_left _ _) (by
      have : max 0 (min d (T.max : ℚ)) ≤ T.max := max_le hm.le (min_le_right _ _)
      linarith)]
    rfl
  · refine d2.trans ?_
    have : (1 : ℚ) / 2 ^ 60 ≤ 1 / 2 ^ 24 * 255 := by norm_num
    have : (1 : ℚ) / 2 ^ 24 * 255 ≤ 1 / 2 ^ 24 * T.max := mul_le_mul_of_nonneg_left hm255 (by norm_num)
    have h3 : (T.max : ℚ) / 2 ^ 18 = 64 / 2 ^ 24 * T.max := by ring
    rw [h3]
    have : (31 / 2 ^ 24 + 7 / 2 ^ 24) * (T.max : ℚ) + 1 / 2 ^ 24 * T.max ≤ 64 / 2 ^ 24 * T.max := by
      rw [← add_mul]; exact mul_le_mul_of_nonneg_right (by norm_num) hm.le
    linarith

/-- 8-bit samples: any amount of contrast. -/
theorem contrastSample_near_u8 {q : ℚ} (hq : |q| ≤ 2 ^ 50) {v : ℕ} (hv : v ≤ 255) :
    ∃ n, contrastSample (Samp.uint .u8) (contrastPercent (.fin q)) v = .ok n ∧
      TruncNear (1 / 8) (max 0 (min (exactContrast .u8 q v) 255)) n := by
  have hT : Prim.u8.Small := Or.inl rfl
  have hmax : ((Prim.u8.max : ℕ) : ℚ) = 255 := by norm_num [Prim.max, Prim.bits]
  have hv' : v ≤ Prim.u8.max := hv
  obtain ⟨p, e1, hp0, e2⟩ := pct_near hq
  have hP0 : 0 ≤ exactPct q := sq_nonneg _
  have hPbig : exactPct q ≤ 2 ^ 100 := by
    unfold exactPct
    rw [abs_le] at hq
    have h1 : |(100 + q) / 100| ≤ 2 ^ 50 := by rw [abs_le]; constructor <;> linarith
    rw [← sq_abs]
    calc |(100 + q) / 100| ^ 2 ≤ (2 ^ 50) ^ 2 := by gcongr
      _ = 2 ^ 100 := by norm_num
  have hpbig : p ≤ 2 ^ 102 := by
    rw [abs_le] at e2
    linarith [e2.2]
  obtain ⟨s1, s2⟩ := contrast_scaled_near hT (P := exactPct q) hp0 hv' (hpbig.trans (by norm_num))
  have hgap := centre_gap hT v
  have hcn := centredQ_near hT hv'
  rw [hmax] at hgap hcn
  rw [hmax] at s2
  have hXhalf : |(v : ℚ) / 255 - 1 / 2| ≤ 1 / 2 := by
    have h1 : (v : ℚ) ≤ 255 := by exact_mod_cast hv
    have : (0 : ℚ) ≤ v := by positivity
    rw [abs_le]; constructor <;> linarith
  have hEx : exactContrast .u8 q v = (((v : ℚ) / 255 - 1 / 2) * exactPct q + 1 / 2) * 255 := by
    unfold exactContrast; rw [hmax]
  have hB : contrastSample (Samp.uint .u8) (contrastPercent (.fin q)) v =
      unwrapR ((clampF (((Fl.fin (f32.rnd (centredQ .u8 v * p))).add f32 (.fin (1 / 2))).mul f32 (.fin 255))
        (.fin 0) (.fin 255)).castU 8) := by
    rw [contrastSample_eq hT _ hv', e1]
    unfold beforeClamp
    rw [s1, hmax]; rfl
  rw [hB, hEx]
  set X : ℚ := (v : ℚ) / 255 - 1 / 2 with hXd
  set P := exactPct q with hPd
  set x := centredQ .u8 v with hxd
  have hfin : ∀ d : ℚ, unwrapR ((clampF (.fin d) (.fin 0) (.fin 255)).castU 8) = .ok ⌊max 0 (min d (255 : ℚ))⌋.toNat := by
    intro d
    rw [clampF_fin (by norm_num), show (8 : ℕ) = Prim.u8.bits from rfl, castU_ok (le_max_left _ _) (by
      rw [hmax]
      have : max 0 (min d (255 : ℚ)) ≤ 255 := max_le (by norm_num) (min_le_right _ _)
      linarith)]
    rfl
  rcases le_or_gt |X * P| 2 with hW | hW
  · have hP : P ≤ 1020 := by
      rw [abs_mul, abs_of_nonneg hP0] at hW
      have h1 : 1 / 510 * P ≤ |X| * P := mul_le_mul_of_nonneg_right (by linarith) hP0
      linarith
    have e2' : |p - P| ≤ 8161 / 2 ^ 24 := by
      have : (1 : ℚ) / 2 ^ 45 ≤ 1 / 2 ^ 24 := by norm_num
      linarith
    have hp5 : p ≤ 1021 := by rw [abs_le] at e2'; linarith
    have hE : 3 / 2 ^ 24 * p + 1 / 2 * |p - P| + 1 / 2 ^ 100 ≤ 8000 / 2 ^ 24 := by
      have : (1 : ℚ) / 2 ^ 100 ≤ 1 / 2 ^ 24 := by norm_num
      linarith
    obtain ⟨d, d1, d2⟩ := tail_near (m := 255) (by norm_num) (by norm_num) hW (E := 8000 / 2 ^ 24) (by norm_num)
      (s2.trans hE)
    have := truncNear_of (T := .u8) (d := d) (D := (X * P + 1 / 2) * 255) (δ := 1 / 8) (d2.trans (by norm_num))
    rw [hmax] at this
    exact ⟨_, by rw [d1, hfin], this⟩
  · have hP4 : 4 ≤ P := by
      rw [abs_mul, abs_of_nonneg hP0] at hW
      have : |X| * P ≤ 1 / 2 * P := mul_le_mul_of_nonneg_right hXhalf hP0
      linarith
    have hp1 : P * (1 - 1 / 2 ^ 12) ≤ p := by
      rw [abs_le] at e2; linarith [e2.1]
    have hpp : 0 < p := by linarith
    have hxp2 : |x * p| ≤ 2 ^ 102 := by
      rw [abs_mul, abs_of_nonneg hp0]
      have := mul_le_mul_of_nonneg_right (centredQ_bounds hT hv') hp0
      linarith
    have one : f32.rnd 1 = 1 := by have := rnd_nat32 (n := 1) (by norm_num); simpa using this
    have hy1 := (rnd_err32 (x * p))
    have hybig : |f32.rnd (x * p)| ≤ 2 ^ 102 * 2 := by
      have h2 : |f32.rnd (x * p)| ≤ |f32.rnd (x * p) - x * p| + |x * p| := by
        have := abs_add_le (f32.rnd (x * p) - x * p) (x * p); rwa [sub_add_cancel] at this
      have h3 : |x * p| / 2 ^ 24 ≤ 2 ^ 102 / 2 ^ 24 := div_le_div_of_nonneg_right hxp2 (by norm_num)
      have h4 : (2 : ℚ) ^ 102 / 2 ^ 24 + 1 / 2 ^ 100 + 2 ^ 102 ≤ 2 ^ 102 * 2 := by norm_num
      linarith
    have hzin : |f32.rnd (x * p) + 1 / 2| ≤ 2 ^ 104 := (abs_add_le _ _).trans (by
      rw [abs_of_pos (by norm_num : (0 : ℚ) < 1 / 2)]
      have : (2 : ℚ) ^ 102 * 2 + 1 / 2 ≤ 2 ^ 104 := by norm_num
      linarith)
    have hzbig : |f32.rnd (f32.rnd (x * p) + 1 / 2)| ≤ 2 ^ 105 := by
      set y := f32.rnd (x * p) + 1 / 2
      have h1 := rnd_err32 y
      have h2 : |f32.rnd y| ≤ |f32.rnd y - y| + |y| := by
        have := abs_add_le (f32.rnd y - y) y; rwa [sub_add_cancel] at this
      have h3 : |y| / 2 ^ 24 ≤ 2 ^ 104 / 2 ^ 24 := div_le_div_of_nonneg_right hzin (by norm_num)
      have h4 : (2 : ℚ) ^ 104 / 2 ^ 24 + 1 / 2 ^ 100 + 2 ^ 104 ≤ 2 ^ 105 := by norm_num
      linarith
    have hdeq : ((Fl.fin (f32.rnd (x * p))).add f32 (.fin (1 / 2))).mul f32 (.fin 255) =
        .fin (f32.rnd (f32.rnd (f32.rnd (x * p) + 1 / 2) * 255)) := by
      rw [fl_add, ofRat32 (hzin.trans (by norm_num)), fl_mul, ofRat32]
      rw [abs_mul, abs_of_pos (by norm_num : (0 : ℚ) < 255)]
      have : (2 : ℚ) ^ 105 * 255 ≤ 2 ^ 127 := by norm_num
      linarith
    rw [hdeq, hfin]
    refine ⟨_, rfl, ?_⟩
    rcases lt_abs.mp hW with h | h
    · -- far above the middle: white
      have hX0 : 0 < X := by
        by_contra hX
        have := mul_nonpos_of_nonpos_of_nonneg (not_lt.mp hX) hP0
        linarith
      rw [abs_of_pos hX0] at hgap
      rw [abs_le] at hcn
      have hx1 : X * (1 - 1 / 2 ^ 12) ≤ x := by
        have : (2 : ℚ) / 2 ^ 24 ≤ 1 / 2 ^ 12 * (1 / (2 * 255)) := by norm_num
        linarith [hcn.1]
      have hxp : 1 ≤ x * p := by
        have h1 : X * (1 - 1 / 2 ^ 12) * (P * (1 - 1 / 2 ^ 12)) ≤ x * p :=
          mul_le_mul hx1 hp1 (by positivity) (by linarith [mul_pos hX0 (by norm_num : (0 : ℚ) < 1 - 1 / 2 ^ 12)])
        have h2 : X * (1 - 1 / 2 ^ 12) * (P * (1 - 1 / 2 ^ 12)) = X * P * ((1 - 1 / 2 ^ 12) * (1 - 1 / 2 ^ 12)) := by ring
        rw [h2] at h1
        have : (2 : ℚ) * ((1 - 1 / 2 ^ 12) * (1 - 1 / 2 ^ 12)) ≤ X * P * ((1 - 1 / 2 ^ 12) * (1 - 1 / 2 ^ 12)) :=
          mul_le_mul_of_nonneg_right h.le (by norm_num)
        linarith
      have hy : 1 ≤ f32.rnd (x * p) := by rw [← one]; exact f32.rnd_mono' (by decide) hxp
      have hz : 1 ≤ f32.rnd (f32.rnd (x * p) + 1 / 2) := by
        have := f32.rnd_mono' (by decide) (show (1 : ℚ) ≤ f32.rnd (x * p) + 1 / 2 by linarith)
        rwa [one] at this
      have hd : 255 ≤ f32.rnd (f32.rnd (f32.rnd (x * p) + 1 / 2) * 255) := by
        have := f32.rnd_mono' (by decide) (show ((255 : ℕ) : ℚ) ≤ f32.rnd (f32.rnd (x * p) + 1 / 2) * 255 by push_cast; linarith)
        rw [rnd_nat32 (by norm_num)] at this
        exact_mod_cast this
      rw [min_eq_right hd, min_eq_right (by linarith), max_eq_right (by norm_num)]
      norm_num [TruncNear]
      rw [show Int.toNat 255 = 255 from rfl]
      norm_num
    · have hX0 : X < 0 := by
        by_contra hX
        have := mul_nonneg (not_lt.mp hX) hP0
        linarith
      rw [abs_of_neg hX0] at hgap
      rw [abs_le] at hcn
      have hx1 : x ≤ X * (1 - 1 / 2 ^ 12) := by
        have : (2 : ℚ) / 2 ^ 24 ≤ 1 / 2 ^ 12 * (1 / (2 * 255)) := by norm_num
        linarith [hcn.2]
      have hxp : x * p ≤ -1 := by
        have h1 : -X * (1 - 1 / 2 ^ 12) * (P * (1 - 1 / 2 ^ 12)) ≤ -x * p :=
          mul_le_mul (by linarith) hp1 (by positivity)
            (by linarith [mul_pos_of_neg_of_neg hX0 (by norm_num : -(1 - 1 / 2 ^ 12 : ℚ) < 0)])
        have h2 : -X * (1 - 1 / 2 ^ 12) * (P * (1 - 1 / 2 ^ 12)) = -(X * P) * ((1 - 1 / 2 ^ 12) * (1 - 1 / 2 ^ 12)) := by ring
        rw [h2] at h1
        have : (2 : ℚ) * ((1 - 1 / 2 ^ 12) * (1 - 1 / 2 ^ 12)) ≤ -(X * P) * ((1 - 1 / 2 ^ 12) * (1 - 1 / 2 ^ 12)) :=
          mul_le_mul_of_nonneg_right h.le (by norm_num)
        linarith
      have hy : f32.rnd (x * p) ≤ -1 := by
        have := f32.rnd_mono' (by decide) hxp
        rwa [f32.rnd_neg, one] at this
      have zero : f32.rnd 0 = 0 := by simp [Fmt.rnd, rne]
      have hz : f32.rnd (f32.rnd (x * p) + 1 / 2) ≤ 0 := by
        have := f32.rnd_mono' (by decide) (show f32.rnd (x * p) + 1 / 2 ≤ 0 by linarith)
        rwa [zero] at this
      have hd : f32.rnd (f32.rnd (f32.rnd (x * p) + 1 / 2) * 255) ≤ 0 := by
        have := f32.rnd_mono' (by decide) (show f32.rnd (f32.rnd (x * p) + 1 / 2) * 255 ≤ 0 by linarith)
        rwa [zero] at this
      rw [max_eq_left (le_trans (min_le_left _ _) hd), max_eq_left (le_trans (min_le_left _ _) (by linarith))]
      norm_num [TruncNear]

end Verif
