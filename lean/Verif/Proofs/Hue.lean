import Verif.Proofs.Contrast
import Verif.Spec.Hue

/-!
# The arithmetic of `huerotate`
-/

namespace Verif

theorem ofRat64 {q : ℚ} (h : |q| ≤ 2 ^ 1023) : f64.ofRat q = .fin (f64.rnd q) := by
  unfold Fmt.ofRat
  rw [if_pos]
  rw [abs_rnd]
  have h1 : f64.rnd |q| ≤ f64.rnd (2 ^ 1023) := f64.rnd_mono' (by decide) h
  have h2 : f64.rnd (2 ^ 1023) = 2 ^ 1023 := by
    have := f64.rnd_exact (m := 1) (e := 1023) (by norm_num [f64]) (by decide)
    rwa [show ((1 : ℤ) : ℚ) * 2 ^ (1023 : ℤ) = 2 ^ 1023 by norm_num] at this
  rw [h2] at h1
  refine lt_of_le_of_lt h1 ?_
  show (2 : ℚ) ^ 1023 < 2 ^ (1024 : ℤ)
  rw [show (1024 : ℤ) = ((1024 : ℕ) : ℤ) from rfl, zpow_natCast]
  exact pow_lt_pow_right₀ (by norm_num) (by norm_num)

theorem two_1023 {q : ℚ} (h : q ≤ 2 ^ 100) : q ≤ 2 ^ 1023 :=
  h.trans (pow_le_pow_right₀ (by norm_num) (by norm_num))

/-- `x` is a finite `f64` within `δ` of the real number `y`, of magnitude at most `B`. -/
def Ap (δ B : ℚ) (x : Fl) (y : ℚ) : Prop := ∃ q, x = .fin q ∧ |q - y| ≤ δ ∧ |y| ≤ B

theorem Ap.mono {δ δ' B B' : ℚ} {x : Fl} {y : ℚ} (h : Ap δ B x y) (h1 : δ ≤ δ') (h2 : B ≤ B') : Ap δ' B' x y := by
  obtain ⟨q, a, b, c⟩ := h
  exact ⟨q, a, b.trans h1, c.trans h2⟩

theorem Ap.size {δ B q y : ℚ} (b : |q - y| ≤ δ) (c : |y| ≤ B) : |q| ≤ B + δ := by
  have := abs_add_le (q - y) y; rw [sub_add_cancel] at this; linarith

/-- One rounding. -/
theorem Ap.round {δ B q y : ℚ} (b : |q - y| ≤ δ) (c : |y| ≤ B) (hB : B + δ ≤ 2 ^ 100) :
    Ap (δ + (B + δ) / 2 ^ 53 + 1 / 2 ^ 100) B (f64.ofRat q) y := by
  have hq := Ap.size b c
  refine ⟨f64.rnd q, ofRat64 (two_1023 (hq.trans hB)), ?_, c⟩
  have e := rnd_err (F := f64) (Or.inr rfl) q
  rw [show f64.p = 53 from rfl] at e
  have e2 : |q| / 2 ^ 53 ≤ (B + δ) / 2 ^ 53 := div_le_div_of_nonneg_right hq (by norm_num)
  have := abs_add_le (f64.rnd q - q) (q - y)
  rw [sub_add_sub_cancel] at this
  linarith

theorem Ap.add {δ1 δ2 B1 B2 : ℚ} {x1 x2 : Fl} {y1 y2 : ℚ} (h1 : Ap δ1 B1 x1 y1) (h2 : Ap δ2 B2 x2 y2)
    (hB : B1 + B2 + (δ1 + δ2) ≤ 2 ^ 100) :
    Ap (δ1 + δ2 + (B1 + B2 + (δ1 + δ2)) / 2 ^ 53 + 1 / 2 ^ 100) (B1 + B2) (x1.add f64 x2) (y1 + y2) := by
  obtain ⟨q1, rfl, a1, b1⟩ := h1
  obtain ⟨q2, rfl, a2, b2⟩ := h2
  refine Ap.round (q := q1 + q2) ?_ ((abs_add_le _ _).trans (by linarith)) hB
  rw [add_sub_add_comm]
  exact (abs_add_le _ _).trans (by linarith)

theorem Ap.neg {δ B : ℚ} {x : Fl} {y : ℚ} (h : Ap δ B x y) : Ap δ B x.neg (-y) := by
  obtain ⟨q, rfl, a, b⟩ := h
  exact ⟨-q, rfl, by rw [neg_sub_neg, abs_sub_comm]; exact a, by rwa [abs_neg]⟩

theorem Ap.sub {δ1 δ2 B1 B2 : ℚ} {x1 x2 : Fl} {y1 y2 : ℚ} (h1 : Ap δ1 B1 x1 y1) (h2 : Ap δ2 B2 x2 y2)
    (hB : B1 + B2 + (δ1 + δ2) ≤ 2 ^ 100) :
    Ap (δ1 + δ2 + (B1 + B2 + (δ1 + δ2)) / 2 ^ 53 + 1 / 2 ^ 100) (B1 + B2) (x1.sub f64 x2) (y1 - y2) := by
  rw [sub_eq_add_neg]; exact h1.add h2.neg hB

theorem Ap.mul {δ1 δ2 B1 B2 : ℚ} {x1 x2 : Fl} {y1 y2 : ℚ} (h1 : Ap δ1 B1 x1 y1) (h2 : Ap δ2 B2 x2 y2)
    (hB : B1 * B2 + (B1 * δ2 + δ1 * (B2 + δ2)) ≤ 2 ^ 100) :
    Ap (B1 * δ2 + δ1 * (B2 + δ2) + (B1 * B2 + (B1 * δ2 + δ1 * (B2 + δ2))) / 2 ^ 53 + 1 / 2 ^ 100) (B1 * B2)
      (x1.mul f64 x2) (y1 * y2) := by
  obtain ⟨q1, rfl, a1, b1⟩ := h1
  obtain ⟨q2, rfl, a2, b2⟩ := h2
  have hB1 : 0 ≤ B1 := (abs_nonneg _).trans b1
  have hd1 : 0 ≤ δ1 := (abs_nonneg _).trans a1
  refine Ap.round (q := q1 * q2) ?_ (by rw [abs_mul]; exact mul_le_mul b1 b2 (abs_nonneg _) hB1) hB
  have e : q1 * q2 - y1 * y2 = y1 * (q2 - y2) + (q1 - y1) * q2 := by ring
  rw [e]
  refine (abs_add_le _ _).trans (add_le_add ?_ ?_)
  · rw [abs_mul]; exact mul_le_mul b1 a2 (abs_nonneg _) hB1
  · rw [abs_mul]; exact mul_le_mul a1 (Ap.size a2 b2) (abs_nonneg _) hd1

/-- A decimal literal below 1. -/
theorem Ap.lit {k : ℚ} (h0 : 0 ≤ k) (h1 : k ≤ 1) : Ap (1 / 2 ^ 52) 1 (lit64 k) k := by
  have := Ap.round (δ := 0) (B := 1) (q := k) (y := k) (by simp) (by rw [abs_of_nonneg h0]; exact h1) (by norm_num)
  exact this.mono (by norm_num) le_rfl

theorem Ap.exact {x y : ℚ} {B : ℚ} (h : |y| ≤ B) (hx : x = y) : Ap 0 B (.fin x) y := ⟨x, rfl, by simp [hx], h⟩

/-! ## The matrix -/

variable {c s : ℚ}

theorem entry_pp (hc : |c| ≤ 1) (hs : |s| ≤ 1) {a b d : ℚ} (ha : 0 ≤ a ∧ a ≤ 1) (hb : 0 ≤ b ∧ b ≤ 1)
    (hd : 0 ≤ d ∧ d ≤ 1) : Ap (1 / 2 ^ 48) 3
      (((lit64 a).add f64 ((Fl.fin c).mul f64 (lit64 b))).add f64 ((Fl.fin s).mul f64 (lit64 d))) (hueEntry a b d c s) := by
  have h1 := (((Ap.lit ha.1 ha.2).add ((Ap.exact hc rfl).mul (Ap.lit hb.1 hb.2) (by norm_num)) (by norm_num)).add
    ((Ap.exact hs rfl).mul (Ap.lit hd.1 hd.2) (by norm_num)) (by norm_num)).mono (δ' := 1 / 2 ^ 48) (B' := 3)
    (by norm_num) (by norm_num)
  rwa [show a + c * b + s * d = hueEntry a b d c s by unfold hueEntry; ring] at h1

theorem entry_pm (hc : |c| ≤ 1) (hs : |s| ≤ 1) {a b d : ℚ} (ha : 0 ≤ a ∧ a ≤ 1) (hb : 0 ≤ b ∧ b ≤ 1)
    (hd : 0 ≤ d ∧ d ≤ 1) : Ap (1 / 2 ^ 48) 3
      (((lit64 a).add f64 ((Fl.fin c).mul f64 (lit64 b))).sub f64 ((Fl.fin s).mul f64 (lit64 d))) (hueEntry a b (-d) c s) := by
  have h1 := (((Ap.lit ha.1 ha.2).add ((Ap.exact hc rfl).mul (Ap.lit hb.1 hb.2) (by norm_num)) (by norm_num)).sub
    ((Ap.exact hs rfl).mul (Ap.lit hd.1 hd.2) (by norm_num)) (by norm_num)).mono (δ' := 1 / 2 ^ 48) (B' := 3)
    (by norm_num) (by norm_num)
  rwa [show a + c * b - s * d = hueEntry a b (-d) c s by unfold hueEntry; ring] at h1

theorem entry_mp (hc : |c| ≤ 1) (hs : |s| ≤ 1) {a b d : ℚ} (ha : 0 ≤ a ∧ a ≤ 1) (hb : 0 ≤ b ∧ b ≤ 1)
    (hd : 0 ≤ d ∧ d ≤ 1) : Ap (1 / 2 ^ 48) 3
      (((lit64 a).sub f64 ((Fl.fin c).mul f64 (lit64 b))).add f64 ((Fl.fin s).mul f64 (lit64 d))) (hueEntry a (-b) d c s) := by
  have h1 := (((Ap.lit ha.1 ha.2).sub ((Ap.exact hc rfl).mul (Ap.lit hb.1 hb.2) (by norm_num)) (by norm_num)).add
    ((Ap.exact hs rfl).mul (Ap.lit hd.1 hd.2) (by norm_num)) (by norm_num)).mono (δ' := 1 / 2 ^ 48) (B' := 3)
    (by norm_num) (by norm_num)
  rwa [show a - c * b + s * d = hueEntry a (-b) d c s by unfold hueEntry; ring] at h1

theorem entry_mm (hc : |c| ≤ 1) (hs : |s| ≤ 1) {a b d : ℚ} (ha : 0 ≤ a ∧ a ≤ 1) (hb : 0 ≤ b ∧ b ≤ 1)
    (hd : 0 ≤ d ∧ d ≤ 1) : Ap (1 / 2 ^ 48) 3
      (((lit64 a).sub f64 ((Fl.fin c).mul f64 (lit64 b))).sub f64 ((Fl.fin s).mul f64 (lit64 d))) (hueEntry a (-b) (-d) c s) := by
  have h1 := (((Ap.lit ha.1 ha.2).sub ((Ap.exact hc rfl).mul (Ap.lit hb.1 hb.2) (by norm_num)) (by norm_num)).sub
    ((Ap.exact hs rfl).mul (Ap.lit hd.1 hd.2) (by norm_num)) (by norm_num)).mono (δ' := 1 / 2 ^ 48) (B' := 3)
    (by norm_num) (by norm_num)
  rwa [show a - c * b - s * d = hueEntry a (-b) (-d) c s by unfold hueEntry; ring] at h1

/-- Every computed entry is close to the exact one. -/
theorem matrix_near (hc : |c| ≤ 1) (hs : |s| ≤ 1) {i : ℕ} (hi : i < 9) :
    Ap (1 / 2 ^ 48) 3 ((hueMatrix (.fin c) (.fin s)).getD i .nan) (hueExact i c s) := by
  match i, hi with
  | 0, _ => exact entry_pm hc hs (by norm_num) (by norm_num) (by norm_num)
  | 1, _ => exact entry_mm hc hs (by norm_num) (by norm_num) (by norm_num)
  | 2, _ => exact entry_mp hc hs (by norm_num) (by norm_num) (by norm_num)
  | 3, _ => exact entry_mp hc hs (by norm_num) (by norm_num) (by norm_num)
  | 4, _ => exact entry_pp hc hs (by norm_num) (by norm_num) (by norm_num)
  | 5, _ => exact entry_mm hc hs (by norm_num) (by norm_num) (by norm_num)
  | 6, _ => exact entry_mm hc hs (by norm_num) (by norm_num) (by norm_num)
  | 7, _ => exact entry_mp hc hs (by norm_num) (by norm_num) (by norm_num)
  | 8, _ => exact entry_pp hc hs (by norm_num) (by norm_num) (by norm_num)

theorem ofNat64 {n : ℕ} (hn : n < 2 ^ 53) : Fl.ofNat f64 n = .fin n := by
  unfold Fl.ofNat
  rw [ofRat64, f64.rnd_nat hn (by decide)]
  rw [abs_of_nonneg (by positivity)]
  apply two_1023
  calc (n : ℚ) ≤ 2 ^ 53 := by exact_mod_cast hn.le
    _ ≤ 2 ^ 100 := by norm_num

theorem Ap.ofNat {n : ℕ} {B : ℚ} (hB : (n : ℚ) ≤ B) (hB' : B ≤ 2 ^ 64) :
    Ap (B / 2 ^ 53 + 1 / 2 ^ 100) B (Fl.ofNat f64 n) n := by
  have := Ap.round (δ := 0) (B := B) (q := n) (y := n) (by simp) (by rw [abs_of_nonneg (by positivity)]; exact hB)
    (by rw [add_zero]; exact hB'.trans (by norm_num))
  simpa [Fl.ofNat] using this

/-- A new channel before clamping, 8-bit samples. -/
theorem row_near (hc : |c| ≤ 1) (hs : |s| ≤ 1) {i : ℕ} (hi : i < 3) {r g b : ℕ} (hr : r ≤ 255) (hg : g ≤ 255)
    (hb : b ≤ 255) :
    Ap (1 / 2 ^ 36) (3 * 3 * 255)
      (hueRow (hueMatrix (.fin c) (.fin s)) i (.fin r) (.fin g) (.fin b)) (hueRowExact i c s r g b) := by
  have hb' : ∀ {n : ℕ}, n ≤ 255 → Ap 0 255 (.fin (n : ℚ)) n := fun h =>
    Ap.exact (by rw [abs_of_nonneg (by positivity)]; exact_mod_cast h) rfl
  have h1 := (matrix_near hc hs (i := 3 * i) (by omega)).mul (hb' hr) (by norm_num)
  have h2 := (matrix_near hc hs (i := 3 * i + 1) (by omega)).mul (hb' hg) (by norm_num)
  have h3 := (matrix_near hc hs (i := 3 * i + 2) (by omega)).mul (hb' hb) (by norm_num)
  exact (((h1.add h2 (by norm_num)).add h3 (by norm_num)).mono (by norm_num) (by norm_num))

/-- A new channel before clamping is finite for every sample type. -/
theorem row_fin (hc : |c| ≤ 1) (hs : |s| ≤ 1) {i : ℕ} (hi : i < 3) {r g b : ℕ} (hr : r < 2 ^ 64) (hg : g < 2 ^ 64)
    (hb : b < 2 ^ 64) :
    ∃ q, hueRow (hueMatrix (.fin c) (.fin s)) i (Fl.ofNat f64 r) (Fl.ofNat f64 g) (Fl.ofNat f64 b) = .fin q := by
  have hb' : ∀ {n : ℕ}, n < 2 ^ 64 → Ap (2 ^ 64 / 2 ^ 53 + 1 / 2 ^ 100) (2 ^ 64) (Fl.ofNat f64 n) n := fun h =>
    Ap.ofNat (by exact_mod_cast h.le) le_rfl
  have h1 := (matrix_near hc hs (i := 3 * i) (by omega)).mul (hb' hr) (by norm_num)
  have h2 := (matrix_near hc hs (i := 3 * i + 1) (by omega)).mul (hb' hg) (by norm_num)
  have h3 := (matrix_near hc hs (i := 3 * i + 2) (by omega)).mul (hb' hb) (by norm_num)
  obtain ⟨q, h, -⟩ := (h1.add h2 (by norm_num)).add h3 (by norm_num)
  exact ⟨q, h⟩

/-- `clamp(…, 0.0, 255.0)` and the cast. -/
theorem out255 (T : Prim) (q : ℚ) :
    unwrapR ((clampF (.fin q) (.fin 0) (.fin 255)).castU T.bits) = .ok ⌊max 0 (min q (255 : ℚ))⌋.toNat := by
  have hm : (255 : ℚ) ≤ T.max := by cases T <;> norm_num [Prim.max, Prim.bits]
  rw [clampF_fin (by norm_num), castU_ok (le_max_left _ _) (by
    have : max 0 (min q (255 : ℚ)) ≤ 255 := max_le (by norm_num) (min_le_right _ _)
    linarith)]
  rfl

/-- Clamping and truncating a whole number keeps what fits. -/
theorem trunc_nat (n : ℕ) : ⌊max 0 (min (n : ℚ) (255 : ℚ))⌋.toNat = min n 255 := by
  have : max 0 (min (n : ℚ) (255 : ℚ)) = ((min n 255 : ℕ) : ℚ) := by
    rw [max_eq_right (le_min (by positivity) (by norm_num))]; push_cast; rfl
  rw [this, Int.floor_natCast, Int.toNat_natCast]

end Verif
