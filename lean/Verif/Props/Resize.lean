import Verif.Proofs.Float
import Mathlib.Algebra.Order.Group.MinMax

/-!
# Dimensions of a resized image (C50)
-/

namespace Verif

/-! ## Specification -/

/-- The exact scale factor that fits (or, when filling, covers) the box. -/
def scaleOf (w h nw nh : ℚ) (fill : Bool) : ℚ := if fill then max (nw / w) (nh / h) else min (nw / w) (nh / h)

/-- `d` is `x` (but at least 1) rounded to nearest, up to `2^-18`. -/
def RoundedDim (d : ℕ) (x : ℚ) : Prop := |(d : ℚ) - max x 1| ≤ 1 / 2 + 1 / 2 ^ 18

/-! ## `f64` arithmetic on `u32` values -/

/-- A value below a power of two that is not too large is finite. -/
theorem ofRat_fin_pow {F : Fmt} (hF : F.Wide) {q : ℚ} (h0 : 0 ≤ q) {k : ℕ} (hk : (k : ℤ) < F.emax)
    (h : q ≤ 2 ^ k) : F.ofRat q = .fin (F.rnd q) := by
  unfold Fmt.ofRat
  rw [if_pos]
  rw [abs_of_nonneg (F.rnd_nonneg h0)]
  have e : F.rnd (2 ^ k) = 2 ^ k := by
    have := F.rnd_exact (m := 1) (e := k) (by
      have := hF.p
      have : (2 : ℤ) ^ 1 ≤ 2 ^ F.p := pow_le_pow_right₀ (by norm_num) this
      simp; omega) (by have := hF.emin; omega)
    simpa using this
  calc F.rnd q ≤ F.rnd (2 ^ k) := F.rnd_mono hF.p h0 h
    _ = (2 : ℚ) ^ (k : ℤ) := by rw [e, zpow_natCast]
    _ < 2 ^ F.emax := zpow_lt_zpow_right₀ (by norm_num) hk

/-- `nw as f64 / w as f64` -/
theorem ratio_fin {w nw : ℕ} (hw0 : 0 < w) (hw : w < 2 ^ 32) (hn : nw < 2 ^ 32) :
    (Fl.ofNat f64 nw).div f64 (Fl.ofNat f64 w) = .fin (f64.rnd (nw / w)) := by
  rw [ofNat_fin wide64 (n := nw) (hn.trans (by decide)), ofNat_fin wide64 (n := w) (hw.trans (by decide))]
  simp only [Fl.div]
  have hwq : (1 : ℚ) ≤ w := by exact_mod_cast hw0
  rw [if_neg (by linarith)]
  refine ofRat_fin wide64 (by positivity) (n := 2 ^ 32) (by decide) ?_
  rw [div_le_iff₀ (by linarith)]
  have : (nw : ℚ) ≤ 2 ^ 32 := by exact_mod_cast hn.le
  push_cast
  nlinarith

/-- The quotient of two `u32` values is zero or not tiny. -/
theorem ratio_tame {w nw : ℕ} (hw0 : 0 < w) (hw : w < 2 ^ 32) : Tm 32 ((nw : ℚ) / w) := by
  rcases Nat.eq_zero_or_pos nw with rfl | hp
  · left; simp
  · right
    have h1 : (1 : ℚ) ≤ nw := by exact_mod_cast hp
    have h2 : (w : ℚ) ≤ 2 ^ 32 := by exact_mod_cast hw.le
    have h3 : (0 : ℚ) < w := by exact_mod_cast hw0
    gcongr

/-- Scaling `w` by the rounded ratio `q` gives `w * q` up to a relative error of `3 * 2^-53`. -/
theorem scaled_near {w : ℕ} {q : ℚ} (hw0 : 0 < w) (hq : Tm 32 q) :
    |f64.rnd (w * f64.rnd q) - w * q| ≤ 3 / 2 ^ 53 * (w * q) := by
  have hwq : (1 : ℚ) ≤ w := by exact_mod_cast hw0
  have h1 := rnd_near (F := f64) (Or.inr rfl) (hq.tame (by norm_num))
  rw [show f64.p = 53 from rfl, abs_le] at h1
  have hq0 := hq.nonneg
  have ht : Tame (w * f64.rnd q) := by
    rcases hq with h | h
    · left; rw [h]; simp
    · right
      have : q / 2 ^ 53 ≤ q / 2 := by gcongr; norm_num
      have h2 : 1 / 2 ^ 32 / 2 ≤ f64.rnd q := by linarith
      have : (1 : ℚ) / 2 ^ 100 ≤ 1 / 2 ^ 32 / 2 := by norm_num
      exact (this.trans h2).trans (le_mul_of_one_le_left (f64.rnd_nonneg hq0) hwq)
  have h2 := rnd_near (F := f64) (Or.inr rfl) ht
  rw [show f64.p = 53 from rfl, abs_le] at h2
  have a1 := mul_le_mul_of_nonneg_left h1.1 (show (0 : ℚ) ≤ w by linarith)
  have a2 := mul_le_mul_of_nonneg_left h1.2 (show (0 : ℚ) ≤ w by linarith)
  have e : (w : ℚ) * (q / 2 ^ 53) = w * q / 2 ^ 53 := by ring
  have hwq0 : 0 ≤ (w : ℚ) * q := by positivity
  have b : (w : ℚ) * f64.rnd q ≤ 3 / 2 * (w * q) := by
    have : (w : ℚ) * q / 2 ^ 53 ≤ w * q / 2 := by gcongr; norm_num
    linarith
  rw [abs_le]
  constructor <;> linarith

/-- `(w as f64 * q).round() as uN`, for the rounded ratio `q`. -/
def scaledDim (w : ℕ) (q : ℚ) : ℕ := (roundHalfAway (f64.rnd (w * f64.rnd q))).toNat

theorem scaled_fl {bits w : ℕ} {q : ℚ} (hw : w < 2 ^ 32) (hq0 : 0 ≤ q) (hq : q ≤ 2 ^ 32) :
    ((Fl.ofNat f64 w).mul f64 (.fin (f64.rnd q))).round.toUSat bits = min (scaledDim w q) (2 ^ bits - 1) := by
  rw [ofNat_fin wide64 (n := w) (hw.trans (by decide))]
  have hr : f64.rnd q ≤ 2 ^ 32 := by
    have := rnd_le_nat wide64 hq0 (n := 2 ^ 32) (by decide) (by exact_mod_cast hq)
    exact_mod_cast this
  have hr0 := f64.rnd_nonneg hq0
  have hwq : (w : ℚ) ≤ 2 ^ 32 := by exact_mod_cast hw.le
  simp only [Fl.mul]
  rw [ofRat_fin_pow wide64 (k := 64) (by positivity) (by decide) (by
    calc (w : ℚ) * f64.rnd q ≤ 2 ^ 32 * 2 ^ 32 := by gcongr
      _ = 2 ^ 64 := by norm_num)]
  simp only [Fl.round, Fl.toUSat, Int.floor_intCast]
  rfl

theorem scaledDim_mono {w : ℕ} {q r : ℚ} (hq0 : 0 ≤ q) (h : q ≤ r) : scaledDim w q ≤ scaledDim w r := by
  have h1 := f64.rnd_mono wide64.p hq0 h
  have h0 := f64.rnd_nonneg hq0
  have h2 : f64.rnd (w * f64.rnd q) ≤ f64.rnd (w * f64.rnd r) := by
    apply f64.rnd_mono wide64.p (by positivity)
    gcongr
  have := roundHalfAway_mono (f64.rnd_nonneg (by positivity)) h2
  unfold scaledDim
  omega

/-- The determining dimension comes out exactly. -/
theorem scaledDim_exact {w nw : ℕ} (hw0 : 0 < w) (hw : w < 2 ^ 32) (hn : nw < 2 ^ 32) :
    scaledDim w (nw / w) = nw := by
  have h := scaled_near hw0 (ratio_tame (nw := nw) hw0 hw)
  have hwq : (w : ℚ) ≠ 0 := by exact_mod_cast hw0.ne'
  have e : (w : ℚ) * (nw / w) = nw := by field_simp
  rw [e] at h
  have hnq : (nw : ℚ) ≤ 2 ^ 32 := by exact_mod_cast hn.le
  unfold scaledDim
  rw [roundHalfAway_near (n := (nw : ℤ)) (by positivity)]
  · rfl
  · push_cast
    refine lt_of_le_of_lt h ?_
    calc (3 : ℚ) / 2 ^ 53 * nw ≤ 3 / 2 ^ 53 * 2 ^ 32 := by gcongr
      _ < 1 / 2 := by norm_num

/-- Accuracy of a scaled dimension. -/
theorem scaledDim_near {w : ℕ} {q : ℚ} (hw0 : 0 < w) (hq : Tm 32 q) :
    |(scaledDim w q : ℚ) - w * q| ≤ 1 / 2 + 3 / 2 ^ 53 * (w * q) := by
  have h := scaled_near hw0 hq
  have hq0 := hq.nonneg
  have h0 : 0 ≤ f64.rnd (w * f64.rnd q) := f64.rnd_nonneg (by have := f64.rnd_nonneg hq0; positivity)
  have he := roundHalfAway_error h0
  have hc : (scaledDim w q : ℚ) = roundHalfAway (f64.rnd (w * f64.rnd q)) := by
    have := Int.toNat_of_nonneg (roundHalfAway_nonneg h0)
    unfold scaledDim
    exact_mod_cast this
  rw [hc]
  rw [abs_le] at *
  constructor <;> linarith

theorem roundedDim_of {w : ℕ} {q : ℚ} (hw0 : 0 < w) (hq : Tm 32 q) (hle : scaledDim w q < 2 ^ 32) :
    RoundedDim (max (scaledDim w q) 1) (w * q) := by
  have h := scaledDim_near hw0 hq
  have hsq : (scaledDim w q : ℚ) ≤ 2 ^ 32 := by exact_mod_cast hle.le
  have hq0 : 0 ≤ (w : ℚ) * q := by have := hq.nonneg; positivity
  have hb : (w : ℚ) * q ≤ 2 ^ 33 := by
    rw [abs_le] at h
    have : (3 : ℚ) / 2 ^ 53 * (w * q) ≤ 1 / 4 * (w * q) := mul_le_mul_of_nonneg_right (by norm_num) hq0
    linarith
  have hε : (3 : ℚ) / 2 ^ 53 * (w * q) ≤ 1 / 2 ^ 18 := by
    calc (3 : ℚ) / 2 ^ 53 * (w * q) ≤ 3 / 2 ^ 53 * 2 ^ 33 := mul_le_mul_of_nonneg_left hb (by norm_num)
      _ ≤ 1 / 2 ^ 18 := by norm_num
  unfold RoundedDim
  push_cast
  exact (abs_max_sub_max_le_abs _ _ _).trans (h.trans (by linarith))

/-! ## The function on non-empty images -/

theorem ratio_le {w nw : ℕ} (hw0 : 0 < w) (hn : nw < 2 ^ 32) : (nw : ℚ) / w ≤ 2 ^ 32 := by
  have hwq : (1 : ℚ) ≤ w := by exact_mod_cast hw0
  rw [div_le_iff₀ (by linarith)]
  have : (nw : ℚ) ≤ 2 ^ 32 := by exact_mod_cast hn.le
  nlinarith

theorem scaleOf_facts {w h nw nh : ℕ} (fill : Bool) (hw0 : 0 < w) (hw : w < 2 ^ 32) (hh0 : 0 < h) (hh : h < 2 ^ 32)
    (hnw : nw < 2 ^ 32) (hnh : nh < 2 ^ 32) :
    Tm 32 (scaleOf w h nw nh fill) ∧ scaleOf w h nw nh fill ≤ 2 ^ 32 ∧
    (if fill then ((Fl.ofNat f64 nw).div f64 (Fl.ofNat f64 w)).fmax ((Fl.ofNat f64 nh).div f64 (Fl.ofNat f64 h))
      else ((Fl.ofNat f64 nw).div f64 (Fl.ofNat f64 w)).fmin ((Fl.ofNat f64 nh).div f64 (Fl.ofNat f64 h))) =
      .fin (f64.rnd (scaleOf w h nw nh fill)) := by
  have ta := ratio_tame (nw := nw) hw0 hw
  have tb := ratio_tame (nw := nh) hh0 hh
  have la := ratio_le hw0 hnw
  have lb := ratio_le hh0 hnh
  rw [ratio_fin hw0 hw hnw, ratio_fin hh0 hh hnh]
  have hmono : ∀ a b : ℚ, 0 ≤ a → a ≤ b → f64.rnd a ≤ f64.rnd b := fun a b h0 h => f64.rnd_mono wide64.p h0 h
  unfold scaleOf
  cases fill
  · simp only [Bool.false_eq_true, if_false, Fl.fmin, Fl.lt, decide_eq_true_eq]
    rcases le_total ((nw : ℚ) / w) (nh / h) with hle | hle
    · rw [min_eq_left hle, if_neg (not_lt.2 (hmono _ _ ta.nonneg hle))]
      exact ⟨ta, la, rfl⟩
    · rw [min_eq_right hle]
      refine ⟨tb, lb, ?_⟩
      have := hmono _ _ tb.nonneg hle
      split
      · rfl
      · next hn => rw [le_antisymm this (not_lt.1 hn)]
  · simp only [if_true, Fl.fmax, Fl.lt, decide_eq_true_eq]
    rcases le_total ((nw : ℚ) / w) (nh / h) with hle | hle
    · rw [max_eq_right hle]
      refine ⟨tb, lb, ?_⟩
      have := hmono _ _ ta.nonneg hle
      split
      · rfl
      · next hn => rw [le_antisymm this (not_lt.1 hn)]
    · rw [max_eq_left hle, if_neg (not_lt.2 (hmono _ _ tb.nonneg hle))]
      exact ⟨ta, la, rfl⟩

theorem scaledDim_lt {w : ℕ} {q : ℚ} (hw : w < 2 ^ 32) (hw0 : 0 < w) (hq : Tm 32 q) (hq1 : q ≤ 2 ^ 32) :
    scaledDim w q < 2 ^ 65 := by
  have h := scaledDim_near hw0 hq
  have hwq : (w : ℚ) ≤ 2 ^ 32 := by exact_mod_cast hw.le
  have hq0 := hq.nonneg
  have h64 : (w : ℚ) * q ≤ 2 ^ 32 * 2 ^ 32 := by gcongr
  rw [abs_le] at h
  have : (3 : ℚ) / 2 ^ 53 * (w * q) ≤ 3 / 2 ^ 53 * (2 ^ 32 * 2 ^ 32) := by gcongr
  have : (scaledDim w q : ℚ) < 2 ^ 65 := by
    refine lt_of_le_of_lt (by linarith [h.2] : (scaledDim w q : ℚ) ≤ 2 ^ 32 * 2 ^ 32 + (1 / 2 + 3 / 2 ^ 53 * (2 ^ 32 * 2 ^ 32))) ?_
    norm_num
  exact_mod_cast this

/-- What `resize_dimensions` computes for a non-empty image. -/
theorem resizeDimensions_eq {w h nw nh : ℕ} (fill : Bool) (hw0 : 0 < w) (hw : w < 2 ^ 32) (hh0 : 0 < h)
    (hh : h < 2 ^ 32) (hnw : nw < 2 ^ 32) (hnh : nh < 2 ^ 32) :
    resizeDimensions w h nw nh fill =
      if 2 ^ 32 - 1 < scaledDim w (scaleOf w h nw nh fill) then
        (2 ^ 32 - 1, max (min (scaledDim h ((2 ^ 32 - 1 : ℕ) / w)) (2 ^ 32 - 1)) 1)
      else if 2 ^ 32 - 1 < scaledDim h (scaleOf w h nw nh fill) then
        (max (min (scaledDim w ((2 ^ 32 - 1 : ℕ) / h)) (2 ^ 32 - 1)) 1, 2 ^ 32 - 1)
      else (max (scaledDim w (scaleOf w h nw nh fill)) 1, max (scaledDim h (scaleOf w h nw nh fill)) 1) := by
  obtain ⟨ht, hle, heq⟩ := scaleOf_facts fill hw0 hw hh0 hh hnw hnh
  simp only [resizeDimensions]
  rw [heq, scaled_fl hw ht.nonneg hle, scaled_fl hh ht.nonneg hle,
    ratio_fin hw0 hw (by decide : 2 ^ 32 - 1 < 2 ^ 32), ratio_fin hh0 hh (by decide : 2 ^ 32 - 1 < 2 ^ 32),
    scaled_fl hh (by positivity) (ratio_le hw0 (by decide)), scaled_fl hw (by positivity) (ratio_le hh0 (by decide))]
  have e : ∀ n : ℕ, 2 ^ 32 - 1 < max (min n (2 ^ 64 - 1)) 1 ↔ 2 ^ 32 - 1 < n := by intro n; omega
  simp only [e]
  split
  · rfl
  split
  · rfl
  next h1 h2 =>
  rw [min_eq_left (by omega), min_eq_left (by omega)]

/-! ## C50 -/

theorem toUSat_le (bits : ℕ) (f : Fl) : f.toUSat bits ≤ 2 ^ bits - 1 := by
  cases f with
  | nan => simp [Fl.toUSat]
  | inf s => cases s <;> simp [Fl.toUSat]
  | fin q => simp only [Fl.toUSat]; omega

/-- Whatever the arguments (zero included), both dimensions are at least 1 and fit in `u32`. -/
theorem C50_in_range (width height nwidth nheight : Nat) (fill : Bool) :
    let r := resizeDimensions width height nwidth nheight fill
    1 ≤ r.1 ∧ r.1 < 2 ^ 32 ∧ 1 ≤ r.2 ∧ r.2 < 2 ^ 32 := by
  have aux : ∀ a b c d : ℕ, c ≤ 2 ^ 32 - 1 → d ≤ 2 ^ 32 - 1 →
      let r := if 2 ^ 32 - 1 < max a 1 then (2 ^ 32 - 1, max c 1)
        else if 2 ^ 32 - 1 < max b 1 then (max d 1, 2 ^ 32 - 1) else (max a 1, max b 1)
      1 ≤ r.1 ∧ r.1 < 2 ^ 32 ∧ 1 ≤ r.2 ∧ r.2 < 2 ^ 32 := by
    intro a b c d hc hd
    dsimp only
    split
    · dsimp only; omega
    split <;> dsimp only <;> omega
  exact aux _ _ _ _ (toUSat_le 32 _) (toUSat_le 32 _)

/-- Without filling, the result fits the box (a zero bound counts as 1) and touches it in at least one dimension, and
both dimensions are the image's, scaled by the exact factor and rounded. -/
theorem C50_fit (w h nw nh : Nat) (hw0 : 0 < w) (hw : w < 2 ^ 32) (hh0 : 0 < h) (hh : h < 2 ^ 32) (hnw : nw < 2 ^ 32)
    (hnh : nh < 2 ^ 32) :
    let r := resizeDimensions w h nw nh false
    r.1 ≤ max nw 1 ∧ r.2 ≤ max nh 1 ∧ (r.1 = max nw 1 ∨ r.2 = max nh 1) ∧
    RoundedDim r.1 (w * scaleOf w h nw nh false) ∧ RoundedDim r.2 (h * scaleOf w h nw nh false) := by
  obtain ⟨ht, hle, -⟩ := scaleOf_facts false hw0 hw hh0 hh hnw hnh
  have hs1 : scaleOf w h nw nh false ≤ nw / w := by simp [scaleOf]
  have hs2 : scaleOf w h nw nh false ≤ nh / h := by simp [scaleOf]
  have e1 := scaledDim_exact hw0 hw hnw
  have e2 := scaledDim_exact hh0 hh hnh
  have m1 := scaledDim_mono (w := w) ht.nonneg hs1
  have m2 := scaledDim_mono (w := h) ht.nonneg hs2
  rw [e1] at m1
  rw [e2] at m2
  rw [resizeDimensions_eq false hw0 hw hh0 hh hnw hnh, if_neg (by omega), if_neg (by omega)]
  refine ⟨by dsimp only; omega, by dsimp only; omega, ?_, roundedDim_of hw0 ht (by omega),
    roundedDim_of hh0 ht (by omega)⟩
  dsimp only
  rcases le_total ((nw : ℚ) / w) (nh / h) with hc | hc
  · left
    have : scaleOf w h nw nh false = nw / w := by simp [scaleOf, hc]
    rw [this, e1]
  · right
    have : scaleOf w h nw nh false = nh / h := by simp [scaleOf, hc]
    rw [this, e2]

/-- When filling and neither scaled dimension exceeds `u32`, the result covers the box, touches it in at least one
dimension, and both dimensions are the image's, scaled by the exact factor and rounded. -/
theorem C50_fill (w h nw nh : Nat) (hw0 : 0 < w) (hw : w < 2 ^ 32) (hh0 : 0 < h) (hh : h < 2 ^ 32) (hnw : nw < 2 ^ 32)
    (hnh : nh < 2 ^ 32) (hsw : w * scaleOf w h nw nh true < 2 ^ 32 - 1) (hsh : h * scaleOf w h nw nh true < 2 ^ 32 - 1) :
    let r := resizeDimensions w h nw nh true
    nw ≤ r.1 ∧ nh ≤ r.2 ∧ (r.1 = max nw 1 ∨ r.2 = max nh 1) ∧
    RoundedDim r.1 (w * scaleOf w h nw nh true) ∧ RoundedDim r.2 (h * scaleOf w h nw nh true) := by
  obtain ⟨ht, hle, -⟩ := scaleOf_facts true hw0 hw hh0 hh hnw hnh
  have hs1 : nw / w ≤ scaleOf w h nw nh true := by simp [scaleOf]
  have hs2 : nh / h ≤ scaleOf w h nw nh true := by simp [scaleOf]
  have e1 := scaledDim_exact hw0 hw hnw
  have e2 := scaledDim_exact hh0 hh hnh
  have m1 := scaledDim_mono (w := w) (by positivity) hs1
  have m2 := scaledDim_mono (w := h) (by positivity) hs2
  rw [e1] at m1
  rw [e2] at m2
  have lt : ∀ k : ℕ, 0 < k → k * scaleOf w h nw nh true < 2 ^ 32 - 1 → scaledDim k (scaleOf w h nw nh true) < 2 ^ 32 := by
    intro k hk hb
    have hn := scaledDim_near hk ht
    rw [abs_le] at hn
    have : (3 : ℚ) / 2 ^ 53 * (k * scaleOf w h nw nh true) ≤ 3 / 2 ^ 53 * (2 ^ 32 - 1) := by gcongr
    have : (scaledDim k (scaleOf w h nw nh true) : ℚ) < 2 ^ 32 := by
      have : (3 : ℚ) / 2 ^ 53 * (2 ^ 32 - 1) < 1 / 2 := by norm_num
      linarith [hn.2]
    exact_mod_cast this
  have l1 := lt w hw0 hsw
  have l2 := lt h hh0 hsh
  rw [resizeDimensions_eq true hw0 hw hh0 hh hnw hnh, if_neg (by omega), if_neg (by omega)]
  refine ⟨by dsimp only; omega, by dsimp only; omega, ?_, roundedDim_of hw0 ht l1, roundedDim_of hh0 ht l2⟩
  dsimp only
  rcases le_total ((nw : ℚ) / w) (nh / h) with hc | hc
  · right
    have : scaleOf w h nw nh true = nh / h := by simp [scaleOf, hc]
    rw [this, e2]
  · left
    have : scaleOf w h nw nh true = nw / w := by simp [scaleOf, hc]
    rw [this, e1]

/-- When filling would make one dimension exceed `u32`, that dimension becomes `u32::MAX` and the other one is the
image's, scaled by the factor that takes the first to `u32::MAX` and rounded: the aspect ratio is kept, but the box
need not be covered (`C50_cover_false`). -/
theorem C50_fill_saturated (w h nw nh : Nat) (hw0 : 0 < w) (hw : w < 2 ^ 32) (hh0 : 0 < h) (hh : h < 2 ^ 32)
    (hnw : nw < 2 ^ 32) (hnh : nh < 2 ^ 32) :
    (2 ^ 32 ≤ w * scaleOf w h nw nh true →
      (resizeDimensions w h nw nh true).1 = 2 ^ 32 - 1 ∧
      RoundedDim (resizeDimensions w h nw nh true).2 (h * ((2 ^ 32 - 1) / w))) ∧
    (2 ^ 32 ≤ h * scaleOf w h nw nh true →
      (resizeDimensions w h nw nh true).2 = 2 ^ 32 - 1 ∧
      RoundedDim (resizeDimensions w h nw nh true).1 (w * ((2 ^ 32 - 1) / h))) := by
  obtain ⟨ht, hle, -⟩ := scaleOf_facts true hw0 hw hh0 hh hnw hnh
  have hwq : (0 : ℚ) < w := by exact_mod_cast hw0
  have hhq : (0 : ℚ) < h := by exact_mod_cast hh0
  have e1 := scaledDim_exact hw0 hw hnw
  have e2 := scaledDim_exact hh0 hh hnh
  have hnwq : (nw : ℚ) ≤ 2 ^ 32 - 1 := by
    have : nw + 1 ≤ 2 ^ 32 := hnw
    have : (nw : ℚ) + 1 ≤ 2 ^ 32 := by exact_mod_cast this
    linarith
  have hnhq : (nh : ℚ) ≤ 2 ^ 32 - 1 := by
    have : nh + 1 ≤ 2 ^ 32 := hnh
    have : (nh : ℚ) + 1 ≤ 2 ^ 32 := by exact_mod_cast this
    linarith
  have gt : ∀ k : ℕ, 0 < k → 2 ^ 32 ≤ k * scaleOf w h nw nh true → 2 ^ 32 - 1 < scaledDim k (scaleOf w h nw nh true) := by
    intro k hk hb
    have hn := scaledDim_near hk ht
    rw [abs_le] at hn
    have : (3 : ℚ) / 2 ^ 53 * (k * scaleOf w h nw nh true) ≤ 1 / 2 ^ 40 * (k * scaleOf w h nw nh true) :=
      mul_le_mul_of_nonneg_right (by norm_num) (by linarith)
    have : ((2 ^ 32 - 1 : ℕ) : ℚ) < scaledDim k (scaleOf w h nw nh true) := by
      push_cast
      linarith [hn.1]
    exact_mod_cast this
  have hcast : ((2 ^ 32 - 1 : ℕ) : ℚ) = 2 ^ 32 - 1 := by norm_num
  -- the other dimension stays in range
  have other : ∀ k l n : ℕ, 0 < k → 0 < l → k < 2 ^ 32 → n < 2 ^ 32 → 2 ^ 32 ≤ (l : ℚ) * ((n : ℚ) / k) →
      scaledDim k ((2 ^ 32 - 1 : ℕ) / l) ≤ n := by
    intro k l n hk hl hk2 hn hb
    have hlq : (0 : ℚ) < l := by exact_mod_cast hl
    have h1 : ((2 ^ 32 - 1 : ℕ) : ℚ) / l ≤ n / k := by
      rw [div_le_iff₀ hlq, hcast]
      linarith
    have := scaledDim_mono (w := k) (by positivity) h1
    rwa [scaledDim_exact hk hk2 hn] at this
  constructor
  · intro hb
    have hr : scaleOf w h nw nh true = nh / h := by
      rcases le_total ((nw : ℚ) / w) (nh / h) with hc | hc
      · simp [scaleOf, hc]
      · exfalso
        have hs : scaleOf w h nw nh true = nw / w := by simp [scaleOf, hc]
        rw [hs, mul_div_cancel₀ _ hwq.ne'] at hb
        linarith
    rw [resizeDimensions_eq true hw0 hw hh0 hh hnw hnh, if_pos (gt w hw0 hb)]
    refine ⟨rfl, ?_⟩
    rw [hr] at hb
    have ho := other h w nh hh0 hw0 hh hnh hb
    rw [min_eq_left (by omega)]
    have := roundedDim_of hh0 (ratio_tame (nw := 2 ^ 32 - 1) hw0 hw) (by omega)
    rw [← hcast]
    exact this
  · intro hb
    have hr : scaleOf w h nw nh true = nw / w := by
      rcases le_total ((nw : ℚ) / w) (nh / h) with hc | hc
      · exfalso
        have hs : scaleOf w h nw nh true = nh / h := by simp [scaleOf, hc]
        rw [hs, mul_div_cancel₀ _ hhq.ne'] at hb
        linarith
      · simp [scaleOf, hc]
    have hg := gt h hh0 hb
    rw [resizeDimensions_eq true hw0 hw hh0 hh hnw hnh, if_neg (by rw [hr, e1]; omega), if_pos hg]
    refine ⟨rfl, ?_⟩
    rw [hr] at hb
    have ho := other w h nw hw0 hh0 hw hnw hb
    rw [min_eq_left (by omega)]
    have := roundedDim_of hw0 (ratio_tame (nw := 2 ^ 32 - 1) hh0 hh) (by omega)
    rw [← hcast]
    exact this

/-- A filled resize need not cover the box: a 4 x 1 image filled into a 1 x 2^31 box has height 2^30. -/
theorem C50_cover_false : ∃ w h nw nh : Nat, 0 < w ∧ 0 < h ∧ w < 2 ^ 32 ∧ h < 2 ^ 32 ∧ nw < 2 ^ 32 ∧ nh < 2 ^ 32 ∧
    (resizeDimensions w h nw nh true).2 < nh :=
  ⟨4, 1, 1, 2 ^ 31, by decide, by decide, by decide, by decide, by decide, by decide, by decide +kernel⟩

/-- The rectangle that `resize_to_fill` crops out of the resized image: computing it never underflows, for every
non-empty image and every box. When no dimension saturates it lies inside the resized image, centred in the
dimension that has room. -/
theorem C50_fill_crop (w h nw nh : Nat) (hw0 : 0 < w) (hw : w < 2 ^ 32) (hh0 : 0 < h) (hh : h < 2 ^ 32)
    (hnw : nw < 2 ^ 32) (hnh : nh < 2 ^ 32) :
    let r := resizeDimensions w h nw nh true
    ∃ x y, fillCrop r.1 r.2 nw nh = .ok (x, y) ∧
      (w * scaleOf w h nw nh true < 2 ^ 32 - 1 → h * scaleOf w h nw nh true < 2 ^ 32 - 1 →
        x + nw ≤ r.1 ∧ y + nh ≤ r.2 ∧
        ((x = 0 ∧ y = (r.2 - nh) / 2) ∨ (x = (r.1 - nw) / 2 ∧ y = 0))) := by
  intro r
  obtain ⟨r1, r2, r3, r4⟩ := C50_in_range w h nw nh true
  have hcov : (nw ≤ r.1 ∧ nh ≤ r.2) ∨ r.1 = 2 ^ 32 - 1 ∨ r.2 = 2 ^ 32 - 1 := by
    have e1 := scaledDim_exact hw0 hw hnw
    have e2 := scaledDim_exact hh0 hh hnh
    have hs1 : nw / w ≤ scaleOf w h nw nh true := by simp [scaleOf]
    have hs2 : nh / h ≤ scaleOf w h nw nh true := by simp [scaleOf]
    have m1 := scaledDim_mono (w := w) (by positivity) hs1
    have m2 := scaledDim_mono (w := h) (by positivity) hs2
    rw [e1] at m1
    rw [e2] at m2
    show (nw ≤ (resizeDimensions w h nw nh true).1 ∧ nh ≤ (resizeDimensions w h nw nh true).2) ∨
      (resizeDimensions w h nw nh true).1 = 2 ^ 32 - 1 ∨ (resizeDimensions w h nw nh true).2 = 2 ^ 32 - 1
    rw [resizeDimensions_eq true hw0 hw hh0 hh hnw hnh]
    split
    · right; left; rfl
    split
    · right; right; rfl
    · left; dsimp only; omega
  have b1 : r.1 * nh < 2 ^ 64 := by
    calc r.1 * nh < 2 ^ 32 * 2 ^ 32 := Nat.mul_lt_mul'' r2 hnh
      _ = 2 ^ 64 := by norm_num
  have b2 : nw * r.2 < 2 ^ 64 := by
    calc nw * r.2 < 2 ^ 32 * 2 ^ 32 := Nat.mul_lt_mul'' hnw r4
      _ = 2 ^ 64 := by norm_num
  unfold fillCrop
  rw [mulC_ok b1, mulC_ok b2]
  simp only [ok_bind]
  split
  · next hc =>
    have hle : nh ≤ r.2 := by
      rcases hcov with hcov | hcov | hcov
      · exact hcov.2
      · rw [hcov] at hc
        by_contra hlt
        have : nw * r.2 ≤ (2 ^ 32 - 1) * nh := Nat.mul_le_mul (by omega) (by omega)
        omega
      · omega
    rw [subC_ok hle]
    refine ⟨0, (r.2 - nh) / 2, rfl, fun h1 h2 => ?_⟩
    obtain ⟨c1, c2, -⟩ := C50_fill w h nw nh hw0 hw hh0 hh hnw hnh h1 h2
    change nw ≤ r.1 at c1
    exact ⟨by omega, by omega, Or.inl ⟨rfl, rfl⟩⟩
  · next hc =>
    have hle : nw ≤ r.1 := by
      rcases hcov with hcov | hcov | hcov
      · exact hcov.1
      · omega
      · rw [hcov] at hc
        by_contra hlt
        rcases Nat.eq_zero_or_pos nh with h0 | h0
        · rw [h0] at hc
          have : 0 < nw * (2 ^ 32 - 1) := by omega
          omega
        · have h1 : r.1 * nh ≤ r.1 * (2 ^ 32 - 1) := Nat.mul_le_mul (by omega) (by omega)
          have h2 : (r.1 + 1) * (2 ^ 32 - 1) ≤ nw * (2 ^ 32 - 1) := Nat.mul_le_mul (by omega) (by omega)
          omega
    rw [subC_ok hle]
    refine ⟨(r.1 - nw) / 2, 0, rfl, fun h1 h2 => ?_⟩
    obtain ⟨c1, c2, -⟩ := C50_fill w h nw nh hw0 hw hh0 hh hnw hnh h1 h2
    change nh ≤ r.2 at c2
    exact ⟨by omega, by omega, Or.inr ⟨rfl, rfl⟩⟩

/-- 4264 x 2476 into 3840 x 2160. -/
example : resizeDimensions 4264 2476 3840 2160 true = (3840, 2230) ∧
    resizeDimensions 4264 2476 3840 2160 false = (3720, 2160) := by decide +kernel
example : (4264 : ℚ) * scaleOf 4264 2476 3840 2160 true < 2 ^ 32 - 1 ∧
    (2476 : ℚ) * scaleOf 4264 2476 3840 2160 true < 2 ^ 32 - 1 := by
  norm_num [scaleOf]
example : (2 : ℚ) ^ 32 ≤ 4 * scaleOf 4 1 1 (2 ^ 31) true := by norm_num [scaleOf]

end Verif
