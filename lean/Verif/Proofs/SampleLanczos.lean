import Verif.Proofs.Lanczos
import Verif.Proofs.SampleSignedPicture

/-!
# The Lanczos kernel in single precision
-/

namespace Verif
open Real

/-- `sin` and the constant π are as accurate as `f32` allows: π to half a unit, `sin` to a relative error of at most two units (and no more
than that part of the argument, near the other zeros). -/
structure Libm.SinOk (L : Libm) : Prop where
  pi : ∃ p : ℚ, L.pi = .fin p ∧ |(p : ℝ) - Real.pi| ≤ 1 / 2 ^ 23
  sin : ∀ q : ℚ, |q| ≤ 16 → ∃ r : ℚ, L.sin (.fin q) = .fin r ∧ |(r : ℝ) - Real.sin q| ≤ |(q : ℝ)| / 2 ^ 22

theorem f32_tiny {t : ℚ} (h : f32.rnd t = t) (h0 : t ≠ 0) : 1 / 2 ^ 149 ≤ |t| := by
  obtain ⟨m, e, h1, h2, h3⟩ := rnd_form t
  rw [h] at h1
  have hm : m ≠ 0 := by rintro rfl; simp at h1; exact h0 h1
  rw [h1, abs_mul, abs_of_pos (zpow_pos (by norm_num : (0 : ℚ) < 2) e)]
  have a1 : (1 : ℚ) ≤ |(m : ℚ)| := by exact_mod_cast Int.one_le_abs hm
  have a2 : (1 : ℚ) / 2 ^ 149 ≤ 2 ^ e := by
    have : ((2 : ℚ) ^ (-149 : ℤ)) ≤ 2 ^ e := zpow_le_zpow_right₀ (by norm_num) h3
    refine le_trans (le_of_eq ?_) this
    rw [zpow_neg, one_div]; norm_cast
  calc (1 : ℚ) / 2 ^ 149 ≤ 2 ^ e := a2
    _ ≤ |(m : ℚ)| * 2 ^ e := le_mul_of_one_le_left (by positivity) a1

theorem rnd_big {x : ℚ} (h : 1 / 2 ^ 149 ≤ |x|) : f32.rnd x ≠ 0 := by
  intro hc
  have h1 : f32.rnd (1 / 2 ^ 149) = 1 / 2 ^ 149 :=
    rnd_dyadic 1 (-149) (by rw [zpow_neg, one_div]; norm_cast; simp) (by norm_num) (by norm_num)
  have h2 := f32.rnd_mono' (by decide) h
  rw [h1, ← abs_rnd, hc, abs_zero] at h2
  have : (0 : ℚ) < 1 / 2 ^ 149 := by positivity
  linarith

theorem cast_abs_le {x y B : ℚ} (h : |x - y| ≤ B) : |(x : ℝ) - y| ≤ (B : ℝ) := by exact_mod_cast h

/-- `sinc` in `f32`. -/
theorem sinc_value {L : Libm} (hL : L.SinOk) {t : ℚ} (ht : f32.rnd t = t) (h4 : |t| ≤ 4) :
    ∃ k, sinc L (.fin t) = .fin k ∧ |(k : ℝ) - Real.sinc (π * t)| ≤ 1 / 2 ^ 20 + 1 / 2 ^ 21 := by
  obtain ⟨p, ep, hp⟩ := hL.pi
  by_cases h0 : t = 0
  · subst h0
    exact ⟨1, by unfold sinc; simp, by simp; positivity⟩
  have hpi := pi_gt_d2
  have hpi2 := pi_lt_d2
  have hp' := abs_le.1 hp
  have hp3 : (3 : ℚ) ≤ p := by
    have : (3 : ℝ) ≤ p := by norm_num at hp' hpi ⊢; linarith
    exact_mod_cast this
  have hp4 : p ≤ (3.2 : ℚ) := by
    have : (p : ℝ) ≤ ((3.2 : ℚ) : ℝ) := by push_cast; norm_num at hp' hpi2 ⊢; linarith
    exact_mod_cast this
  have htp : |t * p| ≤ 12.8 := by
    rw [abs_mul, abs_of_pos (by linarith : 0 < p)]
    calc |t| * p ≤ 4 * 3.2 := mul_le_mul h4 hp4 (by linarith) (by norm_num)
      _ = _ := by norm_num
  have ea : (Fl.fin t).mul f32 (.fin p) = .fin (f32.rnd (t * p)) := by
    rw [fl_mul, ofRat32 (htp.trans (by norm_num))]
  set a := f32.rnd (t * p) with ha
  have s1 := rstep (q := t * p) (q' := t * p) (e := 0) (B := 12.8) (by simp) htp
  rw [← ha] at s1
  have ha0 : a ≠ 0 := by
    refine rnd_big ?_
    rw [abs_mul, abs_of_pos (by linarith : 0 < p)]
    exact (f32_tiny ht h0).trans (le_mul_of_one_le_right (abs_nonneg _) (by linarith))
  have s1' : |a - t * p| ≤ 1 / 2 ^ 20 := s1.trans (by norm_num)
  have ha16 : |a| ≤ 16 := by
    have h1 := abs_le.1 s1'
    have h2 := abs_le.1 htp
    rw [abs_le]
    norm_num at h1 h2 ⊢
    constructor <;> linarith
  obtain ⟨r, er, hr⟩ := hL.sin a ha16
  have haR : (a : ℝ) ≠ 0 := by exact_mod_cast ha0
  have haR0 : 0 < |(a : ℝ)| := abs_pos.2 haR
  -- the quotient
  have q1 : |((r / a : ℚ) : ℝ) - Real.sinc a| ≤ 1 / 2 ^ 22 := by
    rw [Real.sinc_of_ne_zero haR]
    push_cast
    rw [← sub_div, abs_div, div_le_iff₀ haR0]
    linarith
  have q2 : |(r / a : ℚ)| ≤ 2 := by
    have h1 := abs_le.1 q1
    have h2 := abs_le.1 (Real.abs_sinc_le_one (a : ℝ))
    have : |((r / a : ℚ) : ℝ)| ≤ 2 := by rw [abs_le]; norm_num at h1 ⊢; constructor <;> linarith
    exact_mod_cast this
  have s2 := rstep (q := r / a) (q' := r / a) (e := 0) (B := 2) (by simp) q2
  have s2' := cast_abs_le (s2.trans (by norm_num : _ ≤ (3 : ℚ) / 2 ^ 24))
  refine ⟨f32.rnd (r / a), ?_, ?_⟩
  · unfold sinc
    have : ¬ (Fl.fin t = Fl.fin 0) := by intro h; injection h with h; exact h0 h
    simp only [ep, if_neg this, ea, er]
    rw [fl_div _ ha0, ofRat32 (q2.trans (by norm_num))]
  · -- the argument
    have q3 : |(a : ℝ) - π * t| ≤ 13 / 2 ^ 24 + 8 / 2 ^ 24 + 1 / 2 ^ 25 := by
      have h1 := cast_abs_le (s1.trans (by norm_num : _ ≤ (13 : ℚ) / 2 ^ 24))
      have e : (a : ℝ) - π * t = ((a : ℝ) - ((t * p : ℚ) : ℝ)) + t * (p - π) := by push_cast; ring
      rw [e]
      refine (abs_add_le _ _).trans ?_
      rw [abs_mul]
      have h2 : |(t : ℝ)| ≤ 4 := by exact_mod_cast h4
      have h3 : |(t : ℝ)| * |(p : ℝ) - π| ≤ 4 * (1 / 2 ^ 23) := mul_le_mul h2 hp (abs_nonneg _) (by norm_num)
      norm_num at h1 h3 ⊢
      linarith
    have q4 := (sinc_lip (a : ℝ) (π * t)).trans (div_le_div_of_nonneg_right q3 (by norm_num))
    have e : ((f32.rnd (r / a) : ℚ) : ℝ) - Real.sinc (π * t) = (((f32.rnd (r / a) : ℚ) : ℝ) - ((r / a : ℚ) : ℝ)) +
      (((r / a : ℚ) : ℝ) - Real.sinc a) + (Real.sinc a - Real.sinc (π * t)) := by ring
    rw [e]
    refine (abs_add_le _ _).trans (le_trans (add_le_add (abs_add_le _ _) le_rfl) ?_)
    norm_num at s2' q1 q4 ⊢
    linarith

/-- The kernel. -/
theorem lanczos_value {L : Libm} (hL : L.SinOk) {t : ℚ} (ht : f32.rnd t = t) :
    ∃ k, lanczos3Kernel L (.fin t) = .fin k ∧ |(k : ℝ) - lanczosR t| ≤ 1 / 2 ^ 18 := by
  rcases lt_or_ge |t| 3 with h3 | h3
  · obtain ⟨k1, e1, v1⟩ := sinc_value hL ht (by linarith)
    have ed : (Fl.fin t).div f32 (.fin 3) = .fin (f32.rnd (t / 3)) := by
      rw [fl_div _ (by norm_num), ofRat32]
      rw [abs_div, abs_of_pos (by norm_num : (0 : ℚ) < 3), div_le_iff₀ (by norm_num)]
      exact h3.le.trans (by norm_num)
    have hB : |t / 3| ≤ 1 := by
      rw [abs_div, abs_of_pos (by norm_num : (0 : ℚ) < 3), div_le_iff₀ (by norm_num)]; linarith
    have s1 := rstep (q := t / 3) (q' := t / 3) (e := 0) (B := 1) (by simp) hB
    have s1' := cast_abs_le (s1.trans (by norm_num : _ ≤ (2 : ℚ) / 2 ^ 24))
    obtain ⟨k2, e2, v2⟩ := sinc_value hL (t := f32.rnd (t / 3)) (rnd_idem _) (by
      have h1 := abs_le.1 s1
      have h2 := abs_le.1 hB
      rw [abs_le]; norm_num at h1 h2 ⊢; constructor <;> linarith)
    have v2' : |(k2 : ℝ) - Real.sinc (π * t / 3)| ≤ 1 / 2 ^ 20 + 1 / 2 ^ 21 + 4 / 2 ^ 24 := by
      have h1 := sinc_lip (π * ((f32.rnd (t / 3) : ℚ) : ℝ)) (π * t / 3)
      rw [show π * t / 3 = π * ((t / 3 : ℚ) : ℝ) by push_cast; ring] at h1 ⊢
      rw [← mul_sub, abs_mul, abs_of_pos pi_pos] at h1
      have h2 : π * |((f32.rnd (t / 3) : ℚ) : ℝ) - ((t / 3 : ℚ) : ℝ)| ≤ 3.15 * (((2 : ℚ) / 2 ^ 24 : ℚ) : ℝ) :=
        mul_le_mul pi_lt_d2.le s1' (abs_nonneg _) (by norm_num)
      have e : (k2 : ℝ) - Real.sinc (π * ((t / 3 : ℚ) : ℝ)) = ((k2 : ℝ) - Real.sinc (π * ((f32.rnd (t / 3) : ℚ) : ℝ))) +
        (Real.sinc (π * ((f32.rnd (t / 3) : ℚ) : ℝ)) - Real.sinc (π * ((t / 3 : ℚ) : ℝ))) := by ring
      rw [e]
      refine (abs_add_le _ _).trans ?_
      norm_num at h1 h2 v2 ⊢
      linarith
    set S1 := Real.sinc (π * t) with hS1
    set S2 := Real.sinc (π * t / 3) with hS2
    have c1 : |S1| ≤ 1 := Real.abs_sinc_le_one _
    have c2 : |S2| ≤ 1 := Real.abs_sinc_le_one _
    have c3 : |(k1 : ℝ)| ≤ 1 + 1 / 2 ^ 10 := by
      have h1 := abs_le.1 c1; have h2 := abs_le.1 v1
      rw [abs_le]; norm_num at h2 ⊢; constructor <;> linarith
    have c4 : |(k2 : ℝ)| ≤ 1 + 1 / 2 ^ 10 := by
      have h1 := abs_le.1 c2; have h2 := abs_le.1 v2'
      rw [abs_le]; norm_num at h2 ⊢; constructor <;> linarith
    have hprod : |k1 * k2| ≤ 2 := by
      have : |(k1 : ℝ)| * |(k2 : ℝ)| ≤ (1 + 1 / 2 ^ 10) * (1 + 1 / 2 ^ 10) := mul_le_mul c3 c4 (abs_nonneg _) (by norm_num)
      rw [← abs_mul] at this
      have : |((k1 * k2 : ℚ) : ℝ)| ≤ 2 := by push_cast; exact this.trans (by norm_num)
      exact_mod_cast this
    have s2 := rstep (q := k1 * k2) (q' := k1 * k2) (e := 0) (B := 2) (by simp) hprod
    have s2' := cast_abs_le (s2.trans (by norm_num : _ ≤ (3 : ℚ) / 2 ^ 24))
    refine ⟨f32.rnd (k1 * k2), ?_, ?_⟩
    · unfold lanczos3Kernel lanczos
      have : (Fl.fin t).abs.lt (.fin 3) = true := by simp [Fl.abs, Fl.lt, h3]
      rw [if_pos this, e1, ed, e2, fl_mul, ofRat32 (hprod.trans (by norm_num))]
    · have hR : lanczosR t = S1 * S2 := by
        unfold lanczosR
        rw [if_pos (by exact_mod_cast h3)]
      rw [hR]
      have e : ((f32.rnd (k1 * k2) : ℚ) : ℝ) - S1 * S2 = (((f32.rnd (k1 * k2) : ℚ) : ℝ) - ((k1 * k2 : ℚ) : ℝ)) +
        ((k1 : ℝ) * ((k2 : ℝ) - S2) + ((k1 : ℝ) - S1) * S2) := by push_cast; ring
      rw [e]
      refine (abs_add_le _ _).trans (le_trans (add_le_add le_rfl (abs_add_le _ _)) ?_)
      rw [abs_mul, abs_mul]
      have m1 : |(k1 : ℝ)| * |(k2 : ℝ) - S2| ≤ (1 + 1 / 2 ^ 10) * (1 / 2 ^ 20 + 1 / 2 ^ 21 + 4 / 2 ^ 24) :=
        mul_le_mul c3 v2' (abs_nonneg _) (by norm_num)
      have m2 : |(k1 : ℝ) - S1| * |S2| ≤ (1 / 2 ^ 20 + 1 / 2 ^ 21) * 1 := mul_le_mul v1 c2 (abs_nonneg _) (by norm_num)
      norm_num at m1 m2 s2' ⊢
      linarith
  · refine ⟨0, ?_, ?_⟩
    · unfold lanczos3Kernel lanczos
      have : ¬ (Fl.fin t).abs.lt (.fin 3) = true := by simp [Fl.abs, Fl.lt, h3]
      rw [if_neg this]
    · rw [lanczosR_out (by exact_mod_cast h3)]
      simp

end Verif
