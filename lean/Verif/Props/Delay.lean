import Verif.Model.Delay
import Mathlib.Tactic.Linarith
import Mathlib.Tactic.Ring
import Mathlib.Tactic.FieldSimp
import Mathlib.Algebra.Order.Field.Rat
import Mathlib.Algebra.Order.Group.Unbundled.Abs
import Mathlib.Data.Nat.Cast.Order.Field

/-!
# Frame delays (C30, C31)
-/

namespace Verif
namespace Delay

/-- The value of a delay in milliseconds. -/
def value (d : Delay) : ℚ := (d.numer : ℚ) / d.denom

/-- Distance of the fraction `p / q` from `n / d`, times `q * d`. -/
def dist (n d p q : ℤ) : ℤ := |p * d - n * q|

theorem absDiffNom_eq {a b : Nat × Nat} (h1 : a.1 * b.2 < 2 ^ 64) (h2 : a.2 * b.1 < 2 ^ 64) :
    ∃ k, absDiffNom a b = .ok k ∧ (k : ℤ) = dist b.1 b.2 a.1 a.2 := by
  unfold absDiffNom dist
  rw [mulC_ok h1, ok_bind, mulC_ok h2, ok_bind, subC_ok (by omega)]
  refine ⟨_, rfl, ?_⟩
  rw [show (b.1 : ℤ) * a.2 = ((a.2 * b.1 : Nat) : ℤ) by push_cast; ring,
    show (a.1 : ℤ) * b.2 = ((a.1 * b.2 : Nat) : ℤ) by push_cast; ring]
  rcases Nat.le_total (a.1 * b.2) (a.2 * b.1) with h | h
  · rw [abs_of_nonpos (by omega)]; omega
  · rw [abs_of_nonneg (by omega)]; omega

theorem closer_eq {nD nd gD gd : Nat} (h1 : 0 < nd) (h2 : 0 < gd) (h3 : nd < 2 ^ 32) (h4 : gd < 2 ^ 32) :
    closer nD nd gD gd = .ok (decide (nD * gd < gD * nd)) := by
  unfold closer
  have e1 : (nd != 0) = true := by simp; omega
  have e2 : (gd != 0) = true := by simp; omega
  rw [e1, e2]
  simp only [assertR_true, ok_bind]
  have q1 := Nat.div_add_mod nD nd
  have q2 := Nat.div_add_mod gD gd
  have r1 := Nat.mod_lt nD h1
  have r2 := Nat.mod_lt gD h2
  generalize nD / nd = u at *
  generalize gD / gd = v at *
  generalize nD % nd = r at *
  generalize gD % gd = s at *
  subst q1 q2
  have hrs : r * gd < 2 ^ 64 := by nlinarith
  have hsr : s * nd < 2 ^ 64 := by nlinarith
  rcases Nat.lt_trichotomy u v with h | h | h
  · rw [Nat.compare_eq_lt.2 h]
    show Except.ok true = Except.ok _
    congr 1; symm; rw [decide_eq_true_eq]
    have : nd * u + nd ≤ nd * v := by nlinarith
    have : (nd * u + r) * gd < nd * v * gd := Nat.mul_lt_mul_of_pos_right (by omega) h2
    have : nd * v * gd = gd * v * nd := by ring
    have : (gd * v + s) * nd = gd * v * nd + s * nd := by ring
    omega
  · subst h
    rw [Nat.compare_eq_eq.2 rfl]
    simp only [compareFraction]
    rw [mulC_ok hrs, ok_bind, mulC_ok hsr, ok_bind]
    simp only [ok_bind]
    congr 1
    have e : nd * u * gd = gd * u * nd := by ring
    rw [show (nd * u + r) * gd = nd * u * gd + r * gd by ring,
      show (gd * u + s) * nd = gd * u * nd + s * nd by ring, e]
    rw [Bool.eq_iff_iff, decide_eq_true_eq, beq_iff_eq, Nat.compare_eq_lt]
    omega
  · rw [Nat.compare_eq_gt.2 h]
    show Except.ok false = Except.ok _
    congr 1; symm; rw [decide_eq_false_iff_not]
    have : gd * v + gd ≤ gd * u := by nlinarith
    have : (gd * v + s) * nd < gd * u * nd := Nat.mul_lt_mul_of_pos_right (by omega) h1
    have : nd * u * gd = gd * u * nd := by ring
    have : (nd * u + r) * gd = nd * u * gd + r * gd := by ring
    omega

/-- A fraction strictly between two Farey neighbours has at least the sum of their denominators. -/
theorem between {l1 l2 u1 u2 p q : ℤ} (hdet : u1 * l2 = l1 * u2 + 1) (hl2 : 0 < l2) (hu2 : 0 < u2)
    (h1 : l1 * q < p * l2) (h2 : p * u2 < u1 * q) : l2 + u2 ≤ q := by
  have e : q = l2 * (u1 * q - p * u2) + u2 * (p * l2 - l1 * q) := by
    have : l2 * (u1 * q - p * u2) + u2 * (p * l2 - l1 * q) = q * (u1 * l2) - q * (l1 * u2) := by ring
    rw [this, hdet]; ring
  nlinarith

/-- State of the loop: `lower ≤ exact < upper` are Farey neighbours, `guess` is at least as close to `exact` as
both. -/
structure FareyInv (B n d : Nat) (lower upper guess : Nat × Nat) : Prop where
  l0 : 0 < lower.2
  u0 : 0 < upper.2
  lB : lower.2 ≤ B
  uB : upper.2 ≤ B
  lle : lower.1 < lower.2
  ule : upper.1 ≤ upper.2
  lx : lower.1 * d ≤ n * lower.2
  ux : n * upper.2 < upper.1 * d
  det : upper.1 * lower.2 = lower.1 * upper.2 + 1
  g0 : 0 < guess.2
  gB : guess.2 ≤ B
  gle : guess.1 < guess.2 ∨ guess = (1, 1)
  gl : dist n d guess.1 guess.2 * lower.2 ≤ dist n d lower.1 lower.2 * guess.2
  gu : dist n d guess.1 guess.2 * upper.2 ≤ dist n d upper.1 upper.2 * guess.2

/-- What the loop returns. -/
structure FareyBest (B n d : Nat) (g : Nat × Nat) : Prop where
  pos : 0 < g.2
  le : g.2 ≤ B
  lt : g.1 < g.2 ∨ g = (1, 1)
  best : ∀ p q : ℤ, 0 < q → q ≤ B → dist n d g.1 g.2 * q ≤ dist n d p q * g.2

theorem FareyInv.exit {B n d : Nat} {lower upper guess : Nat × Nat} (h : FareyInv B n d lower upper guess)
    (hB : B < lower.2 + upper.2) : FareyBest B n d guess := by
  refine ⟨h.g0, h.gB, h.gle, fun p q hq hqB => ?_⟩
  have hl0 : (0 : ℤ) < lower.2 := by exact_mod_cast h.l0
  have hu0 : (0 : ℤ) < upper.2 := by exact_mod_cast h.u0
  have hg0 : (0 : ℤ) < guess.2 := by exact_mod_cast h.g0
  have hd0 : (0 : ℤ) ≤ d := by positivity
  have hlx : (lower.1 : ℤ) * d ≤ n * lower.2 := by exact_mod_cast h.lx
  have hux : (n : ℤ) * upper.2 < upper.1 * d := by exact_mod_cast h.ux
  have hdet : (upper.1 : ℤ) * lower.2 = lower.1 * upper.2 + 1 := by exact_mod_cast h.det
  have hB' : (B : ℤ) < lower.2 + upper.2 := by exact_mod_cast hB
  have gl := h.gl
  have gu := h.gu
  generalize dist n d guess.1 guess.2 = D at *
  by_cases c1 : p * lower.2 ≤ lower.1 * q
  · have e1 : dist n d lower.1 lower.2 = n * lower.2 - lower.1 * d := by
      unfold dist; rw [abs_of_nonpos (by linarith)]; ring
    have k : (n * lower.2 - lower.1 * d) * q ≤ (n * q - p * d) * lower.2 := by nlinarith
    have hpos : 0 ≤ (n * q - p * d) * lower.2 := le_trans (by apply mul_nonneg <;> linarith) k
    have hpos' : 0 ≤ n * q - p * d := by
      by_contra hc; push Not at hc; nlinarith
    have e2 : dist n d p q = n * q - p * d := by
      unfold dist; rw [abs_of_nonpos (by linarith)]; ring
    rw [e2]; rw [e1] at gl
    have s1 : D * lower.2 * q ≤ (n * lower.2 - lower.1 * d) * guess.2 * q := mul_le_mul_of_nonneg_right gl hq.le
    have s2 : (n * lower.2 - lower.1 * d) * q * guess.2 ≤ (n * q - p * d) * lower.2 * guess.2 :=
      mul_le_mul_of_nonneg_right k hg0.le
    have s3 : D * q * lower.2 ≤ (n * q - p * d) * guess.2 * lower.2 := by
      calc D * q * lower.2 = D * lower.2 * q := by ring
        _ ≤ (n * lower.2 - lower.1 * d) * guess.2 * q := s1
        _ = (n * lower.2 - lower.1 * d) * q * guess.2 := by ring
        _ ≤ (n * q - p * d) * lower.2 * guess.2 := s2
        _ = (n * q - p * d) * guess.2 * lower.2 := by ring
    exact le_of_mul_le_mul_right s3 hl0
  · by_cases c2 : upper.1 * q ≤ p * upper.2
    · have e1 : dist n d upper.1 upper.2 = upper.1 * d - n * upper.2 := by
        unfold dist; rw [abs_of_nonneg (by linarith)]
      have k : (upper.1 * d - n * upper.2) * q ≤ (p * d - n * q) * upper.2 := by nlinarith
      have hpos : 0 ≤ (p * d - n * q) * upper.2 := le_trans (by apply mul_nonneg <;> linarith) k
      have hpos' : 0 ≤ p * d - n * q := by
        by_contra hc; push Not at hc; nlinarith
      have e2 : dist n d p q = p * d - n * q := by
        unfold dist; rw [abs_of_nonneg (by linarith)]
      rw [e2]; rw [e1] at gu
      have s1 : D * upper.2 * q ≤ (upper.1 * d - n * upper.2) * guess.2 * q := mul_le_mul_of_nonneg_right gu hq.le
      have s2 : (upper.1 * d - n * upper.2) * q * guess.2 ≤ (p * d - n * q) * upper.2 * guess.2 :=
        mul_le_mul_of_nonneg_right k hg0.le
      have s3 : D * q * upper.2 ≤ (p * d - n * q) * guess.2 * upper.2 := by
        calc D * q * upper.2 = D * upper.2 * q := by ring
          _ ≤ (upper.1 * d - n * upper.2) * guess.2 * q := s1
          _ = (upper.1 * d - n * upper.2) * q * guess.2 := by ring
          _ ≤ (p * d - n * q) * upper.2 * guess.2 := s2
          _ = (p * d - n * q) * guess.2 * upper.2 := by ring
      exact le_of_mul_le_mul_right s3 hu0
    · have := between hdet hl0 hu0 (not_le.1 c1) (not_le.1 c2)
      omega

theorem fareyLoop_best {B n d : Nat} (hB : B < 2 ^ 32) (hnd : n < d) (hd : d < 2 ^ 32) (fuel : Nat)
    (lower upper guess : Nat × Nat) (h : FareyInv B n d lower upper guess) (hf : 1 ≤ fuel)
    (hfuel : B + 2 ≤ fuel + (lower.2 + upper.2)) :
    ∃ g, fareyLoop B (n, d) fuel lower upper guess = .ok g ∧ FareyBest B n d g := by
  induction fuel generalizing lower upper guess with
  | zero => omega
  | succ fuel ih =>
    have small : ∀ a b : Nat, a < 2 ^ 32 → b < 2 ^ 32 → a * b < 2 ^ 64 := fun a b ha hb => by
      have := Nat.mul_lt_mul'' ha hb; simpa using this
    have hg1 : guess.1 ≤ guess.2 := by
      rcases h.gle with h | h
      · omega
      · rw [h]
    have g0 := h.g0
    have gB := h.gB
    have l0 := h.l0
    have u0 := h.u0
    have lB := h.lB
    have uB := h.uB
    have lle := h.lle
    have ule := h.ule
    unfold fareyLoop
    simp only [compareFraction]
    rw [mulC_ok (small _ _ (by omega) (by omega)), ok_bind, mulC_ok (small _ _ (by omega) (by omega)), ok_bind]
    simp only [ok_bind]
    by_cases heq : guess.1 * d = n * guess.2
    · rw [if_pos (by rw [heq]; simp)]
      refine ⟨_, rfl, h.g0, h.gB, h.gle, fun p q hq hqB => ?_⟩
      have : dist n d guess.1 guess.2 = 0 := by
        unfold dist
        have : (guess.1 : ℤ) * d = n * guess.2 := by exact_mod_cast heq
        rw [this]; simp
      rw [this, zero_mul]
      exact mul_nonneg (abs_nonneg _) (by positivity)
    · rw [if_neg (by simpa [Nat.compare_eq_eq] using heq), subC_ok lB, ok_bind]
      by_cases hexit : B - lower.2 < upper.2
      · rw [if_pos hexit]
        exact ⟨_, rfl, h.exit (by omega)⟩
      · rw [if_neg hexit, addC_ok (by omega), ok_bind, addC_ok (by omega), ok_bind]
        obtain ⟨gD, hgD, hgD'⟩ := absDiffNom_eq (a := guess) (b := (n, d)) (small _ _ (by omega) (by omega))
          (small _ _ (by omega) (by dsimp only; omega))
        obtain ⟨nD, hnD, hnD'⟩ := absDiffNom_eq (a := (lower.1 + upper.1, lower.2 + upper.2)) (b := (n, d))
          (small _ _ (by dsimp only; omega) (by dsimp only; omega)) (small _ _ (by dsimp only; omega) (by dsimp only; omega))
        dsimp only at hgD' hnD'
        rw [mulC_ok (small _ _ (by omega) (by omega)), ok_bind, mulC_ok (small _ _ (by omega) (by omega)), ok_bind]
        simp only [ok_bind, hgD, hnD]
        rw [closer_eq (by omega) g0 (by omega) (by omega), ok_bind]
        have hlt : (compare (n * (lower.2 + upper.2)) ((lower.1 + upper.1) * d) == Ordering.lt) =
            decide (n * (lower.2 + upper.2) < (lower.1 + upper.1) * d) := by
          rw [Bool.eq_iff_iff, beq_iff_eq, Nat.compare_eq_lt, decide_eq_true_eq]
        rw [hlt]
        have hl0 : (0 : ℤ) < lower.2 := by exact_mod_cast l0
        have hu0 : (0 : ℤ) < upper.2 := by exact_mod_cast u0
        have hg0 : (0 : ℤ) < guess.2 := by exact_mod_cast g0
        have hdet := h.det
        have hlx := h.lx
        have hux := h.ux
        -- the new guess
        have hgnew : ∀ guess', guess' = (if decide (nD * guess.2 < gD * (lower.2 + upper.2)) = true then
            (lower.1 + upper.1, lower.2 + upper.2) else guess) →
            0 < guess'.2 ∧ guess'.2 ≤ B ∧ (guess'.1 < guess'.2 ∨ guess' = (1, 1)) ∧
            dist n d guess'.1 guess'.2 * lower.2 ≤ dist n d lower.1 lower.2 * guess'.2 ∧
            dist n d guess'.1 guess'.2 * upper.2 ≤ dist n d upper.1 upper.2 * guess'.2 ∧
            dist n d guess'.1 guess'.2 * (lower.2 + upper.2 : Nat) ≤
              dist n d (lower.1 + upper.1 : Nat) (lower.2 + upper.2 : Nat) * guess'.2 := by
          intro guess' hg'
          have gl := h.gl
          have gu := h.gu
          rw [← hgD'] at gl gu
          by_cases hb : nD * guess.2 < gD * (lower.2 + upper.2)
          · rw [if_pos (by simpa using hb)] at hg'
            subst hg'
            dsimp only
            rw [← hnD']
            have hb' : (nD : ℤ) * guess.2 < gD * ((lower.2 + upper.2 : Nat) : ℤ) := by exact_mod_cast hb
            have key : ∀ (D : ℤ) (m : ℤ), 0 < m → (gD : ℤ) * m ≤ D * guess.2 →
                (nD : ℤ) * m ≤ D * ((lower.2 + upper.2 : Nat) : ℤ) := by
              intro D m hm hle
              have : (nD : ℤ) * m * guess.2 ≤ D * ((lower.2 + upper.2 : Nat) : ℤ) * guess.2 := by
                calc (nD : ℤ) * m * guess.2 = nD * guess.2 * m := by ring
                  _ ≤ gD * ((lower.2 + upper.2 : Nat) : ℤ) * m := mul_le_mul_of_nonneg_right hb'.le hm.le
                  _ = gD * m * ((lower.2 + upper.2 : Nat) : ℤ) := by ring
                  _ ≤ D * guess.2 * ((lower.2 + upper.2 : Nat) : ℤ) := mul_le_mul_of_nonneg_right hle (by positivity)
                  _ = D * ((lower.2 + upper.2 : Nat) : ℤ) * guess.2 := by ring
              exact le_of_mul_le_mul_right this hg0
            exact ⟨by omega, by omega, .inl (by omega), key _ _ hl0 gl, key _ _ hu0 gu, le_refl _⟩
          · rw [if_neg (by simpa using hb)] at hg'
            subst hg'
            rw [← hgD', ← hnD']
            refine ⟨h.g0, h.gB, h.gle, gl, gu, ?_⟩
            exact_mod_cast not_lt.1 hb
        generalize hG : (if decide (nD * guess.2 < gD * (lower.2 + upper.2)) = true then
            (lower.1 + upper.1, lower.2 + upper.2) else guess) = guess' at *
        obtain ⟨a1, a2, a3, a4, a5, a6⟩ := hgnew guess' rfl
        by_cases hside : n * (lower.2 + upper.2) < (lower.1 + upper.1) * d
        · simp only [hside, decide_true, if_true]
          apply ih
          · exact ⟨l0, by dsimp only; omega, lB, by dsimp only; omega, lle, by dsimp only; omega, hlx, hside,
              by dsimp only; rw [Nat.add_mul, Nat.mul_add, hdet, Nat.mul_comm lower.1 lower.2]; omega,
              a1, a2, a3, a4, a6⟩
          · omega
          · dsimp only; omega
        · simp only [hside, decide_false, Bool.false_eq_true, if_false]
          apply ih
          · exact ⟨by dsimp only; omega, u0, by dsimp only; omega, uB, by dsimp only; omega, ule, not_lt.1 hside, hux,
              by dsimp only; rw [Nat.mul_add, Nat.add_mul, hdet, Nat.mul_comm upper.1 upper.2]; omega,
              a1, a2, a3, a6, a5⟩
          · omega
          · dsimp only; omega

theorem closestBoundedFraction_best {B n d : Nat} (hB0 : 0 < B) (hB : B < 2 ^ 32) (hnd : n < d) (hd : 2 * d < 2 ^ 32) :
    ∃ g, closestBoundedFraction B n d = .ok g ∧ FareyBest B n d g := by
  unfold closestBoundedFraction
  rw [decide_eq_true (by omega : 0 < d), decide_eq_true hB0, decide_eq_true hnd]
  simp only [assertR_true, ok_bind]
  rw [mulC_ok (by omega), ok_bind]
  have hinv : FareyInv B n d (0, 1) (1, 1) (if n * 2 > d then 1 else 0, 1) := by
    have hn : (n : ℤ) < d := by exact_mod_cast hnd
    have e0 : dist n d 0 1 = n := by
      unfold dist; rw [abs_of_nonpos (by have : (0:ℤ) ≤ n := by positivity
                                         linarith)]; ring
    have e1 : dist n d 1 1 = d - n := by
      unfold dist; rw [abs_of_nonneg (by linarith)]; ring
    by_cases h2 : n * 2 > d
    · rw [if_pos h2]
      have h2' : (n : ℤ) * 2 > d := by exact_mod_cast h2
      exact ⟨by decide, by decide, hB0, hB0, by decide, by decide, by simp, by simpa using hnd, by decide, by decide,
        hB0, .inr rfl, by simp only [Nat.cast_one, Nat.cast_zero]; rw [e0, e1]; linarith, by simp⟩
    · rw [if_neg h2]
      have h2' : (n : ℤ) * 2 ≤ d := by exact_mod_cast not_lt.1 h2
      exact ⟨by decide, by decide, hB0, hB0, by decide, by decide, by simp, by simpa using hnd, by decide, by decide,
        hB0, .inl (by decide), by simp, by simp only [Nat.cast_one, Nat.cast_zero]; rw [e0, e1]; linarith⟩
  obtain ⟨g, hg, hbest⟩ := fareyLoop_best hB hnd (by omega) (B + 1) _ _ _ hinv (by omega) (by dsimp only; omega)
  rw [hg, ok_bind]
  have : g.1 % 2 ^ 32 = g.1 := Nat.mod_eq_of_lt (by
    have := hbest.le
    rcases hbest.lt with h | h
    · omega
    · rw [h]; decide)
  have : g.2 % 2 ^ 32 = g.2 := Nat.mod_eq_of_lt (by have := hbest.le; omega)
  refine ⟨g, ?_, hbest⟩
  congr 1
  exact Prod.ext (by dsimp only; omega) (by dsimp only; omega)

end Delay
open Delay

/-- Whole milliseconds of a duration, clamped to what fits `u32`. -/
def clampedMillis (nanos : Nat) : Nat := min (nanos / 1000000) (2 ^ 32 - 1)

/-- The duration to be represented, in milliseconds: exact, unless its whole part is clamped. -/
def target (nanos : Nat) : ℚ := clampedMillis nanos + (nanos % 1000000 : Nat) / 1000000

/-- Denominators the representation may use: those for which no numerator can overflow `u32`. -/
def Admissible (nanos q : Nat) : Prop := 0 < q ∧ q < 2 ^ 32 ∧ q * (clampedMillis nanos + 1) ≤ 2 ^ 32

/-- Below `2^32` milliseconds the target is the duration itself. -/
theorem target_eq (nanos : Nat) (h : nanos / 1000000 < 2 ^ 32) : target nanos = (nanos : ℚ) / 1000000 := by
  have e : clampedMillis nanos = nanos / 1000000 := by unfold clampedMillis; omega
  have hd : ((1000000 * (nanos / 1000000) + nanos % 1000000 : Nat) : ℚ) = nanos := by
    exact_mod_cast Nat.div_add_mod nanos 1000000
  push_cast at hd
  unfold target
  rw [e]
  rw [← hd]
  field_simp

theorem maxB_eq (M q : Nat) (hM : M ≤ 2 ^ 32 - 1) (hq : 0 < q) :
    q ≤ (if M > 0 then (2 ^ 32 - 1 + 1) / (M + 1) % 2 ^ 32 else 2 ^ 32 - 1) ↔ q < 2 ^ 32 ∧ q * (M + 1) ≤ 2 ^ 32 := by
  by_cases h : M > 0
  · rw [if_pos h]
    have hle : (2 ^ 32 - 1 + 1) / (M + 1) < 2 ^ 32 := Nat.div_lt_self (by decide) (by omega)
    rw [Nat.mod_eq_of_lt hle, Nat.le_div_iff_mul_le (by omega)]
    constructor
    · intro hh
      refine ⟨?_, by omega⟩
      have : q * 2 ≤ q * (M + 1) := Nat.mul_le_mul_left _ (by omega)
      omega
    · intro hh; omega
  · rw [if_neg h]
    have : M = 0 := by omega
    subst this
    omega

theorem maxB_pos (M : Nat) (hM : M ≤ 2 ^ 32 - 1) :
    0 < (if M > 0 then (2 ^ 32 - 1 + 1) / (M + 1) % 2 ^ 32 else 2 ^ 32 - 1) ∧
    (if M > 0 then (2 ^ 32 - 1 + 1) / (M + 1) % 2 ^ 32 else 2 ^ 32 - 1) < 2 ^ 32 := by
  constructor
  · exact (maxB_eq M 1 hM (by decide)).2 ⟨by decide, by omega⟩
  · split
    · exact Nat.mod_lt _ (by decide)
    · decide

/-- `from_saturating_duration` returns, without overflow, the fraction closest to the duration among all
fractions with an admissible denominator. The excluded durations - at least `u32::MAX` ms with more than half a
millisecond left over - overflow (`C30_overflow_false`). -/
theorem C30_closest_partial (nanos : Nat)
    (hx : ¬ (2 ^ 32 - 1 ≤ nanos / 1000000 ∧ 500000 < nanos % 1000000)) :
    ∃ d, fromSaturatingDuration nanos = .ok d ∧ d.numer < 2 ^ 32 ∧ Admissible nanos d.denom ∧
      ∀ p q : Nat, Admissible nanos q → |d.value - target nanos| ≤ |(p : ℚ) / q - target nanos| := by
  have hM : clampedMillis nanos ≤ 2 ^ 32 - 1 := Nat.min_le_right _ _
  obtain ⟨hB0, hB⟩ := maxB_pos _ hM
  have hs : nanos % 1000000 < 1000000 := Nat.mod_lt _ (by decide)
  obtain ⟨⟨a, b⟩, hg, hbest⟩ := closestBoundedFraction_best hB0 hB hs (by decide)
  have hb0 : 0 < b := hbest.pos
  obtain ⟨hb32, hbM⟩ := (maxB_eq _ b hM hb0).1 hbest.le
  have hsum : a + b * clampedMillis nanos < 2 ^ 32 := by
    have e : b * (clampedMillis nanos + 1) = b * clampedMillis nanos + b := by ring
    rcases hbest.lt with h | h
    · dsimp only at h; omega
    · cases h
      -- the guess 1/1
      by_cases hmax : clampedMillis nanos = 2 ^ 32 - 1
      · exfalso
        have hms : 2 ^ 32 - 1 ≤ nanos / 1000000 := by unfold clampedMillis at hmax; omega
        have hsub : ¬ 500000 < nanos % 1000000 := fun h => hx ⟨hms, h⟩
        -- 0/1 would be closer, or equally close and preferred
        unfold closestBoundedFraction at hg
        rw [hmax] at hg
        rw [decide_eq_true (by decide : (0 : Nat) < 1000000), decide_eq_true hs] at hg
        rw [show (if 2 ^ 32 - 1 > 0 then (2 ^ 32 - 1 + 1) / (2 ^ 32 - 1 + 1) % 2 ^ 32 else 2 ^ 32 - 1) = 1 by decide] at hg
        simp only [decide_true, assertR_true, ok_bind, Nat.zero_lt_one] at hg
        rw [mulC_ok (by omega), ok_bind, if_neg (by omega : ¬ nanos % 1000000 * 2 > 1000000)] at hg
        have : fareyLoop 1 (nanos % 1000000, 1000000) (1 + 1) (0, 1) (1, 1) (0, 1) = .ok (0, 1) := by
          unfold fareyLoop
          simp only [compareFraction]
          rw [mulC_ok (by decide), ok_bind, mulC_ok (by omega), ok_bind]
          simp only [ok_bind]
          split
          · rfl
          · rfl
        rw [this] at hg
        cases hg
      · omega
  have hrun : fromSaturatingDuration nanos = .ok ⟨a + b * clampedMillis nanos, b⟩ := by
    unfold fromSaturatingDuration
    simp only
    have hg' := hg
    unfold clampedMillis at hg' hsum ⊢
    rw [hg', ok_bind]
    simp only
    rw [mulC_ok (by omega), ok_bind, addC_ok (by omega), ok_bind]
    unfold fromNumerDenomMs
    rw [show (b != 0) = true by simp; omega]
    rfl
  refine ⟨_, hrun, hsum, ⟨hb0, hb32, hbM⟩, fun p q hq => ?_⟩
  obtain ⟨hq0, hq32, hqM⟩ := hq
  have hqB := (maxB_eq _ q hM hq0).2 ⟨hq32, hqM⟩
  have hk := hbest.best ((p : ℤ) - q * clampedMillis nanos) q (by exact_mod_cast hq0) (by exact_mod_cast hqB)
  dsimp only at hk
  have hbq : (0 : ℚ) < b := by exact_mod_cast hb0
  have hqq : (0 : ℚ) < q := by exact_mod_cast hq0
  generalize hMM : clampedMillis nanos = M at *
  generalize hS : nanos % 1000000 = S at *
  have e1 : |(Delay.mk (a + b * M) b).value - target nanos| = (dist S 1000000 a b : ℚ) / (b * 1000000) := by
    unfold Delay.value target dist
    rw [hMM, hS, Int.cast_abs, eq_div_iff (by positivity), ← abs_of_pos (by positivity : (0 : ℚ) < b * 1000000),
      ← abs_mul]
    push_cast
    congr 1
    field_simp
    ring
  have e2 : |(p : ℚ) / q - target nanos| = (dist S 1000000 ((p : ℤ) - q * M) q : ℚ) / (q * 1000000) := by
    unfold target dist
    rw [hMM, hS, Int.cast_abs, eq_div_iff (by positivity), ← abs_of_pos (by positivity : (0 : ℚ) < q * 1000000),
      ← abs_mul]
    push_cast
    congr 1
    field_simp
    ring
  rw [e1, e2, div_le_div_iff₀ (by positivity) (by positivity)]
  have hk' : ((dist S 1000000 a b : ℤ) : ℚ) * q ≤ (dist S 1000000 ((p : ℤ) - q * M) q : ℤ) * b := by exact_mod_cast hk
  nlinarith

/-- The excluded durations really overflow: in a build with overflow checks `from_saturating_duration` panics
for every duration of at least `u32::MAX` ms with more than half a millisecond left over (without the checks the
numerator wraps around to 0). -/
theorem C30_overflow_false (nanos : Nat) (hms : 2 ^ 32 - 1 ≤ nanos / 1000000) (hsub : 500000 < nanos % 1000000) :
    fromSaturatingDuration nanos = .error .panic := by
  have hs : nanos % 1000000 < 1000000 := Nat.mod_lt _ (by decide)
  unfold fromSaturatingDuration
  simp only
  rw [show min (nanos / 1000000) (2 ^ 32 - 1) = 2 ^ 32 - 1 by omega]
  rw [show (if 2 ^ 32 - 1 > 0 then (2 ^ 32 - 1 + 1) / (2 ^ 32 - 1 + 1) % 2 ^ 32 else 2 ^ 32 - 1) = 1 by decide]
  have : closestBoundedFraction 1 (nanos % 1000000) 1000000 = .ok (1, 1) := by
    unfold closestBoundedFraction
    rw [decide_eq_true hs]
    simp only [decide_true, assertR_true, ok_bind, Nat.zero_lt_one]
    rw [show decide (0 < 1000000) = true from rfl, assertR_true, ok_bind, mulC_ok (by omega), ok_bind,
      if_pos (by omega : nanos % 1000000 * 2 > 1000000)]
    have : fareyLoop 1 (nanos % 1000000, 1000000) (1 + 1) (0, 1) (1, 1) (1, 1) = .ok (1, 1) := by
      unfold fareyLoop
      simp only [compareFraction]
      rw [mulC_ok (by decide), ok_bind, mulC_ok (by omega), ok_bind]
      simp only [ok_bind]
      split
      · rfl
      · rfl
    rw [this]; rfl
  rw [this]; rfl

/-- Durations of at least `u32::MAX` ms saturate to `u32::MAX` ms (unless they overflow, see above). -/
theorem C30_saturates (nanos : Nat) (hms : 2 ^ 32 - 1 ≤ nanos / 1000000) (hsub : nanos % 1000000 ≤ 500000) :
    fromSaturatingDuration nanos = .ok ⟨2 ^ 32 - 1, 1⟩ := by
  obtain ⟨d, hd, h1, h2, h3⟩ := C30_closest_partial nanos (by omega)
  have hM : clampedMillis nanos = 2 ^ 32 - 1 := by unfold clampedMillis; omega
  obtain ⟨g0, g1, g2⟩ := h2
  rw [hM] at g2
  have hden : d.denom = 1 := by omega
  have hadm : Admissible nanos 1 := ⟨by decide, by decide, by rw [hM]; decide⟩
  have hcl := h3 (2 ^ 32 - 1) 1 hadm
  rw [hd]
  obtain ⟨n, b⟩ := d
  dsimp only at hden h1
  subst hden
  congr 2
  have htar : target nanos = (2 ^ 32 - 1 : Nat) + (nanos % 1000000 : Nat) / 1000000 := by
    unfold target; rw [hM]
  have hS : ((nanos % 1000000 : Nat) : ℚ) ≤ 500000 := by exact_mod_cast hsub
  have hS0 : (0 : ℚ) ≤ ((nanos % 1000000 : Nat) : ℚ) := by positivity
  generalize ((nanos % 1000000 : Nat) : ℚ) = S at *
  unfold Delay.value at hcl
  rw [htar] at hcl
  simp only [Nat.cast_one, div_one] at hcl
  by_contra hne
  have hlt : n + 1 ≤ 2 ^ 32 - 1 := by omega
  have hlt' : (n : ℚ) + 1 ≤ ((2 ^ 32 - 1 : Nat) : ℚ) := by exact_mod_cast hlt
  generalize ((2 ^ 32 - 1 : Nat) : ℚ) = Mx at *
  rw [abs_of_nonpos (by linarith), abs_of_nonpos (by linarith)] at hcl
  linarith

/-- A duration below 2^32 ms that equals a fraction with an admissible denominator is represented exactly. -/
theorem C30_exact (nanos : Nat) (p q : Nat) (hms : nanos / 1000000 < 2 ^ 32 - 1) (hq : Admissible nanos q)
    (h : (nanos : ℚ) / 1000000 = (p : ℚ) / q) :
    ∃ d, fromSaturatingDuration nanos = .ok d ∧ d.value = (nanos : ℚ) / 1000000 := by
  obtain ⟨d, hd, -, -, h3⟩ := C30_closest_partial nanos (by omega)
  refine ⟨d, hd, ?_⟩
  have := h3 p q hq
  rw [target_eq nanos (by omega), ← h, sub_self, abs_zero] at this
  exact sub_eq_zero.1 (abs_eq_zero.1 (le_antisymm this (abs_nonneg _)))

/-- Every duration below 4.294 s is represented exactly. -/
theorem C30_exact_below (nanos : Nat) (h : nanos < 4294000000) :
    ∃ d, fromSaturatingDuration nanos = .ok d ∧ d.value = (nanos : ℚ) / 1000000 := by
  refine C30_exact nanos nanos 1000000 (by omega) ⟨by decide, by decide, ?_⟩ (by norm_num)
  unfold clampedMillis
  have : min (nanos / 1000000) (2 ^ 32 - 1) ≤ 4293 := by omega
  omega

/-- "Exact whenever representable" is false: 4.294000001 s is the ratio 4294000001 / 1000000 of `u32` values, but
its denominator is not admissible and another value is returned. -/
theorem C30_exact_false : ∃ (nanos n b : Nat), n < 2 ^ 32 ∧ 0 < b ∧ b < 2 ^ 32 ∧
    (nanos : ℚ) / 1000000 = (n : ℚ) / b ∧
    ∃ d, fromSaturatingDuration nanos = .ok d ∧ d.value ≠ (nanos : ℚ) / 1000000 := by
  refine ⟨4294000001, 4294000001, 1000000, by decide, by decide, by decide, by norm_num, ?_⟩
  obtain ⟨d, hd, h1, ⟨h2, h3, h4⟩, -⟩ := C30_closest_partial 4294000001 (by decide)
  refine ⟨d, hd, ?_⟩
  intro hv
  have hc : clampedMillis 4294000001 = 4294 := by decide
  rw [hc] at h4
  unfold Delay.value at hv
  have hb : (0 : ℚ) < d.denom := by exact_mod_cast h2
  rw [div_eq_div_iff hb.ne' (by norm_num)] at hv
  have hv' : d.numer * 1000000 = 4294000001 * d.denom := by exact_mod_cast hv
  omega

example : Admissible 1500000 2 ∧ target 1500000 = 3 / 2 := by
  refine ⟨⟨by decide, by decide, by decide⟩, ?_⟩
  rw [target_eq _ (by decide)]; norm_num

/-! ## C31 -/

theorem div_mul_split (n b k : Nat) (h0 : 0 < b) : n * k / b = n / b * k + n % b * k / b := by
  have hdm := Nat.div_add_mod n b
  conv => lhs; rw [← hdm]
  rw [Nat.add_mul, Nat.mul_assoc, Nat.mul_add_div h0]

/-- `Duration::from(delay)` never panics and is the exact value rounded down to a nanosecond. -/
theorem C31_to_duration (d : Delay) (h0 : 0 < d.denom) (hd : d.denom < 2 ^ 32) :
    ∃ ns, toDuration d = .ok ns ∧ (ns : ℚ) ≤ d.value * 1000000 ∧ d.value * 1000000 < ns + 1 := by
  have e : toDuration d = .ok (d.numer * 1000000 / d.denom) := by
    have hr := Nat.mod_lt d.numer h0
    have e0 : (d.denom != 0) = true := by simp; omega
    have hm : mulC 64 (d.numer % d.denom) 1000000 = .ok (d.numer % d.denom * 1000000) := mulC_ok (by omega)
    unfold toDuration
    simp only [e0, assertR_true, ok_bind, hm]
    rw [div_mul_split d.numer d.denom 1000000 h0]
  refine ⟨_, e, ?_⟩
  unfold Delay.value
  have hb : (0 : ℚ) < d.denom := by exact_mod_cast h0
  have k1 := Nat.div_mul_le_self (d.numer * 1000000) d.denom
  have k2 := Nat.lt_div_mul_add (a := d.numer * 1000000) h0
  generalize d.numer * 1000000 / d.denom = z at *
  have k1' : (z : ℚ) * d.denom ≤ d.numer * 1000000 := by exact_mod_cast k1
  have k2' : (d.numer : ℚ) * 1000000 < z * d.denom + d.denom := by exact_mod_cast k2
  rw [div_mul_eq_mul_div, le_div_iff₀ hb, div_lt_iff₀ hb]
  exact ⟨k1', by linarith⟩

/-- Durations below 4.294 s survive the conversion to a `Delay` and back. -/
theorem C31_round_trip (nanos : Nat) (h : nanos < 4294000000) :
    ∃ d, fromSaturatingDuration nanos = .ok d ∧ toDuration d = .ok nanos := by
  obtain ⟨d, hd, hv⟩ := C30_exact_below nanos h
  obtain ⟨d', hd', h1, ⟨h2, h3, -⟩, -⟩ := C30_closest_partial nanos (by omega)
  rw [hd] at hd'; cases hd'
  refine ⟨d, hd, ?_⟩
  obtain ⟨ns, hns, k1, k2⟩ := C31_to_duration d h2 h3
  rw [hv, div_mul_cancel₀ _ (by norm_num : (1000000 : ℚ) ≠ 0)] at k1 k2
  have : ns ≤ nanos := by exact_mod_cast k1
  have : nanos < ns + 1 := by exact_mod_cast k2
  rw [hns]; congr 1; omega

/-- Comparison of delays is comparison of their values, without overflow; in particular equality, which ignores
how the fraction is written. -/
theorem C31_cmp (x y : Delay) (hx : 0 < x.denom) (hy : 0 < y.denom) (hxn : x.numer < 2 ^ 32) (hxd : x.denom < 2 ^ 32)
    (hyn : y.numer < 2 ^ 32) (hyd : y.denom < 2 ^ 32) :
    ∃ o, Delay.cmp x y = .ok o ∧ (o = .lt ↔ x.value < y.value) ∧ (o = .eq ↔ x.value = y.value) ∧
      (o = .gt ↔ y.value < x.value) := by
  have small : ∀ a b : Nat, a < 2 ^ 32 → b < 2 ^ 32 → a * b < 2 ^ 64 := fun a b ha hb => by
    have := Nat.mul_lt_mul'' ha hb; simpa using this
  have hxq : (0 : ℚ) < x.denom := by exact_mod_cast hx
  have hyq : (0 : ℚ) < y.denom := by exact_mod_cast hy
  refine ⟨compare (x.numer * y.denom) (y.numer * x.denom), ?_, ?_, ?_, ?_⟩
  · unfold Delay.cmp
    rw [mulC_ok (small _ _ hxn hyd), ok_bind, mulC_ok (small _ _ hyn hxd), ok_bind]
  · rw [Nat.compare_eq_lt]; unfold Delay.value
    rw [div_lt_div_iff₀ hxq hyq]; exact_mod_cast Iff.rfl
  · rw [Nat.compare_eq_eq]; unfold Delay.value
    rw [div_eq_div_iff hxq.ne' hyq.ne']; exact_mod_cast Iff.rfl
  · rw [Nat.compare_eq_gt]; unfold Delay.value
    rw [div_lt_div_iff₀ hyq hxq]; exact_mod_cast Iff.rfl

/-- `from_numer_denom_ms` keeps the pair, and panics exactly for denominator 0. -/
theorem C31_numer_denom (n b : Nat) :
    (b ≠ 0 → ∃ d, fromNumerDenomMs n b = .ok d ∧ d.numerDenomMs = (n, b)) ∧
    fromNumerDenomMs n 0 = .error .panic := by
  refine ⟨fun hb => ⟨⟨n, b⟩, ?_, rfl⟩, rfl⟩
  unfold fromNumerDenomMs
  rw [show (b != 0) = true by simpa using hb]; rfl

example : toDuration ⟨1000, 30⟩ = .ok 33333333 := by rfl

end Verif
