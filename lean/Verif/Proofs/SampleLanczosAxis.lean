import Verif.Proofs.SampleLanczos
import Mathlib.Topology.Algebra.Order.LiminfLimsup
import Mathlib.Analysis.SpecificLimits.Basic

/-!
# One axis of Lanczos resampling
-/

namespace Verif
open Real

/-- Enlarging: two pixels in the middle and two in the lobes, or at the border of the picture one and one. -/
theorem Lobed.enlarge2 {g : ℚ → ℚ} {β ν μ β2 : ℚ} (hg : Lobed g β ν) {len newLen o : Nat} (h0 : 0 < len) (ho : o < newLen)
    (hs : scale len newLen = 1) (hpair : ∀ d, 0 ≤ d → d ≤ 1 / 2 → negPart (g (1 + d)) + negPart (g (2 - d)) ≤ μ)
    (htwo : ∀ d, 0 ≤ d → d ≤ 1 / 2 → β2 ≤ g d + g (1 - d)) :
    (β2 - μ ≤ sumR len (fun i => g (offset len newLen o i)) ∧ sumR len (fun i => negPart (g (offset len newLen o i))) ≤ μ) ∨
      (β - ν ≤ sumR len (fun i => g (offset len newLen o i)) ∧ sumR len (fun i => negPart (g (offset len newLen o i))) ≤ ν) := by
  have hN := (hg.enlarge h0 ho hs hpair).2
  obtain ⟨i0, hi0, hd⟩ := central h0 ho
  have hoff : ∀ i, offset len newLen o i = ((i0 : ℚ) + 1 / 2 - centre len newLen o) + (i - i0) := by
    intro i; rw [offset_one hs]; ring
  set d := (i0 : ℚ) + 1 / 2 - centre len newLen o with hdd
  have two : ∀ p, p + 1 < len → β2 ≤ g (offset len newLen o p) + g (offset len newLen o (p + 1)) →
      β2 - μ ≤ sumR len (fun i => g (offset len newLen o i)) := by
    intro p hp h
    refine sumR_pos_neg (le_trans ?_ (sumR_part (p := p) (m := 2) (by omega) fun i _ => le_max_left _ _)) hN
    rw [show (2 : ℕ) = 0 + 1 + 1 from rfl, sumR_succ, sumR_succ]
    simp only [sumR, List.range_zero, List.map_nil, List.sum_nil, zero_add, add_zero]
    exact h.trans (add_le_add (le_max_right _ _) (le_max_right _ _))
  have edge : ∀ q, (∀ i, i < len → i ≠ q → 0 ≤ g (offset len newLen o i)) →
      (β - ν ≤ sumR len (fun i => g (offset len newLen o i)) ∧ sumR len (fun i => negPart (g (offset len newLen o i))) ≤ ν) := by
    intro q hq
    have hN' : sumR len (fun i => negPart (g (offset len newLen o i))) ≤ ν := by
      refine le_trans (sumR_le (g := fun i => if i = q then ν else 0) fun i hi => ?_) (sumR_pick hg.ν_nonneg)
      split_ifs with h
      · exact negPart_le hg.ν_nonneg (hg.lobe _)
      · exact (negPart_of_nonneg (hq i hi h)).le
    refine ⟨sumR_pos_neg (le_trans ?_ (sumR_single (fun i _ => le_max_left _ _) hi0)) hN', hN'⟩
    refine le_trans (hg.mid _ ?_) (le_max_right _ _)
    rw [hoff, sub_self, add_zero]
    exact hd
  rcases le_total 0 d with h | h
  · rw [abs_of_nonneg h] at hd
    by_cases hi : i0 = 0
    · right
      refine edge 1 fun i hi' hne => ?_
      rw [hoff, hi]
      rcases Nat.eq_zero_or_pos i with rfl | hpos
      · refine hg.inner _ ?_
        simp only [sub_self, add_zero]
        rw [abs_of_nonneg h]; linarith
      · refine hg.outer _ ?_
        have : (2 : ℚ) ≤ i := by exact_mod_cast (by omega : 2 ≤ i)
        rw [Nat.cast_zero, sub_zero, abs_of_nonneg (by linarith)]; linarith
    · left
      refine ⟨two (i0 - 1) (by omega) ?_, hN⟩
      have e1 : offset len newLen o (i0 - 1) = -(1 - d) := by
        rw [hoff, Nat.cast_sub (by omega)]; push_cast; ring
      have e2 : offset len newLen o (i0 - 1 + 1) = d := by
        rw [show i0 - 1 + 1 = i0 by omega, hoff]; ring
      rw [e1, e2, hg.even, add_comm]
      exact htwo d h hd
  · rw [abs_of_nonpos h] at hd
    by_cases hi : i0 + 1 = len
    · right
      refine edge (i0 - 1) fun i hi' hne => ?_
      rw [hoff]
      rcases Nat.eq_or_lt_of_le (by omega : i ≤ i0) with rfl | hlt
      · refine hg.inner _ ?_
        simp only [sub_self, add_zero]
        rw [abs_of_nonpos h]; linarith
      · refine hg.outer _ ?_
        have : (i : ℚ) + 2 ≤ i0 := by exact_mod_cast (by omega : i + 2 ≤ i0)
        rw [abs_of_nonpos (by linarith)]; linarith
    · left
      refine ⟨two i0 (by omega) ?_, hN⟩
      have e1 : offset len newLen o i0 = -(-d) := by rw [hoff]; ring
      have e2 : offset len newLen o (i0 + 1) = 1 - -d := by rw [hoff]; push_cast; ring
      rw [e1, e2, hg.even]
      exact htwo (-d) (by linarith) hd

/-- A rational approximation of the kernel. -/
noncomputable def lanczosQ (n : ℕ) (u : ℚ) : ℚ := ⌊lanczosR ((|u| : ℚ) : ℝ) * 2 ^ n⌋ / 2 ^ n

theorem lanczosQ_near (n : ℕ) (u : ℚ) : (lanczosQ n u : ℝ) ≤ lanczosR u ∧ lanczosR u ≤ lanczosQ n u + 1 / 2 ^ n := by
  have e : lanczosR ((|u| : ℚ) : ℝ) = lanczosR u := by push_cast; exact lanczosR_abs _
  have h2 : (0 : ℝ) < 2 ^ n := by positivity
  unfold lanczosQ
  rw [e]
  push_cast
  constructor
  · rw [div_le_iff₀ h2]; exact Int.floor_le _
  · rw [← add_div, le_div_iff₀ h2]; exact (Int.lt_floor_add_one _).le

theorem lanczosQ_even (n : ℕ) (u : ℚ) : lanczosQ n (-u) = lanczosQ n u := by unfold lanczosQ; rw [abs_neg]

theorem lanczosQ_abs (n : ℕ) (u : ℚ) : lanczosQ n |u| = lanczosQ n u := by unfold lanczosQ; rw [abs_abs]

theorem lanczosQ_nonneg {n : ℕ} {u : ℚ} (h : 0 ≤ lanczosR u) : 0 ≤ lanczosQ n u := by
  have e : lanczosR ((|u| : ℚ) : ℝ) = lanczosR u := by push_cast; exact lanczosR_abs _
  unfold lanczosQ
  rw [e]
  refine div_nonneg ?_ (by positivity)
  exact_mod_cast Int.floor_nonneg.2 (by positivity)

theorem lanczosQ_int {n : ℕ} {u : ℚ} {m : ℤ} (h : lanczosR u = m) : lanczosQ n u = m := by
  have e : lanczosR ((|u| : ℚ) : ℝ) = lanczosR u := by push_cast; exact lanczosR_abs _
  unfold lanczosQ
  rw [e, h, show (m : ℝ) * 2 ^ n = ((m * 2 ^ n : ℤ) : ℝ) by push_cast; ring, Int.floor_intCast]
  push_cast
  field_simp

theorem lanczosQ_le (n : ℕ) (u : ℚ) : |lanczosQ n u| ≤ 1 := by
  have e : lanczosR ((|u| : ℚ) : ℝ) = lanczosR u := by push_cast; exact lanczosR_abs _
  have h := abs_le.1 (lanczosR_le u)
  have h2 : (0 : ℝ) < 2 ^ n := by positivity
  rw [abs_le]
  constructor
  · unfold lanczosQ
    rw [e, le_div_iff₀ (by positivity)]
    have : -(2 ^ n : ℤ) ≤ ⌊lanczosR u * 2 ^ n⌋ := by
      rw [Int.le_floor]; push_cast; nlinarith
    have : ((-(2 ^ n : ℤ) : ℤ) : ℚ) ≤ ⌊lanczosR u * 2 ^ n⌋ := by exact_mod_cast this
    push_cast at this
    linarith
  · have := (lanczosQ_near n u).1.trans h.2
    exact_mod_cast this

theorem lanczosR_zero : lanczosR 0 = 1 := by unfold lanczosR; simp

theorem lanczosR_intp {k : ℤ} (hk : k ≠ 0) : lanczosR ((k : ℚ) : ℝ) = 0 := by
  unfold lanczosR
  split_ifs
  · have : π * ((k : ℚ) : ℝ) ≠ 0 := mul_ne_zero pi_ne_zero (by exact_mod_cast hk)
    rw [Real.sinc_of_ne_zero this]
    push_cast
    rw [mul_comm π, Real.sin_int_mul_pi]
    simp
  · rfl

theorem lanczosQ_interp (n : ℕ) : lanczosQ n 0 = 1 ∧ ∀ k : ℤ, k ≠ 0 → lanczosQ n k = 0 :=
  ⟨by have := lanczosQ_int (n := n) (u := 0) (m := 1) (by simp [lanczosR_zero]); simpa using this,
    fun k hk => by have := lanczosQ_int (n := n) (u := k) (m := 0) (by simpa using lanczosR_intp hk); simpa using this⟩

theorem lanczos_signed {L : Libm} (hL : L.SinOk) {n : ℕ} (hn : 1 ≤ n) :
    SignedKernel (FilterType.lanczos3.method L) 3 (lanczosQ n) (11 / 5) (1 / 2 ^ 18 + 1 / 2 ^ n) where
  support := rfl
  s_lo := by norm_num
  s_hi := by norm_num
  l_lo := by norm_num
  l_hi := by norm_num
  e_lo := by positivity
  e_hi := by
    have : (1 : ℚ) / 2 ^ n ≤ 1 := by
      rw [div_le_one (by positivity)]; exact one_le_pow₀ (by norm_num)
    have h2 : (1 : ℚ) / 2 ^ n ≤ 1 / 2 := by
      rw [div_le_div_iff₀ (by positivity) (by norm_num)]
      have : (2 : ℚ) ^ 1 ≤ 2 ^ n := pow_le_pow_right₀ (by norm_num) hn
      linarith
    linarith [show (1 : ℚ) / 2 ^ 18 ≤ 1 / 2 by norm_num]
  near t u ht _ _ := by
    obtain ⟨k, k1, k2⟩ := lanczos_value hL ht
    refine ⟨k, k1, ?_⟩
    have h1 := lanczosR_lip t u
    have h2 := lanczosQ_near n u
    have : |(k : ℝ) - lanczosQ n u| ≤ 11 / 5 * |(t : ℝ) - u| + (1 / 2 ^ 18 + 1 / 2 ^ n) := by
      have e : (k : ℝ) - lanczosQ n u = (k - lanczosR t) + (lanczosR t - lanczosR u) + (lanczosR u - lanczosQ n u) := by ring
      rw [e]
      refine (abs_add_le _ _).trans (le_trans (add_le_add (abs_add_le _ _) le_rfl) ?_)
      have : |lanczosR u - (lanczosQ n u : ℝ)| ≤ 1 / 2 ^ n := by
        rw [abs_of_nonneg (by linarith [h2.1])]; linarith [h2.2]
      linarith
    refine (Rat.cast_le (K := ℝ)).1 ?_
    push_cast
    exact this
  zero u h := by
    have := lanczosQ_int (n := n) (u := u) (m := 0) (by simpa using lanczosR_out (by exact_mod_cast h))
    simpa using this
  bound u := lanczosQ_le n u


theorem lanczosR_region (u : ℚ) : lanczosR u = lanczosR ((|u| : ℚ) : ℝ) := by push_cast; exact (lanczosR_abs _).symm

theorem pow_small {n : ℕ} (hn : 22 ≤ n) : (1 : ℚ) / 2 ^ n ≤ 1 / 2 ^ 22 :=
  one_div_le_one_div_of_le (by positivity) (pow_le_pow_right₀ (by norm_num) hn)

theorem pow_smallR {n : ℕ} (hn : 22 ≤ n) : (1 : ℝ) / 2 ^ n ≤ 1 / 2 ^ 22 :=
  one_div_le_one_div_of_le (by positivity) (pow_le_pow_right₀ (by norm_num) hn)

theorem lanczosQ_lo {n : ℕ} (hn : 22 ≤ n) (u : ℚ) {b : ℚ} (h : (b : ℝ) ≤ lanczosR u) : b - 1 / 2 ^ 22 ≤ lanczosQ n u := by
  have h1 := (lanczosQ_near n u).2
  have h2 : (1 : ℝ) / 2 ^ n ≤ 1 / 2 ^ 22 := pow_smallR hn
  have : ((b - 1 / 2 ^ 22 : ℚ) : ℝ) ≤ lanczosQ n u := by push_cast; linarith
  exact_mod_cast this

theorem lanczos_inner {u : ℚ} (h : |u| ≤ 1) : 0 ≤ lanczosR u := by
  rw [lanczosR_region]
  have h' : (((|u| : ℚ)) : ℝ) ≤ 1 := by exact_mod_cast h
  have h0 : (0 : ℝ) ≤ ((|u| : ℚ) : ℝ) := by exact_mod_cast abs_nonneg u
  rw [lanczosR_in (by rw [abs_of_nonneg h0]; linarith)]
  exact lanczosFree_inner h0 h'

theorem lanczos_outer {u : ℚ} (h : 2 ≤ |u|) : 0 ≤ lanczosR u := by
  rcases lt_or_ge |u| 3 with h3 | h3
  · rw [lanczosR_region]
    have h' : (2 : ℝ) ≤ ((|u| : ℚ) : ℝ) := by exact_mod_cast h
    have h'' : ((|u| : ℚ) : ℝ) < 3 := by exact_mod_cast h3
    rw [lanczosR_in (by rw [abs_of_nonneg (by linarith)]; exact h'')]
    exact lanczosFree_outer h' h''.le
  · rw [lanczosR_out (by exact_mod_cast h3)]

theorem lanczos_mid {u : ℚ} (h : |u| ≤ 1 / 2) : (59 : ℝ) / 100 ≤ lanczosR u := by
  rw [lanczosR_region]
  have h' : (((|u| : ℚ)) : ℝ) ≤ ((1 / 2 : ℚ) : ℝ) := by exact_mod_cast h
  push_cast at h'
  have h0 : (0 : ℝ) ≤ |(u : ℝ)| := abs_nonneg _
  push_cast
  rw [lanczosR_in (by rw [abs_abs]; linarith)]
  exact lanczosFree_mid h0 h'

theorem lanczos_lobe (u : ℚ) : -((19 : ℝ) / 100) ≤ lanczosR u := by
  rcases le_total |u| 1 with h | h
  · linarith [lanczos_inner h]
  rcases le_total 2 |u| with h2 | h2
  · linarith [lanczos_outer h2]
  · rw [lanczosR_region]
    have h' : (1 : ℝ) ≤ ((|u| : ℚ) : ℝ) := by exact_mod_cast h
    have h'' : ((|u| : ℚ) : ℝ) ≤ 2 := by exact_mod_cast h2
    rw [lanczosR_in (by rw [abs_of_nonneg (by linarith)]; linarith)]
    have := lanczosFree_lobe_le (d := ((|u| : ℚ) : ℝ) - 1) (by linarith) (by linarith)
    rw [add_sub_cancel] at this
    linarith

theorem lanczos_lobed {n : ℕ} (hn : 22 ≤ n) : Lobed (lanczosQ n) (58 / 100) (20 / 100) where
  even := lanczosQ_even n
  mid u h := by
    have := lanczosQ_lo hn u (b := 59 / 100) (by push_cast; exact lanczos_mid h)
    norm_num at this ⊢
    linarith
  inner _ h := lanczosQ_nonneg (lanczos_inner h)
  lobe u := by
    have := lanczosQ_lo hn u (b := -(19 / 100)) (by push_cast; exact lanczos_lobe u)
    norm_num at this ⊢
    linarith
  outer _ h := lanczosQ_nonneg (lanczos_outer h)
  ν_nonneg := by norm_num
  β_nonneg := by norm_num

theorem lanczosQ_negPart {n : ℕ} (hn : 22 ≤ n) {u b : ℚ} (h : -(b : ℝ) ≤ lanczosR u) (hb : 0 ≤ b) : negPart (lanczosQ n u) ≤ b + 1 / 2 ^ 22 := by
  refine negPart_le (by positivity) ?_
  have := lanczosQ_lo hn u (b := -b) (by push_cast; exact h)
  linarith

theorem lanczos_pair {n : ℕ} (hn : 22 ≤ n) (d : ℚ) (h0 : 0 ≤ d) (h1 : d ≤ 1 / 2) :
    negPart (lanczosQ n (1 + d)) + negPart (lanczosQ n (2 - d)) ≤ 33 / 100 := by
  have h0' : (0 : ℝ) ≤ d := by exact_mod_cast h0
  have h1' : (d : ℝ) ≤ 1 / 2 := by
    have : (d : ℝ) ≤ ((1 / 2 : ℚ) : ℝ) := by exact_mod_cast h1
    push_cast at this; exact this
  have hp := lanczosFree_pair h0' h1'
  have n1 := lanczosFree_neg h0' (by linarith)
  have n2 := lanczosFree_neg (d := 1 - (d : ℝ)) (by linarith) (by linarith)
  rw [show 1 + (1 - (d : ℝ)) = 2 - d by ring] at n2
  have e1 : lanczosR ((1 + d : ℚ) : ℝ) = lanczosFree (1 + d) := by
    push_cast; exact lanczosR_in (by rw [abs_of_nonneg (by linarith)]; linarith)
  have e2 : lanczosR ((2 - d : ℚ) : ℝ) = lanczosFree (2 - d) := by
    push_cast; exact lanczosR_in (by rw [abs_of_nonneg (by linarith)]; linarith)
  have a1 := (lanczosQ_near n (1 + d))
  have a2 := (lanczosQ_near n (2 - d))
  rw [e1] at a1
  rw [e2] at a2
  have hsm : (1 : ℝ) / 2 ^ n ≤ 1 / 2 ^ 22 := pow_smallR hn
  have m1 : lanczosQ n (1 + d) ≤ 0 := by
    have : (lanczosQ n (1 + d) : ℝ) ≤ 0 := by linarith [a1.1]
    exact_mod_cast this
  have m2 : lanczosQ n (2 - d) ≤ 0 := by
    have : (lanczosQ n (2 - d) : ℝ) ≤ 0 := by linarith [a2.1]
    exact_mod_cast this
  unfold negPart
  rw [max_eq_right (by linarith), max_eq_right (by linarith)]
  refine (Rat.cast_le (K := ℝ)).1 ?_
  push_cast
  norm_num at hsm a1 a2 hp ⊢
  linarith [a1.2, a2.2]

theorem lanczos_two {n : ℕ} (hn : 22 ≤ n) (d : ℚ) (h0 : 0 ≤ d) (h1 : d ≤ 1 / 2) :
    99 / 100 ≤ lanczosQ n d + lanczosQ n (1 - d) := by
  have h0' : (0 : ℝ) ≤ d := by exact_mod_cast h0
  have h1' : (d : ℝ) ≤ 1 / 2 := by
    have : (d : ℝ) ≤ ((1 / 2 : ℚ) : ℝ) := by exact_mod_cast h1
    push_cast at this; exact this
  have hp := lanczosFree_two h0' h1'
  have e1 : lanczosR (d : ℝ) = lanczosFree d := lanczosR_in (by rw [abs_of_nonneg (by linarith)]; linarith)
  have e2 : lanczosR ((1 - d : ℚ) : ℝ) = lanczosFree (1 - d) := by
    push_cast; exact lanczosR_in (by rw [abs_of_nonneg (by linarith)]; linarith)
  have a1 := (lanczosQ_near n d).2
  have a2 := (lanczosQ_near n (1 - d)).2
  rw [e1] at a1
  rw [e2] at a2
  have hsm : (1 : ℝ) / 2 ^ n ≤ 1 / 2 ^ 22 := pow_smallR hn
  refine (Rat.cast_le (K := ℝ)).1 ?_
  push_cast
  norm_num at hsm a1 a2 hp ⊢
  linarith

/-- One axis, enlarging. -/
theorem lanczos_axis {L : Libm} (hL : L.SinOk) {n : ℕ} (hn : 22 ≤ n) {len newLen o : Nat} (h0 : 0 < len) (h : len ≤ 11000)
    (ho : o < newLen) (h' : newLen ≤ 2 ^ 17) (hle : len ≤ newLen) :
    Axis (FilterType.lanczos3.method L) len newLen o (fun i => lanczosQ n (offset len newLen o i)) (5 / 2) (33 / 4)
      (96 * (len + 12) / 2 ^ 22) := by
  have hs : scale len newLen = 1 := by
    unfold scale
    refine max_eq_left ?_
    have : (0 : ℚ) < newLen := by exact_mod_cast (by omega : 0 < newLen)
    rw [div_le_one this]
    exact_mod_cast hle
  have hl : (len : ℚ) ≤ 11000 := by exact_mod_cast h
  have hk : kernelErr (11 / 5) (1 / 2 ^ 18 + 1 / 2 ^ n) 3 len newLen ≤ 11 / 5 * (len + 12) / 2 ^ 22 := by
    unfold kernelErr
    rw [Nat.min_eq_left hle]
    have := pow_small hn
    rw [le_div_iff₀ (by norm_num)]
    norm_num at this ⊢
    linarith
  have hcE : (33 : ℚ) / 4 * (11 / 5 * (len + 12) / 2 ^ 22) ≤ 48 / 1000 := by
    rw [show (33 : ℚ) / 4 * (11 / 5 * (len + 12) / 2 ^ 22) = 363 / 20 * (len + 12) / 2 ^ 22 by ring, div_le_iff₀ (by norm_num)]
    norm_num; linarith
  have weaken : ∀ A : ℚ, 380 / 1000 ≤ A → Axis (FilterType.lanczos3.method L) len newLen o (fun i => lanczosQ n (offset len newLen o i)) (5 / 2) (33 / 4)
      (33 / 4 * (11 / 5 * (len + 12) / 2 ^ 22) * ((5 / 2 + 1) / 2) / (A - 48 / 1000)) →
      Axis (FilterType.lanczos3.method L) len newLen o (fun i => lanczosQ n (offset len newLen o i)) (5 / 2) (33 / 4)
      (96 * (len + 12) / 2 ^ 22) := by
    intro A hA ⟨l, k, a, t1, t2, t3⟩
    refine ⟨l, k, a, t1, t2, fun V lo hi hV hlh => ?_⟩
    obtain ⟨r1, r2⟩ := t3 V lo hi hV hlh
    refine ⟨r1.trans (mul_le_mul_of_nonneg_right ?_ (by linarith)), r2⟩
    rw [div_le_iff₀ (by linarith)]
    have h2 : (0 : ℚ) ≤ (len + 12) / 2 ^ 22 := by positivity
    calc (33 : ℚ) / 4 * (11 / 5 * (len + 12) / 2 ^ 22) * ((5 / 2 + 1) / 2) = (len + 12) / 2 ^ 22 * (33 / 4 * (11 / 5) * (7 / 4)) := by ring
      _ ≤ (len + 12) / 2 ^ 22 * (96 * (A - 48 / 1000)) := by
          refine mul_le_mul_of_nonneg_left ?_ h2
          linarith
      _ = _ := by ring
  rcases (lanczos_lobed hn).enlarge2 h0 ho hs (lanczos_pair hn) (lanczos_two hn) with ⟨a1, a2⟩ | ⟨a1, a2⟩
  · exact weaken _ (by norm_num) ((lanczos_signed hL (by omega)).taps h0 (by omega) ho h' (c := 33 / 4) (E := 48 / 1000) (K := 5 / 2)
      (A := 99 / 100 - 33 / 100) (N := 33 / 100) (by rw [hs]; norm_num) (by norm_num) (by norm_num) hk hcE (by norm_num) a1 a2 (by norm_num))
  · exact weaken _ (by norm_num) ((lanczos_signed hL (by omega)).taps h0 (by omega) ho h' (c := 33 / 4) (E := 48 / 1000) (K := 5 / 2)
      (A := 58 / 100 - 20 / 100) (N := 20 / 100) (by rw [hs]; norm_num) (by norm_num) (by norm_num) hk hcE (by norm_num) a1 a2 (by norm_num))

/-! ## Limits -/

open _root_.Filter Topology in
theorem lanczosQ_tendsto (u : ℚ) : Tendsto (fun n => (lanczosQ n u : ℝ)) atTop (𝓝 (lanczosR u)) := by
  have h1 : Tendsto (fun n : ℕ => lanczosR u - (1 / 2 : ℝ) ^ n) atTop (𝓝 (lanczosR u - 0)) :=
    tendsto_const_nhds.sub (tendsto_pow_atTop_nhds_zero_of_lt_one (by norm_num) (by norm_num))
  rw [sub_zero] at h1
  refine tendsto_of_tendsto_of_tendsto_of_le_of_le h1 tendsto_const_nhds (fun n => ?_) (fun n => (lanczosQ_near n u).1)
  have := (lanczosQ_near n u).2
  rw [one_div_pow]
  linarith

open _root_.Filter Topology in
theorem weighted_tendsto {len : ℕ} {a : ℕ → ℕ → ℚ} {b : ℕ → ℝ} {v : ℕ → ℕ → ℚ} {w : ℕ → ℝ}
    (ha : ∀ i, Tendsto (fun n => (a n i : ℝ)) atTop (𝓝 (b i))) (hv : ∀ i, Tendsto (fun n => (v n i : ℝ)) atTop (𝓝 (w i)))
    (hb : ∑ i ∈ Finset.range len, b i ≠ 0) :
    Tendsto (fun n => ((weighted len (a n) (v n) : ℚ) : ℝ)) atTop (𝓝 (weightedR len b w)) := by
  unfold weighted weightedR
  push_cast
  refine Tendsto.div ?_ ?_ hb
  · exact tendsto_finsetSum _ fun i _ => (ha i).mul (hv i)
  · exact tendsto_finsetSum _ fun i _ => ha i

open _root_.Filter Topology in
theorem lanczos_sum_pos {len newLen o : Nat} (h0 : 0 < len) (ho : o < newLen) (hle : len ≤ newLen) :
    ∑ i ∈ Finset.range len, lanczosR (offset len newLen o i) ≠ 0 := by
  have hs : scale len newLen = 1 := by
    unfold scale
    refine max_eq_left ?_
    have : (0 : ℚ) < newLen := by exact_mod_cast (by omega : 0 < newLen)
    rw [div_le_one this]
    exact_mod_cast hle
  have ht : Tendsto (fun n => ∑ i ∈ Finset.range len, (lanczosQ n (offset len newLen o i) : ℝ)) atTop
      (𝓝 (∑ i ∈ Finset.range len, lanczosR (offset len newLen o i))) :=
    tendsto_finsetSum _ fun i _ => lanczosQ_tendsto _
  have hge : (38 : ℝ) / 100 ≤ ∑ i ∈ Finset.range len, lanczosR (offset len newLen o i) := by
    refine ge_of_tendsto ht ?_
    filter_upwards [eventually_ge_atTop 22] with n hn
    have : (38 : ℚ) / 100 ≤ ∑ i ∈ Finset.range len, lanczosQ n (offset len newLen o i) := by
      rw [← sumR_finset]
      rcases (lanczos_lobed hn).enlarge2 h0 ho hs (lanczos_pair hn) (lanczos_two hn) with ⟨a1, -⟩ | ⟨a1, -⟩ <;> linarith
    have : ((38 / 100 : ℚ) : ℝ) ≤ ((∑ i ∈ Finset.range len, lanczosQ n (offset len newLen o i) : ℚ) : ℝ) := by exact_mod_cast this
    push_cast at this
    exact this
  intro hc
  rw [hc] at hge
  norm_num at hge

open _root_.Filter Topology in
/-- From the rational approximations to the exact mean. -/
theorem lanczos_limit {w nw x h nh y : Nat} (hw0 : 0 < w) (hh0 : 0 < h) (hx : x < nw) (hy : y < nh) (hnw : w ≤ nw) (hnh : h ≤ nh)
    {v : Nat → Nat → ℚ} {p M B : ℚ}
    (hb : ∀ n, 22 ≤ n → |p - max 0 (min (weighted w (fun i => lanczosQ n (offset w nw x i)) fun i =>
      weighted h (fun j => lanczosQ n (offset h nh y j)) fun j => v i j) M)| ≤ B) :
    |(p : ℝ) - max 0 (min (lanczosMean w nw x h nh y fun i j => (v i j : ℝ)) M)| ≤ B := by
  have ht : Tendsto (fun n => ((weighted w (fun i => lanczosQ n (offset w nw x i)) fun i =>
      weighted h (fun j => lanczosQ n (offset h nh y j)) fun j => v i j : ℚ) : ℝ)) atTop
      (𝓝 (lanczosMean w nw x h nh y fun i j => (v i j : ℝ))) := by
    unfold lanczosMean
    refine weighted_tendsto (a := fun n i => lanczosQ n (offset w nw x i)) (v := fun n i => weighted h (fun j => lanczosQ n (offset h nh y j)) fun j => v i j)
      (fun i => lanczosQ_tendsto _) (fun i => ?_) (lanczos_sum_pos hw0 hx hnw)
    exact weighted_tendsto (a := fun n j => lanczosQ n (offset h nh y j)) (v := fun _ j => v i j)
      (fun j => lanczosQ_tendsto _) (fun j => tendsto_const_nhds) (lanczos_sum_pos hh0 hy hnh)
  have ht2 := (tendsto_const_nhds (x := (p : ℝ)).sub ((tendsto_const_nhds (x := (0 : ℝ))).max (ht.min (tendsto_const_nhds (x := (M : ℝ)))))).abs
  refine le_of_tendsto ht2 ?_
  filter_upwards [eventually_ge_atTop 22] with n hn
  have := hb n hn
  have : ((|p - max 0 (min (weighted w (fun i => lanczosQ n (offset w nw x i)) fun i =>
      weighted h (fun j => lanczosQ n (offset h nh y j)) fun j => v i j) M)| : ℚ) : ℝ) ≤ B := by exact_mod_cast this
  push_cast at this
  exact this

end Verif
