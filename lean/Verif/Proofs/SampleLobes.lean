import Verif.Proofs.SampleSigned
import Mathlib.Data.Finset.Max
import Mathlib.Order.Interval.Finset.Nat

/-!
# The sums of the weights of a kernel with one negative lobe on each side
-/

namespace Verif

/-- A kernel that is positive in the middle, at least `-ν` from 1 to 2, and not negative beyond. -/
structure Lobed (g : ℚ → ℚ) (β ν : ℚ) : Prop where
  even : ∀ u, g (-u) = g u
  mid : ∀ u, |u| ≤ 1 / 2 → β ≤ g u
  inner : ∀ u, |u| ≤ 1 → 0 ≤ g u
  lobe : ∀ u, -ν ≤ g u
  outer : ∀ u, 2 ≤ |u| → 0 ≤ g u
  ν_nonneg : 0 ≤ ν
  β_nonneg : 0 ≤ β

theorem negPart_of_nonneg {x : ℚ} (h : 0 ≤ x) : negPart x = 0 := max_eq_left (by linarith)

theorem negPart_le {x ν : ℚ} (hν : 0 ≤ ν) (h : -ν ≤ x) : negPart x ≤ ν := max_le hν (by linarith)

theorem Lobed.abs {g : ℚ → ℚ} {β ν : ℚ} (hg : Lobed g β ν) (u : ℚ) : g |u| = g u := by
  rcases abs_choice u with h | h
  · rw [h]
  · rw [h, hg.even]

theorem sumR_pick {n p : ℕ} {c : ℚ} (hc : 0 ≤ c) : sumR n (fun i => if i = p then c else 0) ≤ c := by
  rw [sumR_finset, Finset.sum_ite_eq']
  split_ifs <;> linarith

/-- A sum of terms that are at most `c`, and zero unless in a set of indices no more than `d` apart. -/
theorem sumR_spread {n m : ℕ} {f : ℕ → ℚ} {P : ℕ → Prop} {c : ℚ} (hc : 0 ≤ c) (hf : ∀ i, i < n → f i ≤ c)
    (hz : ∀ i, i < n → ¬ P i → f i ≤ 0) (hd : ∀ i j, P i → P j → i ≤ j → j ≤ i + m) : sumR n f ≤ (m + 1) * c := by
  classical
  have h1 : sumR n f ≤ ∑ i ∈ Finset.range n, if P i then c else 0 := by
    rw [sumR_finset]
    refine Finset.sum_le_sum fun i hi => ?_
    have hi : i < n := by simpa using hi
    split_ifs with h
    · exact hf i hi
    · exact hz i hi h
  refine h1.trans ?_
  rw [← Finset.sum_filter, Finset.sum_const, nsmul_eq_mul]
  refine mul_le_mul_of_nonneg_right ?_ hc
  have hcard : (Finset.filter P (Finset.range n)).card ≤ m + 1 := by
    rcases (Finset.filter P (Finset.range n)).eq_empty_or_nonempty with h | h
    · rw [h]; simp
    · set p := (Finset.filter P (Finset.range n)).min' h
      have hp : P p := (Finset.mem_filter.1 (Finset.min'_mem _ h)).2
      have hsub : Finset.filter P (Finset.range n) ⊆ Finset.Ico p (p + (m + 1)) := by
        intro i hi
        have h1 := Finset.min'_le _ _ hi
        have h2 := hd p i hp (Finset.mem_filter.1 hi).2 h1
        rw [Finset.mem_Ico]
        exact ⟨h1, by omega⟩
      have := Finset.card_le_card hsub
      rwa [Nat.card_Ico, Nat.add_sub_cancel_left] at this
  exact_mod_cast hcard

/-- Positive less negative. -/
theorem sumR_pos_neg {n : ℕ} {f : ℕ → ℚ} {P N : ℚ} (hP : P ≤ sumR n fun i => max 0 (f i)) (hN : sumR n (fun i => negPart (f i)) ≤ N) :
    P - N ≤ sumR n f := by
  have e : sumR n f = sumR n (fun i => max 0 (f i)) - sumR n fun i => negPart (f i) := by
    rw [← sumR_sub]
    refine sumR_congr fun i _ => ?_
    unfold negPart
    rcases le_total 0 (f i) with h | h
    · rw [max_eq_right h, max_eq_left (by linarith)]; ring
    · rw [max_eq_left h, max_eq_right (by linarith)]; ring
  linarith

theorem offset_one {len newLen o i : Nat} (h : scale len newLen = 1) :
    offset len newLen o i = i + 1 / 2 - centre len newLen o := by
  unfold offset; rw [h, div_one]

/-- Enlarging: at most two taps are in the negative lobes. -/
theorem Lobed.enlarge {g : ℚ → ℚ} {β ν μ : ℚ} (hg : Lobed g β ν) {len newLen o : Nat} (h0 : 0 < len) (ho : o < newLen)
    (hs : scale len newLen = 1) (hpair : ∀ d, 0 ≤ d → d ≤ 1 / 2 → negPart (g (1 + d)) + negPart (g (2 - d)) ≤ μ) :
    β - μ ≤ sumR len (fun i => g (offset len newLen o i)) ∧
      sumR len (fun i => negPart (g (offset len newLen o i))) ≤ μ := by
  obtain ⟨i0, hi0, hd⟩ := central h0 ho
  have hoff : ∀ i, offset len newLen o i = ((i0 : ℚ) + 1 / 2 - centre len newLen o) + (i - i0) := by
    intro i; rw [offset_one hs]; ring
  set d := (i0 : ℚ) + 1 / 2 - centre len newLen o with hdd
  have hN : sumR len (fun i => negPart (g (offset len newLen o i))) ≤ μ := by
    rcases le_total 0 d with h | h
    · rw [abs_of_nonneg h] at hd
      have key : ∀ i, i < len → negPart (g (offset len newLen o i)) ≤
          (if i = i0 + 1 then negPart (g (1 + d)) else 0) + (if i = i0 - 2 then negPart (g (2 - d)) else 0) := by
        intro i _
        rw [hoff i]
        have n1 := negPart_nonneg (g (1 + d))
        have n2 := negPart_nonneg (g (2 - d))
        have nn : 0 ≤ (if i = i0 + 1 then negPart (g (1 + d)) else 0) + (if i = i0 - 2 then negPart (g (2 - d)) else 0) := by
          split_ifs <;> linarith
        by_cases h1 : i = i0 + 1
        · have e : d + ((i : ℚ) - i0) = 1 + d := by rw [h1]; push_cast; ring
          rw [e, if_pos h1]
          split_ifs <;> linarith
        by_cases h2 : i + 2 = i0
        · have e : d + ((i : ℚ) - i0) = -(2 - d) := by rw [← h2]; push_cast; ring
          rw [e, hg.even, if_neg h1, if_pos (by omega)]
          linarith
        · refine le_trans (negPart_of_nonneg ?_).le nn
          rcases Nat.lt_or_ge i i0 with h3 | h3
          · by_cases h4 : i + 1 = i0
            · refine hg.inner _ ?_
              rw [← h4]; push_cast
              rw [abs_le]; constructor <;> linarith
            · refine hg.outer _ ?_
              have : (i : ℚ) + 3 ≤ i0 := by exact_mod_cast (by omega : i + 3 ≤ i0)
              rw [abs_of_nonpos (by linarith)]; linarith
          · rcases Nat.eq_or_lt_of_le h3 with h4 | h4
            · refine hg.inner _ ?_
              rw [h4, sub_self, add_zero, abs_of_nonneg h]; linarith
            · refine hg.outer _ ?_
              have : (i0 : ℚ) + 2 ≤ i := by exact_mod_cast (by omega : i0 + 2 ≤ i)
              rw [abs_of_nonneg (by linarith)]; linarith
      refine (sumR_le key).trans ?_
      rw [sumR_add]
      exact le_trans (add_le_add (sumR_pick (negPart_nonneg _)) (sumR_pick (negPart_nonneg _))) (hpair d h hd)
    · rw [abs_of_nonpos h] at hd
      have key : ∀ i, i < len → negPart (g (offset len newLen o i)) ≤
          (if i = i0 - 1 then negPart (g (1 + -d)) else 0) + (if i = i0 + 2 then negPart (g (2 - -d)) else 0) := by
        intro i _
        rw [hoff i]
        have n1 := negPart_nonneg (g (1 + -d))
        have n2 := negPart_nonneg (g (2 - -d))
        have nn : 0 ≤ (if i = i0 - 1 then negPart (g (1 + -d)) else 0) + (if i = i0 + 2 then negPart (g (2 - -d)) else 0) := by
          split_ifs <;> linarith
        by_cases h1 : i + 1 = i0
        · have e : d + ((i : ℚ) - i0) = -(1 + -d) := by rw [← h1]; push_cast; ring
          rw [e, hg.even, if_pos (by omega)]
          split_ifs <;> linarith
        by_cases h2 : i = i0 + 2
        · have e : d + ((i : ℚ) - i0) = 2 - -d := by rw [h2]; push_cast; ring
          rw [e, if_pos h2]
          split_ifs <;> linarith
        · refine le_trans (negPart_of_nonneg ?_).le nn
          rcases Nat.lt_or_ge i i0 with h3 | h3
          · refine hg.outer _ ?_
            have : (i : ℚ) + 2 ≤ i0 := by exact_mod_cast (by omega : i + 2 ≤ i0)
            rw [abs_of_nonpos (by linarith)]; linarith
          · rcases Nat.eq_or_lt_of_le h3 with h4 | h4
            · refine hg.inner _ ?_
              rw [h4, sub_self, add_zero, abs_of_nonpos h]; linarith
            · by_cases h5 : i = i0 + 1
              · refine hg.inner _ ?_
                rw [h5]; push_cast
                rw [abs_le]; constructor <;> linarith
              · refine hg.outer _ ?_
                have : (i0 : ℚ) + 3 ≤ i := by exact_mod_cast (by omega : i0 + 3 ≤ i)
                rw [abs_of_nonneg (by linarith)]; linarith
      refine (sumR_le key).trans ?_
      rw [sumR_add]
      exact le_trans (add_le_add (sumR_pick (negPart_nonneg _)) (sumR_pick (negPart_nonneg _))) (hpair (-d) (by linarith) hd)
  refine ⟨sumR_pos_neg (le_trans ?_ (sumR_single (fun i _ => le_max_left _ _) hi0)) hN, hN⟩
  refine le_trans (hg.mid _ ?_) (le_max_right _ _)
  rw [hoff, sub_self, add_zero]
  exact hd

/-- In general: `m` is the integer part of the scale. -/
theorem Lobed.shrink {g : ℚ → ℚ} {β ν : ℚ} (hg : Lobed g β ν) {len newLen o : Nat} (h0 : 0 < len) (ho : o < newLen) :
    ∃ m : ℕ, 1 ≤ m ∧ scale len newLen < m + 1 ∧
      m * β - 2 * (m + 1) * ν ≤ sumR len (fun i => g (offset len newLen o i)) ∧
      sumR len (fun i => negPart (g (offset len newLen o i))) ≤ 2 * (m + 1) * ν := by
  obtain ⟨j, m, j1, ⟨hm1, hm2⟩, j3⟩ := middle_run h0 ho
  have hsc := scale_ge_one len newLen
  have hdiff : ∀ i k : ℕ, offset len newLen o k - offset len newLen o i = ((k : ℚ) - i) / scale len newLen := by
    intro i k; unfold offset; rw [← sub_div]; congr 1; ring
  have hspread : ∀ i k : ℕ, offset len newLen o k - offset len newLen o i ≤ 1 → k ≤ i + m := by
    intro i k h
    rw [hdiff, div_le_iff₀ (by linarith)] at h
    have : (k : ℚ) < i + m + 1 := by linarith
    have : k < i + m + 1 := by exact_mod_cast this
    omega
  have hN : sumR len (fun i => negPart (g (offset len newLen o i))) ≤ 2 * (m + 1) * ν := by
    have hle : ∀ u, negPart (g u) ≤ ν := fun u => negPart_le hg.ν_nonneg (hg.lobe u)
    have key : ∀ i, i < len → negPart (g (offset len newLen o i)) ≤
        (if 0 ≤ offset len newLen o i then negPart (g (offset len newLen o i)) else 0) +
        (if offset len newLen o i < 0 then negPart (g (offset len newLen o i)) else 0) := by
      intro i _
      rcases lt_or_ge (offset len newLen o i) 0 with h | h
      · rw [if_neg (by linarith), if_pos h, zero_add]
      · rw [if_pos h, if_neg (by linarith), add_zero]
    refine (sumR_le key).trans ?_
    rw [sumR_add]
    have zero : ∀ u, ¬ (1 ≤ |u| ∧ |u| ≤ 2) → negPart (g u) ≤ 0 := by
      intro u h
      refine (negPart_of_nonneg ?_).le
      rcases le_total |u| 1 with h1 | h1
      · exact hg.inner _ h1
      · refine hg.outer _ ?_
        by_contra hc
        exact h ⟨h1, (not_le.1 hc).le⟩
    have a1 := sumR_spread (n := len) (m := m) (c := ν)
      (f := fun i => if 0 ≤ offset len newLen o i then negPart (g (offset len newLen o i)) else 0)
      (P := fun i => 1 ≤ offset len newLen o i ∧ offset len newLen o i ≤ 2) hg.ν_nonneg
      (fun i _ => by split_ifs <;> [exact hle _; exact hg.ν_nonneg])
      (fun i _ hn => by
        split_ifs with h
        · refine zero _ fun hc => hn ?_
          rwa [abs_of_nonneg h] at hc
        · exact le_rfl)
      (fun i k hi hk _ => hspread i k (by linarith [hi.1, hk.2]))
    have a2 := sumR_spread (n := len) (m := m) (c := ν)
      (f := fun i => if offset len newLen o i < 0 then negPart (g (offset len newLen o i)) else 0)
      (P := fun i => 1 ≤ -offset len newLen o i ∧ -offset len newLen o i ≤ 2) hg.ν_nonneg
      (fun i _ => by split_ifs <;> [exact hle _; exact hg.ν_nonneg])
      (fun i _ hn => by
        split_ifs with h
        · refine zero _ fun hc => hn ?_
          rwa [abs_of_neg h] at hc
        · exact le_rfl)
      (fun i k hi hk _ => hspread i k (by linarith [hi.2, hk.1]))
    linarith
  refine ⟨m, hm1, hm2, sumR_pos_neg ?_ hN, hN⟩
  have h1 : sumR m (fun i => max 0 (g (offset len newLen o (j + i)))) ≤ sumR len fun i => max 0 (g (offset len newLen o i)) :=
    sumR_part j1 fun i _ => le_max_left _ _
  have h2 : sumR m (fun _ => β) ≤ sumR m fun i => max 0 (g (offset len newLen o (j + i))) :=
    sumR_le fun i hi => le_trans (hg.mid _ (j3 i hi)) (le_max_right _ _)
  rw [sumR_const] at h2
  linarith

end Verif
