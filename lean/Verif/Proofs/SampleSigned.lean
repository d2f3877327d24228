import Verif.Proofs.SampleTriangle

/-!
# Kernels with negative lobes
-/

namespace Verif

/-- A kernel computed close to an exact function `g`. -/
structure SignedKernel (f : Filter) (s : ℚ) (g : ℚ → ℚ) (l e : ℚ) : Prop where
  support : f.support = .fin s
  s_lo : 1 ≤ s
  s_hi : s ≤ 3
  l_lo : 0 ≤ l
  l_hi : l ≤ 8
  e_lo : 0 ≤ e
  e_hi : e ≤ 1
  near : ∀ t u, f32.rnd t = t → |t| ≤ s + 1 → |u| ≤ s + 1 → ∃ k, f.kernel (.fin t) = .fin k ∧ |k - g u| ≤ l * |t - u| + e
  zero : ∀ u, s ≤ |u| → g u = 0
  bound : ∀ u, |g u| ≤ 1

/-- A quotient is a float. -/
theorem div_rep {x y : Fl} {t : ℚ} (h : x.div f32 y = .fin t) : f32.rnd t = t := by
  unfold Fl.div at h
  split at h
  any_goals simp at h
  · rw [← h]; simp
  · split_ifs at h
    unfold Fmt.ofRat at h
    split_ifs at h
    injection h with h
    rw [← h, rnd_idem]

/-- The negative part. -/
def negPart (x : ℚ) : ℚ := max 0 (-x)

theorem negPart_nonneg (x : ℚ) : 0 ≤ negPart x := le_max_left _ _

theorem abs_eq_add_negPart (x : ℚ) : |x| = x + 2 * negPart x := by
  unfold negPart
  rcases le_total 0 x with h | h
  · rw [abs_of_nonneg h, max_eq_left (by linarith)]; ring
  · rw [abs_of_nonpos h, max_eq_right (by linarith)]; ring

theorem negPart_near {x y e : ℚ} (h : |x - y| ≤ e) : negPart x ≤ negPart y + e := by
  unfold negPart
  have := max0_sub_le (-x) (-y)
  rw [show -x - -y = -(x - y) by ring, abs_neg] at this
  linarith [(abs_le.1 (this.trans h)).2]

/-- A mean with some negative weights leaves the range of the values by no more than their part. -/
theorem signed_range {n : ℕ} {a v : ℕ → ℚ} {N lo hi : ℚ} (hA : 0 < sumR n a) (hN : sumR n (fun i => negPart (a i)) ≤ N)
    (hv : ∀ i, i < n → lo ≤ v i ∧ v i ≤ hi) (hlh : lo ≤ hi) :
    lo - N / sumR n a * (hi - lo) ≤ meanR n a v ∧ meanR n a v ≤ hi + N / sumR n a * (hi - lo) := by
  have hw : 0 ≤ hi - lo := by linarith
  have h1 : sumR n (fun i => v i * a i) - sumR n a * hi ≤ N * (hi - lo) := by
    rw [← sumR_mul, ← sumR_sub]
    calc sumR n (fun i => v i * a i - a i * hi) ≤ sumR n fun i => negPart (a i) * (hi - lo) := by
          refine sumR_le fun i hi' => ?_
          obtain ⟨v1, v2⟩ := hv i hi'
          have h0 := negPart_nonneg (a i)
          have hn : -(a i) ≤ negPart (a i) := le_max_right _ _
          have e : v i * a i - a i * hi = (hi - v i) * (-(a i)) := by ring
          rw [e]
          calc (hi - v i) * (-(a i)) ≤ (hi - v i) * negPart (a i) := mul_le_mul_of_nonneg_left hn (by linarith)
            _ ≤ (hi - lo) * negPart (a i) := mul_le_mul_of_nonneg_right (by linarith) h0
            _ = _ := mul_comm _ _
      _ = sumR n (fun i => negPart (a i)) * (hi - lo) := sumR_mul _ _ _
      _ ≤ _ := mul_le_mul_of_nonneg_right hN hw
  have h2 : sumR n a * lo - sumR n (fun i => v i * a i) ≤ N * (hi - lo) := by
    rw [← sumR_mul, ← sumR_sub]
    calc sumR n (fun i => a i * lo - v i * a i) ≤ sumR n fun i => negPart (a i) * (hi - lo) := by
          refine sumR_le fun i hi' => ?_
          obtain ⟨v1, v2⟩ := hv i hi'
          have h0 := negPart_nonneg (a i)
          have hn : -(a i) ≤ negPart (a i) := le_max_right _ _
          have e : a i * lo - v i * a i = (v i - lo) * (-(a i)) := by ring
          rw [e]
          calc (v i - lo) * (-(a i)) ≤ (v i - lo) * negPart (a i) := mul_le_mul_of_nonneg_left hn (by linarith)
            _ ≤ (hi - lo) * negPart (a i) := mul_le_mul_of_nonneg_right (by linarith) h0
            _ = _ := mul_comm _ _
      _ = sumR n (fun i => negPart (a i)) * (hi - lo) := sumR_mul _ _ _
      _ ≤ _ := mul_le_mul_of_nonneg_right hN hw
  unfold meanR
  rw [show N / sumR n a * (hi - lo) = N * (hi - lo) / sumR n a by ring]
  constructor
  · rw [sub_le_iff_le_add, ← add_div, le_div_iff₀ hA]; linarith
  · rw [← sub_le_iff_le_add', ← sub_nonneg, show N * (hi - lo) / sumR n a - (sumR n (fun i => v i * a i) / sumR n a - hi) =
      (N * (hi - lo) - (sumR n (fun i => v i * a i) - sumR n a * hi)) / sumR n a by field_simp]
    exact div_nonneg (by linarith) hA.le

/-- Changing weights by at most `δ` when the values are within `D` of their mean. -/
theorem signed_perturb {len left n : ℕ} {a b V : ℕ → ℚ} {δ D : ℚ} (h : left + n ≤ len)
    (hA : 0 < sumR n a) (hB : 0 < sumR len b)
    (hz : ∀ i, i < len → ¬ (left ≤ i ∧ i < left + n) → b i = 0) (hd : ∀ k, k < n → |a k - b (left + k)| ≤ δ)
    (hV : ∀ i, i < len → |V i - meanR len b V| ≤ D) :
    |meanR n a (fun k => V (left + k)) - meanR len b V| ≤ n * δ * D / sumR n a := by
  set m := meanR len b V with hm
  have hzero : sumR n (fun k => b (left + k) * (V (left + k) - m)) = 0 := by
    rw [← sumR_window (f := fun i => b i * (V i - m)) h (fun i hi hn => by rw [hz i hi hn, zero_mul])]
    have e : (fun i => b i * (V i - m)) = fun i => V i * b i - b i * m := by funext i; ring
    rw [e, sumR_sub, sumR_mul, hm]
    unfold meanR
    field_simp
    ring
  have e1 : meanR n a (fun k => V (left + k)) - m =
      sumR n (fun k => (a k - b (left + k)) * (V (left + k) - m)) / sumR n a := by
    have e : (fun k => (a k - b (left + k)) * (V (left + k) - m)) =
        fun k => (V (left + k) * a k - a k * m) - b (left + k) * (V (left + k) - m) := by funext k; ring
    rw [e, sumR_sub, hzero, sub_zero, sumR_sub, sumR_mul]
    unfold meanR
    field_simp
  rw [e1, abs_div, abs_of_pos hA]
  refine div_le_div_of_nonneg_right ?_ hA.le
  calc |sumR n fun k => (a k - b (left + k)) * (V (left + k) - m)| ≤ sumR n fun _ => δ * D := by
        refine sumR_abs fun k hk => ?_
        rw [abs_mul]
        have h1 := hd k hk
        exact mul_le_mul h1 (hV _ (by omega)) (abs_nonneg _) (le_trans (abs_nonneg _) h1)
    _ = n * (δ * D) := sumR_const _ _
    _ = n * δ * D := by ring

/-- The error of a kernel value. -/
def kernelErr (l e s : ℚ) (len newLen : Nat) : ℚ := l * (((min len newLen : ℕ) + (s + 1)) / 2 ^ 22) + e

/-- What is needed of one axis: taps whose weights approximate `wt`, so that a mean of values of spread `D` is off by at most
`e * D`, and the exact mean leaves the range of the values by at most `(K - 1) / 2 * D`. -/
def Axis (f : Filter) (len newLen o : Nat) (wt : Nat → ℚ) (K c e : ℚ) : Prop :=
  ∃ (left n : Nat) (a : Nat → ℚ), Taps f len newLen o left n a K ∧ n ≤ c ∧
    ∀ (V : Nat → ℚ) (lo hi : ℚ), (∀ i, i < len → lo ≤ V i ∧ V i ≤ hi) → lo ≤ hi →
      |meanR n a (fun k => V (left + k)) - weighted len wt V| ≤ e * (hi - lo) ∧
        lo - (K - 1) / 2 * (hi - lo) ≤ weighted len wt V ∧ weighted len wt V ≤ hi + (K - 1) / 2 * (hi - lo)

/-- The taps of such a kernel, given that the positive weights outweigh the negative ones. -/
theorem SignedKernel.taps {f : Filter} {s : ℚ} {g : ℚ → ℚ} {l e : ℚ} (hf : SignedKernel f s g l e) {len newLen o : Nat}
    (h0 : 0 < len) (h : len ≤ 2 ^ 17) (ho : o < newLen) (h' : newLen ≤ 2 ^ 17) {c ε E A N K : ℚ}
    (hc : 2 * s * scale len newLen + 9 / 4 ≤ c) (hK : 1 ≤ K) (hcK : c * K ≤ 2 ^ 13)
    (hε : kernelErr l e s len newLen ≤ ε) (hE : c * ε ≤ E) (hAE : 1 / 2 ^ 60 ≤ A - E)
    (hA : A ≤ sumR len fun i => g (offset len newLen o i)) (hN : sumR len (fun i => negPart (g (offset len newLen o i))) ≤ N)
    (hNK : 2 * (N + E) ≤ (K - 1) * (A - E)) :
    Axis f len newLen o (fun i => g (offset len newLen o i)) K c (c * ε * ((K + 1) / 2) / (A - E)) := by
  obtain ⟨σ', x', y', P⟩ := positions h0 h ho h'
  have hs0 := hf.s_lo
  have hs3 := hf.s_hi
  have hsc := scale_ge_one len newLen
  have hl1 : (1 : ℚ) ≤ len := by exact_mod_cast h0
  have hl' : (len : ℚ) ≤ 2 ^ 17 := by exact_mod_cast h
  obtain ⟨left, n, w1, w2, w3, w4, w5⟩ := window f hf.support (by linarith) h0 h ho (by
    calc (1 + s) * len ≤ 4 * 2 ^ 17 := by gcongr; linarith
      _ ≤ 2 ^ 19 := by norm_num) P
  have hm : ((min len newLen : ℕ) : ℚ) ≤ 2 ^ 17 := by exact_mod_cast (by omega : min len newLen ≤ 2 ^ 17)
  -- the arguments
  have harg : ∀ i, left ≤ i → i < left + n → ∃ t, ((Fl.ofNat f32 i).sub f32 (.fin y')).div f32 (.fin σ') = .fin t ∧
      |t - offset len newLen o i| ≤ ((min len newLen : ℕ) + (s + 1)) / 2 ^ 22 ∧ |offset len newLen o i| ≤ s + 5 / 8 := by
    intro i hi1 hi2
    have hoff : |offset len newLen o i| ≤ s + 5 / 8 := by
      unfold offset
      rw [abs_div, abs_of_pos (by linarith : 0 < scale len newLen), div_le_iff₀ (by linarith)]
      have := w4 i hi1 hi2
      have : 5 / 8 * 1 ≤ 5 / 8 * scale len newLen := by gcongr
      linarith [show (s + 5 / 8) * scale len newLen = s * scale len newLen + 5 / 8 * scale len newLen by ring]
    obtain ⟨t, e1, e2⟩ := argument h0 h ho (show i < len by omega) (S := s + 1) (by linarith)
      (by linarith [show (4 : ℚ) ≤ 2 ^ 17 by norm_num]) (by linarith) P
    exact ⟨t, e1, e2, hoff⟩
  have hη : ((min len newLen : ℕ) + (s + 1)) / 2 ^ 22 ≤ (1 : ℚ) / 16 := by
    rw [div_le_iff₀ (by norm_num)]
    linarith [show (1 : ℚ) / 16 * 2 ^ 22 = 2 * 2 ^ 17 by norm_num, show (4 : ℚ) ≤ 2 ^ 17 by norm_num]
  choose! t ht1 ht2 ht3 using harg
  have hval : ∀ k, k < n → ∃ a, f.kernel (.fin (t (left + k))) = .fin a ∧ |a - g (offset len newLen o (left + k))| ≤ ε := by
    intro k hk
    have h1 := ht2 (left + k) (by omega) (by omega)
    have h2 := ht3 (left + k) (by omega) (by omega)
    have h3 := abs_add_le (t (left + k) - offset len newLen o (left + k)) (offset len newLen o (left + k))
    rw [sub_add_cancel] at h3
    obtain ⟨a, a1, a2⟩ := hf.near (t (left + k)) (offset len newLen o (left + k)) (div_rep (ht1 (left + k) (by omega) (by omega))) (by linarith) (by linarith)
    refine ⟨a, a1, a2.trans (le_trans ?_ hε)⟩
    unfold kernelErr
    have := mul_le_mul_of_nonneg_left h1 hf.l_lo
    linarith
  choose! a ha1 ha2 using hval
  have hn : (n : ℚ) ≤ 2 * s * scale len newLen + 9 / 4 := by
    have h1 := abs_le.1 (w4 left (by omega) (by omega))
    have h2 := abs_le.1 (w4 (left + (n - 1)) (by omega) (by omega))
    have e : ((left + (n - 1) : ℕ) : ℚ) = left + n - 1 := by
      have : ((left + (n - 1) : ℕ) : ℚ) + 1 = left + n := by exact_mod_cast (by omega : left + (n - 1) + 1 = left + n)
      linarith
    rw [e] at h2
    linarith
  have hnc : (n : ℚ) ≤ c := hn.trans hc
  have hn0 : (0 : ℚ) ≤ n := by positivity
  have hε0 : 0 ≤ ε := le_trans (abs_nonneg _) (ha2 0 w2)
  have hnε : n * ε ≤ E := le_trans (mul_le_mul_of_nonneg_right hnc hε0) hE
  -- outside the window the weights vanish
  have hz : ∀ i, i < len → ¬ (left ≤ i ∧ i < left + n) → g (offset len newLen o i) = 0 := by
    intro i hi hn'
    refine hf.zero _ ?_
    have h1 : s * scale len newLen + 1 / 4 < |(i : ℚ) + 1 / 2 - centre len newLen o| := by
      by_contra hc
      exact hn' (w5 i hi (not_lt.1 hc))
    unfold offset
    rw [abs_div, abs_of_pos (by linarith : 0 < scale len newLen), le_div_iff₀ (by linarith)]
    linarith
  have hwA : sumR len (fun i => g (offset len newLen o i)) = sumR n fun k => g (offset len newLen o (left + k)) := sumR_window w1 hz
  have hwN : sumR len (fun i => negPart (g (offset len newLen o i))) = sumR n fun k => negPart (g (offset len newLen o (left + k))) :=
    sumR_window w1 (fun i hi hn' => by rw [hz i hi hn']; simp [negPart])
  rw [hwN] at hN
  have hSA : A - E ≤ sumR n a := by
    have h1 : sumR n (fun k => g (offset len newLen o (left + k)) - ε) ≤ sumR n a :=
      sumR_le fun k hk => by linarith [(abs_le.1 (ha2 k hk)).1]
    rw [sumR_sub, sumR_const, ← hwA] at h1
    linarith
  have hSpos : 0 < sumR n a := lt_of_lt_of_le (by norm_num) (hAE.trans hSA)
  have hSN : sumR n (fun k => negPart (a k)) ≤ N + E := by
    have h1 : sumR n (fun k => negPart (a k)) ≤ sumR n fun k => negPart (g (offset len newLen o (left + k))) + ε :=
      sumR_le fun k hk => negPart_near (ha2 k hk)
    rw [sumR_add, sumR_const] at h1
    linarith
  have hE0 : 0 ≤ E := le_trans (mul_nonneg hn0 hε0) hnε
  have hbig : (0 : ℚ) < sumR len fun i => g (offset len newLen o i) := by linarith [show (0 : ℚ) < 1 / 2 ^ 60 by norm_num]
  refine ⟨left, n, a, ⟨?_, w1, hK, ?_, ?_, hAE.trans hSA, ?_⟩, hnc, ?_⟩
  · rw [w3]
    congr 2
    refine List.map_congr_left fun k hk => ?_
    have hk : k < n := by simpa using hk
    rw [ht1 (left + k) (by omega) (by omega), ha1 k hk]
  · exact le_trans (mul_le_mul_of_nonneg_right hnc (by linarith)) hcK
  · rw [sumR_congr (fun i _ => abs_eq_add_negPart (a i)), sumR_add]
    have : sumR n (fun i => 2 * negPart (a i)) = 2 * sumR n fun i => negPart (a i) := by
      rw [mul_comm, ← sumR_mul]; exact sumR_congr fun i _ => mul_comm _ _
    rw [this]
    have : (K - 1) * (A - E) ≤ (K - 1) * sumR n a := mul_le_mul_of_nonneg_left hSA (by linarith)
    linarith
  · have : sumR n a ≤ sumR n fun _ => 2 + 8 := by
      refine sumR_le fun k hk => ?_
      have h1 := (abs_le.1 (ha2 k hk)).2
      have h2 := (abs_le.1 (hf.bound (offset len newLen o (left + k)))).2
      have hb : ∃ k', f.kernel (.fin (t (left + k))) = .fin k' ∧ |k' - g (offset len newLen o (left + k))| ≤ 8 * (1 / 16) + 1 := by
        have h1 := ht2 (left + k) (by omega) (by omega)
        have h2 := ht3 (left + k) (by omega) (by omega)
        have h3 := abs_add_le (t (left + k) - offset len newLen o (left + k)) (offset len newLen o (left + k))
        rw [sub_add_cancel] at h3
        obtain ⟨a, a1, a2⟩ := hf.near (t (left + k)) (offset len newLen o (left + k)) (div_rep (ht1 (left + k) (by omega) (by omega))) (by linarith) (by linarith)
        refine ⟨a, a1, a2.trans ?_⟩
        have := mul_le_mul hf.l_hi (h1.trans hη) (abs_nonneg _) (by norm_num)
        linarith [hf.e_hi]
      obtain ⟨k', k1, k2⟩ := hb
      rw [ha1 k hk] at k1
      obtain rfl := Fl.fin.inj k1
      linarith [(abs_le.1 k2).2]
    rw [sumR_const] at this
    have hc13 : c ≤ 2 ^ 13 := by
      have hc0 : 0 ≤ c := hn0.trans hnc
      have : c * 1 ≤ c * K := by gcongr
      linarith
    linarith [show (2 : ℚ) ^ 13 * 10 ≤ 2 ^ 60 by norm_num]
  · intro V lo hi hV hlh
    rw [weighted_eq]
    have hNn : 0 ≤ N := le_trans (sumR_nonneg fun i _ => negPart_nonneg _) hN
    set B := sumR len fun i => g (offset len newLen o i) with hB
    have hr := signed_range (a := fun i => g (offset len newLen o i)) (v := V) (N := N) hbig (by rw [hwN]; exact hN) hV hlh
    have hκ : N / B ≤ (K - 1) / 2 := by
      rw [div_le_iff₀ hbig]
      have : (K - 1) * (A - E) ≤ (K - 1) * B := mul_le_mul_of_nonneg_left (by linarith) (by linarith)
      linarith
    have hw : 0 ≤ hi - lo := by linarith
    have hκ' : N / B * (hi - lo) ≤ (K - 1) / 2 * (hi - lo) := mul_le_mul_of_nonneg_right hκ hw
    have hD : ∀ i, i < len → |V i - meanR len (fun i => g (offset len newLen o i)) V| ≤ (K + 1) / 2 * (hi - lo) := by
      intro i hi'
      obtain ⟨v1, v2⟩ := hV i hi'
      rw [abs_le]
      constructor <;> linarith [show (K + 1) / 2 * (hi - lo) = (hi - lo) + (K - 1) / 2 * (hi - lo) by ring, hr.1, hr.2]
    have hD0 : 0 ≤ (K + 1) / 2 * (hi - lo) := mul_nonneg (by linarith) hw
    have hp := signed_perturb (V := V) w1 hSpos hbig hz ha2 hD
    refine ⟨hp.trans ?_, by linarith [hr.1], by linarith [hr.2]⟩
    rw [show c * ε * ((K + 1) / 2) / (A - E) * (hi - lo) = c * ε * ((K + 1) / 2 * (hi - lo)) / (A - E) by ring]
    have hAE' : 0 < A - E := lt_of_lt_of_le (by norm_num) hAE
    calc n * ε * ((K + 1) / 2 * (hi - lo)) / sumR n a ≤ c * ε * ((K + 1) / 2 * (hi - lo)) / sumR n a := by gcongr
      _ ≤ c * ε * ((K + 1) / 2 * (hi - lo)) / (A - E) := by
        have : 0 ≤ c * ε * ((K + 1) / 2 * (hi - lo)) := mul_nonneg (mul_nonneg (hn0.trans hnc) hε0) hD0
        gcongr

end Verif
