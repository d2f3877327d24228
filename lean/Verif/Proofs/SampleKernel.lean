import Verif.Proofs.SampleTwo

/-!
# Taps of kernels without negative values
-/

namespace Verif

/-- The index of the input pixel at the centre. -/
theorem central {len newLen o : Nat} (h0 : 0 < len) (ho : o < newLen) :
    ∃ i, i < len ∧ |(i : ℚ) + 1 / 2 - centre len newLen o| ≤ 1 / 2 := by
  have hX0 := centre_pos h0 ho
  have hXl := centre_lt h0 ho
  set X := centre len newLen o
  have hf0 : 0 ≤ ⌊X⌋ := Int.floor_nonneg.2 hX0.le
  have e : ((⌊X⌋.toNat : ℕ) : ℤ) = ⌊X⌋ := Int.toNat_of_nonneg hf0
  have eq : ((⌊X⌋.toNat : ℕ) : ℚ) = ((⌊X⌋ : ℤ) : ℚ) := by exact_mod_cast e
  have h1 := Int.floor_le X
  have h2 := Int.lt_floor_add_one X
  refine ⟨⌊X⌋.toNat, ?_, ?_⟩
  · have : ((⌊X⌋.toNat : ℕ) : ℚ) < len := by rw [eq]; linarith
    exact_mod_cast this
  · rw [eq, abs_le]; constructor <;> linarith

/-- A kernel with finite values in `0..B`, at least `b` up to `μ` from the centre. -/
structure NonnegKernel (f : Filter) (s b B μ : ℚ) : Prop where
  support : f.support = .fin s
  s_lo : 1 / 4 ≤ s
  b_lo : 1 / 2 ^ 60 ≤ b
  B_hi : B ≤ 2 ^ 40
  value : ∀ t, |t| ≤ s + 1 → ∃ k, f.kernel (.fin t) = .fin k ∧ 0 ≤ k ∧ k ≤ B
  middle : ∀ t k, |t| ≤ μ → f.kernel (.fin t) = .fin k → b ≤ k

/-- The taps of such a kernel, with the window they lie in. -/
theorem NonnegKernel.taps {f : Filter} {s b B μ : ℚ} (hf : NonnegKernel f s b B μ) {len newLen o : Nat} (h0 : 0 < len)
    (h : len ≤ 2 ^ 17) (ho : o < newLen) (h' : newLen ≤ 2 ^ 17) (hsl : (1 + s) * len ≤ 2 ^ 19)
    (hs : 2 * s * scale len newLen + 9 / 4 ≤ 2 ^ 13)
    (hmid : ∃ i, i < len ∧ |(i : ℚ) + 1 / 2 - centre len newLen o| ≤ s * scale len newLen + 1 / 4 ∧
      |offset len newLen o i| ≤ μ - 1 / 16) :
    ∃ (left n : Nat) (a : Nat → ℚ), Taps f len newLen o left n a 1 ∧ (∀ k, k < n → 0 ≤ a k) ∧
      n ≤ 2 * s * scale len newLen + 9 / 4 ∧
      (∀ i, left ≤ i → i < left + n → |(i : ℚ) + 1 / 2 - centre len newLen o| ≤ s * scale len newLen + 5 / 8) ∧
      (∀ i, i < len → |(i : ℚ) + 1 / 2 - centre len newLen o| ≤ s * scale len newLen + 1 / 4 → left ≤ i ∧ i < left + n) ∧
      ∀ k, k < n → ∃ t, f.kernel (.fin t) = .fin (a k) ∧
        |t - offset len newLen o (left + k)| ≤ ((min len newLen : ℕ) + (s + 1)) / 2 ^ 22 := by
  obtain ⟨σ', x', y', P⟩ := positions h0 h ho h'
  have hs0 := hf.s_lo
  obtain ⟨left, n, w1, w2, w3, w4, w5⟩ := window f hf.support (by linarith) h0 h ho hsl P
  have hsc := scale_ge_one len newLen
  have hl1 : (1 : ℚ) ≤ len := by exact_mod_cast h0
  have hl' : (len : ℚ) ≤ 2 ^ 17 := by exact_mod_cast h
  have hsl' : s * 1 ≤ s * len := by gcongr
  have hs19 : s ≤ 2 ^ 19 := by linarith [show (1 + s) * len = len + s * len by ring]
  have hs13 : s ≤ 2 ^ 13 := by
    have : s * 1 ≤ s * scale len newLen := by gcongr
    linarith
  have hm : ((min len newLen : ℕ) : ℚ) ≤ 2 ^ 17 := by exact_mod_cast (by omega : min len newLen ≤ 2 ^ 17)
  -- the arguments
  have harg : ∀ i, left ≤ i → i < left + n → ∃ t, ((Fl.ofNat f32 i).sub f32 (.fin y')).div f32 (.fin σ') = .fin t ∧
      |t - offset len newLen o i| ≤ ((min len newLen : ℕ) + (s + 1)) / 2 ^ 22 ∧ |offset len newLen o i| ≤ s + 5 / 8 := by
    intro i hi1 hi2
    have hoff : |offset len newLen o i| ≤ s + 5 / 8 := by
      unfold offset
      rw [abs_div, abs_of_pos (by linarith : 0 < scale len newLen), div_le_iff₀ (by linarith)]
      have := w4 i hi1 hi2
      have : 5 / 8 * 1 ≤ 5 / 8 * scale len newLen := by gcongr
      linarith [show (s + 5 / 8) * scale len newLen = s * scale len newLen + 5 / 8 * scale len newLen by ring]
    obtain ⟨t, e1, e2⟩ := argument h0 h ho (show i < len by omega) (S := s + 1) (by linarith)
      (by linarith [show (2 : ℚ) ^ 17 = 16 * 2 ^ 13 by norm_num]) (by linarith) P
    exact ⟨t, e1, e2, hoff⟩
  have hη : ((min len newLen : ℕ) + (s + 1)) / 2 ^ 22 ≤ (1 : ℚ) / 16 := by
    rw [div_le_iff₀ (by norm_num)]
    linarith [show (1 : ℚ) / 16 * 2 ^ 22 = 2 * 2 ^ 17 by norm_num, show (2 : ℚ) ^ 17 = 16 * 2 ^ 13 by norm_num]
  choose! t ht1 ht2 ht3 using harg
  have hval : ∀ k, k < n → ∃ a, f.kernel (.fin (t (left + k))) = .fin a ∧ 0 ≤ a ∧ a ≤ B := by
    intro k hk
    refine hf.value _ ?_
    have h1 := ht2 (left + k) (by omega) (by omega)
    have h2 := ht3 (left + k) (by omega) (by omega)
    have h3 := abs_add_le (t (left + k) - offset len newLen o (left + k)) (offset len newLen o (left + k))
    rw [sub_add_cancel] at h3
    linarith
  choose! a ha1 ha2 ha3 using hval
  have hn : (n : ℚ) ≤ 2 * s * scale len newLen + 9 / 4 := by
    have h1 := abs_le.1 (w4 left (by omega) (by omega))
    have h2 := abs_le.1 (w4 (left + (n - 1)) (by omega) (by omega))
    have e : ((left + (n - 1) : ℕ) : ℚ) = left + n - 1 := by
      have : ((left + (n - 1) : ℕ) : ℚ) + 1 = left + n := by exact_mod_cast (by omega : left + (n - 1) + 1 = left + n)
      linarith
    rw [e] at h2
    linarith
  have hn13 : (n : ℚ) ≤ 2 ^ 13 := hn.trans hs
  refine ⟨left, n, a, ⟨?_, w1, le_rfl, by linarith, ?_, ?_, ?_⟩, ha2, hn, w4, w5, ?_⟩
  · rw [w3]
    congr 2
    refine List.map_congr_left fun k hk => ?_
    have hk : k < n := by simpa using hk
    rw [ht1 (left + k) (by omega) (by omega), ha1 k hk]
  · rw [one_mul]
    exact sumR_le fun i hi => (abs_of_nonneg (ha2 i hi)).le
  · obtain ⟨i, hi1, hi2, hoff⟩ := hmid
    obtain ⟨j1, j2⟩ := w5 i hi1 hi2
    have hk : i - left < n := by omega
    have ei : left + (i - left) = i := by omega
    have h1 := ht2 i j1 j2
    have h3 := abs_add_le (t i - offset len newLen o i) (offset len newLen o i)
    rw [sub_add_cancel] at h3
    have hb := hf.middle (t i) (a (i - left)) (by linarith) (by have := ha1 _ hk; rwa [ei] at this)
    have := sumR_single (f := a) ha2 hk
    linarith [hf.b_lo]
  · calc sumR n a ≤ sumR n fun _ => B := sumR_le fun i hi => ha3 i hi
      _ = n * B := sumR_const _ _
      _ ≤ 2 ^ 13 * 2 ^ 40 := by
        have hB : 0 ≤ B := le_trans (ha2 0 w2) (ha3 0 w2)
        have := hf.B_hi
        gcongr
      _ ≤ 2 ^ 60 := by norm_num
  · intro k hk
    exact ⟨t (left + k), ha1 k hk, ht2 _ (by omega) (by omega)⟩

/-- The central pixel meets the requirement on the middle. -/
theorem central_mid {len newLen o : Nat} {s : ℚ} (hs : 1 / 4 ≤ s) (h0 : 0 < len) (ho : o < newLen) :
    ∃ i, i < len ∧ |(i : ℚ) + 1 / 2 - centre len newLen o| ≤ s * scale len newLen + 1 / 4 ∧
      |offset len newLen o i| ≤ 9 / 16 - 1 / 16 := by
  have hsc := scale_ge_one len newLen
  obtain ⟨i, h1, h2⟩ := central h0 ho
  refine ⟨i, h1, ?_, ?_⟩
  · have : 1 / 4 * 1 ≤ s * scale len newLen := by gcongr
    linarith
  · unfold offset
    rw [abs_div, abs_of_pos (by linarith : 0 < scale len newLen), div_le_iff₀ (by linarith)]
    linarith

end Verif
