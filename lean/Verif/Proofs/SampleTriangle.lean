import Verif.Proofs.SampleKernel

/-!
# The triangle filter
-/

namespace Verif

theorem sumR_finset (n : ℕ) (f : ℕ → ℚ) : sumR n f = ∑ i ∈ Finset.range n, f i := by
  induction n with
  | zero => simp [sumR]
  | succ n ih => rw [sumR_succ, ih, Finset.sum_range_succ]

theorem weighted_eq (n : ℕ) (a v : ℕ → ℚ) : weighted n a v = meanR n a v := by
  unfold weighted meanR
  rw [← sumR_finset, ← sumR_finset]
  congr 1
  exact sumR_congr fun i _ => mul_comm _ _

theorem sumR_split (m n : ℕ) (f : ℕ → ℚ) : sumR (m + n) f = sumR m f + sumR n fun i => f (m + i) := by
  induction n with
  | zero => simp [sumR]
  | succ n ih => rw [← Nat.add_assoc, sumR_succ, sumR_succ, ih]; ring

/-- A sum of terms that vanish outside a window. -/
theorem sumR_window {len left n : ℕ} {f : ℕ → ℚ} (h : left + n ≤ len)
    (hz : ∀ i, i < len → ¬ (left ≤ i ∧ i < left + n) → f i = 0) : sumR len f = sumR n fun i => f (left + i) := by
  obtain ⟨r, rfl⟩ : ∃ r, len = left + n + r := ⟨len - (left + n), by omega⟩
  rw [sumR_split, sumR_split]
  have h1 : sumR left f = 0 := by
    rw [sumR_congr (g := fun _ => 0) (fun i hi => hz i (by omega) (by omega)), sumR_const]; ring
  have h2 : sumR r (fun i => f (left + n + i)) = 0 := by
    rw [sumR_congr (g := fun _ => 0) (fun i hi => hz _ (by omega) (by omega)), sumR_const]; ring
  rw [h1, h2]; ring

/-- Part of a sum of non-negative terms. -/
theorem sumR_part {n p m : ℕ} {f : ℕ → ℚ} (h : p + m ≤ n) (hf : ∀ i, i < n → 0 ≤ f i) :
    sumR m (fun i => f (p + i)) ≤ sumR n f := by
  obtain ⟨r, rfl⟩ : ∃ r, n = p + m + r := ⟨n - (p + m), by omega⟩
  rw [sumR_split, sumR_split]
  have h1 : 0 ≤ sumR p f := sumR_nonneg fun i hi => hf i (by omega)
  have h2 : 0 ≤ sumR r fun i => f (p + m + i) := sumR_nonneg fun i hi => hf _ (by omega)
  linarith

/-- Changing weights by at most `δ` moves a mean of values in `0..M` by at most `n * δ * M / A`. -/
theorem mean_perturb {len left n : ℕ} {a b V : ℕ → ℚ} {δ M : ℚ} (h : left + n ≤ len)
    (hA : 0 < sumR n a) (hB : 0 < sumR len b) (hb : ∀ i, i < len → 0 ≤ b i)
    (hz : ∀ i, i < len → ¬ (left ≤ i ∧ i < left + n) → b i = 0) (hd : ∀ k, k < n → |a k - b (left + k)| ≤ δ)
    (hV : ∀ i, i < len → 0 ≤ V i ∧ V i ≤ M) :
    |meanR n a (fun k => V (left + k)) - meanR len b V| ≤ n * δ * M / sumR n a := by
  set m := meanR len b V with hm
  have hm0 : 0 ≤ m := le_meanR hb hB fun i hi => (hV i hi).1
  have hm1 : m ≤ M := meanR_le hb hB fun i hi => (hV i hi).2
  have hzero : sumR n (fun k => b (left + k) * (V (left + k) - m)) = 0 := by
    rw [← sumR_window (f := fun i => b i * (V i - m)) h (fun i hi hn => by rw [hz i hi hn, zero_mul])]
    have e : (fun i => b i * (V i - m)) = fun i => V i * b i - b i * m := by funext i; ring
    rw [e, sumR_sub, sumR_mul, hm]
    unfold meanR
    field_simp
    ring
  have e1 : meanR n a (fun k => V (left + k)) - m =
      sumR n (fun k => (a k - b (left + k)) * (V (left + k) - m)) / sumR n a := by
    have e : (fun k => (a k - b (left + k)) * (V (left + k) - m)) =
        fun k => (V (left + k) * a k - a k * m) - b (left + k) * (V (left + k) - m) := by funext k; ring
    rw [e, sumR_sub, hzero, sub_zero, sumR_sub, sumR_mul]
    unfold meanR
    field_simp
  rw [e1, abs_div, abs_of_pos hA]
  refine div_le_div_of_nonneg_right ?_ hA.le
  calc |sumR n fun k => (a k - b (left + k)) * (V (left + k) - m)| ≤ sumR n fun _ => δ * M := by
        refine sumR_abs fun k hk => ?_
        rw [abs_mul]
        have h1 := hd k hk
        have h2 := hV (left + k) (by omega)
        have : |V (left + k) - m| ≤ M := by rw [abs_le]; constructor <;> linarith
        have h0 := abs_nonneg (a k - b (left + k))
        have h0' := abs_nonneg (V (left + k) - m)
        nlinarith
    _ = n * (δ * M) := sumR_const _ _
    _ = n * δ * M := by ring

/-- The middle of the window: `⌊scale⌋` input indices within half the stretched pixel. -/
theorem middle_run {len newLen o : Nat} (h0 : 0 < len) (ho : o < newLen) :
    ∃ j m : ℕ, j + m ≤ len ∧ (1 ≤ m ∧ scale len newLen < m + 1) ∧
      ∀ k, k < m → |offset len newLen o (j + k)| ≤ 1 / 2 := by
  have hsc := scale_ge_one len newLen
  have hX0 := centre_pos h0 ho
  have hXl := centre_lt h0 ho
  have hl1 : (1 : ℚ) ≤ len := by exact_mod_cast h0
  have hn0 : (0 : ℚ) < newLen := by exact_mod_cast (by omega : 0 < newLen)
  have hoq : (o : ℚ) + 1 ≤ newLen := by exact_mod_cast ho
  have ho0 : (0 : ℚ) ≤ o := by positivity
  -- where the stretched pixel lies
  have hcase : (scale len newLen = 1) ∨ (scale len newLen / 2 ≤ centre len newLen o ∧ centre len newLen o + scale len newLen / 2 ≤ len) := by
    unfold scale
    rcases le_total ((len : ℚ) / newLen) 1 with h | h
    · left; exact max_eq_left h
    · right
      rw [max_eq_right h]
      unfold centre
      have hq : 0 < (len : ℚ) / newLen := by positivity
      constructor
      · have : (1 / 2 : ℚ) * (len / newLen) ≤ (o + 1 / 2) * (len / newLen) := by gcongr; linarith
        linarith
      · have : ((o : ℚ) + 1) * (len / newLen) ≤ newLen * (len / newLen) := by gcongr
        have e : (newLen : ℚ) * (len / newLen) = len := by field_simp
        linarith
  unfold offset
  set X := centre len newLen o
  set σ := scale len newLen
  have hj0 : 0 ≤ ⌊X - σ / 2 + 1 / 2⌋ := by
    rw [Int.floor_nonneg]
    rcases hcase with h | h
    · rw [h]; linarith
    · linarith [h.1]
  obtain ⟨j, hj⟩ : ∃ j : ℕ, (j : ℤ) = ⌊X - σ / 2 + 1 / 2⌋ := ⟨_, Int.toNat_of_nonneg hj0⟩
  have hm0 : 0 ≤ ⌊σ⌋ := Int.floor_nonneg.2 (by linarith)
  obtain ⟨m, hm⟩ : ∃ m : ℕ, (m : ℤ) = ⌊σ⌋ := ⟨_, Int.toNat_of_nonneg hm0⟩
  have hjq : (j : ℚ) = ((⌊X - σ / 2 + 1 / 2⌋ : ℤ) : ℚ) := by exact_mod_cast hj
  have hmq : (m : ℚ) = ((⌊σ⌋ : ℤ) : ℚ) := by exact_mod_cast hm
  have a1 := Int.floor_le (X - σ / 2 + 1 / 2)
  have a2 := Int.lt_floor_add_one (X - σ / 2 + 1 / 2)
  have a3 := Int.floor_le σ
  have a4 := Int.lt_floor_add_one σ
  rw [← hjq] at a1 a2
  rw [← hmq] at a3 a4
  have hm1 : (1 : ℚ) ≤ m := by
    have : (1 : ℤ) ≤ ⌊σ⌋ := by rw [Int.le_floor]; push_cast; exact hsc
    rw [← hm] at this
    exact_mod_cast this
  refine ⟨j, m, ?_, ⟨by exact_mod_cast hm1, by linarith⟩, ?_⟩
  · rcases hcase with h | h
    · -- a single index
      have hmm : m = 1 := by
        rw [h] at a3
        have : (m : ℚ) ≤ 1 := a3
        have h1 : m ≤ 1 := by exact_mod_cast this
        have h2 : 1 ≤ m := by exact_mod_cast hm1
        omega
      have : (j : ℚ) < len := by rw [h] at a1; linarith
      have : j < len := by exact_mod_cast this
      omega
    · have : (j : ℚ) + m < len + 1 := by linarith [h.2]
      have : j + m < len + 1 := by exact_mod_cast this
      omega
  · intro k hk
    have hkq : (k : ℚ) + 1 ≤ m := by exact_mod_cast hk
    have hk0 : (0 : ℚ) ≤ k := by positivity
    rw [abs_div, abs_of_pos (by linarith : 0 < σ), div_le_iff₀ (by linarith), abs_le]
    push_cast
    constructor <;> linarith

theorem max0_sub_le (a b : ℚ) : |max 0 a - max 0 b| ≤ |a - b| := by
  rcases le_total 0 a with ha | ha <;> rcases le_total 0 b with hb | hb
  · rw [max_eq_right ha, max_eq_right hb]
  · rw [max_eq_right ha, max_eq_left hb, abs_of_nonneg (by linarith), abs_of_nonneg (by linarith)]; linarith
  · rw [max_eq_left ha, max_eq_right hb, abs_of_nonpos (by linarith), abs_of_nonpos (by linarith)]; linarith
  · rw [max_eq_left ha, max_eq_left hb]; simp

theorem triangle_value {t : ℚ} : ∃ k, triangleKernel (.fin t) = .fin k ∧ 0 ≤ k ∧ k ≤ 1 ∧
    |k - max 0 (1 - |t|)| ≤ 1 / 2 ^ 24 + 1 / 2 ^ 100 := by
  unfold triangleKernel
  rw [show (Fl.fin t).abs = .fin |t| from rfl]
  have ht := abs_nonneg t
  by_cases h : |t| < 1
  · have e : (Fl.fin |t|).lt (.fin 1) = true := by simp [Fl.lt, h]
    rw [if_pos e, fl_sub, ofRat32]
    · refine ⟨_, rfl, f32.rnd_nonneg (by linarith), ?_, ?_⟩
      · have := rnd_le_nat wide32 (q := 1 - |t|) (by linarith) (n := 1) (by decide) (by push_cast; linarith)
        exact_mod_cast this
      · rw [max_eq_right (by linarith)]
        have := rnd_err_le (q := 1 - |t|) (B := 1) (by rw [abs_of_nonneg (by linarith)]; linarith)
        exact this
    · rw [abs_of_nonneg (by linarith)]; linarith [show (1 : ℚ) ≤ 2 ^ 127 by norm_num]
  · have e : ¬ (Fl.fin |t|).lt (.fin 1) = true := by simp [Fl.lt, h]
    rw [if_neg e]
    refine ⟨0, rfl, le_rfl, by norm_num, ?_⟩
    rw [max_eq_left (by linarith [not_lt.1 h])]
    norm_num

theorem triangle_nonneg (L : Libm) : NonnegKernel (FilterType.triangle.method L) 1 (3 / 8) 1 (9 / 16) where
  support := rfl
  s_lo := by norm_num
  b_lo := by norm_num
  B_hi := by norm_num
  value t _ := by
    obtain ⟨k, h1, h2, h3, -⟩ := triangle_value (t := t)
    exact ⟨k, h1, h2, h3⟩
  middle t k ht hk := by
    obtain ⟨k', h1, -, -, h4⟩ := triangle_value (t := t)
    have : triangleKernel (.fin t) = .fin k := hk
    rw [this] at h1
    obtain rfl := Fl.fin.inj h1
    rw [max_eq_right (by linarith), abs_le] at h4
    have : (1 : ℚ) / 2 ^ 24 + 1 / 2 ^ 100 ≤ 1 / 16 := by norm_num
    linarith

/-- One axis of the triangle filter against exact arithmetic. -/
theorem triangle_axis (L : Libm) {len newLen o : Nat} (h0 : 0 < len) (h : len ≤ 2 ^ 17) (ho : o < newLen)
    (h' : newLen ≤ 2 ^ 17) (hs : scale len newLen ≤ 4094) :
    ∃ (left n : Nat) (a : Nat → ℚ), Taps (FilterType.triangle.method L) len newLen o left n a 1 ∧
      (∀ k, k < n → 0 ≤ a k) ∧ n ≤ 2 * scale len newLen + 9 / 4 ∧
      ∀ (V : Nat → ℚ) (M : ℚ), (∀ i, i < len → 0 ≤ V i ∧ V i ≤ M) →
        |meanR n a (fun k => V (left + k)) - weighted len (tent len newLen o) V| ≤
          20 * M * ((min len newLen : ℕ) + 3) / 2 ^ 22 := by
  have hl' : (len : ℚ) ≤ 2 ^ 17 := by exact_mod_cast h
  have hsc := scale_ge_one len newLen
  obtain ⟨left, n, a, tp, ha, hn, w4, w5, hk⟩ := (triangle_nonneg L).taps h0 h ho h' (by linarith [show (2 : ℚ) ^ 19 = 4 * 2 ^ 17 by norm_num])
    (by linarith [show (2 : ℚ) ^ 13 = 8192 by norm_num]) (central_mid (by norm_num) h0 ho)
  rw [mul_one] at hn
  refine ⟨left, n, a, tp, ha, hn, ?_⟩
  intro V M hV
  set m : ℚ := ((min len newLen : ℕ) : ℚ) with hm
  have hmb : m ≤ 2 ^ 17 := by rw [hm]; exact_mod_cast (by omega : min len newLen ≤ 2 ^ 17)
  have hm1 : 1 ≤ m := by rw [hm]; exact_mod_cast (by omega : 1 ≤ min len newLen)
  have hM0 : 0 ≤ M := le_trans (hV 0 h0).1 (hV 0 h0).2
  -- the weights
  have hd : ∀ k, k < n → |a k - tent len newLen o (left + k)| ≤ (m + 3) / 2 ^ 22 := by
    intro k hk'
    obtain ⟨t, e1, e2⟩ := hk k hk'
    obtain ⟨k', f1, -, -, f4⟩ := triangle_value (t := t)
    have : triangleKernel (.fin t) = .fin (a k) := e1
    rw [this] at f1
    obtain rfl := Fl.fin.inj f1
    have h2 : |max 0 (1 - |t|) - tent len newLen o (left + k)| ≤ (m + (1 + 1)) / 2 ^ 22 := by
      unfold tent
      have h3 : |max 0 (1 - |t|) - max 0 (1 - |offset len newLen o (left + k)|)| ≤
          |(1 - |t|) - (1 - |offset len newLen o (left + k)|)| := by
        exact max0_sub_le _ _
      refine h3.trans (le_trans ?_ e2)
      rw [show 1 - |t| - (1 - |offset len newLen o (left + k)|) = |offset len newLen o (left + k)| - |t| by ring,
        abs_sub_comm]
      exact abs_abs_sub_abs_le _ _
    have e : a k - tent len newLen o (left + k) = (a k - max 0 (1 - |t|)) + (max 0 (1 - |t|) - tent len newLen o (left + k)) := by ring
    rw [e]
    refine (abs_add_le _ _).trans ?_
    linarith [show (m + 3) / 2 ^ 22 = (m + (1 + 1)) / 2 ^ 22 + 1 / 2 ^ 22 by ring,
      show (1 : ℚ) / 2 ^ 24 + 1 / 2 ^ 100 ≤ 1 / 2 ^ 22 by norm_num]
  -- the sum of the weights
  obtain ⟨j, r, j1, ⟨hr0, hr1⟩, j3⟩ := middle_run (len := len) (newLen := newLen) h0 ho
  have hrq : (1 : ℚ) ≤ r := by exact_mod_cast hr0
  have j2 : scale len newLen / 2 ≤ r := by linarith
  have hin : ∀ k, k < r → left ≤ j + k ∧ j + k < left + n := by
    intro k hk'
    refine w5 (j + k) (by omega) ?_
    have := j3 k hk'
    unfold offset at this
    rw [abs_div, abs_of_pos (by linarith : 0 < scale len newLen), div_le_iff₀ (by linarith)] at this
    linarith
  have hlo : left ≤ j := (hin 0 hr0).1
  have hhi : j + r ≤ left + n := by
    have := (hin (r - 1) (by omega)).2
    omega
  have hA : 7 / 16 * (scale len newLen / 2) ≤ sumR n a := by
    have h1 : sumR r (fun k => a (j - left + k)) ≤ sumR n a := sumR_part (by omega) ha
    have h2 : sumR r (fun _ => (7 / 16 : ℚ)) ≤ sumR r (fun k => a (j - left + k)) := by
      refine sumR_le fun k hk' => ?_
      have h3 := abs_le.1 (hd (j - left + k) (by omega))
      have e : left + (j - left + k) = j + k := by omega
      rw [e] at h3
      have h4 : 1 / 2 ≤ tent len newLen o (j + k) := by
        unfold tent
        have := j3 k hk'
        exact le_trans (by linarith) (le_max_right _ _)
      have h5 : (m + 3) / 2 ^ 22 ≤ 1 / 16 := by
        rw [div_le_iff₀ (by norm_num)]
        linarith [show (1 : ℚ) / 16 * 2 ^ 22 = 2 * 2 ^ 17 by norm_num, show (3 : ℚ) ≤ 2 ^ 17 by norm_num]
      linarith
    rw [sumR_const] at h2
    have : (scale len newLen / 2) * (7 / 16) ≤ r * (7 / 16 : ℚ) := by gcongr
    linarith
  have hB : 0 < sumR len (tent len newLen o) := by
    have h1 := sumR_single (f := tent len newLen o) (n := len) (fun i _ => le_max_left _ _) (i := j) (by omega)
    have h4 : 1 / 2 ≤ tent len newLen o j := by
      unfold tent
      have := j3 0 hr0
      rw [Nat.add_zero] at this
      exact le_trans (by linarith) (le_max_right _ _)
    linarith
  have hp := mean_perturb (V := V) (M := M) tp.span tp.pos hB (fun i _ => le_max_left _ _) (by
    intro i hi hn'
    unfold tent
    refine max_eq_left ?_
    have h1 : scale len newLen + 1 / 4 < |(i : ℚ) + 1 / 2 - centre len newLen o| := by
      by_contra hc
      exact hn' (w5 i hi (by linarith [not_lt.1 hc]))
    unfold offset
    rw [abs_div, abs_of_pos (by linarith : 0 < scale len newLen), sub_nonpos, le_div_iff₀ (by linarith)]
    linarith) hd hV
  rw [weighted_eq]
  refine hp.trans ?_
  rw [div_le_iff₀ tp.pos]
  have hn4 : (n : ℚ) ≤ 20 * (7 / 16 * (scale len newLen / 2)) := by linarith
  calc n * ((m + 3) / 2 ^ 22) * M ≤ (20 * (7 / 16 * (scale len newLen / 2))) * ((m + 3) / 2 ^ 22) * M := by gcongr
    _ = 20 * M * (m + 3) / 2 ^ 22 * (7 / 16 * (scale len newLen / 2)) := by ring
    _ ≤ 20 * M * (m + 3) / 2 ^ 22 * sumR n a := by gcongr

end Verif
