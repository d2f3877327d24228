import Verif.Proofs.SampleTaps
import Mathlib.Algebra.BigOperators.Group.List.Basic
import Mathlib.Algebra.Order.BigOperators.Group.List
import Mathlib.Algebra.Order.Group.Abs

/-!
# Weighted means computed in floats
-/

namespace Verif

/-- Error of one rounded addition below `2 * B`. -/
def stepErr (B : ℚ) : ℚ := 2 * B / 2 ^ 24 + 1 / 2 ^ 100

/-- A float sum of terms of either sign. -/
theorem fsum_near (xs : List ℚ) : ∀ (k : ℕ) (s t B : ℚ), |t| + (xs.map abs).sum ≤ B →
    B ≤ 2 ^ 120 → |s - t| ≤ k * stepErr B → (k + xs.length : ℕ) * stepErr B ≤ B →
    ∃ r, (xs.map Fl.fin).foldl (Fl.add f32) (.fin s) = .fin r ∧
      |r - (t + xs.sum)| ≤ (k + xs.length : ℕ) * stepErr B := by
  induction xs with
  | nil =>
    intro k s t B _ _ h _
    exact ⟨s, rfl, by simpa using h⟩
  | cons x xs ih =>
    intro k s t B hB hB' h hn
    have hsum : 0 ≤ (xs.map abs).sum := List.sum_nonneg (by
      intro y hy
      simp only [List.mem_map] at hy
      obtain ⟨z, -, rfl⟩ := hy
      exact abs_nonneg z)
    rw [List.map_cons, List.sum_cons] at hB
    have ht0 := abs_nonneg t
    have hx0 := abs_nonneg x
    have hB0 : 0 ≤ B := by linarith
    have he0 : 0 ≤ stepErr B := by unfold stepErr; positivity
    have hk : (k : ℚ) * stepErr B ≤ B := by
      refine le_trans ?_ hn
      have : (k : ℚ) ≤ ((k + (x :: xs).length : ℕ) : ℚ) := by exact_mod_cast Nat.le_add_right _ _
      gcongr
    have hle : |s + x| ≤ 2 * B := by
      have : s + x = (s - t) + (t + x) := by ring
      rw [this]
      have := abs_add_le (s - t) (t + x)
      have := abs_add_le t x
      linarith
    have hr := rnd_err32 (s + x)
    have hstep : |s + x| / 2 ^ 24 + 1 / 2 ^ 100 ≤ stepErr B := by unfold stepErr; gcongr
    have hfin : (Fl.fin s).add f32 (.fin x) = .fin (f32.rnd (s + x)) := by
      rw [fl_add, ofRat32]
      calc |s + x| ≤ 2 * B := hle
        _ ≤ 2 * 2 ^ 120 := by gcongr
        _ ≤ 2 ^ 127 := by norm_num
    obtain ⟨r, e1, e3⟩ := ih (k + 1) (f32.rnd (s + x)) (t + x) B (by have := abs_add_le t x; linarith) hB' (by
        have : f32.rnd (s + x) - (t + x) = (f32.rnd (s + x) - (s + x)) + (s - t) := by ring
        rw [this]
        refine (abs_add_le _ _).trans ?_
        push_cast; linarith) (by
        rw [List.length_cons] at hn
        rwa [show k + 1 + xs.length = k + (xs.length + 1) by omega])
    refine ⟨r, ?_, ?_⟩
    · simp only [List.map_cons, List.foldl_cons, hfin, e1]
    · rw [List.sum_cons, List.length_cons, show k + (xs.length + 1) = k + 1 + xs.length by omega, ← add_assoc]
      exact e3

theorem fsum_near' {xs : List ℚ} {B : ℚ} (hB : (xs.map abs).sum ≤ B) (hB' : B ≤ 2 ^ 120)
    (hn : xs.length * stepErr B ≤ B) :
    ∃ r, (xs.map Fl.fin).foldl (Fl.add f32) (.fin 0) = .fin r ∧ |r - xs.sum| ≤ xs.length * stepErr B := by
  obtain ⟨r, e1, e3⟩ := fsum_near xs 0 0 0 B (by simpa using hB) hB' (by simp) (by simpa using hn)
  exact ⟨r, e1, by simpa using e3⟩

theorem dotF_eq (ws : List Fl) (v : Nat → Fl) :
    dotF ws v = ((List.range ws.length).map fun i => (v i).mul f32 (ws.getD i .nan)).foldl (Fl.add f32) (.fin 0) := by
  unfold dotF
  rw [List.foldl_map]
  have : ws.zipIdx = (List.range ws.length).map fun i => (ws.getD i .nan, i) := by
    refine List.ext_getElem (by simp) fun i h1 h2 => ?_
    have hi : i < ws.length := by simpa using h1
    simp [List.getElem?_eq_getElem hi]
  rw [this, List.foldl_map]

/-- Sums over indices. -/
def sumR (n : ℕ) (f : ℕ → ℚ) : ℚ := ((List.range n).map f).sum

theorem sumR_succ (n : ℕ) (f : ℕ → ℚ) : sumR (n + 1) f = sumR n f + f n := by
  unfold sumR; rw [List.range_succ]; simp

theorem sumR_nonneg {n : ℕ} {f : ℕ → ℚ} (h : ∀ i, i < n → 0 ≤ f i) : 0 ≤ sumR n f := by
  induction n with
  | zero => simp [sumR]
  | succ n ih => rw [sumR_succ]; exact add_nonneg (ih fun i hi => h i (by omega)) (h n (by omega))

theorem sumR_le {n : ℕ} {f g : ℕ → ℚ} (h : ∀ i, i < n → f i ≤ g i) : sumR n f ≤ sumR n g := by
  induction n with
  | zero => simp [sumR]
  | succ n ih => rw [sumR_succ, sumR_succ]; exact add_le_add (ih fun i hi => h i (by omega)) (h n (by omega))

theorem sumR_mul (n : ℕ) (f : ℕ → ℚ) (c : ℚ) : sumR n (fun i => f i * c) = sumR n f * c := by
  induction n with
  | zero => simp [sumR]
  | succ n ih => rw [sumR_succ, sumR_succ, ih]; ring

theorem sumR_add (n : ℕ) (f g : ℕ → ℚ) : sumR n (fun i => f i + g i) = sumR n f + sumR n g := by
  induction n with
  | zero => simp [sumR]
  | succ n ih => rw [sumR_succ, sumR_succ, sumR_succ, ih]; ring

theorem sumR_sub (n : ℕ) (f g : ℕ → ℚ) : sumR n (fun i => f i - g i) = sumR n f - sumR n g := by
  induction n with
  | zero => simp [sumR]
  | succ n ih => rw [sumR_succ, sumR_succ, sumR_succ, ih]; ring

theorem sumR_const (n : ℕ) (c : ℚ) : sumR n (fun _ => c) = n * c := by
  induction n with
  | zero => simp [sumR]
  | succ n ih => rw [sumR_succ, ih]; push_cast; ring

theorem sumR_abs {n : ℕ} {f g : ℕ → ℚ} (h : ∀ i, i < n → |f i| ≤ g i) : |sumR n f| ≤ sumR n g := by
  induction n with
  | zero => simp [sumR]
  | succ n ih =>
    rw [sumR_succ, sumR_succ]
    exact (abs_add_le _ _).trans (add_le_add (ih fun i hi => h i (by omega)) (h n (by omega)))

theorem sumR_single {n : ℕ} {f : ℕ → ℚ} (h : ∀ i, i < n → 0 ≤ f i) {i : ℕ} (hi : i < n) : f i ≤ sumR n f := by
  induction n with
  | zero => omega
  | succ n ih =>
    rw [sumR_succ]
    have h0 := sumR_nonneg (n := n) (f := f) fun i hi => h i (by omega)
    rcases Nat.lt_succ_iff_lt_or_eq.1 hi with hlt | rfl
    · have := ih (fun i hi => h i (by omega)) hlt
      linarith [h n (by omega)]
    · linarith

theorem sumR_congr {n : ℕ} {f g : ℕ → ℚ} (h : ∀ i, i < n → f i = g i) : sumR n f = sumR n g :=
  le_antisymm (sumR_le fun i hi => (h i hi).le) (sumR_le fun i hi => (h i hi).ge)

/-- The mean of `v` with weights `a`. -/
def meanR (n : ℕ) (a v : ℕ → ℚ) : ℚ := sumR n (fun i => v i * a i) / sumR n a

theorem meanR_le {n : ℕ} {a v : ℕ → ℚ} {hi : ℚ} (ha : ∀ i, i < n → 0 ≤ a i) (hA : 0 < sumR n a)
    (hv : ∀ i, i < n → v i ≤ hi) : meanR n a v ≤ hi := by
  unfold meanR
  rw [div_le_iff₀ hA, mul_comm, ← sumR_mul]
  refine sumR_le fun i hi' => ?_
  rw [mul_comm (a i)]
  exact mul_le_mul_of_nonneg_right (hv i hi') (ha i hi')

theorem le_meanR {n : ℕ} {a v : ℕ → ℚ} {lo : ℚ} (ha : ∀ i, i < n → 0 ≤ a i) (hA : 0 < sumR n a)
    (hv : ∀ i, i < n → lo ≤ v i) : lo ≤ meanR n a v := by
  unfold meanR
  rw [le_div_iff₀ hA, mul_comm, ← sumR_mul]
  refine sumR_le fun i hi' => ?_
  rw [mul_comm (a i)]
  exact mul_le_mul_of_nonneg_right (hv i hi') (ha i hi')

/-- Means of close values are close. -/
theorem meanR_near {n : ℕ} {a v v' : ℕ → ℚ} {e : ℚ} (ha : ∀ i, i < n → 0 ≤ a i) (hA : 0 < sumR n a)
    (hv : ∀ i, i < n → |v i - v' i| ≤ e) : |meanR n a v - meanR n a v'| ≤ e := by
  have : meanR n a v - meanR n a v' = meanR n a fun i => v i - v' i := by
    unfold meanR
    rw [← sub_div, ← sumR_sub]
    congr 2
    funext i; ring
  rw [this, abs_le]
  constructor
  · exact le_meanR ha hA fun i hi => (abs_le.1 (hv i hi)).1
  · exact meanR_le ha hA fun i hi => (abs_le.1 (hv i hi)).2

/-- The mean of values of size at most `M`. -/
theorem meanR_abs {n : ℕ} {a v : ℕ → ℚ} {M K : ℚ} (hA : 0 < sumR n a) (hG : sumR n (fun i => |a i|) ≤ K * sumR n a)
    (hv : ∀ i, i < n → |v i| ≤ M) (hM : 0 ≤ M) : |meanR n a v| ≤ K * M := by
  unfold meanR
  rw [abs_div, abs_of_pos hA, div_le_iff₀ hA]
  calc |sumR n fun i => v i * a i| ≤ sumR n fun i => |a i| * M := by
        refine sumR_abs fun i hi => ?_
        rw [abs_mul, mul_comm]
        exact mul_le_mul_of_nonneg_left (hv i hi) (abs_nonneg _)
    _ = sumR n (fun i => |a i|) * M := sumR_mul _ _ _
    _ ≤ K * sumR n a * M := by gcongr
    _ = K * M * sumR n a := by ring

/-- A rounded weighted mean: normalising the kernel values by their float sum and summing the products in floats gives
the exact mean up to a relative error of about `5 * n * 2^-24`. The values may have either sign; `K` bounds the
cancellation. -/
theorem mean_near {n : ℕ} {K : ℚ} (hK : 1 ≤ K) (hn : n * K ≤ 2 ^ 13) {a v : ℕ → ℚ} {M : ℚ} (hM : 1 ≤ M) (hM' : M ≤ 2 ^ 60)
    (hG : sumR n (fun i => |a i|) ≤ K * sumR n a) (hlo : 1 / 2 ^ 60 ≤ sumR n a) (hhi : sumR n a ≤ 2 ^ 60)
    (hv : ∀ i, i < n → |v i| ≤ M) {ws : List Fl}
    (hws : ws = ((List.range n).map fun i => Fl.fin (a i)).map fun w =>
      w.div f32 (((List.range n).map fun i => Fl.fin (a i)).foldl (Fl.add f32) (.fin 0))) :
    ∃ t, dotF ws (fun i => .fin (v i)) = .fin t ∧ |t - meanR n a v| ≤ 5 * (n + 1) * K ^ 2 * M / 2 ^ 24 := by
  set A := sumR n a with hA
  set G := sumR n (fun i => |a i|) with hGdef
  have hA0 : 0 < A := lt_of_lt_of_le (by norm_num) hlo
  have hAG : A ≤ G := sumR_le fun i _ => le_abs_self _
  have hG0 : 0 < G := by linarith
  have hn0 : (0 : ℚ) ≤ n := by positivity
  have hnn : (n : ℚ) ≤ 2 ^ 13 := by
    refine le_trans ?_ hn
    have : (n : ℚ) * 1 ≤ n * K := by gcongr
    linarith
  have hn1 : 1 ≤ (n : ℚ) := by
    rcases Nat.eq_zero_or_pos n with rfl | h
    · simp [hA, sumR] at hA0
    · exact_mod_cast h
  have hKb : K ≤ 2 ^ 13 := by
    have : 1 * K ≤ n * K := by gcongr
    linarith
  have hGb : G ≤ 2 ^ 73 := by
    calc G ≤ K * A := hG
      _ ≤ 2 ^ 13 * 2 ^ 60 := by gcongr
      _ = 2 ^ 73 := by norm_num
  -- the sum of the kernel values
  have hstep0 : stepErr G ≤ G * (2049 / 2 ^ 34) := by
    unfold stepErr
    have : (1 : ℚ) / 2 ^ 100 ≤ G / 2 ^ 40 := by
      rw [div_le_div_iff₀ (by norm_num) (by norm_num)]
      rw [div_le_iff₀ (by norm_num)] at hlo
      linarith [show (2 : ℚ) ^ 100 = 2 ^ 60 * 2 ^ 40 by norm_num]
    linarith [show G * (2049 / 2 ^ 34) = 2 * G / 2 ^ 24 + G / 2 ^ 34 by ring, show G / 2 ^ 40 ≤ G / 2 ^ 34 by gcongr <;> norm_num]
  have hstepG : (n : ℚ) * stepErr G ≤ n * (K * A * (2049 / 2 ^ 34)) := by
    refine mul_le_mul_of_nonneg_left (hstep0.trans ?_) hn0
    gcongr
  have hθ : (n : ℚ) * (K * A * (2049 / 2 ^ 34)) ≤ A / 1000 := by
    calc (n : ℚ) * (K * A * (2049 / 2 ^ 34)) = n * K * (A * (2049 / 2 ^ 34)) := by ring
        _ ≤ 2 ^ 13 * (A * (2049 / 2 ^ 34)) := by gcongr
        _ = A * (2 ^ 13 * 2049 / 2 ^ 34) := by ring
        _ ≤ A * (1 / 1000) := mul_le_mul_of_nonneg_left (by norm_num) hA0.le
        _ = A / 1000 := by ring
  obtain ⟨s, es, se⟩ := fsum_near' (xs := (List.range n).map a) (B := G)
    (by rw [List.map_map]; exact le_rfl) (hGb.trans (by norm_num)) (by
      simp only [List.length_map, List.length_range]
      refine hstepG.trans (hθ.trans ?_)
      linarith)
  simp only [List.length_map, List.length_range] at se
  change |s - A| ≤ _ at se
  have se' : |s - A| ≤ n * (K * A * (2049 / 2 ^ 34)) := se.trans hstepG
  rw [abs_le] at se'
  have hslo : A * (999 / 1000) ≤ s := by linarith
  have hshi : s ≤ A * (1001 / 1000) := by linarith
  have hspos : 0 < s := lt_of_lt_of_le (by positivity) hslo
  -- the weights
  have esum : ((List.range n).map fun i => Fl.fin (a i)).foldl (Fl.add f32) (.fin 0) = .fin s := by
    rw [← es]; simp [List.map_map, Function.comp_def]
  have haG : ∀ i, i < n → |a i| ≤ G := fun i hi => sumR_single (f := fun i => |a i|) (fun _ _ => abs_nonneg _) hi
  have hGs : G / s ≤ K * (1001 / 999) := by
    rw [div_le_iff₀ hspos]
    refine hG.trans ?_
    have : K * (A * (999 / 1000)) ≤ K * s := by gcongr
    have : K * A * 1 ≤ K * A * (999 / 1000 * (1001 / 999)) := mul_le_mul_of_nonneg_left (by norm_num) (by positivity)
    linarith
  have hw : ∀ i, i < n → ∃ w, ws.getD i .nan = .fin w ∧ |w - a i / s| ≤ |a i| / s / 2 ^ 24 + 1 / 2 ^ 100 ∧ |w| ≤ 2 ^ 14 := by
    intro i hi
    have hq1 : |a i / s| ≤ 2 ^ 13 * (1001 / 999) := by
      rw [abs_div, abs_of_pos hspos]
      calc |a i| / s ≤ G / s := by gcongr; exact haG i hi
        _ ≤ K * (1001 / 999) := hGs
        _ ≤ _ := by gcongr
    have hr := rnd_err32 (a i / s)
    rw [abs_div, abs_of_pos hspos] at hr
    refine ⟨f32.rnd (a i / s), ?_, hr, ?_⟩
    · rw [hws, esum, List.map_map, List.getD_eq_getElem?_getD, List.getElem?_map, List.getElem?_range hi]
      simp only [Option.map_some, Option.getD_some, Function.comp]
      rw [fl_div _ hspos.ne', ofRat32]
      exact hq1.trans (by norm_num)
    · have h2 : |f32.rnd (a i / s)| ≤ |f32.rnd (a i / s) - a i / s| + |a i / s| := by
        have := abs_add_le (f32.rnd (a i / s) - a i / s) (a i / s)
        rwa [sub_add_cancel] at this
      have h3 : |a i| / s / 2 ^ 24 ≤ 2 ^ 13 * (1001 / 999) / 2 ^ 24 := by
        rw [abs_div, abs_of_pos hspos] at hq1
        gcongr
      linarith [show (2 : ℚ) ^ 13 * (1001 / 999) / 2 ^ 24 + 1 / 2 ^ 100 + 2 ^ 13 * (1001 / 999) ≤ 2 ^ 14 by norm_num]
  choose! w hw1 hw3 hw4 using hw
  -- the products
  have hp : ∀ i, i < n → (Fl.fin (v i)).mul f32 (ws.getD i .nan) = .fin (f32.rnd (v i * w i)) := by
    intro i hi
    rw [hw1 i hi, fl_mul, ofRat32]
    rw [abs_mul]
    calc |v i| * |w i| ≤ M * 2 ^ 14 := by
          have := hv i hi
          have := hw4 i hi
          gcongr
      _ ≤ 2 ^ 60 * 2 ^ 14 := by gcongr
      _ ≤ 2 ^ 127 := by norm_num
  have hlen : ws.length = n := by rw [hws]; simp
  have hdot : dotF ws (fun i => .fin (v i)) =
      (((List.range n).map fun i => f32.rnd (v i * w i)).map Fl.fin).foldl (Fl.add f32) (.fin 0) := by
    rw [dotF_eq, hlen, List.map_map]
    congr 1
    refine List.map_congr_left fun i hi => ?_
    exact hp i (by simpa using hi)
  have hm1 : |meanR n a v| ≤ K * M := meanR_abs hA0 hG hv (by linarith)
  have hKM : 1 ≤ K * M := by nlinarith
  -- sums of the products
  have hs1 : |sumR n (fun i => v i * (a i / s)) - meanR n a v| ≤ K * M * (n * K * (2052 / 2 ^ 34)) := by
    have e1 : sumR n (fun i => v i * (a i / s)) = meanR n a v * (A / s) := by
      have : (fun i => v i * (a i / s)) = fun i => (v i * a i) * (1 / s) := by funext i; ring
      rw [this, sumR_mul]
      unfold meanR
      rw [← hA]
      field_simp
    rw [e1, show meanR n a v * (A / s) - meanR n a v = meanR n a v * (A / s - 1) by ring, abs_mul]
    have : |A / s - 1| ≤ n * K * (2052 / 2 ^ 34) := by
      have : A / s - 1 = (A - s) / s := by field_simp
      rw [this, abs_div, abs_of_pos hspos, div_le_iff₀ hspos]
      have : |A - s| ≤ n * (K * A * (2049 / 2 ^ 34)) := by rw [abs_le]; constructor <;> linarith
      refine this.trans ?_
      calc (n : ℚ) * (K * A * (2049 / 2 ^ 34)) = n * K * (A * (2049 / 2 ^ 34)) := by ring
        _ ≤ n * K * (A * (999 / 1000) * (2052 / 2 ^ 34)) := by
            refine mul_le_mul_of_nonneg_left ?_ (by positivity)
            rw [mul_assoc]
            refine mul_le_mul_of_nonneg_left (by norm_num) hA0.le
        _ ≤ n * K * (s * (2052 / 2 ^ 34)) := by gcongr
        _ = _ := by ring
    gcongr
  have hterm : ∀ i, i < n → |f32.rnd (v i * w i) - v i * (a i / s)| ≤ |a i| * (M / s * (21 / 10 / 2 ^ 24)) + 2 * M / 2 ^ 99 := by
    intro i hi
    have v1 := hv i hi
    have v0 := abs_nonneg (v i)
    have h1 := rnd_err32 (v i * w i)
    have h2 := hw3 i hi
    set q := |a i| / s with hq
    have hq0 : 0 ≤ q := div_nonneg (abs_nonneg _) hspos.le
    have hqa : |a i / s| = q := by rw [abs_div, abs_of_pos hspos]
    have h3 : |v i * w i - v i * (a i / s)| ≤ M * q / 2 ^ 24 + M / 2 ^ 100 := by
      rw [← mul_sub, abs_mul]
      calc |v i| * |w i - a i / s| ≤ M * (q / 2 ^ 24 + 1 / 2 ^ 100) := by gcongr
        _ = _ := by ring
    have h4 : |v i * w i| ≤ M * q + M * q / 2 ^ 24 + M / 2 ^ 100 := by
      have e : v i * w i = (v i * w i - v i * (a i / s)) + v i * (a i / s) := by ring
      rw [e]
      refine (abs_add_le _ _).trans ?_
      have : |v i * (a i / s)| ≤ M * q := by rw [abs_mul, hqa]; gcongr
      linarith
    have hMq : 0 ≤ M * q := by positivity
    have h5 : |v i * w i| / 2 ^ 24 ≤ M * q * (11 / 10 / 2 ^ 24) + M / 2 ^ 100 := by
      have : |v i * w i| / 2 ^ 24 ≤ (M * q + M * q / 2 ^ 24 + M / 2 ^ 100) / 2 ^ 24 := by gcongr
      have : (M * q + M * q / 2 ^ 24 + M / 2 ^ 100) / 2 ^ 24 ≤ M * q * (11 / 10 / 2 ^ 24) + M / 2 ^ 100 := by
        have : M * q * ((1 + 1 / 2 ^ 24) / 2 ^ 24) ≤ M * q * (11 / 10 / 2 ^ 24) :=
          mul_le_mul_of_nonneg_left (by norm_num) hMq
        have : M / 2 ^ 100 / 2 ^ 24 ≤ M / 2 ^ 100 := div_le_self (by positivity) (by norm_num)
        linarith [show (M * q + M * q / 2 ^ 24 + M / 2 ^ 100) / 2 ^ 24 = M * q * ((1 + 1 / 2 ^ 24) / 2 ^ 24) + M / 2 ^ 100 / 2 ^ 24 by ring]
      linarith
    have h6 : (1 : ℚ) / 2 ^ 100 ≤ M / 2 ^ 100 := by gcongr
    have e : f32.rnd (v i * w i) - v i * (a i / s) = (f32.rnd (v i * w i) - v i * w i) + (v i * w i - v i * (a i / s)) := by ring
    rw [e]
    refine (abs_add_le _ _).trans ?_
    have e2 : |a i| * (M / s * (21 / 10 / 2 ^ 24)) = M * q * (11 / 10 / 2 ^ 24) + M * q / 2 ^ 24 := by rw [hq]; ring
    linarith [show 2 * M / 2 ^ 99 = 4 * (M / 2 ^ 100) by ring]
  have hs2 : |sumR n (fun i => f32.rnd (v i * w i)) - sumR n (fun i => v i * (a i / s))| ≤ K * M * (22 / 10 / 2 ^ 24) := by
    rw [← sumR_sub]
    refine (sumR_abs hterm).trans ?_
    rw [sumR_add, sumR_mul, sumR_const, ← hGdef]
    have h2 : G * (M / s * (21 / 10 / 2 ^ 24)) ≤ K * (1001 / 999) * M * (21 / 10 / 2 ^ 24) := by
      rw [show G * (M / s * (21 / 10 / 2 ^ 24)) = G / s * M * (21 / 10 / 2 ^ 24) by ring]
      gcongr
    have h3 : (n : ℚ) * (2 * M / 2 ^ 99) ≤ 2 ^ 13 * (2 * M / 2 ^ 99) := by gcongr
    have h3' : 2 ^ 13 * (2 * M / 2 ^ 99) ≤ K * M * (2 ^ 13 * 2 / 2 ^ 99) := by
      rw [show 2 ^ 13 * (2 * M / 2 ^ 99) = 1 * M * (2 ^ 13 * 2 / 2 ^ 99) by ring]
      gcongr
    have h5 : K * M * (1001 / 999 * (21 / 10 / 2 ^ 24) + 2 ^ 13 * 2 / 2 ^ 99) ≤ K * M * (22 / 10 / 2 ^ 24) :=
      mul_le_mul_of_nonneg_left (by norm_num) (by linarith)
    linarith [show K * M * (1001 / 999 * (21 / 10 / 2 ^ 24) + 2 ^ 13 * 2 / 2 ^ 99) =
      K * (1001 / 999) * M * (21 / 10 / 2 ^ 24) + K * M * (2 ^ 13 * 2 / 2 ^ 99) by ring]
  -- the final float sum
  have hB : sumR n (fun i => |f32.rnd (v i * w i)|) ≤ K * M * (1003 / 1000) := by
    have h1 : sumR n (fun i => |f32.rnd (v i * w i)|) ≤
        sumR n fun i => |a i| * (M / s) + (|a i| * (M / s * (21 / 10 / 2 ^ 24)) + 2 * M / 2 ^ 99) := by
      refine sumR_le fun i hi => ?_
      have e : f32.rnd (v i * w i) = v i * (a i / s) + (f32.rnd (v i * w i) - v i * (a i / s)) := by ring
      calc |f32.rnd (v i * w i)| = |v i * (a i / s) + (f32.rnd (v i * w i) - v i * (a i / s))| := by rw [← e]
        _ ≤ _ := (abs_add_le _ _).trans (by
          have h5 : |v i * (a i / s)| ≤ |a i| * (M / s) := by
            rw [abs_mul, abs_div, abs_of_pos hspos, show |a i| * (M / s) = M * (|a i| / s) by ring]
            have := hv i hi
            gcongr
          linarith [hterm i hi])
    refine h1.trans ?_
    rw [sumR_add, sumR_add, sumR_mul, sumR_mul, sumR_const, ← hGdef]
    have h2 : G * (M / s * (21 / 10 / 2 ^ 24)) ≤ K * (1001 / 999) * M * (21 / 10 / 2 ^ 24) := by
      rw [show G * (M / s * (21 / 10 / 2 ^ 24)) = G / s * M * (21 / 10 / 2 ^ 24) by ring]
      gcongr
    have h2' : G * (M / s) ≤ K * (1001 / 999) * M := by
      rw [show G * (M / s) = G / s * M by ring]
      gcongr
    have h3 : (n : ℚ) * (2 * M / 2 ^ 99) ≤ 2 ^ 13 * (2 * M / 2 ^ 99) := by gcongr
    have h3' : 2 ^ 13 * (2 * M / 2 ^ 99) ≤ K * M * (2 ^ 13 * 2 / 2 ^ 99) := by
      rw [show 2 ^ 13 * (2 * M / 2 ^ 99) = 1 * M * (2 ^ 13 * 2 / 2 ^ 99) by ring]
      gcongr
    have h5 : K * M * (1001 / 999 * (1 + 21 / 10 / 2 ^ 24) + 2 ^ 13 * 2 / 2 ^ 99) ≤ K * M * (1003 / 1000) :=
      mul_le_mul_of_nonneg_left (by norm_num) (by linarith)
    linarith [show K * M * (1001 / 999 * (1 + 21 / 10 / 2 ^ 24) + 2 ^ 13 * 2 / 2 ^ 99) =
      K * (1001 / 999) * M + K * (1001 / 999) * M * (21 / 10 / 2 ^ 24) + K * M * (2 ^ 13 * 2 / 2 ^ 99) by ring]
  set B := K * M * (1003 / 1000) with hBdef
  have hB1 : 1 ≤ B := by rw [hBdef]; linarith
  have hstep : (n : ℚ) * stepErr B ≤ n * (K * M * (201 / 100 / 2 ^ 24)) := by
    unfold stepErr
    refine mul_le_mul_of_nonneg_left ?_ hn0
    have : (1 : ℚ) / 2 ^ 100 ≤ K * M / 2 ^ 100 := by gcongr
    have : K * M * (2 * (1003 / 1000) / 2 ^ 24 + 1 / 2 ^ 100) ≤ K * M * (201 / 100 / 2 ^ 24) :=
      mul_le_mul_of_nonneg_left (by norm_num) (by linarith)
    linarith [show K * M * (2 * (1003 / 1000) / 2 ^ 24 + 1 / 2 ^ 100) = 2 * B / 2 ^ 24 + K * M / 2 ^ 100 by rw [hBdef]; ring]
  obtain ⟨t, et, te⟩ := fsum_near' (xs := (List.range n).map fun i => f32.rnd (v i * w i)) (B := B)
    (by rw [List.map_map]; exact hB) (by
      calc B ≤ 2 ^ 13 * 2 ^ 60 * (1003 / 1000) := by rw [hBdef]; gcongr
        _ ≤ 2 ^ 120 := by norm_num) (by
      simp only [List.length_map, List.length_range]
      refine hstep.trans ?_
      calc (n : ℚ) * (K * M * (201 / 100 / 2 ^ 24)) ≤ 2 ^ 13 * (K * M * (201 / 100 / 2 ^ 24)) := by gcongr
        _ = K * M * (2 ^ 13 * (201 / 100 / 2 ^ 24)) := by ring
        _ ≤ K * M * (1003 / 1000) := mul_le_mul_of_nonneg_left (by norm_num) (by linarith))
  simp only [List.length_map, List.length_range] at te
  change |t - sumR n _| ≤ _ at te
  refine ⟨t, by rw [hdot, et], ?_⟩
  have te' := te.trans hstep
  have hfin : n * (K * M * (201 / 100 / 2 ^ 24)) + K * M * (22 / 10 / 2 ^ 24) + K * M * (n * K * (2052 / 2 ^ 34)) ≤
      5 * (n + 1) * K ^ 2 * M / 2 ^ 24 := by
    have hKK : K * M ≤ K ^ 2 * M := by
      have : K * 1 ≤ K * K := by gcongr
      have : K * 1 * M ≤ K * K * M := by gcongr
      linarith [show K ^ 2 * M = K * K * M by ring]
    set Z := K ^ 2 * M
    have hZ0 : 0 ≤ Z := by linarith
    have e0 : K * M * (n * K * (2052 / 2 ^ 34)) = n * Z * (2052 / 2 ^ 34) := by ring
    have e1 : (n : ℚ) * (K * M * (201 / 100 / 2 ^ 24)) ≤ n * (Z * (201 / 100 / 2 ^ 24)) := by gcongr
    have e2 : K * M * (22 / 10 / 2 ^ 24) ≤ Z * (22 / 10 / 2 ^ 24) := by gcongr
    have e3 : n * Z * (201 / 100 / 2 ^ 24 + 2052 / 2 ^ 34) ≤ n * Z * (5 / 2 ^ 24) :=
      mul_le_mul_of_nonneg_left (by norm_num) (by positivity)
    have e4 : Z * (22 / 10 / 2 ^ 24) ≤ Z * (5 / 2 ^ 24) := mul_le_mul_of_nonneg_left (by norm_num) hZ0
    linarith [show 5 * (n + 1) * K ^ 2 * M / 2 ^ 24 = n * Z * (5 / 2 ^ 24) + Z * (5 / 2 ^ 24) by ring,
      show n * (Z * (201 / 100 / 2 ^ 24)) + n * Z * (2052 / 2 ^ 34) = n * Z * (201 / 100 / 2 ^ 24 + 2052 / 2 ^ 34) by ring]
  have e : t - meanR n a v = (t - sumR n fun i => f32.rnd (v i * w i)) +
    ((sumR n fun i => f32.rnd (v i * w i)) - sumR n fun i => v i * (a i / s)) +
    ((sumR n fun i => v i * (a i / s)) - meanR n a v) := by ring
  rw [e]
  refine (abs_add_le _ _).trans ?_
  have := abs_add_le (t - sumR n fun i => f32.rnd (v i * w i))
    ((sumR n fun i => f32.rnd (v i * w i)) - sumR n fun i => v i * (a i / s))
  linarith

end Verif
