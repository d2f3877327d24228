import Verif.Model.FloatThumbnail
import Verif.Proofs.FloatImage
import Verif.Proofs.Gradient
import Verif.Props.Thumbnail

/-!
# Lemmas on the thumbnail of `f32` images
-/

namespace Verif
open GenericImageView GenericImage LawfulView LawfulImage

variable {ch : Nat}

theorem rnd_err64 (q : ℚ) : |f64.rnd q - q| ≤ |q| / 2 ^ 53 + 1 / 2 ^ 100 := rnd_err (Or.inr rfl) q

/-- One addition of the `f64` sum of at most `N` samples between 0 and 1, of which `k` have been added. -/
theorem add64_near {N k : Nat} {t s v : ℚ} (hN : N ≤ 2 ^ 24) (hk : k + 1 ≤ N) (ht0 : 0 ≤ t) (ht : |t - s| ≤ k * ((N : ℚ) / 2 ^ 51)) (hs : s ≤ k)
    (hv0 : 0 ≤ v) (hv1 : v ≤ 1) :
    ∃ t', (Fl.fin t).add f64 (.fin v) = .fin t' ∧ 0 ≤ t' ∧ |t' - (s + v)| ≤ (k + 1 : ℕ) * ((N : ℚ) / 2 ^ 51) := by
  have hNq : (N : ℚ) ≤ 2 ^ 24 := by exact_mod_cast hN
  have hkq : (k : ℚ) + 1 ≤ N := by exact_mod_cast hk
  have hk0 : (0 : ℚ) ≤ k := by positivity
  have h1 : (k : ℚ) * ((N : ℚ) / 2 ^ 51) ≤ N * (2 ^ 24 / 2 ^ 51) := by gcongr; linarith
  have h2 : (N : ℚ) * (2 ^ 24 / 2 ^ 51) ≤ N / 4 := by
    rw [div_eq_mul_inv (N : ℚ)]; gcongr; norm_num
  have h3 := abs_le.1 ht
  have h4 : t + v ≤ 3 / 2 * N := by linarith [h3.2]
  have h0 : 0 ≤ t + v := by linarith
  refine ⟨f64.rnd (t + v), ?_, f64.rnd_nonneg h0, ?_⟩
  · show f64.ofRat (t + v) = _
    rw [ofRatF (Or.inr rfl)]
    rw [abs_of_nonneg h0]
    linarith [show (3 / 2 : ℚ) * 2 ^ 24 ≤ 2 ^ 100 by norm_num]
  · have r := rnd_err64 (t + v)
    rw [abs_of_nonneg h0] at r
    have e1 : f64.rnd (t + v) - (s + v) = (f64.rnd (t + v) - (t + v)) + (t - s) := by ring
    rw [e1]
    refine (abs_add_le _ _).trans ?_
    have h5 : (t + v) / 2 ^ 53 ≤ 3 / 2 * N / 2 ^ 53 := by gcongr
    have h6 : (1 : ℚ) / 2 ^ 100 ≤ N / 2 ^ 53 := by
      have : (1 : ℚ) / 2 ^ 100 ≤ 1 / 2 ^ 53 := by norm_num
      have : (1 : ℚ) / 2 ^ 53 ≤ N / 2 ^ 53 := by gcongr; linarith
      linarith
    push_cast
    have h7 : ((k : ℚ) + 1) * (N / 2 ^ 51) = k * (N / 2 ^ 51) + N / 2 ^ 51 := by ring
    rw [h7]
    have h8 : 3 / 2 * (N : ℚ) / 2 ^ 53 + N / 2 ^ 53 ≤ N / 2 ^ 51 := by
      have : 3 / 2 * (N : ℚ) / 2 ^ 53 + N / 2 ^ 53 = N / 2 ^ 51 * (5 / 8) := by ring
      rw [this]
      have : (0 : ℚ) ≤ N / 2 ^ 51 := by positivity
      linarith
    linarith

/-- The state of a sum: `k` of at most `N` samples have been added, their exact sums are `S`. -/
def SumIs (N k : Nat) (S : Fin 4 → ℚ) (s : Pix Fl 4) : Prop :=
  ∀ c, ∃ t : ℚ, s c = .fin t ∧ 0 ≤ t ∧ |t - S c| ≤ k * ((N : ℚ) / 2 ^ 51) ∧ 0 ≤ S c ∧ S c ≤ k

theorem SumIs.zero (N : Nat) : SumIs N 0 (fun _ => 0) (fun _ => .fin 0) := fun c => ⟨0, rfl, le_rfl, by simp, le_rfl, by simp⟩

theorem SumIs.add {N k : Nat} {S : Fin 4 → ℚ} {s : Pix Fl 4} (h : SumIs N k S s) (hN : N ≤ 2 ^ 24) (hk : k + 1 ≤ N) {v : Fin 4 → ℚ}
    (hv : ∀ c, 0 ≤ v c ∧ v c ≤ 1) : SumIs N (k + 1) (fun c => S c + v c) (addPixelF s fun c => .fin (v c)) := by
  intro c
  obtain ⟨t, e, h0, h1, h2, h3⟩ := h c
  obtain ⟨t', e', g0, g1⟩ := add64_near hN hk h0 h1 h3 (hv c).1 (hv c).2
  refine ⟨t', by unfold addPixelF; rw [e, e'], g0, g1, by linarith [(hv c).1], ?_⟩
  push_cast
  linarith [(hv c).2]

/-- The mean of a sum plus one half. -/
theorem blockMeanF_near {N : Nat} {S : ℚ} {t : ℚ} (hN0 : 0 < N) (hN : N ≤ 2 ^ 24) (ht0 : 0 ≤ t) (ht : |t - S| ≤ N * ((N : ℚ) / 2 ^ 51))
    (hS0 : 0 ≤ S) (hS : S ≤ N) :
    ∃ v, blockMeanF (.fin t) ((Fl.ofNat f64 N).div f64 (.fin 2)) (Fl.ofNat f64 N) = .fin v ∧ |v - (S / N + 1 / 2)| ≤ 1 / 2 ^ 23 := by
  have hNq : (N : ℚ) ≤ 2 ^ 24 := by exact_mod_cast hN
  have hN1 : (1 : ℚ) ≤ N := by exact_mod_cast hN0
  have hNp : (0 : ℚ) < N := by linarith
  have e0 : Fl.ofNat f64 N = .fin N := ofNat64 (by omega)
  have ehalf : (Fl.fin (N : ℚ)).div f64 (.fin 2) = .fin (N / 2) := by
    rw [div_ofRat64 _ (by norm_num), ofRatF (Or.inr rfl) (by rw [abs_of_nonneg (by positivity)]; linarith [show (2 : ℚ) ^ 24 ≤ 2 ^ 100 by norm_num])]
    congr 1
    have := f64.rnd_exact (m := N) (e := -1) (by rw [Nat.abs_cast]; exact_mod_cast (by omega : N < 2 ^ 53)) (by decide)
    have e : ((N : ℤ) : ℚ) * 2 ^ (-1 : ℤ) = N / 2 := by norm_num; ring
    rwa [e] at this
  -- division by N
  have ht2 := abs_le.1 ht
  have hsq : (N : ℚ) * (N / 2 ^ 51) ≤ N * (1 / 2 ^ 27) := by
    refine mul_le_mul_of_nonneg_left ?_ hNp.le
    calc (N : ℚ) / 2 ^ 51 ≤ 2 ^ 24 / 2 ^ 51 := by gcongr
      _ = 1 / 2 ^ 27 := by norm_num
  have ha0 : 0 ≤ t + N / 2 := by positivity
  have ha1 : t + N / 2 ≤ 2 * N := by linarith
  have r1 := rnd_err64 (t + N / 2)
  rw [abs_of_nonneg ha0] at r1
  have ea : (Fl.fin t).add f64 (.fin ((N : ℚ) / 2)) = .fin (f64.rnd (t + N / 2)) := by
    show f64.ofRat _ = _
    rw [ofRatF (Or.inr rfl)]
    rw [abs_of_nonneg ha0]
    linarith [show (2 : ℚ) * 2 ^ 24 ≤ 2 ^ 100 by norm_num]
  set a := f64.rnd (t + N / 2) with hadef
  have a0 : 0 ≤ a := f64.rnd_nonneg ha0
  have h100 : (1 : ℚ) / 2 ^ 100 ≤ N * (1 / 2 ^ 100) := by
    have : (0 : ℚ) < 1 / 2 ^ 100 := by positivity
    nlinarith
  have hb : |a / N - (S / N + 1 / 2)| ≤ 1 / 2 ^ 26 := by
    have e1 : a / N - (S / N + 1 / 2) = (a - (S + N / 2)) / N := by field_simp
    rw [e1, abs_div, abs_of_pos hNp, div_le_iff₀ hNp]
    have e2 : a - (S + N / 2) = (a - (t + N / 2)) + (t - S) := by ring
    rw [e2]
    refine (abs_add_le _ _).trans ?_
    have h5 : (t + N / 2) / 2 ^ 53 ≤ 2 * N / 2 ^ 53 := by gcongr
    have h6 : 2 * (N : ℚ) / 2 ^ 53 + N * (1 / 2 ^ 100) + N * (1 / 2 ^ 27) = N * (2 / 2 ^ 53 + 1 / 2 ^ 100 + 1 / 2 ^ 27) := by ring
    have h7 : (N : ℚ) * (2 / 2 ^ 53 + 1 / 2 ^ 100 + 1 / 2 ^ 27) ≤ N * (1 / 2 ^ 26) := by gcongr; norm_num
    linarith
  have hSN : S / N ≤ 1 := by rw [div_le_one hNp]; exact hS
  have hSN0 : 0 ≤ S / N := by positivity
  have hb' := abs_le.1 hb
  have hb0 : 0 ≤ a / N := by positivity
  have hb1 : a / N ≤ 2 := by linarith [hb'.2, show (1 : ℚ) / 2 ^ 26 ≤ 1 / 2 by norm_num]
  have ed : (Fl.fin a).div f64 (.fin (N : ℚ)) = .fin (f64.rnd (a / N)) := by
    rw [div_ofRat64 _ hNp.ne', ofRatF (Or.inr rfl)]
    rw [abs_of_nonneg hb0]
    linarith [show (2 : ℚ) ≤ 2 ^ 100 by norm_num]
  have r2 := rnd_err64 (a / N)
  rw [abs_of_nonneg hb0] at r2
  set b := f64.rnd (a / N) with hbdef
  have b0 : 0 ≤ b := f64.rnd_nonneg hb0
  have r2' := abs_le.1 r2
  have hq : a / N / 2 ^ 53 ≤ 2 / 2 ^ 53 := by gcongr
  have hb2 : b ≤ 3 / 2 + 1 / 2 ^ 25 := by
    linarith [r2'.2, hb'.2, show (1 : ℚ) / 2 ^ 26 + 2 / 2 ^ 53 + 1 / 2 ^ 100 ≤ 1 / 2 ^ 25 by norm_num]
  refine ⟨f32.rnd b, ?_, ?_⟩
  · unfold blockMeanF
    rw [e0, ehalf, ea, ed, clampFromF64_small]
    rw [abs_of_nonneg b0]
    linarith [show (3 / 2 : ℚ) + 1 / 2 ^ 25 ≤ 2 ^ 100 by norm_num]
  · have r3 := rnd_err32 b
    rw [abs_of_nonneg b0] at r3
    have e1 : f32.rnd b - (S / N + 1 / 2) = (f32.rnd b - b) + (b - a / N) + (a / N - (S / N + 1 / 2)) := by ring
    rw [e1]
    refine (abs_add_le _ _).trans ((add_le_add (abs_add_le _ _) le_rfl).trans ?_)
    have h5 : b / 2 ^ 24 ≤ (3 / 2 + 1 / 2 ^ 25) / 2 ^ 24 := by gcongr
    have : ((3 / 2 + 1 / 2 ^ 25) / 2 ^ 24 : ℚ) + 1 / 2 ^ 100 + (2 / 2 ^ 53 + 1 / 2 ^ 100) + 1 / 2 ^ 26 ≤ 1 / 2 ^ 23 := by norm_num
    linarith

/-- The four channels of a pixel of samples `q`: missing channels are 1. -/
def four (q : Fin ch → ℚ) (c : Fin 4) : ℚ := if h : c.val < ch then q ⟨c.val, h⟩ else 1

theorem channels4_four (q : Fin ch → ℚ) : channels4 Samp.float (fun c => Fl.fin (q c)) = fun c => .fin (four q c) := by
  funext c
  unfold channels4 four
  by_cases h : c.val < ch
  · rw [dif_pos h, dif_pos h]
  · rw [dif_neg h, dif_neg h]; rfl

theorem four_unit {q : Fin ch → ℚ} (h : ∀ c, 0 ≤ q c ∧ q c ≤ 1) (c : Fin 4) : 0 ≤ four q c ∧ four q c ≤ 1 := by
  unfold four
  split
  · exact h _
  · norm_num

/-- The sum of the values in the rectangle of `nx` columns from `x` and `ny` rows from `y`. -/
def blockTotal (v : Nat → Nat → ℚ) (x nx y ny : Nat) : ℚ := ∑ j ∈ Finset.range ny, ∑ i ∈ Finset.range nx, v (x + i) (y + j)

/-- A block of pixels. -/
theorem blockF_ok {I : Type} [GenericImageView I (Pix Fl ch)] {img : I} {q : Nat → Nat → Fin ch → ℚ} {l r b t : Nat} (hlr : l < r) (hbt : b < t)
    (hp : ∀ x y, l ≤ x → x < r → b ≤ y → y < t → getPixel img x y = .ok fun c => .fin (q x y c))
    (hu : ∀ x y, l ≤ x → x < r → b ≤ y → y < t → ∀ c, 0 ≤ q x y c ∧ q x y c ≤ 1) (hs : (r - l) * (t - b) ≤ 2 ^ 24) :
    ∃ P : Fin 4 → ℚ, thumbnailBlockF img l r b t = .ok (fun c => .fin (P c)) ∧
      ∀ c, |P c - (blockTotal (fun i j => four (q i j) c) l (r - l) b (t - b) / ((r - l) * (t - b) : ℕ) + 1 / 2)| ≤ 1 / 2 ^ 23 := by
  set nx := r - l with hnx
  set ny := t - b with hny
  obtain ⟨s, h1, h2⟩ := forRange_inv (n := ny) (f := fun j sum =>
    forRange nx (fun i sum => do
      let k ← getPixel img (l + i) (b + j)
      .ok (addPixelF sum (channels4 Samp.float k))) sum) (s := fun _ => Fl.fin 0)
    (fun k s => SumIs (nx * ny) (k * nx) (fun c => blockTotal (fun i j => four (q i j) c) l nx b k) s)
    (by simpa [blockTotal] using SumIs.zero (nx * ny))
    (by
      intro j hj s hsum
      obtain ⟨s', g1, g2⟩ := forRange_inv (n := nx) (f := fun i sum => do
          let k ← getPixel img (l + i) (b + j)
          .ok (addPixelF sum (channels4 Samp.float k))) (s := s)
        (fun k s => SumIs (nx * ny) (j * nx + k) (fun c => blockTotal (fun i j => four (q i j) c) l nx b j +
          ∑ i ∈ Finset.range k, four (q (l + i) (b + j)) c) s)
        (by simpa using hsum)
        (by
          intro i hi s hsum
          refine ⟨_, by rw [hp _ _ (by omega) (by omega) (by omega) (by omega), ok_bind, channels4_four], ?_⟩
          have := hsum.add hs (by
            have : (j + 1) * nx ≤ ny * nx := Nat.mul_le_mul_right _ hj
            rw [Nat.add_mul, Nat.one_mul] at this
            rw [Nat.mul_comm nx ny]
            omega) (four_unit (hu (l + i) (b + j) (by omega) (by omega) (by omega) (by omega)))
          simpa only [Finset.sum_range_succ, add_assoc] using this)
      refine ⟨s', g1, ?_⟩
      have e : (j + 1) * nx = j * nx + nx := by ring
      rw [e]
      simpa only [blockTotal, Finset.sum_range_succ] using g2)
  have hn0 : 0 < nx * ny := Nat.mul_pos (by omega) (by omega)
  have key : ∀ c, ∃ v, blockMeanF (s c) ((Fl.ofNat f64 (nx * ny)).div f64 (.fin 2)) (Fl.ofNat f64 (nx * ny)) = .fin v ∧
      |v - (blockTotal (fun i j => four (q i j) c) l nx b ny / (nx * ny : ℕ) + 1 / 2)| ≤ 1 / 2 ^ 23 := by
    intro c
    obtain ⟨t, e, t0, ht, S0, S1⟩ := h2 c
    rw [Nat.mul_comm ny nx] at ht S1
    rw [e]
    exact blockMeanF_near hn0 hs t0 ht S0 S1
  choose P hP using key
  refine ⟨P, ?_, fun c => (hP c).2⟩
  unfold thumbnailBlockF
  rw [← hnx, ← hny, h1, ok_bind, subC_ok hlr.le, ok_bind, subC_ok hbt.le, ok_bind, mulC_ok (show nx * ny < 2 ^ 32 by omega), ok_bind]
  exact congrArg Except.ok (funext fun c => (hP c).1)

/-- A weight divided by the number of pixels, times a sum. -/
theorem shareF_step {g G e : ℚ} {n : Nat} {A a : ℚ} (hn0 : 0 < n) (hn : n ≤ 2 ^ 20) (hg0 : 0 ≤ g) (hg : g ≤ 1) (hG0 : 0 ≤ G) (hG : G ≤ 1)
    (hgG : |g - G| ≤ e) (he : e ≤ 2 / 2 ^ 24) (hA0 : 0 ≤ A) (hAa : |A - a| ≤ n * ((n : ℚ) / 2 ^ 51)) (ha0 : 0 ≤ a) (ha : a ≤ n) :
    ∃ t, ((Fl.fin g).div f32 (Fl.ofNat f32 n)).mul f32 (Fl.fin A).toF32 = .fin t ∧ 0 ≤ t ∧ |t - G * (a / n)| ≤ 20 / 2 ^ 24 := by
  have hn1 : (1 : ℚ) ≤ n := by exact_mod_cast hn0
  have hn2 : (n : ℚ) ≤ 2 ^ 20 := by exact_mod_cast hn
  have hnp : (0 : ℚ) < n := by linarith
  have hsq : (n : ℚ) * (n / 2 ^ 51) ≤ n * (1 / 2 ^ 31) := by
    refine mul_le_mul_of_nonneg_left ?_ hnp.le
    calc (n : ℚ) / 2 ^ 51 ≤ 2 ^ 20 / 2 ^ 51 := by gcongr
      _ = 1 / 2 ^ 31 := by norm_num
  have hAa' := abs_le.1 (hAa.trans hsq)
  have hA1 : A ≤ 2 * n := by linarith
  -- the share
  have hs0 : 0 ≤ g / n := by positivity
  have hsn : g / n ≤ 1 := by rw [div_le_one hnp]; linarith
  have es : (Fl.fin g).div f32 (Fl.ofNat f32 n) = .fin (f32.rnd (g / n)) := by
    rw [ofNat32 (by omega), fl_div _ hnp.ne', ofRat32]
    rw [abs_of_nonneg hs0]
    linarith [show (1 : ℚ) ≤ 2 ^ 127 by norm_num]
  set s := f32.rnd (g / n) with hsdef
  have s0 : 0 ≤ s := f32.rnd_nonneg hs0
  have hs := rnd_err32 (g / n)
  rw [abs_of_nonneg hs0, ← hsdef] at hs
  have eA : (Fl.fin A).toF32 = .fin (f32.rnd A) := by
    show f32.ofRat A = _
    rw [ofRat32]
    rw [abs_of_nonneg hA0]
    linarith [show (2 : ℚ) * 2 ^ 20 ≤ 2 ^ 127 by norm_num]
  set α := f32.rnd A with hadef
  have α0 : 0 ≤ α := f32.rnd_nonneg hA0
  have hα := rnd_err32 A
  rw [abs_of_nonneg hA0, ← hadef] at hα
  have hs' : |s * n - G| ≤ 4 / 2 ^ 24 := by
    have e1 : s * n - G = (s - g / n) * n + (g - G) := by field_simp; ring
    rw [e1]
    refine (abs_add_le _ _).trans ?_
    rw [abs_mul, abs_of_nonneg hnp.le]
    have h2 : |s - g / n| * n ≤ (g / n / 2 ^ 24 + 1 / 2 ^ 100) * n := by gcongr
    have h3 : (g / n / 2 ^ 24 + 1 / 2 ^ 100) * n = g / 2 ^ 24 + n / 2 ^ 100 := by field_simp
    have h4 : (n : ℚ) / 2 ^ 100 ≤ 2 ^ 20 / 2 ^ 100 := by gcongr
    have h5 : (2 : ℚ) ^ 20 / 2 ^ 100 ≤ 1 / 2 ^ 24 := by norm_num
    linarith
  have hα' : |α / n - a / n| ≤ 3 / 2 ^ 24 := by
    rw [← sub_div, abs_div, abs_of_nonneg hnp.le, div_le_iff₀ hnp]
    have e1 : α - a = (α - A) + (A - a) := by ring
    rw [e1]
    refine (abs_add_le _ _).trans ?_
    have h1 : A / 2 ^ 24 ≤ 2 * n / 2 ^ 24 := by gcongr
    have h2 : (1 : ℚ) / 2 ^ 100 ≤ n * (1 / 2 ^ 100) := by
      have : (0 : ℚ) < 1 / 2 ^ 100 := by positivity
      nlinarith
    have h3 : 2 * (n : ℚ) / 2 ^ 24 + n * (1 / 2 ^ 100) + n * (1 / 2 ^ 31) = (2 / 2 ^ 24 + 1 / 2 ^ 100 + 1 / 2 ^ 31) * n := by ring
    have h4 : (2 / 2 ^ 24 + 1 / 2 ^ 100 + 1 / 2 ^ 31) * (n : ℚ) ≤ 3 / 2 ^ 24 * n := by gcongr; norm_num
    linarith
  have han : a / n ≤ 1 := by rw [div_le_one hnp]; exact ha
  have hαn : α / n ≤ 2 := by
    have := (abs_le.1 hα').2
    linarith [show (3 : ℚ) / 2 ^ 24 ≤ 1 by norm_num]
  have hprod : |s * α - G * (a / n)| ≤ 11 / 2 ^ 24 := by
    have e1 : s * α - G * (a / n) = (s * n - G) * (α / n) + G * (α / n - a / n) := by field_simp; ring
    rw [e1]
    refine (abs_add_le _ _).trans ?_
    rw [abs_mul, abs_mul, abs_of_nonneg hG0, abs_of_nonneg (show 0 ≤ α / n by positivity)]
    have h2 : |s * n - G| * (α / n) ≤ 4 / 2 ^ 24 * 2 := by gcongr
    have h3 : G * |α / n - a / n| ≤ 1 * (3 / 2 ^ 24) := by gcongr
    have : (4 : ℚ) / 2 ^ 24 * 2 + 1 * (3 / 2 ^ 24) ≤ 11 / 2 ^ 24 := by norm_num
    linarith
  have hsa0 : 0 ≤ s * α := by positivity
  have hsa : s * α ≤ 2 := by
    have := (abs_le.1 hprod).2
    have : G * (a / n) ≤ 1 * 1 := by gcongr
    linarith [show (11 : ℚ) / 2 ^ 24 ≤ 1 by norm_num]
  refine ⟨f32.rnd (s * α), ?_, f32.rnd_nonneg hsa0, ?_⟩
  · rw [es, eA, fl_mul, ofRat32]
    rw [abs_of_nonneg hsa0]
    linarith [show (2 : ℚ) ≤ 2 ^ 127 by norm_num]
  · have r := rnd_err32 (s * α)
    rw [abs_of_nonneg hsa0] at r
    have e1 : f32.rnd (s * α) - G * (a / n) = (f32.rnd (s * α) - s * α) + (s * α - G * (a / n)) := by ring
    rw [e1]
    refine (abs_add_le _ _).trans ?_
    have h2 : s * α / 2 ^ 24 ≤ 2 / 2 ^ 24 := by gcongr
    have : (2 : ℚ) / 2 ^ 24 + 1 / 2 ^ 100 + 11 / 2 ^ 24 ≤ 20 / 2 ^ 24 := by norm_num
    linarith

/-- Interpolating between two sums. -/
theorem mixTwoF_ok {f : ℚ} (hf0 : 0 ≤ f) (hf1 : f ≤ 1) {n : Nat} {A B a b : ℚ} (hn0 : 0 < n) (hn : n ≤ 2 ^ 20)
    (hA0 : 0 ≤ A) (hAa : |A - a| ≤ n * ((n : ℚ) / 2 ^ 51)) (ha0 : 0 ≤ a) (ha : a ≤ n)
    (hB0 : 0 ≤ B) (hBb : |B - b| ≤ n * ((n : ℚ) / 2 ^ 51)) (hb0 : 0 ≤ b) (hb : b ≤ n) :
    ∃ v, mixTwoF (((Fl.fin 1).sub f32 (.fin f)).div f32 (Fl.ofNat f32 n)) ((Fl.fin f).div f32 (Fl.ofNat f32 n)) (.fin A) (.fin B) = .fin v ∧
      ∀ L H : ℚ, n * L ≤ a ∧ a ≤ n * H → n * L ≤ b ∧ b ≤ n * H → L - 1 / 2 ^ 18 ≤ v ∧ v ≤ H + 1 / 2 ^ 18 := by
  obtain ⟨g, eg, g0, g1, hg⟩ := one_sub_step hf0 hf1
  obtain ⟨s, es, s0, hs⟩ := shareF_step (G := 1 - f) (e := 2 / 2 ^ 24) hn0 hn g0 g1 (by linarith) (by linarith) hg (le_refl _) hA0 hAa ha0 ha
  obtain ⟨t, et, t0, ht⟩ := shareF_step (G := f) (e := 0) hn0 hn hf0 hf1 hf0 hf1 (by simp) (by norm_num) hB0 hBb hb0 hb
  have hn1 : (0 : ℚ) < n := by exact_mod_cast hn0
  have ha' : a / n ≤ 1 := by rw [div_le_one hn1]; exact ha
  have hb' : b / n ≤ 1 := by rw [div_le_one hn1]; exact hb
  have hs' := abs_le.1 hs
  have ht' := abs_le.1 ht
  have c2 : (1 - f) * (a / n) + f * (b / n) ≤ 1 := by nlinarith
  obtain ⟨v, ev, v0, hv⟩ := add_step (K := 2) s0 t0 (by linarith [show (20 : ℚ) / 2 ^ 24 + 20 / 2 ^ 24 ≤ 1 by norm_num]) (by norm_num) (by norm_num) hs ht
  refine ⟨v, by unfold mixTwoF; rw [eg, es, et, ev], ?_⟩
  intro L H hA hB
  have bnd : ∀ {C : ℚ}, n * L ≤ C ∧ C ≤ n * H → L ≤ C / n ∧ C / n ≤ H := by
    intro C hC
    rw [le_div_iff₀ hn1, div_le_iff₀ hn1]
    constructor <;> linarith [hC.1, hC.2]
  obtain ⟨a1, a2⟩ := bnd hA
  obtain ⟨b1, b2⟩ := bnd hB
  have c1 : L ≤ (1 - f) * (a / n) + f * (b / n) := by nlinarith
  have c2 : (1 - f) * (a / n) + f * (b / n) ≤ H := by nlinarith
  have hv' := abs_le.1 hv
  constructor <;> linarith [hv'.1, hv'.2, show (20 : ℚ) / 2 ^ 24 + 20 / 2 ^ 24 + 2 * 2 / 2 ^ 24 ≤ 1 / 2 ^ 18 by norm_num]

/-- Interpolating between four samples. -/
theorem mixFourF_ok {v h : ℚ} (hv0 : 0 ≤ v) (hv1 : v ≤ 1) (hh0 : 0 ≤ h) (hh1 : h ≤ 1) {br tr bl tl : ℚ}
    (u1 : 0 ≤ br ∧ br ≤ 1) (u2 : 0 ≤ tr ∧ tr ≤ 1) (u3 : 0 ≤ bl ∧ bl ≤ 1) (u4 : 0 ≤ tl ∧ tl ≤ 1) :
    ∃ g, ((((((Fl.fin 1).sub f32 (.fin v)).mul f32 (.fin h)).mul f32 (.fin br)).add f32 (((Fl.fin v).mul f32 (.fin h)).mul f32 (.fin tr))).add f32
        ((((Fl.fin 1).sub f32 (.fin v)).mul f32 ((Fl.fin 1).sub f32 (.fin h))).mul f32 (.fin bl))).add f32
        (((Fl.fin v).mul f32 ((Fl.fin 1).sub f32 (.fin h))).mul f32 (.fin tl)) = .fin g ∧
      ∀ L H : ℚ, L ≤ br ∧ br ≤ H → L ≤ tr ∧ tr ≤ H → L ≤ bl ∧ bl ≤ H → L ≤ tl ∧ tl ≤ H → L - 1 / 2 ^ 18 ≤ g ∧ g ≤ H + 1 / 2 ^ 18 := by
  obtain ⟨v', ev, w0, w1, hv⟩ := one_sub_step hv0 hv1
  obtain ⟨h', eh, k0, k1, hh⟩ := one_sub_step hh0 hh1
  have z : ∀ q : ℚ, |q - q| ≤ 0 := by simp
  have wt : ∀ {a b A B : ℚ}, 0 ≤ a → a ≤ 1 → 0 ≤ b → b ≤ 1 → 0 ≤ A → A ≤ 1 → |a - A| ≤ 2 / 2 ^ 24 → |b - B| ≤ 2 / 2 ^ 24 →
      ∃ t, (Fl.fin a).mul f32 (.fin b) = .fin t ∧ 0 ≤ t ∧ t ≤ 1 ∧ |t - A * B| ≤ 6 / 2 ^ 24 := by
    intro a b A B a0 a1 b0 b1 A0 A1 e1 e2
    obtain ⟨t, et, t0, t1, ht⟩ := mul_step (M := 1) a0 a1 b0 b1 A0 A1 (by norm_num) (by norm_num) e1 e2
    exact ⟨t, et, t0, t1 b1, ht.trans (by norm_num)⟩
  obtain ⟨a1, ea1, p1, q1, r1⟩ := wt (A := 1 - v) (B := h) w0 w1 hh0 hh1 (by linarith) (by linarith) hv (by norm_num)
  obtain ⟨a2, ea2, p2, q2, r2⟩ := wt (A := v) (B := h) hv0 hv1 hh0 hh1 hv0 hv1 (by norm_num) (by norm_num)
  obtain ⟨a3, ea3, p3, q3, r3⟩ := wt (A := 1 - v) (B := 1 - h) w0 w1 k0 k1 (by linarith) (by linarith) hv hh
  obtain ⟨a4, ea4, p4, q4, r4⟩ := wt (A := v) (B := 1 - h) hv0 hv1 k0 k1 hv0 hv1 (by norm_num) hh
  have tm : ∀ {a W x : ℚ}, 0 ≤ a → a ≤ 1 → 0 ≤ W → W ≤ 1 → |a - W| ≤ 6 / 2 ^ 24 → 0 ≤ x ∧ x ≤ 1 →
      ∃ t, (Fl.fin a).mul f32 (.fin x) = .fin t ∧ 0 ≤ t ∧ |t - W * x| ≤ 8 / 2 ^ 24 := by
    intro a W x a0 a1 W0 W1 e1 hx
    obtain ⟨t, et, t0, -, ht⟩ := mul_step (M := 1) (b := x) (B := x) a0 a1 hx.1 hx.2 W0 W1 le_rfl (by norm_num) e1 (z _)
    exact ⟨t, et, t0, ht.trans (by norm_num)⟩
  have nn : ∀ {A B : ℚ}, 0 ≤ A → A ≤ 1 → 0 ≤ B → B ≤ 1 → 0 ≤ A * B ∧ A * B ≤ 1 := by
    intro A B hA hA1 hB hB1
    exact ⟨by positivity, by nlinarith⟩
  have n1 := nn (A := 1 - v) (B := h) (by linarith) (by linarith) hh0 hh1
  have n2 := nn (A := v) (B := h) hv0 hv1 hh0 hh1
  have n3 := nn (A := 1 - v) (B := 1 - h) (by linarith) (by linarith) (by linarith) (by linarith)
  have n4 := nn (A := v) (B := 1 - h) hv0 hv1 (by linarith) (by linarith)
  obtain ⟨m1, em1, x1, y1⟩ := tm p1 q1 n1.1 n1.2 r1 u1
  obtain ⟨m2, em2, x2, y2⟩ := tm p2 q2 n2.1 n2.2 r2 u2
  obtain ⟨m3, em3, x3, y3⟩ := tm p3 q3 n3.1 n3.2 r3 u3
  obtain ⟨m4, em4, x4, y4⟩ := tm p4 q4 n4.1 n4.2 r4 u4
  have bd : ∀ {W x L H : ℚ}, 0 ≤ W → L ≤ x ∧ x ≤ H → W * L ≤ W * x ∧ W * x ≤ W * H := by
    intro W x L H hW hx
    exact ⟨mul_le_mul_of_nonneg_left hx.1 hW, mul_le_mul_of_nonneg_left hx.2 hW⟩
  have c1 := bd n1.1 u1
  have c2 := bd n2.1 u2
  have c3 := bd n3.1 u3
  have c4 := bd n4.1 u4
  have hsum1 : (1 - v) * h * 1 + v * h * 1 + (1 - v) * (1 - h) * 1 + v * (1 - h) * 1 = 1 := by ring
  obtain ⟨t, et, t0, ht⟩ := sum4 (M := 1) (e := 8 / 2 ^ 24) le_rfl (by norm_num) (by norm_num)
    x1 x2 x3 x4 y1 y2 y3 y4 (mul_nonneg n1.1 u1.1) (mul_nonneg n2.1 u2.1) (mul_nonneg n3.1 u3.1) (mul_nonneg n4.1 u4.1) (by linarith)
  refine ⟨t, by rw [ev, eh, ea1, ea2, ea3, ea4, em1, em2, em3, em4, et], ?_⟩
  intro L H h1 h2 h3 h4
  have b1 := bd n1.1 h1
  have b2 := bd n2.1 h2
  have b3 := bd n3.1 h3
  have b4 := bd n4.1 h4
  have hsumL : (1 - v) * h * L + v * h * L + (1 - v) * (1 - h) * L + v * (1 - h) * L = L := by ring
  have hsumH : (1 - v) * h * H + v * h * H + (1 - v) * (1 - h) * H + v * (1 - h) * H = H := by ring
  have ht' := abs_le.1 ht
  constructor <;> linarith [ht'.1, ht'.2, show (4 : ℚ) * (8 / 2 ^ 24) + 12 * 1 / 2 ^ 24 ≤ 1 / 2 ^ 18 by norm_num]

/-- Two sums side by side. -/
theorem pair_loopF {V W : Nat → Fin 4 → ℚ} {n : Nat} (hn : n ≤ 2 ^ 24) {f : Nat → Pix Fl 4 × Pix Fl 4 → R (Pix Fl 4 × Pix Fl 4)}
    (hf : ∀ i, i < n → ∀ s, f i s = .ok (addPixelF s.1 fun c => .fin (V i c), addPixelF s.2 fun c => .fin (W i c)))
    (hV : ∀ i c, i < n → 0 ≤ V i c ∧ V i c ≤ 1) (hW : ∀ i c, i < n → 0 ≤ W i c ∧ W i c ≤ 1) :
    ∃ s, forRange n f (fun _ => .fin 0, fun _ => .fin 0) = .ok s ∧ SumIs n n (fun c => ∑ i ∈ Finset.range n, V i c) s.1 ∧
      SumIs n n (fun c => ∑ i ∈ Finset.range n, W i c) s.2 := by
  obtain ⟨s, h1, h2⟩ := forRange_inv (n := n) (f := f) (s := (fun _ => Fl.fin 0, fun _ => Fl.fin 0))
    (fun k s => SumIs n k (fun c => ∑ i ∈ Finset.range k, V i c) s.1 ∧ SumIs n k (fun c => ∑ i ∈ Finset.range k, W i c) s.2)
    ⟨by simpa using SumIs.zero n, by simpa using SumIs.zero n⟩
    (by
      intro i hi s ⟨h1, h2⟩
      refine ⟨_, hf i hi s, ?_, ?_⟩
      · simpa only [Finset.sum_range_succ] using h1.add hn hi fun c => hV i c hi
      · simpa only [Finset.sum_range_succ] using h2.add hn hi fun c => hW i c hi)
  exact ⟨s, h1, h2⟩

theorem sum_between {n : Nat} {v : Nat → ℚ} {L H : ℚ} (hv : ∀ i, i < n → L ≤ v i ∧ v i ≤ H) :
    n * L ≤ ∑ i ∈ Finset.range n, v i ∧ ∑ i ∈ Finset.range n, v i ≤ n * H := by
  have u1 := Finset.sum_le_card_nsmul (Finset.range n) v H (fun i hi => (hv i (Finset.mem_range.1 hi)).2)
  have u2 := Finset.card_nsmul_le_sum (Finset.range n) v L (fun i hi => (hv i (Finset.mem_range.1 hi)).1)
  simp only [Finset.card_range, nsmul_eq_mul] at u1 u2
  exact ⟨u2, u1⟩

/-- One output pixel. -/
theorem pixelF_ok {I : Type} [GenericImageView I (Pix Fl ch)] {img : I} {q : Nat → Nat → Fin ch → ℚ}
    (hp : ∀ x y, x < widthOf img → y < heightOf img → getPixel img x y = .ok fun c => .fin (q x y c))
    (hu : ∀ x y, x < widthOf img → y < heightOf img → ∀ c, 0 ≤ q x y c ∧ q x y c ≤ 1) (hw : widthOf img ≤ 2 ^ 20) (hh : heightOf img ≤ 2 ^ 20)
    {lx rx ly ry : ℚ} {a b a' b' : Nat} (hlx : 0 ≤ lx) (hrx : 0 ≤ rx) (hly : 0 ≤ ly) (hry : 0 ≤ ry)
    (h1 : a < widthOf img) (h2 : a ≤ b) (h3 : b ≤ widthOf img) (h4 : a = b → 0 < a)
    (h1' : a' < heightOf img) (h2' : a' ≤ b') (h3' : b' ≤ heightOf img) (h4' : a' = b' → 0 < a') (hs : (b - a) * (b' - a') ≤ 2 ^ 24) :
    ∃ P : Fin 4 → ℚ, thumbnailPixelF img (.fin lx, .fin rx, a, b) (.fin ly, .fin ry, a', b') = .ok (fun c => .fin (P c)) ∧
      (¬ (a < b ∧ a' < b') → ∀ c L H, (∀ i j, (a ≤ i ∧ i < b) ∨ (a = b ∧ a ≤ i + 1 ∧ i ≤ a) → (a' ≤ j ∧ j < b') ∨ (a' = b' ∧ a' ≤ j + 1 ∧ j ≤ a') →
        L ≤ four (q i j) c ∧ four (q i j) c ≤ H) → L - 1 / 2 ^ 18 ≤ P c ∧ P c ≤ H + 1 / 2 ^ 18) ∧
      (a < b → a' < b' → ∀ c, |P c - (blockTotal (fun i j => four (q i j) c) a (b - a) a' (b' - a') / ((b - a) * (b' - a') : ℕ) + 1 / 2)| ≤ 1 / 2 ^ 23) := by
  have hch : ∀ i j c, i < widthOf img → j < heightOf img → 0 ≤ four (q i j) c ∧ four (q i j) c ≤ 1 := fun i j c hi hj =>
    four_unit (hu _ _ hi hj) c
  rcases Nat.lt_or_eq_of_le h2 with hx | hx <;> rcases Nat.lt_or_eq_of_le h2' with hy | hy
  · -- a block
    obtain ⟨P, e1, e2⟩ := blockF_ok (img := img) (q := q) hx hy (fun x y _ _ _ _ => hp x y (by omega) (by omega))
      (fun x y _ _ _ _ => hu x y (by omega) (by omega)) hs
    refine ⟨P, ?_, fun h => absurd ⟨hx, hy⟩ h, fun _ _ => e2⟩
    unfold thumbnailPixelF
    dsimp only
    rw [if_pos ⟨by omega, by omega⟩]
    exact e1
  · -- `a' = b'`: interpolate vertically
    subst hy
    obtain ⟨f, ef, f0, f1⟩ := fraction_step hry hly
    have ha' := h4' rfl
    set nx := b - a with hnx
    obtain ⟨s, hloop, s1, s2⟩ := pair_loopF (V := fun i => four (q (a + i) (a' - 1))) (W := fun i => four (q (a + i) a')) (n := nx) (by omega)
      (f := fun i (s : Pix Fl 4 × Pix Fl 4) => do
        let kBot ← getPixel img (a + i) (a' - 1)
        let kTop ← getPixel img (a + i) (← addC 32 (a' - 1) 1)
        .ok (addPixelF s.1 (channels4 Samp.float kBot), addPixelF s.2 (channels4 Samp.float kTop)))
      (by
        intro i hi s
        rw [hp _ _ (by omega) (by omega), ok_bind, addC_ok (by omega), ok_bind, Nat.sub_add_cancel ha', hp _ _ (by omega) (by omega), ok_bind,
          channels4_four, channels4_four])
      (fun i c hi => hch _ _ c (by omega) (by omega)) (fun i c hi => hch _ _ c (by omega) (by omega))
    have key : ∀ c, ∃ v, mixTwoF (((Fl.fin 1).sub f32 (.fin f)).div f32 (Fl.ofNat f32 nx)) ((Fl.fin f).div f32 (Fl.ofNat f32 nx)) (s.1 c) (s.2 c) = .fin v ∧
        ∀ L H : ℚ, (∀ i, i < nx → (L ≤ four (q (a + i) (a' - 1)) c ∧ four (q (a + i) (a' - 1)) c ≤ H) ∧ (L ≤ four (q (a + i) a') c ∧ four (q (a + i) a') c ≤ H)) →
          L - 1 / 2 ^ 18 ≤ v ∧ v ≤ H + 1 / 2 ^ 18 := by
      intro c
      obtain ⟨A, eA, A0, A1, A2, A3⟩ := s1 c
      obtain ⟨B, eB, B0, B1, B2, B3⟩ := s2 c
      obtain ⟨v, e, h⟩ := mixTwoF_ok f0 f1 (n := nx) (by omega) (by omega) A0 A1 A2 A3 B0 B1 B2 B3
      exact ⟨v, by rw [eA, eB, e], fun L H hLH => h L H (sum_between fun i hi => (hLH i hi).1) (sum_between fun i hi => (hLH i hi).2)⟩
    choose P hP using key
    refine ⟨P, ?_, ?_, fun _ h => absurd h (by omega)⟩
    · unfold thumbnailPixelF
      dsimp only
      rw [if_neg (by omega), if_neg (by omega), if_pos (by omega), decide_eq_true ha', Bool.and_self, assertR_true, ok_bind,
        subC_ok ha', ok_bind]
      unfold thumbnailVerticalF
      rw [← hnx, hloop, ok_bind, subC_ok hx.le, ok_bind, ← hnx, ef]
      exact congrArg Except.ok (funext fun c => (hP c).1)
    · intro _ c L H hLH
      exact (hP c).2 L H fun i hi => ⟨hLH _ _ (Or.inl ⟨by omega, by omega⟩) (Or.inr ⟨rfl, by omega, by omega⟩),
        hLH _ _ (Or.inl ⟨by omega, by omega⟩) (Or.inr ⟨rfl, by omega, by omega⟩)⟩
  · -- `a = b`: interpolate horizontally
    subst hx
    obtain ⟨f, ef, f0, f1⟩ := fraction_step hlx hrx
    have ha := h4 rfl
    set ny := b' - a' with hny
    obtain ⟨s, hloop, s1, s2⟩ := pair_loopF (V := fun j => four (q (a - 1) (a' + j))) (W := fun j => four (q a (a' + j))) (n := ny) (by omega)
      (f := fun j (s : Pix Fl 4 × Pix Fl 4) => do
        let kLeft ← getPixel img (a - 1) (a' + j)
        let kRight ← getPixel img (← addC 32 (a - 1) 1) (a' + j)
        .ok (addPixelF s.1 (channels4 Samp.float kLeft), addPixelF s.2 (channels4 Samp.float kRight)))
      (by
        intro i hi s
        rw [hp _ _ (by omega) (by omega), ok_bind, addC_ok (by omega), ok_bind, Nat.sub_add_cancel ha, hp _ _ (by omega) (by omega), ok_bind,
          channels4_four, channels4_four])
      (fun i c hi => hch _ _ c (by omega) (by omega)) (fun i c hi => hch _ _ c (by omega) (by omega))
    have key : ∀ c, ∃ v, mixTwoF (((Fl.fin 1).sub f32 (.fin f)).div f32 (Fl.ofNat f32 ny)) ((Fl.fin f).div f32 (Fl.ofNat f32 ny)) (s.1 c) (s.2 c) = .fin v ∧
        ∀ L H : ℚ, (∀ i, i < ny → (L ≤ four (q (a - 1) (a' + i)) c ∧ four (q (a - 1) (a' + i)) c ≤ H) ∧ (L ≤ four (q a (a' + i)) c ∧ four (q a (a' + i)) c ≤ H)) →
          L - 1 / 2 ^ 18 ≤ v ∧ v ≤ H + 1 / 2 ^ 18 := by
      intro c
      obtain ⟨A, eA, A0, A1, A2, A3⟩ := s1 c
      obtain ⟨B, eB, B0, B1, B2, B3⟩ := s2 c
      obtain ⟨v, e, h⟩ := mixTwoF_ok f0 f1 (n := ny) (by omega) (by omega) A0 A1 A2 A3 B0 B1 B2 B3
      exact ⟨v, by rw [eA, eB, e], fun L H hLH => h L H (sum_between fun i hi => (hLH i hi).1) (sum_between fun i hi => (hLH i hi).2)⟩
    choose P hP using key
    refine ⟨P, ?_, ?_, fun h => absurd h (by omega)⟩
    · unfold thumbnailPixelF
      dsimp only
      rw [if_neg (by omega), if_pos (by omega), decide_eq_true ha, Bool.and_self, assertR_true, ok_bind,
        subC_ok ha, ok_bind]
      unfold thumbnailHorizontalF
      rw [← hny, hloop, ok_bind, subC_ok hy.le, ok_bind, ← hny, ef]
      exact congrArg Except.ok (funext fun c => (hP c).1)
    · intro _ c L H hLH
      exact (hP c).2 L H fun i hi => ⟨hLH _ _ (Or.inr ⟨rfl, by omega, by omega⟩) (Or.inl ⟨by omega, by omega⟩),
        hLH _ _ (Or.inr ⟨rfl, by omega, by omega⟩) (Or.inl ⟨by omega, by omega⟩)⟩
  · -- interpolate both ways
    subst hx hy
    obtain ⟨f, ef, f0, f1⟩ := fraction_step hry hly
    obtain ⟨g, eg, g0, g1⟩ := fraction_step hlx hrx
    have ha := h4 rfl
    have ha' := h4' rfl
    have key := fun c : Fin 4 => mixFourF_ok f0 f1 g0 g1 (hch a (a' - 1) c (by omega) (by omega)) (hch a a' c (by omega) (by omega))
      (hch (a - 1) (a' - 1) c (by omega) (by omega)) (hch (a - 1) a' c (by omega) (by omega))
    choose P hP using key
    refine ⟨P, ?_, ?_, fun h => absurd h (by omega)⟩
    · unfold thumbnailPixelF
      dsimp only
      rw [if_neg (by omega), if_neg (by omega), if_neg (by omega), subC_ok ha, ok_bind, subC_ok ha', ok_bind]
      unfold thumbnailBothF
      dsimp only
      rw [hp _ _ (by omega) (by omega), ok_bind, addC_ok (by omega), ok_bind, Nat.sub_add_cancel ha', hp _ _ (by omega) (by omega), ok_bind,
        addC_ok (by omega), ok_bind, Nat.sub_add_cancel ha, hp _ _ (by omega) (by omega), ok_bind, hp _ _ (by omega) (by omega), ok_bind, ef, eg]
      simp only [channels4_four]
      exact congrArg Except.ok (funext fun c => (hP c).1)
    · intro _ c L H hLH
      exact (hP c).2 L H (hLH _ _ (Or.inr ⟨rfl, by omega, by omega⟩) (Or.inr ⟨rfl, by omega, by omega⟩))
        (hLH _ _ (Or.inr ⟨rfl, by omega, by omega⟩) (Or.inr ⟨rfl, by omega, by omega⟩))
        (hLH _ _ (Or.inr ⟨rfl, by omega, by omega⟩) (Or.inr ⟨rfl, by omega, by omega⟩))
        (hLH _ _ (Or.inr ⟨rfl, by omega, by omega⟩) (Or.inr ⟨rfl, by omega, by omega⟩))

end Verif
