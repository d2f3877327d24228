import Verif.Proofs.SampleBetween
import Verif.Proofs.Contrast

/-!
# Resampling of `f32` pictures with kernels without negative values
-/

namespace Verif
open GenericImageView

variable {ch : Nat}

/-- The rounding error of both passes for samples of magnitude up to `M`, for a filter of support `s`. -/
def slackQ (M s : ℚ) (w nw h nh : Nat) : ℚ := 12 * M * (s * (scale w nw + scale h nh) + 13 / 4) / 2 ^ 24

theorem nearestSample_float (t : ℚ) : nearestSample Samp.float (.fin t) = .ok (.fin (max 0 (min t 1))) := by
  unfold nearestSample
  rw [show Samp.float.toF32 Samp.float.min = .fin 0 from rfl, show Samp.float.toF32 Samp.float.max = .fin 1 from rfl, clampF_fin (by norm_num)]
  rfl

theorem unit_clamp_near (t m : ℚ) : |max 0 (min t 1) - max 0 (min m 1)| ≤ |t - m| := by
  refine (max0_sub_le _ _).trans ?_
  rcases le_total t 1 with h1 | h1 <;> rcases le_total m 1 with h2 | h2
  · rw [min_eq_left h1, min_eq_left h2]
  · rw [min_eq_left h1, min_eq_right h2, abs_sub_comm t m, abs_sub_comm t 1, abs_of_nonneg (by linarith), abs_of_nonneg (by linarith)]
    linarith
  · rw [min_eq_right h1, min_eq_left h2, abs_of_nonneg (by linarith), abs_of_nonneg (by linarith)]
    linarith
  · rw [min_eq_right h1, min_eq_right h2, sub_self, abs_zero]
    exact abs_nonneg _

theorem unit_clamp_mono {a b : ℚ} (h : a ≤ b) : max 0 (min a 1) ≤ max 0 (min b 1) := max_le_max le_rfl (min_le_min h le_rfl)

/-- One output sample. -/
theorem between_sample_float {M : ℚ} (hM1 : 1 ≤ M) (hM2 : M ≤ 2 ^ 40) {f : Filter} {s b B μ : ℚ} (hf : NonnegKernel f s b B μ)
    {w nw h nh x y : Nat} (hw0 : 0 < w) (hh0 : 0 < h) (hw : w ≤ 2 ^ 17) (hh : h ≤ 2 ^ 17) (hnw : nw ≤ 2 ^ 17)
    (hnh : nh ≤ 2 ^ 17) (hx : x < nw) (hy : y < nh) (hslw : (1 + s) * w ≤ 2 ^ 19) (hslh : (1 + s) * h ≤ 2 ^ 19)
    (hsx : 2 * s * scale w nw + 9 / 4 ≤ 2 ^ 13) (hsy : 2 * s * scale h nh + 9 / 4 ≤ 2 ^ 13)
    (hmx : ∃ i, i < w ∧ |(i : ℚ) + 1 / 2 - centre w nw x| ≤ s * scale w nw + 1 / 4 ∧ |offset w nw x i| ≤ μ - 1 / 16)
    (hmy : ∃ i, i < h ∧ |(i : ℚ) + 1 / 2 - centre h nh y| ≤ s * scale h nh + 1 / 4 ∧ |offset h nh y i| ≤ μ - 1 / 16)
    {pix : Nat → Nat → Pix Fl ch} {c : Fin 4} {V : Nat → Nat → ℚ}
    (hp : ∀ x y, x < w → y < h → channels4 Samp.float (pix x y) c = .fin (V x y)) (hV : ∀ x y, x < w → y < h → |V x y| ≤ M) :
    ∃ g, nearestSample Samp.float (rowF f w nw (colF Samp.float f h nh pix) x y c) = .ok (.fin g) ∧ 0 ≤ g ∧ g ≤ 1 ∧
      ∀ lo hi : ℚ, (∀ i j, i < w → j < h → Reach s w nw x i → Reach s h nh y j → lo ≤ V i j ∧ V i j ≤ hi) →
        max 0 (min lo 1) - slackQ M s w nw h nh ≤ g ∧ g ≤ max 0 (min hi 1) + slackQ M s w nw h nh ∧
        (1 + slackQ M s w nw h nh ≤ lo → g = 1) ∧ (hi + slackQ M s w nw h nh ≤ 0 → g = 0) := by
  obtain ⟨lx, nx, ax, tx, px, bx, rx, -, -⟩ := hf.taps hw0 hw hx hnw hslw hsx hmx
  obtain ⟨ly, ny, ay, ty, py, bY, ry, -, -⟩ := hf.taps hh0 hh hy hnh hslh hsy hmy
  obtain ⟨t, e1, e2⟩ := two_pass_gen (S := Samp.float) hM1 hM2 tx ty hp hV
  refine ⟨max 0 (min t 1), by rw [e1, nearestSample_float], le_max_left _ _, max_le (by norm_num) (min_le_right _ _), ?_⟩
  intro lo hi hb
  have hspx := tx.span
  have hspy := ty.span
  set m := mean2 nx ny ax ay fun i j => V (lx + i) (ly + j)
  have hv : ∀ i j, i < nx → j < ny → lo ≤ V (lx + i) (ly + j) ∧ V (lx + i) (ly + j) ≤ hi := by
    intro i j h1 h2
    exact hb _ _ (by omega) (by omega) (rx _ (by omega) (by omega)) (ry _ (by omega) (by omega))
  have hm1 : lo ≤ m := le_meanR px tx.pos fun i h1 => le_meanR py ty.pos fun j h2 => (hv i j h1 h2).1
  have hm2 : m ≤ hi := meanR_le px tx.pos fun i h1 => meanR_le py ty.pos fun j h2 => (hv i j h1 h2).2
  have h5 : 6 * 1 ^ 3 * M * (nx + ny + 2) / 2 ^ 24 ≤ slackQ M s w nw h nh := by
    unfold slackQ
    have : (6 * M) * (nx + ny + 2) ≤ (6 * M) * (2 * s * scale w nw + 2 * s * scale h nh + 13 / 2) :=
      mul_le_mul_of_nonneg_left (by linarith) (by positivity)
    refine div_le_div_of_nonneg_right ?_ (by norm_num)
    linarith [show (12 * M) * (s * (scale w nw + scale h nh) + 13 / 4) =
      (6 * M) * (2 * s * scale w nw + 2 * s * scale h nh + 13 / 2) by ring]
  have h7 := e2.trans h5
  have h6 := (unit_clamp_near t m).trans h7
  rw [abs_le] at h6 h7
  have l1 := unit_clamp_mono hm1
  have l2 := unit_clamp_mono hm2
  refine ⟨by linarith, by linarith, fun h => ?_, fun h => ?_⟩
  · rw [min_eq_right (by linarith), max_eq_right (by norm_num)]
  · exact max_eq_left ((min_le_left _ _).trans (by linarith))

/-- The picture made of such samples. -/
theorem between_picture_float {M : ℚ} (hM1 : 1 ≤ M) (hM2 : M ≤ 2 ^ 40) {f : Filter} {s b B μ : ℚ} (hf : NonnegKernel f s b B μ)
    {w nw h nh : Nat} (hw0 : 0 < w) (hh0 : 0 < h) (hw : w ≤ 2 ^ 17) (hh : h ≤ 2 ^ 17) (hnw : nw ≤ 2 ^ 17)
    (hnh : nh ≤ 2 ^ 17) (hslw : (1 + s) * w ≤ 2 ^ 19) (hslh : (1 + s) * h ≤ 2 ^ 19)
    (hsx : 2 * s * scale w nw + 9 / 4 ≤ 2 ^ 13) (hsy : 2 * s * scale h nh + 9 / 4 ≤ 2 ^ 13)
    (hmx : ∀ x, x < nw → ∃ i, i < w ∧ |(i : ℚ) + 1 / 2 - centre w nw x| ≤ s * scale w nw + 1 / 4 ∧
      |offset w nw x i| ≤ μ - 1 / 16)
    (hmy : ∀ y, y < nh → ∃ i, i < h ∧ |(i : ℚ) + 1 / 2 - centre h nh y| ≤ s * scale h nh + 1 / 4 ∧
      |offset h nh y i| ≤ μ - 1 / 16)
    {V : Nat → Nat → Fin ch → ℚ} (hc : ch ≤ 4) (hV : ∀ x y, x < w → y < h → ∀ c, |V x y c| ≤ M) :
    ∃ g : Nat → Nat → Fin 4 → ℚ, (∀ x y c, x < nw → y < nh →
        nearestSample Samp.float (rowF f w nw (colF Samp.float f h nh fun x y (c : Fin ch) => .fin (V x y c)) x y c) = .ok (.fin (g x y c))) ∧
      ∀ x y, x < nw → y < nh → ∀ c : Fin ch, ∃ q, fromChannels4 (ch := ch) Samp.float (fun c => .fin (g x y c)) c = .fin q ∧ 0 ≤ q ∧ q ≤ 1 ∧
        ∀ lo hi : ℚ, (∀ i j, i < w → j < h → Reach s w nw x i → Reach s h nh y j → lo ≤ V i j c ∧ V i j c ≤ hi) →
        max 0 (min lo 1) - slackQ M s w nw h nh ≤ q ∧ q ≤ max 0 (min hi 1) + slackQ M s w nw h nh ∧
        (1 + slackQ M s w nw h nh ≤ lo → q = 1) ∧ (hi + slackQ M s w nw h nh ≤ 0 → q = 0) := by
  have key : ∀ x y (c : Fin 4), ∃ g : ℚ, x < nw → y < nh →
      nearestSample Samp.float (rowF f w nw (colF Samp.float f h nh fun x y (c : Fin ch) => .fin (V x y c)) x y c) = .ok (.fin g) ∧ 0 ≤ g ∧ g ≤ 1 ∧
      ∀ lo hi : ℚ, (∀ i j, i < w → j < h → Reach s w nw x i → Reach s h nh y j →
          lo ≤ (if hc : c.val < ch then V i j ⟨c.val, hc⟩ else 1) ∧ (if hc : c.val < ch then V i j ⟨c.val, hc⟩ else 1) ≤ hi) →
        max 0 (min lo 1) - slackQ M s w nw h nh ≤ g ∧ g ≤ max 0 (min hi 1) + slackQ M s w nw h nh ∧
        (1 + slackQ M s w nw h nh ≤ lo → g = 1) ∧ (hi + slackQ M s w nw h nh ≤ 0 → g = 0) := by
    intro x y c
    by_cases hxy : x < nw ∧ y < nh
    · obtain ⟨g, h1⟩ := between_sample_float hM1 hM2 hf hw0 hh0 hw hh hnw hnh hxy.1 hxy.2 hslw hslh hsx hsy (hmx x hxy.1) (hmy y hxy.2)
        (pix := fun x y (c : Fin ch) => .fin (V x y c)) (c := c) (V := fun i j => if hc : c.val < ch then V i j ⟨c.val, hc⟩ else 1)
        (by
          intro x y _ _
          unfold channels4
          split_ifs <;> rfl)
        (by
          intro x y hx hy
          beta_reduce
          split_ifs with h
          · exact hV x y hx hy _
          · simpa using hM1)
      exact ⟨g, fun _ _ => h1⟩
    · exact ⟨0, fun h1 h2 => absurd ⟨h1, h2⟩ hxy⟩
  choose g hg using key
  refine ⟨g, fun x y c hx hy => (hg x y c hx hy).1, ?_⟩
  intro x y hx hy c
  have hc4 : c.val < 4 := by omega
  obtain ⟨-, g2, g3, g4⟩ := hg x y ⟨c.val, hc4⟩ hx hy
  refine ⟨g x y ⟨c.val, hc4⟩, by simp [fromChannels4, hc4], g2, g3, fun lo hi hb => ?_⟩
  refine g4 lo hi fun i j hi hj r1 r2 => ?_
  simpa using hb i j hi hj r1 r2

end Verif
