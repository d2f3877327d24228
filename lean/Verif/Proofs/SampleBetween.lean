import Verif.Props.SampleLinear
import Verif.Proofs.SampleGauss

/-!
# Kernels without negative values keep samples within the range of the source
-/

namespace Verif
open GenericImageView

variable {ch : Nat}

/-- The rounding error of both passes, for a filter of support `s`. -/
def slack (T : Prim) (s : ℚ) (w nw h nh : Nat) : ℚ := 12 * T.max * (s * (scale w nw + scale h nh) + 13 / 4) / 2 ^ 24

/-- One output sample. -/
theorem between_sample {T : Prim} (hT : T.bits ≤ 16) {f : Filter} {s b B μ : ℚ} (hf : NonnegKernel f s b B μ)
    {w nw h nh x y : Nat} (hw0 : 0 < w) (hh0 : 0 < h) (hw : w ≤ 2 ^ 17) (hh : h ≤ 2 ^ 17) (hnw : nw ≤ 2 ^ 17)
    (hnh : nh ≤ 2 ^ 17) (hx : x < nw) (hy : y < nh) (hslw : (1 + s) * w ≤ 2 ^ 19) (hslh : (1 + s) * h ≤ 2 ^ 19)
    (hsx : 2 * s * scale w nw + 9 / 4 ≤ 2 ^ 13) (hsy : 2 * s * scale h nh + 9 / 4 ≤ 2 ^ 13)
    (hmx : ∃ i, i < w ∧ |(i : ℚ) + 1 / 2 - centre w nw x| ≤ s * scale w nw + 1 / 4 ∧ |offset w nw x i| ≤ μ - 1 / 16)
    (hmy : ∃ i, i < h ∧ |(i : ℚ) + 1 / 2 - centre h nh y| ≤ s * scale h nh + 1 / 4 ∧ |offset h nh y i| ≤ μ - 1 / 16)
    {pix : Nat → Nat → Pix Nat ch} (hp : ∀ x y, x < w → y < h → ∀ c, pix x y c ≤ T.max) (c : Fin 4) :
    ∃ g, nearestSample (Samp.uint T) (rowF f w nw (colF (Samp.uint T) f h nh pix) x y c) = .ok g ∧ g ≤ T.max ∧
      ∀ lo hi : Nat, hi ≤ T.max → (∀ i j, i < w → j < h → Reach s w nw x i → Reach s h nh y j →
        lo ≤ channels4 (Samp.uint T) (pix i j) c ∧ channels4 (Samp.uint T) (pix i j) c ≤ hi) →
        (lo : ℚ) - (1 / 2 + slack T s w nw h nh) ≤ g ∧ (g : ℚ) ≤ hi + (1 / 2 + slack T s w nw h nh) := by
  obtain ⟨lx, nx, ax, tx, px, bx, rx, -, -⟩ := hf.taps hw0 hw hx hnw hslw hsx hmx
  obtain ⟨ly, ny, ay, ty, py, bY, ry, -, -⟩ := hf.taps hh0 hh hy hnh hslh hsy hmy
  obtain ⟨t, e1, e2⟩ := two_pass hT tx ty hp c
  obtain ⟨g, g1, g2, g3⟩ := nearestSample_fin hT t
  refine ⟨g, by rw [e1, g1], g2, ?_⟩
  intro lo hi hhi hb
  have hspx := tx.span
  have hspy := ty.span
  set m := mean2 nx ny ax ay fun i j => ((channels4 (Samp.uint T) (pix (lx + i) (ly + j)) c : ℕ) : ℚ)
  have hv : ∀ i j, i < nx → j < ny → lo ≤ channels4 (Samp.uint T) (pix (lx + i) (ly + j)) c ∧
      channels4 (Samp.uint T) (pix (lx + i) (ly + j)) c ≤ hi := by
    intro i j h1 h2
    exact hb _ _ (by omega) (by omega) (rx _ (by omega) (by omega)) (ry _ (by omega) (by omega))
  have hm1 : (lo : ℚ) ≤ m := by
    refine le_meanR px tx.pos fun i h1 => le_meanR py ty.pos fun j h2 => ?_
    beta_reduce
    exact_mod_cast (hv i j h1 h2).1
  have hm2 : m ≤ hi := by
    refine meanR_le px tx.pos fun i h1 => meanR_le py ty.pos fun j h2 => ?_
    beta_reduce
    exact_mod_cast (hv i j h1 h2).2
  have hhi' : (hi : ℚ) ≤ T.max := by exact_mod_cast hhi
  have h0 : (0 : ℚ) ≤ lo := by positivity
  have h4 := clamp_near (t := t) (h0.trans hm1) (hm2.trans hhi')
  have h5 : 6 * 1 ^ 3 * (T.max : ℚ) * (nx + ny + 2) / 2 ^ 24 ≤ slack T s w nw h nh := by
    unfold slack
    have : (6 * (T.max : ℚ)) * (nx + ny + 2) ≤ (6 * T.max) * (2 * s * scale w nw + 2 * s * scale h nh + 13 / 2) :=
      mul_le_mul_of_nonneg_left (by linarith) (by positivity)
    refine div_le_div_of_nonneg_right ?_ (by norm_num)
    linarith [show (12 * (T.max : ℚ)) * (s * (scale w nw + scale h nh) + 13 / 4) =
      (6 * T.max) * (2 * s * scale w nw + 2 * s * scale h nh + 13 / 2) by ring]
  have h6 := (h4.trans e2).trans h5
  rw [abs_le] at h6 g3
  constructor <;> linarith [h6.1, h6.2, g3.1, g3.2]

/-- Without rounding slack the bounds are exact. -/
theorem exact_bounds {lo hi g : Nat} {e : ℚ} (he : e < 1 / 2) (h1 : (lo : ℚ) - (1 / 2 + e) ≤ g)
    (h2 : (g : ℚ) ≤ hi + (1 / 2 + e)) : lo ≤ g ∧ g ≤ hi := by
  constructor
  · have : (lo : ℚ) < g + 1 := by linarith
    have : lo < g + 1 := by exact_mod_cast this
    omega
  · have : (g : ℚ) < hi + 1 := by linarith
    have : g < hi + 1 := by exact_mod_cast this
    omega

/-- The picture made of such samples. -/
theorem between_picture {T : Prim} (hT : T.bits ≤ 16) {f : Filter} {s b B μ : ℚ} (hf : NonnegKernel f s b B μ)
    {w nw h nh : Nat} (hw0 : 0 < w) (hh0 : 0 < h) (hw : w ≤ 2 ^ 17) (hh : h ≤ 2 ^ 17) (hnw : nw ≤ 2 ^ 17)
    (hnh : nh ≤ 2 ^ 17) (hslw : (1 + s) * w ≤ 2 ^ 19) (hslh : (1 + s) * h ≤ 2 ^ 19)
    (hsx : 2 * s * scale w nw + 9 / 4 ≤ 2 ^ 13) (hsy : 2 * s * scale h nh + 9 / 4 ≤ 2 ^ 13)
    (hmx : ∀ x, x < nw → ∃ i, i < w ∧ |(i : ℚ) + 1 / 2 - centre w nw x| ≤ s * scale w nw + 1 / 4 ∧
      |offset w nw x i| ≤ μ - 1 / 16)
    (hmy : ∀ y, y < nh → ∃ i, i < h ∧ |(i : ℚ) + 1 / 2 - centre h nh y| ≤ s * scale h nh + 1 / 4 ∧
      |offset h nh y i| ≤ μ - 1 / 16)
    {pix : Nat → Nat → Pix Nat ch} (hc : ch ≤ 4) (hp : ∀ x y, x < w → y < h → ∀ c, pix x y c ≤ T.max) :
    ∃ g : Nat → Nat → Pix Nat 4, (∀ x y c, x < nw → y < nh →
        nearestSample (Samp.uint T) (rowF f w nw (colF (Samp.uint T) f h nh pix) x y c) = .ok (g x y c)) ∧
      ∀ x y, x < nw → y < nh → ∀ c : Fin ch, fromChannels4 (ch := ch) (Samp.uint T) (g x y) c ≤ T.max ∧
        ∀ lo hi : Nat, hi ≤ T.max → (∀ i j, i < w → j < h → Reach s w nw x i → Reach s h nh y j →
          lo ≤ pix i j c ∧ pix i j c ≤ hi) →
        (lo : ℚ) - (1 / 2 + slack T s w nw h nh) ≤ (fromChannels4 (ch := ch) (Samp.uint T) (g x y) c : Nat) ∧
          ((fromChannels4 (ch := ch) (Samp.uint T) (g x y) c : Nat) : ℚ) ≤ hi + (1 / 2 + slack T s w nw h nh) := by
  have key : ∀ x y c, ∃ g : Nat, x < nw → y < nh →
      nearestSample (Samp.uint T) (rowF f w nw (colF (Samp.uint T) f h nh pix) x y c) = .ok g ∧ g ≤ T.max ∧
      ∀ lo hi : Nat, hi ≤ T.max → (∀ i j, i < w → j < h → Reach s w nw x i → Reach s h nh y j →
        lo ≤ channels4 (Samp.uint T) (pix i j) c ∧ channels4 (Samp.uint T) (pix i j) c ≤ hi) →
        (lo : ℚ) - (1 / 2 + slack T s w nw h nh) ≤ g ∧ (g : ℚ) ≤ hi + (1 / 2 + slack T s w nw h nh) := by
    intro x y c
    by_cases hxy : x < nw ∧ y < nh
    · obtain ⟨g, h1⟩ := between_sample hT hf hw0 hh0 hw hh hnw hnh hxy.1 hxy.2 hslw hslh hsx hsy (hmx x hxy.1) (hmy y hxy.2)
        hp c
      exact ⟨g, fun _ _ => h1⟩
    · exact ⟨0, fun h1 h2 => absurd ⟨h1, h2⟩ hxy⟩
  choose g hg using key
  refine ⟨g, fun x y c hx hy => (hg x y c hx hy).1, ?_⟩
  intro x y hx hy c
  have hc4 : c.val < 4 := by omega
  obtain ⟨-, g2, g3⟩ := hg x y ⟨c.val, hc4⟩ hx hy
  have e' : fromChannels4 (ch := ch) (Samp.uint T) (g x y) c = g x y ⟨c.val, hc4⟩ := by
    simp [fromChannels4, hc4]
  have e : ∀ i j, channels4 (Samp.uint T) (pix i j) ⟨c.val, hc4⟩ = pix i j c := by
    intro i j
    simp [channels4]
  simp only [e] at g3
  rw [e']
  exact ⟨g2, g3⟩

end Verif
