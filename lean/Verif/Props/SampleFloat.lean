import Verif.Proofs.SampleFloat
import Verif.Props.SampleBetween
import Verif.Props.Blur

/-!
# C119: resizing and blurring of `f32` pictures

The samples of the source are the finite floats `.fin (val x y c)`. `C119_within`, `C119_triangle` and `C119_blur` are for samples between 0 and 1, the range
that the library documents for `f32` samples; `C119_clip_false` shows that larger samples are lost.
-/

namespace Verif
open GenericImageView GenericImage LawfulView LawfulImage

variable {ch : Nat}

theorem unit_clamp_self {q : ℚ} (h0 : 0 ≤ q) (h1 : q ≤ 1) : max 0 (min q 1) = q := by rw [min_eq_left h1, max_eq_right h0]

/-- `resize` to another size with a smoothing filter, samples of any magnitude: no sample is outside the range of the source samples within reach, cut to
`0 ..= 1`, up to rounding. -/
theorem resize_float {I : Type} [GenericImageView I (Pix Fl ch)] (L : Libm) {M : ℚ} (hM1 : 1 ≤ M) (hM2 : M ≤ 2 ^ 40) (ft : FilterType)
    (hft : Smoothing L ft) (img : I) (nw nh : Nat) (hc : ch ≤ 4)
    (hw0 : 0 < widthOf img) (hh0 : 0 < heightOf img) (hw : widthOf img ≤ 2 ^ 17) (hh : heightOf img ≤ 2 ^ 17)
    (hnw : nw ≤ 2 ^ 17) (hnh : nh ≤ 2 ^ 17) (hsx : ft.reach * scale (widthOf img) nw ≤ 4094)
    (hsy : ft.reach * scale (heightOf img) nh ≤ 4094) (hne : (nw, nh) ≠ (widthOf img, heightOf img)) (val : Nat → Nat → Fin ch → ℚ)
    (hp : ∀ x y, x < widthOf img → y < heightOf img → getPixel img x y = .ok (fun c => .fin (val x y c)))
    (hv : ∀ x y, x < widthOf img → y < heightOf img → ∀ c, |val x y c| ≤ M) :
    ∃ b, resize L Samp.float img nw nh ft = .ok b ∧ b.width = nw ∧ b.height = nh ∧
      ∀ x y, x < nw → y < nh → ∃ p, b.getPixel x y = .ok p ∧ ∀ c, ∃ q, p c = .fin q ∧ 0 ≤ q ∧ q ≤ 1 ∧
        ∀ lo hi : ℚ,
          (∀ i j, i < widthOf img → j < heightOf img → Reach ft.reach (widthOf img) nw x i →
            Reach ft.reach (heightOf img) nh y j → lo ≤ val i j c ∧ val i j c ≤ hi) →
          max 0 (min lo 1) - slackQ M ft.reach (widthOf img) nw (heightOf img) nh ≤ q ∧
            q ≤ max 0 (min hi 1) + slackQ M ft.reach (widthOf img) nw (heightOf img) nh ∧
            (1 + slackQ M ft.reach (widthOf img) nw (heightOf img) nh ≤ lo → q = 1) ∧
            (hi + slackQ M ft.reach (widthOf img) nw (heightOf img) nh ≤ 0 → q = 0) := by
  obtain ⟨b0, B0, hk⟩ := hft.kernel
  obtain ⟨r1, r2⟩ := hft.reach_bounds
  set w := widthOf img
  set h := heightOf img
  have hlen : ∀ n : Nat, n ≤ 2 ^ 17 → (1 + ft.reach) * n ≤ 2 ^ 19 := by
    intro n hn
    have : (n : ℚ) ≤ 2 ^ 17 := by exact_mod_cast hn
    calc (1 + ft.reach) * n ≤ 4 * 2 ^ 17 := by gcongr; linarith
      _ = 2 ^ 19 := by norm_num
  obtain ⟨g, g1, g2⟩ := between_picture_float hM1 hM2 hk hw0 hh0 hw hh hnw hnh (hlen w hw) (hlen h hh)
    (by linarith [show (2 : ℚ) ^ 13 = 8192 by norm_num]) (by linarith [show (2 : ℚ) ^ 13 = 8192 by norm_num])
    (fun x hx => central_mid (by linarith) hw0 hx) (fun y hy => central_mid (by linarith) hh0 hy) hc hv
  have hmul : ∀ a b, a ≤ 2 ^ 17 → b ≤ 2 ^ 17 → a * b * 4 < 2 ^ 64 := by
    intro a b ha hb
    have : a * b ≤ 2 ^ 17 * 2 ^ 17 := Nat.mul_le_mul ha hb
    omega
  have h1 := hmul w nh hw hnh
  have h2 := hmul nw nh hnw hnh
  have h3 : nw * nh * ch ≤ nw * nh * 4 := Nat.mul_le_mul_left _ hc
  obtain ⟨b, e1, e2⟩ := resize_ok (L := L) (S := Samp.float) (ft := ft) (rfl : dims img = (w, h)) hc hw0 hh0
    (show w < 2 ^ 32 by omega) (show h < 2 ^ 32 by omega) (by omega) (by omega) hne h1 (by omega) hp (fun x y c => .fin (g x y c)) g1
  exact ⟨b, e1, e2.width, e2.height, fun x y hx hy => ⟨_, e2.pixel x y hx hy, g2 x y hx hy⟩⟩

/-- **C119: `resize` of an `f32` image with the triangle or Gaussian filter**, samples between 0 and 1: the call succeeds, and no sample of the result is outside
the range of the source samples within the filter's reach, up to rounding errors. -/
theorem C119_within {I : Type} [GenericImageView I (Pix Fl ch)] [LawfulView I (Pix Fl ch)] (L : Libm) (ft : FilterType)
    (hft : Smoothing L ft) (img : I) (wf : WF img) (nw nh : Nat) (hc : ch ≤ 4)
    (hw0 : 0 < widthOf img) (hh0 : 0 < heightOf img) (hw : widthOf img ≤ 2 ^ 17) (hh : heightOf img ≤ 2 ^ 17)
    (hnw : nw ≤ 2 ^ 17) (hnh : nh ≤ 2 ^ 17) (hsx : ft.reach * scale (widthOf img) nw ≤ 4094)
    (hsy : ft.reach * scale (heightOf img) nh ≤ 4094) (val : Nat → Nat → Fin ch → ℚ)
    (hp : ∀ x y, x < widthOf img → y < heightOf img → getPixel img x y = .ok (fun c => .fin (val x y c)))
    (hv : ∀ x y, x < widthOf img → y < heightOf img → ∀ c, 0 ≤ val x y c ∧ val x y c ≤ 1) :
    ∃ b, resize L Samp.float img nw nh ft = .ok b ∧ b.width = nw ∧ b.height = nh ∧
      ∀ x y, x < nw → y < nh → ∃ p, b.getPixel x y = .ok p ∧ ∀ c, ∃ q, p c = .fin q ∧ 0 ≤ q ∧ q ≤ 1 ∧
        ∀ lo hi : ℚ, 0 ≤ lo → hi ≤ 1 →
          (∀ i j, i < widthOf img → j < heightOf img → Reach ft.reach (widthOf img) nw x i →
            Reach ft.reach (heightOf img) nh y j → lo ≤ val i j c ∧ val i j c ≤ hi) →
          lo - 12 * (ft.reach * (scale (widthOf img) nw + scale (heightOf img) nh) + 13 / 4) / 2 ^ 24 ≤ q ∧
            q ≤ hi + 12 * (ft.reach * (scale (widthOf img) nw + scale (heightOf img) nh) + 13 / 4) / 2 ^ 24 := by
  obtain ⟨r1, r2⟩ := hft.reach_bounds
  have hsw := scale_ge_one (widthOf img) nw
  have hsh := scale_ge_one (heightOf img) nh
  by_cases hne : (nw, nh) = (widthOf img, heightOf img)
  · set w := widthOf img
    set h := heightOf img
    obtain ⟨rfl, rfl⟩ : nw = w ∧ nh = h := by simpa using hne
    have hs : w * h * ch < 2 ^ 64 := by
      have h1 : w * h ≤ 2 ^ 17 * 2 ^ 17 := Nat.mul_le_mul hw hh
      have h2 : w * h * ch ≤ w * h * 4 := Nat.mul_le_mul_left _ hc
      omega
    obtain ⟨b, e1, e2, e3, e4⟩ := C81_same_size L Samp.float img ft wf hc hs
    refine ⟨b, e1, e2, e3, ?_⟩
    intro x y hx hy
    refine ⟨_, by rw [e4 x y hx hy, hp x y hx hy], fun c => ⟨val x y c, rfl, (hv x y hx hy c).1, (hv x y hx hy c).2, ?_⟩⟩
    intro lo hi _ _ hb
    obtain ⟨h1, h2⟩ := hb x y hx hy (reach_self (by linarith) hx) (reach_self (by linarith) hy)
    have : 0 ≤ 12 * (ft.reach * (scale w w + scale h h) + 13 / 4) / 2 ^ 24 := by positivity
    constructor <;> linarith
  · obtain ⟨b, e1, e2, e3, e4⟩ := resize_float L le_rfl (by norm_num) ft hft img nw nh hc hw0 hh0 hw hh hnw hnh hsx hsy hne val hp
      (fun x y hx hy c => by rw [abs_of_nonneg (hv x y hx hy c).1]; exact (hv x y hx hy c).2)
    refine ⟨b, e1, e2, e3, fun x y hx hy => ?_⟩
    obtain ⟨p, p1, p2⟩ := e4 x y hx hy
    refine ⟨p, p1, fun c => ?_⟩
    obtain ⟨q, q1, q2, q3, q4⟩ := p2 c
    refine ⟨q, q1, q2, q3, fun lo hi h0 h1 hb => ?_⟩
    have hb' := q4 lo hi hb
    obtain ⟨i, hi, ri⟩ : ∃ i, i < widthOf img ∧ Reach ft.reach (widthOf img) nw x i := by
      obtain ⟨i, i1, i2⟩ := central hw0 hx
      refine ⟨i, i1, i2.trans ?_⟩
      nlinarith
    obtain ⟨j, hj, rj⟩ : ∃ j, j < heightOf img ∧ Reach ft.reach (heightOf img) nh y j := by
      obtain ⟨i, i1, i2⟩ := central hh0 hy
      refine ⟨i, i1, i2.trans ?_⟩
      nlinarith
    have hlh := hb i j hi hj ri rj
    rw [unit_clamp_self h0 (by linarith [hlh.1, hlh.2]), unit_clamp_self (by linarith [hlh.1, hlh.2]) h1] at hb'
    unfold slackQ at hb'
    rw [mul_one] at hb'
    exact ⟨hb'.1, hb'.2.1⟩

/-- **C119: `resize` of an `f32` image with the triangle filter is bilinear resampling**, samples between 0 and 1. -/
theorem C119_triangle {I : Type} [GenericImageView I (Pix Fl ch)] [LawfulView I (Pix Fl ch)] (L : Libm)
    (img : I) (wf : WF img) (nw nh : Nat) (hc : ch ≤ 4)
    (hw0 : 0 < widthOf img) (hh0 : 0 < heightOf img) (hw : widthOf img ≤ 2 ^ 17) (hh : heightOf img ≤ 2 ^ 17)
    (hnw : nw ≤ 2 ^ 17) (hnh : nh ≤ 2 ^ 17) (hsx : scale (widthOf img) nw ≤ 4094) (hsy : scale (heightOf img) nh ≤ 4094)
    (val : Nat → Nat → Fin ch → ℚ)
    (hp : ∀ x y, x < widthOf img → y < heightOf img → getPixel img x y = .ok (fun c => .fin (val x y c)))
    (hv : ∀ x y, x < widthOf img → y < heightOf img → ∀ c, 0 ≤ val x y c ∧ val x y c ≤ 1) :
    ∃ b, resize L Samp.float img nw nh .triangle = .ok b ∧ b.width = nw ∧ b.height = nh ∧
      ∀ x y, x < nw → y < nh → ∃ p, b.getPixel x y = .ok p ∧ ∀ c, ∃ q, p c = .fin q ∧
        |q - tentMean (widthOf img) nw x (heightOf img) nh y fun i j => val i j c| ≤
          20 * ((min (widthOf img) nw : ℕ) + (min (heightOf img) nh : ℕ) + 6) / 2 ^ 22 +
            12 * (scale (widthOf img) nw + scale (heightOf img) nh + 4) / 2 ^ 24 := by
  set w := widthOf img
  set h := heightOf img
  have hM0 : (0 : ℚ) ≤ 1 := by norm_num
  have hsw := scale_ge_one w nw
  have hsh := scale_ge_one h nh
  by_cases hne : (nw, nh) = (w, h)
  · -- the image itself
    obtain ⟨rfl, rfl⟩ : nw = w ∧ nh = h := by simpa using hne
    have hs : w * h * ch < 2 ^ 64 := by
      have h1 : w * h ≤ 2 ^ 17 * 2 ^ 17 := Nat.mul_le_mul hw hh
      have h2 : w * h * ch ≤ w * h * 4 := Nat.mul_le_mul_left _ hc
      omega
    obtain ⟨b, e1, e2, e3, e4⟩ := C81_same_size L Samp.float img .triangle wf hc hs
    refine ⟨b, e1, e2, e3, ?_⟩
    intro x y hx hy
    refine ⟨_, by rw [e4 x y hx hy, hp x y hx hy], fun c => ⟨val x y c, rfl, ?_⟩⟩
    have e : tentMean w w x h h y (fun i j => val i j c) = val x y c := by
      unfold tentMean
      rw [tent_same hx, tent_same hy]
    rw [e, sub_self, abs_zero]
    positivity
  have kx : ∀ x, ∃ (left n : Nat) (a : Nat → ℚ), x < nw → Taps (FilterType.triangle.method L) w nw x left n a 1 ∧
      (∀ k, k < n → 0 ≤ a k) ∧ n ≤ 2 * scale w nw + 9 / 4 ∧
      ∀ (V : Nat → ℚ) (M : ℚ), (∀ i, i < w → 0 ≤ V i ∧ V i ≤ M) →
        |meanR n a (fun k => V (left + k)) - weighted w (tent w nw x) V| ≤ 20 * M * ((min w nw : ℕ) + 3) / 2 ^ 22 := by
    intro x
    by_cases hx : x < nw
    · obtain ⟨l, n, a, h1⟩ := triangle_axis L hw0 hw hx hnw hsx
      exact ⟨l, n, a, fun _ => h1⟩
    · exact ⟨0, 0, fun _ => 0, fun hx' => absurd hx' hx⟩
  have ky : ∀ y, ∃ (left n : Nat) (a : Nat → ℚ), y < nh → Taps (FilterType.triangle.method L) h nh y left n a 1 ∧
      (∀ k, k < n → 0 ≤ a k) ∧ n ≤ 2 * scale h nh + 9 / 4 ∧
      ∀ (V : Nat → ℚ) (M : ℚ), (∀ i, i < h → 0 ≤ V i ∧ V i ≤ M) →
        |meanR n a (fun k => V (left + k)) - weighted h (tent h nh y) V| ≤ 20 * M * ((min h nh : ℕ) + 3) / 2 ^ 22 := by
    intro y
    by_cases hy : y < nh
    · obtain ⟨l, n, a, h1⟩ := triangle_axis L hh0 hh hy hnh hsy
      exact ⟨l, n, a, fun _ => h1⟩
    · exact ⟨0, 0, fun _ => 0, fun hy' => absurd hy' hy⟩
  choose lx nx ax hx using kx
  choose ly ny ay hy using ky
  have key : ∀ x y (c : Fin 4), ∃ t : ℚ, x < nw → y < nh →
      rowF (FilterType.triangle.method L) w nw (colF Samp.float (FilterType.triangle.method L) h nh fun x y (c : Fin ch) => .fin (val x y c)) x y c = .fin t ∧
      |t - mean2 (nx x) (ny y) (ax x) (ay y) fun i j => if hc : c.val < ch then val (lx x + i) (ly y + j) ⟨c.val, hc⟩ else 1| ≤
        6 * 1 ^ 3 * 1 * (nx x + ny y + 2) / 2 ^ 24 := by
    intro x y c
    by_cases hxy : x < nw ∧ y < nh
    · obtain ⟨t, h1⟩ := two_pass_gen (S := Samp.float) (M := 1) le_rfl (by norm_num) (hx x hxy.1).1 (hy y hxy.2).1
        (pix := fun x y (c : Fin ch) => .fin (val x y c)) (c := c) (V := fun i j => if hc : c.val < ch then val i j ⟨c.val, hc⟩ else 1)
        (by
          intro x y _ _
          unfold channels4
          split_ifs <;> rfl)
        (by
          intro x y hx hy
          split_ifs with h
          · rw [abs_of_nonneg (hv x y hx hy _).1]; exact (hv x y hx hy _).2
          · norm_num)
      exact ⟨t, fun _ _ => h1⟩
    · exact ⟨0, fun h1 h2 => absurd ⟨h1, h2⟩ hxy⟩
  choose t ht using key
  have hmul : ∀ a b, a ≤ 2 ^ 17 → b ≤ 2 ^ 17 → a * b * 4 < 2 ^ 64 := by
    intro a b ha hb
    have : a * b ≤ 2 ^ 17 * 2 ^ 17 := Nat.mul_le_mul ha hb
    omega
  have z1 := hmul w nh hw hnh
  have z2 := hmul nw nh hnw hnh
  have z3 : nw * nh * ch ≤ nw * nh * 4 := Nat.mul_le_mul_left _ hc
  have hg : ∀ x y c, x < nw → y < nh → nearestSample Samp.float (rowF (FilterType.triangle.method L) w nw
      (colF Samp.float (FilterType.triangle.method L) h nh fun x y (c : Fin ch) => .fin (val x y c)) x y c) = .ok (.fin (max 0 (min (t x y c) 1))) :=
    fun x y c hx hy => by rw [(ht x y c hx hy).1, nearestSample_float]
  obtain ⟨b, e1, e2⟩ := resize_ok (L := L) (S := Samp.float) (ft := .triangle) (rfl : dims img = (w, h)) hc hw0 hh0
    (show w < 2 ^ 32 by omega) (show h < 2 ^ 32 by omega) (by omega) (by omega) hne z1 (by omega) hp (fun x y c => .fin (max 0 (min (t x y c) 1))) hg
  refine ⟨b, e1, e2.width, e2.height, fun x y hx' hy' => ⟨_, e2.pixel x y hx' hy', fun c => ?_⟩⟩
  have hc4 : c.val < 4 := by omega
  refine ⟨max 0 (min (t x y ⟨c.val, hc4⟩) 1), by simp [fromChannels4, hc4], ?_⟩
  have q1 := (ht x y ⟨c.val, hc4⟩ hx' hy').2
  simp only [Fin.is_lt, dif_pos, Fin.eta] at q1
  generalize t x y ⟨c.val, hc4⟩ = t at q1 ⊢
  obtain ⟨tx, nnx, bx, mx⟩ := hx x hx'
  obtain ⟨ty, nny, bY, my⟩ := hy y hy'
  have hspx := tx.span
  have hspy := ty.span
  set V : Nat → Nat → ℚ := fun i j => val i j c with hV
  have hV01 : ∀ i j, i < w → j < h → 0 ≤ V i j ∧ V i j ≤ 1 := fun i j hi hj => hv i j hi hj c
  -- columns
  set C : Nat → ℚ := fun i => meanR (ny y) (ay y) fun j => V i (ly y + j) with hC
  have hC01 : ∀ i, i < w → 0 ≤ C i ∧ C i ≤ 1 := by
    intro i hi
    exact ⟨le_meanR nny ty.pos fun j hj => (hV01 i _ hi (by omega)).1, meanR_le nny ty.pos fun j hj => (hV01 i _ hi (by omega)).2⟩
  set D : Nat → ℚ := fun i => weighted h (tent h nh y) fun j => V i j with hD
  have htent : ∀ len newLen o, 0 < len → o < newLen → 0 < sumR len (tent len newLen o) := by
    intro len newLen o h0 ho
    obtain ⟨i, i1, i2⟩ := central h0 ho
    have hs := scale_ge_one len newLen
    have h1 := sumR_single (f := tent len newLen o) (n := len) (fun i _ => le_max_left _ _) i1
    have h2 : 1 / 2 ≤ tent len newLen o i := by
      unfold tent offset
      refine le_trans ?_ (le_max_right _ _)
      rw [abs_div, abs_of_pos (by linarith : 0 < scale len newLen)]
      have : |(i : ℚ) + 1 / 2 - centre len newLen o| / scale len newLen ≤ 1 / 2 := by
        rw [div_le_iff₀ (by linarith)]; linarith
      linarith
    linarith
  have hDC : ∀ i, i < w → |C i - D i| ≤ 20 * 1 * ((min h nh : ℕ) + 3) / 2 ^ 22 := by
    intro i hi
    exact my (V i) 1 fun j hj => hV01 i j hi hj
  have hD01 : ∀ i, i < w → 0 ≤ D i ∧ D i ≤ 1 := by
    intro i hi
    rw [hD]
    simp only [weighted_eq]
    exact ⟨le_meanR (fun j _ => le_max_left _ _) (htent _ _ _ hh0 hy') fun j hj => (hV01 i j hi hj).1,
      meanR_le (fun j _ => le_max_left _ _) (htent _ _ _ hh0 hy') fun j hj => (hV01 i j hi hj).2⟩
  have hm2 : mean2 (nx x) (ny y) (ax x) (ay y) (fun i j => V (lx x + i) (ly y + j)) =
      meanR (nx x) (ax x) fun i => C (lx x + i) := rfl
  rw [hm2] at q1
  have s1 : |(meanR (nx x) (ax x) fun i => C (lx x + i)) - meanR (nx x) (ax x) fun i => D (lx x + i)| ≤
      20 * 1 * ((min h nh : ℕ) + 3) / 2 ^ 22 := by
    refine meanR_near nnx tx.pos fun i hi => hDC _ (by omega)
  have s2 := mx D 1 hD01
  have htm : tentMean w nw x h nh y V = weighted w (tent w nw x) D := rfl
  rw [htm]
  have hE0 : 0 ≤ weighted w (tent w nw x) D ∧ weighted w (tent w nw x) D ≤ 1 := by
    rw [weighted_eq]
    exact ⟨le_meanR (fun j _ => le_max_left _ _) (htent _ _ _ hw0 hx') fun j hj => (hD01 j hj).1,
      meanR_le (fun j _ => le_max_left _ _) (htent _ _ _ hw0 hx') fun j hj => (hD01 j hj).2⟩
  have s3 := clamp_near (t := t) hE0.1 hE0.2
  set Z := weighted w (tent w nw x) D
  have s4 : |t - Z| ≤ 6 * 1 ^ 3 * 1 * (nx x + ny y + 2) / 2 ^ 24 + 20 * 1 * ((min h nh : ℕ) + 3) / 2 ^ 22 +
      20 * 1 * ((min w nw : ℕ) + 3) / 2 ^ 22 := by
    have e : t - Z = (t - meanR (nx x) (ax x) fun i => C (lx x + i)) +
      ((meanR (nx x) (ax x) fun i => C (lx x + i)) - meanR (nx x) (ax x) fun i => D (lx x + i)) +
      ((meanR (nx x) (ax x) fun i => D (lx x + i)) - Z) := by ring
    rw [e]
    refine (abs_add_le _ _).trans (add_le_add ((abs_add_le _ _).trans (add_le_add q1 s1)) s2)
  refine s3.trans (s4.trans ?_)
  have s5 : 6 * 1 ^ 3 * 1 * (nx x + ny y + 2) / 2 ^ 24 ≤ 1 * (12 * (scale w nw + scale h nh + 4) / 2 ^ 24) := by
    have : 1 * (6 * ((nx x : ℚ) + ny y + 2) / 2 ^ 24) ≤ 1 * (12 * (scale w nw + scale h nh + 4) / 2 ^ 24) := by
      refine mul_le_mul_of_nonneg_left (div_le_div_of_nonneg_right ?_ (by norm_num)) hM0
      linarith
    linarith [show 6 * 1 ^ 3 * 1 * ((nx x : ℚ) + ny y + 2) / 2 ^ 24 = 1 * (6 * ((nx x : ℚ) + ny y + 2) / 2 ^ 24) by ring]
  linarith [show 1 * (20 * (((min w nw : ℕ) : ℚ) + (min h nh : ℕ) + 6) / 2 ^ 22 + 12 * (scale w nw + scale h nh + 4) / 2 ^ 24) =
    20 * 1 * ((min h nh : ℕ) + 3) / 2 ^ 22 + 20 * 1 * ((min w nw : ℕ) + 3) / 2 ^ 22 + 1 * (12 * (scale w nw + scale h nh + 4) / 2 ^ 24) by ring]

/-- `C119_blur`, and the buffer of the result has the right length. -/
theorem blur_float {I : Type} [GenericImageView I (Pix Fl ch)] (L : Libm) (hL : L.Ok) (sigma : ℚ) (hrep : f32.rnd sigma = sigma) (hlo : 1 / 8 ≤ sigma)
    (hhi : sigma ≤ 2047) (img : I) (hc : ch ≤ 4)
    (hw0 : 0 < widthOf img) (hh0 : 0 < heightOf img) (hw : widthOf img ≤ 2 ^ 17) (hh : heightOf img ≤ 2 ^ 17)
    (hsw : (1 + 2 * sigma) * widthOf img ≤ 2 ^ 19) (hsh : (1 + 2 * sigma) * heightOf img ≤ 2 ^ 19)
    (val : Nat → Nat → Fin ch → ℚ)
    (hp : ∀ x y, x < widthOf img → y < heightOf img → getPixel img x y = .ok (fun c => .fin (val x y c)))
    (hv : ∀ x y, x < widthOf img → y < heightOf img → ∀ c, 0 ≤ val x y c ∧ val x y c ≤ 1) :
    ∃ b, blur L Samp.float img (.fin sigma) = .ok b ∧ b.Inv ∧ b.width = widthOf img ∧ b.height = heightOf img ∧
      ∀ x y, x < widthOf img → y < heightOf img → ∃ p, b.getPixel x y = .ok p ∧ ∀ c, ∃ q, p c = .fin q ∧ 0 ≤ q ∧ q ≤ 1 ∧
        ∀ lo hi : ℚ, 0 ≤ lo → hi ≤ 1 →
          (∀ i j, i < widthOf img → j < heightOf img → |(i : ℚ) - x| ≤ 2 * sigma + 5 / 8 → |(j : ℚ) - y| ≤ 2 * sigma + 5 / 8 →
            lo ≤ val i j c ∧ val i j c ≤ hi) →
          lo - 12 * (4 * sigma + 13 / 4) / 2 ^ 24 ≤ q ∧ q ≤ hi + 12 * (4 * sigma + 13 / 4) / 2 ^ 24 := by
  set w := widthOf img
  set h := heightOf img
  have hk := blur_nonneg hL (r := sigma) (by linarith) (by linarith [show (2 : ℚ) ^ 11 = 2048 by norm_num]) (rnd_double hrep) rfl hlo
  have hmid : ∀ {len : Nat}, 0 < len → ∀ x, x < len → ∃ i, i < len ∧
      |(i : ℚ) + 1 / 2 - centre len len x| ≤ 2 * sigma * scale len len + 1 / 4 ∧ |offset len len x i| ≤ 1 / 16 - 1 / 16 := by
    intro len h0 x hx
    obtain ⟨e1, e2⟩ := centre_same (o := x) h0
    refine ⟨x, hx, ?_, ?_⟩
    · rw [e1, e2, sub_self, abs_zero]; linarith
    · unfold offset; rw [e1, e2]; simp
  have ew := (centre_same (o := 0) hw0).2
  have eh := (centre_same (o := 0) hh0).2
  obtain ⟨g, g1, g2⟩ := between_picture_float (M := 1) le_rfl (by norm_num) hk hw0 hh0 hw hh hw hh hsw hsh
    (by rw [ew]; linarith [show (2 : ℚ) ^ 13 = 8192 by norm_num])
    (by rw [eh]; linarith [show (2 : ℚ) ^ 13 = 8192 by norm_num]) (hmid hw0) (hmid hh0) hc
    (fun x y hx hy c => by rw [abs_of_nonneg (hv x y hx hy c).1]; exact (hv x y hx hy c).2)
  have hmul : w * h * 4 < 2 ^ 64 := by
    have : w * h ≤ 2 ^ 17 * 2 ^ 17 := Nat.mul_le_mul hw hh
    omega
  obtain ⟨b, e1, e2⟩ := blur_ok (L := L) (S := Samp.float) (sigma := .fin sigma) (rfl : dims img = (w, h)) hc hw0 hh0
    (show w < 2 ^ 32 by omega) (show h < 2 ^ 32 by omega) hmul hp (fun x y c => .fin (g x y c)) g1
  refine ⟨b, e1, e2.inv, e2.width, e2.height, fun x y hx hy => ⟨_, e2.pixel x y hx hy, fun c => ?_⟩⟩
  obtain ⟨q, q1, q2, q3, q4⟩ := g2 x y hx hy c
  refine ⟨q, q1, q2, q3, fun lo hi h0 h1 hb => ?_⟩
  have hb' := q4 lo hi fun i j hi hj ri rj => hb i j hi hj ?_ ?_
  · have hlh := hb x y hx hy (by rw [sub_self, abs_zero]; linarith) (by rw [sub_self, abs_zero]; linarith)
    rw [unit_clamp_self h0 (by linarith [hlh.1, hlh.2]), unit_clamp_self (by linarith [hlh.1, hlh.2]) h1] at hb'
    unfold slackQ at hb'
    rw [ew, eh, mul_one, show 2 * sigma * (1 + 1) = 4 * sigma by ring] at hb'
    exact ⟨hb'.1, hb'.2.1⟩
  · unfold Reach at ri
    rw [(centre_same hw0).1, ew, mul_one, add_sub_add_right_eq_sub] at ri
    exact ri
  · unfold Reach at rj
    rw [(centre_same hh0).1, eh, mul_one, add_sub_add_right_eq_sub] at rj
    exact rj

/-- **C119: `blur` of an `f32` image**, samples between 0 and 1: the call succeeds, and no sample is outside the range of the samples within `2 * sigma + 5/8`,
up to rounding errors. -/
theorem C119_blur {I : Type} [GenericImageView I (Pix Fl ch)] (L : Libm) (hL : L.Ok) (sigma : ℚ) (hrep : f32.rnd sigma = sigma) (hlo : 1 / 8 ≤ sigma)
    (hhi : sigma ≤ 2047) (img : I) (hc : ch ≤ 4)
    (hw0 : 0 < widthOf img) (hh0 : 0 < heightOf img) (hw : widthOf img ≤ 2 ^ 17) (hh : heightOf img ≤ 2 ^ 17)
    (hsw : (1 + 2 * sigma) * widthOf img ≤ 2 ^ 19) (hsh : (1 + 2 * sigma) * heightOf img ≤ 2 ^ 19)
    (val : Nat → Nat → Fin ch → ℚ)
    (hp : ∀ x y, x < widthOf img → y < heightOf img → getPixel img x y = .ok (fun c => .fin (val x y c)))
    (hv : ∀ x y, x < widthOf img → y < heightOf img → ∀ c, 0 ≤ val x y c ∧ val x y c ≤ 1) :
    ∃ b, blur L Samp.float img (.fin sigma) = .ok b ∧ b.width = widthOf img ∧ b.height = heightOf img ∧
      ∀ x y, x < widthOf img → y < heightOf img → ∃ p, b.getPixel x y = .ok p ∧ ∀ c, ∃ q, p c = .fin q ∧ 0 ≤ q ∧ q ≤ 1 ∧
        ∀ lo hi : ℚ, 0 ≤ lo → hi ≤ 1 →
          (∀ i j, i < widthOf img → j < heightOf img → |(i : ℚ) - x| ≤ 2 * sigma + 5 / 8 → |(j : ℚ) - y| ≤ 2 * sigma + 5 / 8 →
            lo ≤ val i j c ∧ val i j c ≤ hi) →
          lo - 12 * (4 * sigma + 13 / 4) / 2 ^ 24 ≤ q ∧ q ≤ hi + 12 * (4 * sigma + 13 / 4) / 2 ^ 24 := by
  obtain ⟨b, e1, -, e3⟩ := blur_float L hL sigma hrep hlo hhi img hc hw0 hh0 hw hh hsw hsh val hp hv
  exact ⟨b, e1, e3⟩

/-- **C119 is false for samples beyond the range from 0 to 1**, which HDR images have: they are cut, so that an image of which every sample is 2 or more (and at
most 2^16) becomes an image of ones when it is enlarged (or shrunk by at most a quarter). -/
theorem C119_clip_false {I : Type} [GenericImageView I (Pix Fl ch)] (L : Libm) (ft : FilterType)
    (hft : Smoothing L ft) (img : I) (nw nh : Nat) (hc : ch ≤ 4)
    (hw0 : 0 < widthOf img) (hh0 : 0 < heightOf img) (hw : widthOf img ≤ 2 ^ 17) (hh : heightOf img ≤ 2 ^ 17)
    (hnw : nw ≤ 2 ^ 17) (hnh : nh ≤ 2 ^ 17) (hsx : 3 * scale (widthOf img) nw ≤ 4)
    (hsy : 3 * scale (heightOf img) nh ≤ 4) (hne : (nw, nh) ≠ (widthOf img, heightOf img)) (val : Nat → Nat → Fin ch → ℚ)
    (hp : ∀ x y, x < widthOf img → y < heightOf img → getPixel img x y = .ok (fun c => .fin (val x y c)))
    (hv : ∀ x y, x < widthOf img → y < heightOf img → ∀ c, 2 ≤ val x y c ∧ val x y c ≤ 2 ^ 16) :
    ∃ b, resize L Samp.float img nw nh ft = .ok b ∧ b.width = nw ∧ b.height = nh ∧
      ∀ x y, x < nw → y < nh → b.getPixel x y = .ok (fun _ => .fin 1) := by
  obtain ⟨r1, r2⟩ := hft.reach_bounds
  have hsw := scale_ge_one (widthOf img) nw
  have hsh := scale_ge_one (heightOf img) nh
  have k1 : ft.reach * scale (widthOf img) nw ≤ 4 := (mul_le_mul_of_nonneg_right r2 (by linarith)).trans (by linarith)
  have k2 : ft.reach * scale (heightOf img) nh ≤ 4 := (mul_le_mul_of_nonneg_right r2 (by linarith)).trans (by linarith)
  obtain ⟨b, e1, e2, e3, e4⟩ := resize_float L (M := 2 ^ 16) (by norm_num) (by norm_num) ft hft img nw nh hc hw0 hh0 hw hh hnw hnh (by linarith) (by linarith)
    hne val hp (fun x y hx hy c => by
      have := hv x y hx hy c
      rw [abs_of_nonneg (by linarith)]
      exact this.2)
  refine ⟨b, e1, e2, e3, fun x y hx hy => ?_⟩
  obtain ⟨p, p1, p2⟩ := e4 x y hx hy
  rw [p1]
  congr 1
  funext c
  obtain ⟨q, q1, q2, q3, q4⟩ := p2 c
  rw [q1]
  congr 1
  refine (q4 2 (2 ^ 16) fun i j hi hj _ _ => hv i j hi hj c).2.2.1 ?_
  unfold slackQ
  have : 12 * 2 ^ 16 * (ft.reach * (scale (widthOf img) nw + scale (heightOf img) nh) + 13 / 4) / 2 ^ 24 ≤ 12 * 2 ^ 16 * (4 + 4 + 13 / 4) / 2 ^ 24 := by
    refine div_le_div_of_nonneg_right (mul_le_mul_of_nonneg_left ?_ (by norm_num)) (by norm_num)
    rw [mul_add]
    linarith
  norm_num at this ⊢
  linarith

/-! ## Examples -/

/-- A picture of one row: 1/4 and 3/4. -/
def floatPair : ImageBuffer Fl 1 := ⟨2, 1, [.fin (1 / 4), .fin (3 / 4)]⟩

example : ∃ b, resize toyLibm Samp.float floatPair 3 1 .triangle = .ok b ∧ ∀ x, x < 3 → ∃ p q, b.getPixel x 0 = .ok p ∧ p 0 = .fin q ∧ 1 / 5 ≤ q ∧ q ≤ 4 / 5 := by
  have hp : ∀ x y, x < widthOf floatPair → y < heightOf floatPair →
      getPixel floatPair x y = .ok (fun _ => .fin (if x = 0 then 1 / 4 else 3 / 4)) := by
    intro x y hx hy
    have hx : x < 2 := hx
    have hy : y < 1 := hy
    have h : (x = 0 ∨ x = 1) ∧ y = 0 := by omega
    rcases h with ⟨rfl | rfl, rfl⟩ <;> decide +kernel
  obtain ⟨b, e1, -, -, e4⟩ := C119_within toyLibm .triangle (Or.inl rfl) floatPair (show ImageBuffer.Inv _ from ⟨by decide, by decide, by decide, by decide⟩) 3 1 (by decide) (by decide) (by decide) (by decide) (by decide)
    (by decide) (by decide) (by rw [show widthOf floatPair = 2 from rfl]; unfold scale FilterType.reach; norm_num)
    (by rw [show heightOf floatPair = 1 from rfl]; unfold scale FilterType.reach; norm_num) _ hp
    (by intro x y _ _ _; split_ifs <;> norm_num)
  refine ⟨b, e1, fun x hx => ?_⟩
  obtain ⟨p, p1, p2⟩ := e4 x 0 hx (by decide)
  obtain ⟨q, q1, -, -, q4⟩ := p2 0
  have h := q4 (1 / 4) (3 / 4) (by norm_num) (by norm_num) (by intro i j _ _ _ _; split_ifs <;> norm_num)
  rw [show widthOf floatPair = 2 from rfl, show heightOf floatPair = 1 from rfl] at h
  unfold scale FilterType.reach at h
  norm_num at h
  exact ⟨p, q, p1, q1, by linarith [h.1], by linarith [h.2]⟩

end Verif
