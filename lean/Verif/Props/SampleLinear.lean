import Verif.Proofs.SampleTriangle

/-!
# C82: `resize` with smoothing filters
-/

namespace Verif
open GenericImageView GenericImage LawfulView LawfulImage

variable {ch : Nat}

/-- Sampling with given taps. -/
theorem resize_two {I : Type} [GenericImageView I (Pix Nat ch)] {L : Libm} {T : Prim} (hT : T.bits ≤ 16) {ft : FilterType}
    {img : I} {w h nw nh : Nat} {pix : Nat → Nat → Pix Nat ch} (hd : dims img = (w, h)) (hc : ch ≤ 4)
    (hw0 : 0 < w) (hh0 : 0 < h) (hw : w ≤ 2 ^ 17) (hh : h ≤ 2 ^ 17) (hnw : nw ≤ 2 ^ 17) (hnh : nh ≤ 2 ^ 17)
    (hne : (nw, nh) ≠ (w, h))
    (hp : ∀ x y, x < w → y < h → getPixel img x y = .ok (pix x y)) (hr : ∀ x y, x < w → y < h → ∀ c, pix x y c ≤ T.max)
    {lx nx ly ny : Nat → Nat} {ax ay : Nat → Nat → ℚ} {K : ℚ}
    (tx : ∀ x, x < nw → Taps (ft.method L) w nw x (lx x) (nx x) (ax x) K)
    (ty : ∀ y, y < nh → Taps (ft.method L) h nh y (ly y) (ny y) (ay y) K) :
    ∃ b, resize L (Samp.uint T) img nw nh ft = .ok b ∧ b.width = nw ∧ b.height = nh ∧
      ∀ x y, x < nw → y < nh → ∃ p, b.getPixel x y = .ok p ∧ ∀ c, p c ≤ T.max ∧ ∃ t,
        |t - mean2 (nx x) (ny y) (ax x) (ay y) fun i j => (pix (lx x + i) (ly y + j) c : ℕ)| ≤
          6 * K ^ 3 * T.max * (nx x + ny y + 2) / 2 ^ 24 ∧
        |(p c : ℚ) - max 0 (min t T.max)| ≤ 1 / 2 := by
  have key : ∀ x y c, ∃ g : Nat, x < nw → y < nh →
      nearestSample (Samp.uint T) (rowF (ft.method L) w nw (colF (Samp.uint T) (ft.method L) h nh pix) x y c) = .ok g ∧
      g ≤ T.max ∧ ∃ t, |t - mean2 (nx x) (ny y) (ax x) (ay y) fun i j => (channels4 (Samp.uint T) (pix (lx x + i) (ly y + j)) c : ℕ)| ≤
          6 * K ^ 3 * T.max * (nx x + ny y + 2) / 2 ^ 24 ∧ |(g : ℚ) - max 0 (min t T.max)| ≤ 1 / 2 := by
    intro x y c
    by_cases hxy : x < nw ∧ y < nh
    · obtain ⟨t, e1, e2⟩ := two_pass hT (tx x hxy.1) (ty y hxy.2) hr c
      obtain ⟨g, g1, g2, g3⟩ := nearestSample_fin hT t
      exact ⟨g, fun _ _ => ⟨by rw [e1, g1], g2, t, e2, g3⟩⟩
    · exact ⟨0, fun h1 h2 => absurd ⟨h1, h2⟩ hxy⟩
  choose g hg using key
  have hmul : ∀ a b, a ≤ 2 ^ 17 → b ≤ 2 ^ 17 → a * b * 4 < 2 ^ 64 := by
    intro a b ha hb
    have : a * b ≤ 2 ^ 17 * 2 ^ 17 := Nat.mul_le_mul ha hb
    omega
  have h1 := hmul w nh hw hnh
  have h2 := hmul nw nh hnw hnh
  have h3 : nw * nh * ch ≤ nw * nh * 4 := Nat.mul_le_mul_left _ hc
  obtain ⟨b, e1, e2⟩ := resize_ok (L := L) (S := Samp.uint T) (ft := ft) hd hc hw0 hh0 (by omega) (by omega) (by omega)
    (by omega) hne h1 (by omega) hp g (fun x y c hx hy => (hg x y c hx hy).1)
  refine ⟨b, e1, e2.width, e2.height, ?_⟩
  intro x y hx hy
  refine ⟨_, e2.pixel x y hx hy, ?_⟩
  intro c
  have hc4 : c.val < 4 := by omega
  obtain ⟨-, g2, t, g3, g4⟩ := hg x y ⟨c.val, hc4⟩ hx hy
  have e : ∀ i j, channels4 (Samp.uint T) (pix i j) ⟨c.val, hc4⟩ = pix i j c := by
    intro i j
    simp [channels4]
  have e' : fromChannels4 (ch := ch) (Samp.uint T) (g x y) c = g x y ⟨c.val, hc4⟩ := by
    simp [fromChannels4, hc4]
  rw [e']
  refine ⟨g2, t, ?_, g4⟩
  simp only [e] at g3
  exact g3

theorem clamp_near {t m M : ℚ} (h0 : 0 ≤ m) (h1 : m ≤ M) : |max 0 (min t M) - m| ≤ |t - m| := by
  have : m = max 0 (min m M) := by rw [min_eq_left h1, max_eq_right h0]
  have h2 : |max 0 (min t M) - max 0 (min m M)| ≤ |min t M - min m M| := max0_sub_le _ _
  rw [← this] at h2
  refine h2.trans ?_
  have h3 : min m M = m := min_eq_left h1
  rw [h3]
  rcases le_total t M with ht | ht
  · rw [min_eq_left ht]
  · rw [min_eq_right ht, abs_of_nonneg (by linarith), abs_of_nonneg (by linarith)]; linarith

/-- At its own size the triangle filter takes each pixel as it is. -/
theorem tent_same {len o : Nat} (ho : o < len) (v : Nat → ℚ) : weighted len (tent len len o) v = v o := by
  have hl : (len : ℚ) ≠ 0 := by
    have : (0 : ℚ) < len := by exact_mod_cast (by omega : 0 < len)
    exact this.ne'
  have hoff : ∀ i, offset len len o i = (i : ℚ) - o := by
    intro i
    unfold offset centre scale
    rw [div_self hl]
    simp
  have ht : ∀ i, tent len len o i = if i = o then 1 else 0 := by
    intro i
    unfold tent
    rw [hoff]
    split_ifs with h
    · rw [h]; simp
    · refine max_eq_left ?_
      rw [sub_nonpos]
      have : ((i : ℤ) - o).natAbs ≠ 0 := by omega
      have h1 : (1 : ℤ) ≤ |(i : ℤ) - o| := by
        rw [Int.abs_eq_natAbs]; omega
      exact_mod_cast h1
  unfold weighted
  simp only [ht]
  simp [ho]

/-- C82: `resize` with the triangle filter is bilinear resampling: every sample of the result is within about one half
of the exact triangle-weighted mean of the source samples. Enlarging or shrinking, 8-bit or 16-bit samples. -/
theorem C82_triangle {I : Type} [GenericImageView I (Pix Nat ch)] [LawfulView I (Pix Nat ch)] (L : Libm) (T : Prim)
    (hT : T.bits ≤ 16) (img : I) (wf : WF img) (hr : SamplesOk T img) (nw nh : Nat) (hc : ch ≤ 4)
    (hw0 : 0 < widthOf img) (hh0 : 0 < heightOf img) (hw : widthOf img ≤ 2 ^ 17) (hh : heightOf img ≤ 2 ^ 17)
    (hnw : nw ≤ 2 ^ 17) (hnh : nh ≤ 2 ^ 17) (hsx : scale (widthOf img) nw ≤ 4094) (hsy : scale (heightOf img) nh ≤ 4094)
    (pix : Nat → Nat → Pix Nat ch)
    (hp : ∀ x y, x < widthOf img → y < heightOf img → getPixel img x y = .ok (pix x y)) :
    ∃ b, resize L (Samp.uint T) img nw nh .triangle = .ok b ∧ b.width = nw ∧ b.height = nh ∧
      ∀ x y, x < nw → y < nh → ∃ p, b.getPixel x y = .ok p ∧ ∀ c, p c ≤ T.max ∧
        |(p c : ℚ) - tentMean (widthOf img) nw x (heightOf img) nh y fun i j => (pix i j c : ℕ)| ≤ 1 / 2 +
          T.max * (20 * ((min (widthOf img) nw : ℕ) + (min (heightOf img) nh : ℕ) + 6) / 2 ^ 22 +
            12 * (scale (widthOf img) nw + scale (heightOf img) nh + 4) / 2 ^ 24) := by
  set w := widthOf img
  set h := heightOf img
  have hM0 : (0 : ℚ) ≤ T.max := by positivity
  have hsw := scale_ge_one w nw
  have hsh := scale_ge_one h nh
  have hr' : ∀ x y, x < w → y < h → ∀ c, pix x y c ≤ T.max := fun x y hx hy c => hr x y _ hx hy (hp x y hx hy) c
  by_cases hne : (nw, nh) = (w, h)
  · -- the image itself
    obtain ⟨rfl, rfl⟩ : nw = w ∧ nh = h := by simpa using hne
    have hs : w * h * ch < 2 ^ 64 := by
      have h1 : w * h ≤ 2 ^ 17 * 2 ^ 17 := Nat.mul_le_mul hw hh
      have h2 : w * h * ch ≤ w * h * 4 := Nat.mul_le_mul_left _ hc
      omega
    obtain ⟨b, e1, e2, e3, e4⟩ := C81_same_size L (Samp.uint T) img .triangle wf hc hs
    refine ⟨b, e1, e2, e3, ?_⟩
    intro x y hx hy
    refine ⟨pix x y, by rw [e4 x y hx hy, hp x y hx hy], fun c => ⟨hr' x y hx hy c, ?_⟩⟩
    have e : tentMean w w x h h y (fun i j => ((pix i j c : ℕ) : ℚ)) = (pix x y c : ℕ) := by
      unfold tentMean
      rw [tent_same hx, tent_same hy]
    rw [e, sub_self, abs_zero]
    have : 0 ≤ T.max * (20 * (((min w w : ℕ) : ℚ) + (min h h : ℕ) + 6) / 2 ^ 22 + 12 * (scale w w + scale h h + 4) / 2 ^ 24) := by
      positivity
    linarith
  have kx : ∀ x, ∃ (left n : Nat) (a : Nat → ℚ), x < nw → Taps (FilterType.triangle.method L) w nw x left n a 1 ∧
      (∀ k, k < n → 0 ≤ a k) ∧ n ≤ 2 * scale w nw + 9 / 4 ∧
      ∀ (V : Nat → ℚ) (M : ℚ), (∀ i, i < w → 0 ≤ V i ∧ V i ≤ M) →
        |meanR n a (fun k => V (left + k)) - weighted w (tent w nw x) V| ≤ 20 * M * ((min w nw : ℕ) + 3) / 2 ^ 22 := by
    intro x
    by_cases hx : x < nw
    · obtain ⟨l, n, a, h1⟩ := triangle_axis L hw0 hw hx hnw hsx
      exact ⟨l, n, a, fun _ => h1⟩
    · exact ⟨0, 0, fun _ => 0, fun hx' => absurd hx' hx⟩
  have ky : ∀ y, ∃ (left n : Nat) (a : Nat → ℚ), y < nh → Taps (FilterType.triangle.method L) h nh y left n a 1 ∧
      (∀ k, k < n → 0 ≤ a k) ∧ n ≤ 2 * scale h nh + 9 / 4 ∧
      ∀ (V : Nat → ℚ) (M : ℚ), (∀ i, i < h → 0 ≤ V i ∧ V i ≤ M) →
        |meanR n a (fun k => V (left + k)) - weighted h (tent h nh y) V| ≤ 20 * M * ((min h nh : ℕ) + 3) / 2 ^ 22 := by
    intro y
    by_cases hy : y < nh
    · obtain ⟨l, n, a, h1⟩ := triangle_axis L hh0 hh hy hnh hsy
      exact ⟨l, n, a, fun _ => h1⟩
    · exact ⟨0, 0, fun _ => 0, fun hy' => absurd hy' hy⟩
  choose lx nx ax hx using kx
  choose ly ny ay hy using ky
  obtain ⟨b, e1, e2, e3, e4⟩ := resize_two (L := L) (ft := .triangle) hT (rfl : dims img = (w, h)) hc hw0 hh0 hw hh hnw hnh
    hne hp hr' (fun x h => (hx x h).1) (fun y h => (hy y h).1)
  refine ⟨b, e1, e2, e3, ?_⟩
  intro x y hx' hy'
  obtain ⟨p, p1, p2⟩ := e4 x y hx' hy'
  refine ⟨p, p1, fun c => ⟨(p2 c).1, ?_⟩⟩
  obtain ⟨-, t, q1, q2⟩ := p2 c
  obtain ⟨tx, nnx, bx, mx⟩ := hx x hx'
  obtain ⟨ty, nny, bY, my⟩ := hy y hy'
  have hspx := tx.span
  have hspy := ty.span
  set M : ℚ := (T.max : ℚ)
  set V : Nat → Nat → ℚ := fun i j => ((pix i j c : ℕ) : ℚ) with hV
  have hV01 : ∀ i j, i < w → j < h → 0 ≤ V i j ∧ V i j ≤ M := by
    intro i j hi hj
    exact ⟨by rw [hV]; positivity, by show ((pix i j c : ℕ) : ℚ) ≤ (T.max : ℚ); exact_mod_cast hr' i j hi hj c⟩
  -- columns
  set C : Nat → ℚ := fun i => meanR (ny y) (ay y) fun j => V i (ly y + j) with hC
  have hC01 : ∀ i, i < w → 0 ≤ C i ∧ C i ≤ M := by
    intro i hi
    exact ⟨le_meanR nny ty.pos fun j hj => (hV01 i _ hi (by omega)).1, meanR_le nny ty.pos fun j hj => (hV01 i _ hi (by omega)).2⟩
  set D : Nat → ℚ := fun i => weighted h (tent h nh y) fun j => V i j with hD
  have htent : ∀ len newLen o, 0 < len → o < newLen → 0 < sumR len (tent len newLen o) := by
    intro len newLen o h0 ho
    obtain ⟨i, i1, i2⟩ := central h0 ho
    have hs := scale_ge_one len newLen
    have h1 := sumR_single (f := tent len newLen o) (n := len) (fun i _ => le_max_left _ _) i1
    have h2 : 1 / 2 ≤ tent len newLen o i := by
      unfold tent offset
      refine le_trans ?_ (le_max_right _ _)
      rw [abs_div, abs_of_pos (by linarith : 0 < scale len newLen)]
      have : |(i : ℚ) + 1 / 2 - centre len newLen o| / scale len newLen ≤ 1 / 2 := by
        rw [div_le_iff₀ (by linarith)]; linarith
      linarith
    linarith
  have hDC : ∀ i, i < w → |C i - D i| ≤ 20 * M * ((min h nh : ℕ) + 3) / 2 ^ 22 := by
    intro i hi
    exact my (V i) M fun j hj => hV01 i j hi hj
  have hD01 : ∀ i, i < w → 0 ≤ D i ∧ D i ≤ M := by
    intro i hi
    rw [hD]
    simp only [weighted_eq]
    exact ⟨le_meanR (fun j _ => le_max_left _ _) (htent _ _ _ hh0 hy') fun j hj => (hV01 i j hi hj).1,
      meanR_le (fun j _ => le_max_left _ _) (htent _ _ _ hh0 hy') fun j hj => (hV01 i j hi hj).2⟩
  have hm2 : mean2 (nx x) (ny y) (ax x) (ay y) (fun i j => V (lx x + i) (ly y + j)) =
      meanR (nx x) (ax x) fun i => C (lx x + i) := rfl
  rw [hm2] at q1
  have s1 : |(meanR (nx x) (ax x) fun i => C (lx x + i)) - meanR (nx x) (ax x) fun i => D (lx x + i)| ≤
      20 * M * ((min h nh : ℕ) + 3) / 2 ^ 22 := by
    refine meanR_near nnx tx.pos fun i hi => hDC _ (by omega)
  have s2 := mx D M hD01
  have htm : tentMean w nw x h nh y V = weighted w (tent w nw x) D := rfl
  rw [htm]
  have hE0 : 0 ≤ weighted w (tent w nw x) D ∧ weighted w (tent w nw x) D ≤ M := by
    rw [weighted_eq]
    exact ⟨le_meanR (fun j _ => le_max_left _ _) (htent _ _ _ hw0 hx') fun j hj => (hD01 j hj).1,
      meanR_le (fun j _ => le_max_left _ _) (htent _ _ _ hw0 hx') fun j hj => (hD01 j hj).2⟩
  have s3 := clamp_near (t := t) hE0.1 hE0.2
  set Z := weighted w (tent w nw x) D
  have s4 : |t - Z| ≤ 6 * 1 ^ 3 * M * (nx x + ny y + 2) / 2 ^ 24 + 20 * M * ((min h nh : ℕ) + 3) / 2 ^ 22 +
      20 * M * ((min w nw : ℕ) + 3) / 2 ^ 22 := by
    have e : t - Z = (t - meanR (nx x) (ax x) fun i => C (lx x + i)) +
      ((meanR (nx x) (ax x) fun i => C (lx x + i)) - meanR (nx x) (ax x) fun i => D (lx x + i)) +
      ((meanR (nx x) (ax x) fun i => D (lx x + i)) - Z) := by ring
    rw [e]
    refine (abs_add_le _ _).trans (add_le_add ((abs_add_le _ _).trans (add_le_add q1 s1)) s2)
  have e : (p c : ℚ) - Z = ((p c : ℚ) - max 0 (min t M)) + (max 0 (min t M) - Z) := by ring
  rw [e]
  refine (abs_add_le _ _).trans ?_
  have s5 : 6 * 1 ^ 3 * M * (nx x + ny y + 2) / 2 ^ 24 ≤ M * (12 * (scale w nw + scale h nh + 4) / 2 ^ 24) := by
    have : M * (6 * ((nx x : ℚ) + ny y + 2) / 2 ^ 24) ≤ M * (12 * (scale w nw + scale h nh + 4) / 2 ^ 24) := by
      refine mul_le_mul_of_nonneg_left (div_le_div_of_nonneg_right ?_ (by norm_num)) hM0
      linarith
    linarith [show 6 * 1 ^ 3 * M * ((nx x : ℚ) + ny y + 2) / 2 ^ 24 = M * (6 * ((nx x : ℚ) + ny y + 2) / 2 ^ 24) by ring]
  linarith [show M * (20 * (((min w nw : ℕ) : ℚ) + (min h nh : ℕ) + 6) / 2 ^ 22 + 12 * (scale w nw + scale h nh + 4) / 2 ^ 24) =
    20 * M * ((min h nh : ℕ) + 3) / 2 ^ 22 + 20 * M * ((min w nw : ℕ) + 3) / 2 ^ 22 + M * (12 * (scale w nw + scale h nh + 4) / 2 ^ 24) by ring]

end Verif
