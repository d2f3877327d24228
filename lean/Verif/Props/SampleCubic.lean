import Verif.Proofs.SampleSignedPicture

/-!
# C126: `resize` with the Catmull-Rom filter
-/

namespace Verif
open GenericImageView GenericImage LawfulView LawfulImage

variable {ch : Nat}

theorem cubic_signed (L : Libm) : SignedKernel (FilterType.catmullRom.method L) 2 cubic (3 / 2) (1 / 2 ^ 17) where
  support := rfl
  s_lo := by norm_num
  s_hi := by norm_num
  l_lo := by norm_num
  l_hi := by norm_num
  e_lo := by norm_num
  e_hi := by norm_num
  near t u _ _ _ := by
    obtain ⟨k, k1, k2⟩ := cubic_value t
    refine ⟨k, k1, ?_⟩
    have := cubic_lip t u
    have e : k - cubic u = (k - cubic t) + (cubic t - cubic u) := by ring
    rw [e]
    refine (abs_add_le _ _).trans ?_
    linarith
  zero u h := cubic_zero h
  bound u := cubic_le u

theorem cubic_lobed : Lobed cubic (9 / 16) (2 / 27) where
  even := cubic_even
  mid _ := cubic_mid
  inner _ := cubic_pos
  lobe := cubic_lobe
  outer u h := (cubic_zero h).ge
  ν_nonneg := by norm_num
  β_nonneg := by norm_num

theorem cubic_neg {t : ℚ} (h1 : 1 ≤ t) (h2 : t ≤ 2) : cubic t ≤ 0 := by
  rcases h1.eq_or_lt with rfl | h
  · norm_num [cubic]
  · unfold cubic
    rw [abs_of_pos (by linarith), if_neg (by linarith), if_pos h2]
    nlinarith [mul_nonneg (sub_nonneg.2 h1) (sq_nonneg (2 - t))]

theorem cubic_negPair (d : ℚ) (h0 : 0 ≤ d) (h1 : d ≤ 1 / 2) : negPart (cubic (1 + d)) + negPart (cubic (2 - d)) ≤ 1 / 8 := by
  unfold negPart
  rw [max_eq_right (by linarith [cubic_neg (t := 1 + d) (by linarith) (by linarith)]),
    max_eq_right (by linarith [cubic_neg (t := 2 - d) (by linarith) (by linarith)])]
  linarith [cubic_pair h0 h1]

theorem cubic_interp : cubic 0 = 1 ∧ ∀ k : ℤ, k ≠ 0 → cubic k = 0 := by
  refine ⟨by norm_num [cubic], fun k hk => ?_⟩
  have h1 : (1 : ℚ) ≤ |(k : ℚ)| := by
    have : (1 : ℤ) ≤ |k| := Int.one_le_abs hk
    exact_mod_cast this
  rcases h1.eq_or_lt with h | h
  · unfold cubic; rw [← h]; norm_num
  · refine cubic_zero ?_
    have : (1 : ℤ) < |k| := by exact_mod_cast h
    exact_mod_cast (by omega : (2 : ℤ) ≤ |k|)

theorem kernelErr_cubic (len newLen : Nat) :
    kernelErr (3 / 2) (1 / 2 ^ 17) 2 len newLen ≤ 3 / 2 * ((min len newLen : ℕ) + 25) / 2 ^ 22 := by
  unfold kernelErr
  rw [show (1 : ℚ) / 2 ^ 17 = 32 / 2 ^ 22 by norm_num, show (3 : ℚ) / 2 * (((min len newLen : ℕ) + (2 + 1)) / 2 ^ 22) + 32 / 2 ^ 22 =
    (3 / 2 * ((min len newLen : ℕ) + 3) + 32) / 2 ^ 22 by ring]
  gcongr
  linarith

/-- One axis, enlarging. -/
theorem cubic_enlarge_axis (L : Libm) {len newLen o : Nat} (h0 : 0 < len) (h : len ≤ 27000) (ho : o < newLen) (h' : newLen ≤ 2 ^ 17)
    (hle : len ≤ newLen) :
    Axis (FilterType.catmullRom.method L) len newLen o (fun i => cubic (offset len newLen o i)) 2 (25 / 4)
      (75 / 2 * (len + 25) / 2 ^ 22) := by
  have hs : scale len newLen = 1 := by
    unfold scale
    refine max_eq_left ?_
    have : (0 : ℚ) < newLen := by exact_mod_cast (by omega : 0 < newLen)
    rw [div_le_one this]
    exact_mod_cast hle
  have hl : (len : ℚ) ≤ 27000 := by exact_mod_cast h
  obtain ⟨a1, a2⟩ := cubic_lobed.enlarge h0 ho hs cubic_negPair
  have hk := kernelErr_cubic len newLen
  rw [Nat.min_eq_left hle] at hk
  have hax := (cubic_signed L).taps h0 (by omega) ho h' (c := 25 / 4) (E := 1 / 16) (K := 2) (by rw [hs]; norm_num) (by norm_num) (by norm_num) hk
    (by
      rw [show (25 : ℚ) / 4 * (3 / 2 * (len + 25) / 2 ^ 22) = 75 / 8 * (len + 25) / 2 ^ 22 by ring, div_le_iff₀ (by norm_num)]
      norm_num; linarith) (by norm_num) a1 a2 (by norm_num)
  convert hax using 1
  ring

/-- One axis in general. -/
theorem cubic_axis (L : Libm) {len newLen o : Nat} (h0 : 0 < len) (h : len ≤ 2 ^ 17) (ho : o < newLen) (h' : newLen ≤ 2 ^ 17)
    (hm : min len newLen ≤ 11000) (hs : scale len newLen ≤ 511) :
    Axis (FilterType.catmullRom.method L) len newLen o (fun i => cubic (offset len newLen o i)) 4 (4 * scale len newLen + 9 / 4)
      (171 * ((min len newLen : ℕ) + 25) / 2 ^ 22) := by
  obtain ⟨m, m1, m2, a1, a2⟩ := cubic_lobed.shrink (o := o) h0 ho
  have hsc := scale_ge_one len newLen
  have hmq : (1 : ℚ) ≤ m := by exact_mod_cast m1
  have hl : ((min len newLen : ℕ) : ℚ) ≤ 11000 := by exact_mod_cast hm
  have hl0 : (0 : ℚ) ≤ ((min len newLen : ℕ) : ℚ) := by positivity
  have hk := kernelErr_cubic len newLen
  set n : ℚ := ((min len newLen : ℕ) : ℚ) with hn
  set σ := scale len newLen
  have hax := (cubic_signed L).taps (o := o) h0 h ho h' (c := 4 * σ + 9 / 4) (E := 41 / 1000 * m) (K := 4) (A := 115 / 432 * m) (N := 8 / 27 * m)
    (by linarith) (by norm_num) (by linarith [show (2 : ℚ) ^ 13 = 8192 by norm_num]) hk
    (by
      have h1 : 3 / 2 * (n + 25) / 2 ^ 22 ≤ 4 / 1000 := by
        rw [div_le_iff₀ (by norm_num)]; norm_num; linarith
      have h2 : 0 ≤ 3 / 2 * (n + 25) / 2 ^ 22 := by positivity
      calc (4 * σ + 9 / 4) * (3 / 2 * (n + 25) / 2 ^ 22) ≤ (41 / 4 * m) * (4 / 1000) := by
            refine mul_le_mul ?_ h1 h2 (by positivity)
            linarith
        _ = 41 / 1000 * m := by ring)
    (by linarith [show (1 : ℚ) / 2 ^ 60 ≤ 1 / 10 by norm_num]) (le_trans (by linarith) a1) (le_trans a2 (by linarith)) (by linarith)
  obtain ⟨l, k, a, t1, t2, t3⟩ := hax
  refine ⟨l, k, a, t1, t2, fun V lo hi hV hlh => ?_⟩
  obtain ⟨r1, r2⟩ := t3 V lo hi hV hlh
  refine ⟨r1.trans (mul_le_mul_of_nonneg_right ?_ (by linarith)), r2⟩
  rw [show 115 / 432 * (m : ℚ) - 41 / 1000 * m = m * (115 / 432 - 41 / 1000) by ring, div_le_iff₀ (by positivity)]
  have h2 : 0 ≤ (n + 25) / 2 ^ 22 := by positivity
  calc (4 * σ + 9 / 4) * (3 / 2 * (n + 25) / 2 ^ 22) * ((4 + 1) / 2) ≤ (41 / 4 * m) * (3 / 2 * (n + 25) / 2 ^ 22) * ((4 + 1) / 2) := by
        have h3 : 0 ≤ 3 / 2 * (n + 25) / 2 ^ 22 := by positivity
        gcongr
        linarith
    _ = (n + 25) / 2 ^ 22 * m * (41 / 4 * (3 / 2) * ((4 + 1) / 2)) := by ring
    _ ≤ (n + 25) / 2 ^ 22 * m * (171 * (115 / 432 - 41 / 1000)) := by
        refine mul_le_mul_of_nonneg_left (by norm_num) (by positivity)
    _ = 171 * (n + 25) / 2 ^ 22 * (m * (115 / 432 - 41 / 1000)) := by ring

/-- To the same size: a copy, as for the exact filter. -/
theorem cubic_same_size {α : Type} {I : Type} [GenericImageView I (Pix α ch)] [LawfulView I (Pix α ch)] (L : Libm) (S : Samp α) (img : I)
    (wf : WF img) (hc : ch ≤ 4) (hw : widthOf img ≤ 2 ^ 17) (hh : heightOf img ≤ 2 ^ 17) {nw nh : Nat}
    (hne : (nw, nh) = (widthOf img, heightOf img)) :
    ∃ b, resize L S img nw nh .catmullRom = .ok b ∧ b.width = nw ∧ b.height = nh ∧ ∀ x y, x < nw → y < nh →
      b.getPixel x y = getPixel img x y ∧ ∀ v : Nat → Nat → ℚ, cubicMean (widthOf img) nw x (heightOf img) nh y v = v x y := by
  obtain ⟨rfl, rfl⟩ : nw = widthOf img ∧ nh = heightOf img := by simpa using hne
  have hs : widthOf img * heightOf img * ch < 2 ^ 64 := by
    have h1 : widthOf img * heightOf img ≤ 2 ^ 17 * 2 ^ 17 := Nat.mul_le_mul hw hh
    have h2 : widthOf img * heightOf img * ch ≤ widthOf img * heightOf img * 4 := Nat.mul_le_mul_left _ hc
    omega
  obtain ⟨b, e1, e2, e3, e4⟩ := C81_same_size L S img .catmullRom wf hc hs
  refine ⟨b, e1, e2, e3, fun x y hx hy => ⟨e4 x y hx hy, fun v => ?_⟩⟩
  unfold cubicMean
  rw [interp_same cubic_interp.1 cubic_interp.2 hx, interp_same cubic_interp.1 cubic_interp.2 hy]

/-- C126: enlarging with the Catmull-Rom filter is bicubic interpolation: it succeeds, and every sample is the exact bicubic value cut to the
range of the sample type and rounded, up to a small error. -/
theorem C126_enlarge {I : Type} [GenericImageView I (Pix Nat ch)] [LawfulView I (Pix Nat ch)] (L : Libm) (T : Prim)
    (hT : T.bits ≤ 16) (img : I) (wf : WF img) (hr : SamplesOk T img) (nw nh : Nat) (hc : ch ≤ 4)
    (hw0 : 0 < widthOf img) (hh0 : 0 < heightOf img) (hw : widthOf img ≤ 27000) (hh : heightOf img ≤ 27000)
    (hnw : widthOf img ≤ nw) (hnh : heightOf img ≤ nh) (hnw' : nw ≤ 2 ^ 17) (hnh' : nh ≤ 2 ^ 17)
    (pix : Nat → Nat → Pix Nat ch)
    (hp : ∀ x y, x < widthOf img → y < heightOf img → getPixel img x y = .ok (pix x y)) :
    ∃ b, resize L (Samp.uint T) img nw nh .catmullRom = .ok b ∧ b.width = nw ∧ b.height = nh ∧
      ∀ x y, x < nw → y < nh → ∃ p, b.getPixel x y = .ok p ∧ ∀ c, p c ≤ T.max ∧
        |(p c : ℚ) - max 0 (min (cubicMean (widthOf img) nw x (heightOf img) nh y fun i j => (pix i j c : ℕ)) T.max)| ≤
          1 / 2 + T.max * (75 * (widthOf img + heightOf img + 53) / 2 ^ 22) := by
  have hr' : ∀ x y, x < widthOf img → y < heightOf img → ∀ c, pix x y c ≤ T.max := fun x y hx hy c => hr x y _ hx hy (hp x y hx hy) c
  by_cases hne : (nw, nh) = (widthOf img, heightOf img)
  · obtain ⟨b, e1, e2, e3, e4⟩ := cubic_same_size L (Samp.uint T) img wf hc (by omega) (by omega) hne
    refine ⟨b, e1, e2, e3, fun x y hx hy => ?_⟩
    obtain ⟨e5, e6⟩ := e4 x y hx hy
    have hxw : x < widthOf img := by rw [Prod.mk.injEq] at hne; omega
    have hyh : y < heightOf img := by rw [Prod.mk.injEq] at hne; omega
    refine ⟨pix x y, by rw [e5, hp x y hxw hyh], fun c => ⟨hr' x y hxw hyh c, ?_⟩⟩
    rw [e6, min_eq_left (by exact_mod_cast hr' x y hxw hyh c), max_eq_right (by positivity), sub_self, abs_zero]
    have hs1 := scale_ge_one (widthOf img) nw
    have hs2 := scale_ge_one (heightOf img) nh
    positivity
  obtain ⟨b, e1, e2, e3, e4⟩ := signed_picture (L := L) (ft := .catmullRom) (w := widthOf img) (h := heightOf img) hT (rfl : dims img = (widthOf img, heightOf img)) hc hw0 hh0
    (by omega) (by omega) hnw' hnh' hne hp hr' (by norm_num) (by positivity)
    (fun x hx => cubic_enlarge_axis L hw0 hw hx hnw' hnw) (fun y hy => cubic_enlarge_axis L hh0 hh hy hnh' hnh)
  refine ⟨b, e1, e2, e3, fun x y hx hy => ?_⟩
  obtain ⟨p, p1, p2⟩ := e4 x y hx hy
  refine ⟨p, p1, fun c => ⟨(p2 c).1, (p2 c).2.1.trans ?_⟩⟩
  have hM0 : (0 : ℚ) ≤ T.max := by positivity
  refine add_le_add le_rfl (mul_le_mul_of_nonneg_left ?_ hM0)
  rw [show (2 : ℚ) * (75 / 2 * (widthOf img + 25) / 2 ^ 22 + 75 / 2 * (heightOf img + 25) / 2 ^ 22) + 6 * 2 ^ 3 * (25 / 4 + 25 / 4 + 2) / 2 ^ 24 =
    (75 * (widthOf img + heightOf img + 50) + 174) / 2 ^ 22 by ring]
  gcongr
  linarith

/-- C126: the same for any new size, with weaker error bounds. -/
theorem C126_resize {I : Type} [GenericImageView I (Pix Nat ch)] [LawfulView I (Pix Nat ch)] (L : Libm) (T : Prim)
    (hT : T.bits ≤ 16) (img : I) (wf : WF img) (hr : SamplesOk T img) (nw nh : Nat) (hc : ch ≤ 4)
    (hw0 : 0 < widthOf img) (hh0 : 0 < heightOf img) (hw : widthOf img ≤ 2 ^ 17) (hh : heightOf img ≤ 2 ^ 17)
    (hnw' : nw ≤ 2 ^ 17) (hnh' : nh ≤ 2 ^ 17) (hmw : min (widthOf img) nw ≤ 11000) (hmh : min (heightOf img) nh ≤ 11000)
    (hsx : scale (widthOf img) nw ≤ 511) (hsy : scale (heightOf img) nh ≤ 511)
    (pix : Nat → Nat → Pix Nat ch)
    (hp : ∀ x y, x < widthOf img → y < heightOf img → getPixel img x y = .ok (pix x y)) :
    ∃ b, resize L (Samp.uint T) img nw nh .catmullRom = .ok b ∧ b.width = nw ∧ b.height = nh ∧
      ∀ x y, x < nw → y < nh → ∃ p, b.getPixel x y = .ok p ∧ ∀ c, p c ≤ T.max ∧
        |(p c : ℚ) - max 0 (min (cubicMean (widthOf img) nw x (heightOf img) nh y fun i j => (pix i j c : ℕ)) T.max)| ≤
          1 / 2 + T.max * (684 * ((min (widthOf img) nw : ℕ) + (min (heightOf img) nh : ℕ) + 50) / 2 ^ 22 +
            384 * (4 * (scale (widthOf img) nw + scale (heightOf img) nh) + 13 / 2) / 2 ^ 24) := by
  have hr' : ∀ x y, x < widthOf img → y < heightOf img → ∀ c, pix x y c ≤ T.max := fun x y hx hy c => hr x y _ hx hy (hp x y hx hy) c
  by_cases hne : (nw, nh) = (widthOf img, heightOf img)
  · obtain ⟨b, e1, e2, e3, e4⟩ := cubic_same_size L (Samp.uint T) img wf hc hw hh hne
    refine ⟨b, e1, e2, e3, fun x y hx hy => ?_⟩
    obtain ⟨e5, e6⟩ := e4 x y hx hy
    have hxw : x < widthOf img := by rw [Prod.mk.injEq] at hne; omega
    have hyh : y < heightOf img := by rw [Prod.mk.injEq] at hne; omega
    refine ⟨pix x y, by rw [e5, hp x y hxw hyh], fun c => ⟨hr' x y hxw hyh c, ?_⟩⟩
    rw [e6, min_eq_left (by exact_mod_cast hr' x y hxw hyh c), max_eq_right (by positivity), sub_self, abs_zero]
    have hs1 := scale_ge_one (widthOf img) nw
    have hs2 := scale_ge_one (heightOf img) nh
    positivity
  obtain ⟨b, e1, e2, e3, e4⟩ := signed_picture (L := L) (ft := .catmullRom) (w := widthOf img) (h := heightOf img) hT (rfl : dims img = (widthOf img, heightOf img)) hc hw0 hh0
    hw hh hnw' hnh' hne hp hr' (by norm_num) (by positivity)
    (fun x hx => cubic_axis L hw0 hw hx hnw' hmw hsx) (fun y hy => cubic_axis L hh0 hh hy hnh' hmh hsy)
  refine ⟨b, e1, e2, e3, fun x y hx hy => ?_⟩
  obtain ⟨p, p1, p2⟩ := e4 x y hx hy
  refine ⟨p, p1, fun c => ⟨(p2 c).1, (p2 c).2.1.trans (le_of_eq ?_)⟩⟩
  ring

/-- C126: a picture of one colour keeps that colour. -/
theorem C126_constant {I : Type} [GenericImageView I (Pix Nat ch)] [LawfulView I (Pix Nat ch)] (L : Libm) (T : Prim)
    (hT : T.bits ≤ 16) (img : I) (wf : WF img) (nw nh : Nat) (hc : ch ≤ 4)
    (hw0 : 0 < widthOf img) (hh0 : 0 < heightOf img) (hw : widthOf img ≤ 2 ^ 17) (hh : heightOf img ≤ 2 ^ 17)
    (hnw' : nw ≤ 2 ^ 17) (hnh' : nh ≤ 2 ^ 17) (hmw : min (widthOf img) nw ≤ 11000) (hmh : min (heightOf img) nh ≤ 11000)
    (hsx : scale (widthOf img) nw ≤ 511) (hsy : scale (heightOf img) nh ≤ 511)
    (hs : T.max * (384 * (4 * (scale (widthOf img) nw + scale (heightOf img) nh) + 13 / 2)) < 2 ^ 23)
    (q : Pix Nat ch) (hq : ∀ c, q c ≤ T.max)
    (hp : ∀ x y, x < widthOf img → y < heightOf img → getPixel img x y = .ok q) :
    ∃ b, resize L (Samp.uint T) img nw nh .catmullRom = .ok b ∧ b.width = nw ∧ b.height = nh ∧
      ∀ x y, x < nw → y < nh → b.getPixel x y = .ok q := by
  by_cases hne : (nw, nh) = (widthOf img, heightOf img)
  · obtain ⟨b, e1, e2, e3, e4⟩ := cubic_same_size L (Samp.uint T) img wf hc hw hh hne
    refine ⟨b, e1, e2, e3, fun x y hx hy => ?_⟩
    have hxw : x < widthOf img := by rw [Prod.mk.injEq] at hne; omega
    have hyh : y < heightOf img := by rw [Prod.mk.injEq] at hne; omega
    rw [(e4 x y hx hy).1, hp x y hxw hyh]
  obtain ⟨b, e1, e2, e3, e4⟩ := signed_picture (L := L) (ft := .catmullRom) (w := widthOf img) (h := heightOf img) hT (rfl : dims img = (widthOf img, heightOf img)) hc hw0 hh0
    hw hh hnw' hnh' hne hp (fun _ _ _ _ => hq) (by norm_num) (by positivity)
    (fun x hx => cubic_axis L hw0 hw hx hnw' hmw hsx) (fun y hy => cubic_axis L hh0 hh hy hnh' hmh hsy)
  refine ⟨b, e1, e2, e3, fun x y hx hy => ?_⟩
  obtain ⟨p, p1, p2⟩ := e4 x y hx hy
  rw [p1]
  congr 1
  funext c
  have h1 := (p2 c).2.2 (q c) fun _ _ _ _ => rfl
  have h2 : T.max * (6 * 4 ^ 3 * (4 * scale (widthOf img) nw + 9 / 4 + (4 * scale (heightOf img) nh + 9 / 4) + 2) / 2 ^ 24) < (1 : ℚ) / 2 := by
    rw [show T.max * (6 * 4 ^ 3 * (4 * scale (widthOf img) nw + 9 / 4 + (4 * scale (heightOf img) nh + 9 / 4) + 2) / 2 ^ 24) =
      T.max * (384 * (4 * (scale (widthOf img) nw + scale (heightOf img) nh) + 13 / 2)) / 2 ^ 24 by ring, div_lt_iff₀ (by norm_num)]
    exact hs.trans_eq (by norm_num)
  have h3 : |(p c : ℚ) - q c| < 1 := by linarith
  rw [abs_lt] at h3
  have h4 : (p c : ℚ) < q c + 1 := by linarith
  have h5 : (q c : ℚ) < p c + 1 := by linarith
  have h4 : p c < q c + 1 := by exact_mod_cast h4
  have h5 : q c < p c + 1 := by exact_mod_cast h5
  omega

/-- C126: enlarging pictures of `f32` samples between 0 and 1. -/
theorem C126_float_enlarge {I : Type} [GenericImageView I (Pix Fl ch)] [LawfulView I (Pix Fl ch)] (L : Libm)
    (img : I) (wf : WF img) (nw nh : Nat) (hc : ch ≤ 4)
    (hw0 : 0 < widthOf img) (hh0 : 0 < heightOf img) (hw : widthOf img ≤ 27000) (hh : heightOf img ≤ 27000)
    (hnw : widthOf img ≤ nw) (hnh : heightOf img ≤ nh) (hnw' : nw ≤ 2 ^ 17) (hnh' : nh ≤ 2 ^ 17)
    (val : Nat → Nat → Fin ch → ℚ)
    (hp : ∀ x y, x < widthOf img → y < heightOf img → getPixel img x y = .ok (fun c => .fin (val x y c)))
    (hv : ∀ x y, x < widthOf img → y < heightOf img → ∀ c, 0 ≤ val x y c ∧ val x y c ≤ 1) :
    ∃ b, resize L Samp.float img nw nh .catmullRom = .ok b ∧ b.width = nw ∧ b.height = nh ∧
      ∀ x y, x < nw → y < nh → ∃ p, b.getPixel x y = .ok p ∧ ∀ c, ∃ q, p c = .fin q ∧ 0 ≤ q ∧ q ≤ 1 ∧
        |q - max 0 (min (cubicMean (widthOf img) nw x (heightOf img) nh y fun i j => val i j c) 1)| ≤
          75 * (widthOf img + heightOf img + 53) / 2 ^ 22 := by
  by_cases hne : (nw, nh) = (widthOf img, heightOf img)
  · obtain ⟨b, e1, e2, e3, e4⟩ := cubic_same_size L Samp.float img wf hc (by omega) (by omega) hne
    refine ⟨b, e1, e2, e3, fun x y hx hy => ?_⟩
    obtain ⟨e5, e6⟩ := e4 x y hx hy
    have hxw : x < widthOf img := by rw [Prod.mk.injEq] at hne; omega
    have hyh : y < heightOf img := by rw [Prod.mk.injEq] at hne; omega
    refine ⟨_, by rw [e5, hp x y hxw hyh], fun c => ⟨val x y c, rfl, (hv x y hxw hyh c).1, (hv x y hxw hyh c).2, ?_⟩⟩
    rw [e6, min_eq_left (hv x y hxw hyh c).2, max_eq_right (hv x y hxw hyh c).1, sub_self, abs_zero]
    have hs1 := scale_ge_one (widthOf img) nw
    have hs2 := scale_ge_one (heightOf img) nh
    positivity
  obtain ⟨b, e1, e2, e3, e4⟩ := signed_picture_float (L := L) (ft := .catmullRom) (w := widthOf img) (h := heightOf img) (rfl : dims img = (widthOf img, heightOf img)) hc hw0 hh0
    (by omega) (by omega) hnw' hnh' hne hp hv (by norm_num) (by positivity)
    (fun x hx => cubic_enlarge_axis L hw0 hw hx hnw' hnw) (fun y hy => cubic_enlarge_axis L hh0 hh hy hnh' hnh)
  refine ⟨b, e1, e2, e3, fun x y hx hy => ?_⟩
  obtain ⟨p, p1, p2⟩ := e4 x y hx hy
  refine ⟨p, p1, fun c => ?_⟩
  obtain ⟨q, q1, q2, q3, q4⟩ := p2 c
  refine ⟨q, q1, q2, q3, q4.trans ?_⟩
  rw [show (2 : ℚ) * (75 / 2 * (widthOf img + 25) / 2 ^ 22 + 75 / 2 * (heightOf img + 25) / 2 ^ 22) + 6 * 2 ^ 3 * (25 / 4 + 25 / 4 + 2) / 2 ^ 24 =
    (75 * (widthOf img + heightOf img + 50) + 174) / 2 ^ 22 by ring]
  gcongr
  linarith

/-- C126: the same for any new size. -/
theorem C126_float {I : Type} [GenericImageView I (Pix Fl ch)] [LawfulView I (Pix Fl ch)] (L : Libm)
    (img : I) (wf : WF img) (nw nh : Nat) (hc : ch ≤ 4)
    (hw0 : 0 < widthOf img) (hh0 : 0 < heightOf img) (hw : widthOf img ≤ 2 ^ 17) (hh : heightOf img ≤ 2 ^ 17)
    (hnw' : nw ≤ 2 ^ 17) (hnh' : nh ≤ 2 ^ 17) (hmw : min (widthOf img) nw ≤ 11000) (hmh : min (heightOf img) nh ≤ 11000)
    (hsx : scale (widthOf img) nw ≤ 511) (hsy : scale (heightOf img) nh ≤ 511)
    (val : Nat → Nat → Fin ch → ℚ)
    (hp : ∀ x y, x < widthOf img → y < heightOf img → getPixel img x y = .ok (fun c => .fin (val x y c)))
    (hv : ∀ x y, x < widthOf img → y < heightOf img → ∀ c, 0 ≤ val x y c ∧ val x y c ≤ 1) :
    ∃ b, resize L Samp.float img nw nh .catmullRom = .ok b ∧ b.width = nw ∧ b.height = nh ∧
      ∀ x y, x < nw → y < nh → ∃ p, b.getPixel x y = .ok p ∧ ∀ c, ∃ q, p c = .fin q ∧ 0 ≤ q ∧ q ≤ 1 ∧
        |q - max 0 (min (cubicMean (widthOf img) nw x (heightOf img) nh y fun i j => val i j c) 1)| ≤
          684 * ((min (widthOf img) nw : ℕ) + (min (heightOf img) nh : ℕ) + 50) / 2 ^ 22 +
            384 * (4 * (scale (widthOf img) nw + scale (heightOf img) nh) + 13 / 2) / 2 ^ 24 := by
  by_cases hne : (nw, nh) = (widthOf img, heightOf img)
  · obtain ⟨b, e1, e2, e3, e4⟩ := cubic_same_size L Samp.float img wf hc hw hh hne
    refine ⟨b, e1, e2, e3, fun x y hx hy => ?_⟩
    obtain ⟨e5, e6⟩ := e4 x y hx hy
    have hxw : x < widthOf img := by rw [Prod.mk.injEq] at hne; omega
    have hyh : y < heightOf img := by rw [Prod.mk.injEq] at hne; omega
    refine ⟨_, by rw [e5, hp x y hxw hyh], fun c => ⟨val x y c, rfl, (hv x y hxw hyh c).1, (hv x y hxw hyh c).2, ?_⟩⟩
    rw [e6, min_eq_left (hv x y hxw hyh c).2, max_eq_right (hv x y hxw hyh c).1, sub_self, abs_zero]
    have hs1 := scale_ge_one (widthOf img) nw
    have hs2 := scale_ge_one (heightOf img) nh
    positivity
  obtain ⟨b, e1, e2, e3, e4⟩ := signed_picture_float (L := L) (ft := .catmullRom) (w := widthOf img) (h := heightOf img) (rfl : dims img = (widthOf img, heightOf img)) hc hw0 hh0
    hw hh hnw' hnh' hne hp hv (by norm_num) (by positivity)
    (fun x hx => cubic_axis L hw0 hw hx hnw' hmw hsx) (fun y hy => cubic_axis L hh0 hh hy hnh' hmh hsy)
  refine ⟨b, e1, e2, e3, fun x y hx hy => ?_⟩
  obtain ⟨p, p1, p2⟩ := e4 x y hx hy
  refine ⟨p, p1, fun c => ?_⟩
  obtain ⟨q, q1, q2, q3, q4⟩ := p2 c
  refine ⟨q, q1, q2, q3, q4.trans (le_of_eq ?_)⟩
  ring

/-! ## Examples -/

/-- Bicubic interpolation overshoots: the darkest sample of the picture is 10, and this pixel becomes 9. -/
example : ∃ b, resize toyLibm (Samp.uint .u8) grey22 4 2 .catmullRom = .ok b ∧ b.getPixel 0 0 = .ok (fun _ => 9) := by
  obtain ⟨b, e1, -, -, e4⟩ := C126_enlarge toyLibm .u8 (by decide) grey22 grey22_wf grey22_samples 4 2 (by decide)
    (by decide) (by decide) (by decide) (by decide) (by decide) (by decide) (by decide) (by decide) grey22Pix grey22_pix
  obtain ⟨p, p1, p2⟩ := e4 0 0 (by decide) (by decide)
  refine ⟨b, e1, ?_⟩
  rw [p1]
  have h := (p2 0).2
  rw [show widthOf grey22 = 2 from rfl, show heightOf grey22 = 2 from rfl] at h
  have e : cubicMean 2 4 0 2 2 0 (fun i j => ((grey22Pix i j 0 : ℕ) : ℚ)) = 155 / 17 := by
    unfold cubicMean weighted cubic offset centre scale grey22Pix
    simp only [Finset.sum_range_succ, Finset.sum_range_zero]
    norm_num [abs_of_neg, abs_of_pos]
  rw [e, show ((Prim.max .u8 : ℕ) : ℚ) = 255 by norm_num [Prim.max, Prim.bits]] at h
  norm_num at h
  rw [abs_le] at h
  have h1 : (p 0 : ℚ) < 10 := by linarith
  have h2 : (8 : ℚ) < p 0 := by linarith
  have h1 : p 0 < 10 := by exact_mod_cast h1
  have h2 : 8 < p 0 := by exact_mod_cast h2
  congr 1
  funext c
  rw [show c = 0 by omega]
  omega

/-- Shrinking, with the general theorem. -/
example : ∃ b, resize toyLibm (Samp.uint .u8) grey22 1 1 .catmullRom = .ok b ∧
    ∃ p, b.getPixel 0 0 = .ok p ∧ (22 : ℚ) < p 0 ∧ (p 0 : ℚ) < 28 := by
  obtain ⟨b, e1, -, -, e4⟩ := C126_resize toyLibm .u8 (by decide) grey22 grey22_wf grey22_samples 1 1 (by decide)
    (by decide) (by decide) (by decide) (by decide) (by decide) (by decide) (by decide) (by decide)
    (by rw [show widthOf grey22 = 2 from rfl]; unfold scale; norm_num)
    (by rw [show heightOf grey22 = 2 from rfl]; unfold scale; norm_num) grey22Pix grey22_pix
  obtain ⟨p, p1, p2⟩ := e4 0 0 (by decide) (by decide)
  refine ⟨b, e1, p, p1, ?_⟩
  have h := (p2 0).2
  rw [show widthOf grey22 = 2 from rfl, show heightOf grey22 = 2 from rfl] at h
  have e : cubicMean 2 1 0 2 1 0 (fun i j => ((grey22Pix i j 0 : ℕ) : ℚ)) = 25 := by
    unfold cubicMean weighted cubic offset centre scale grey22Pix
    simp only [Finset.sum_range_succ, Finset.sum_range_zero]
    norm_num [abs_of_neg, abs_of_pos]
  have hs : scale 2 1 = 2 := by unfold scale; norm_num
  rw [e, hs, show ((Prim.max .u8 : ℕ) : ℚ) = 255 by norm_num [Prim.max, Prim.bits]] at h
  norm_num at h
  rw [abs_le] at h
  constructor <;> linarith

/-- A picture of one grey. -/
example : ∃ b, resize toyLibm (Samp.uint .u8) (⟨2, 2, [7, 7, 7, 7]⟩ : ImageBuffer Nat 1) 5 1 .catmullRom = .ok b ∧
    b.width = 5 ∧ b.height = 1 ∧ ∀ x y, x < 5 → y < 1 → b.getPixel x y = .ok (fun _ => 7) := by
  have hs : scale 2 5 = 1 ∧ scale 2 1 = 2 := by unfold scale; norm_num
  refine C126_constant toyLibm .u8 (by decide) (⟨2, 2, [7, 7, 7, 7]⟩ : ImageBuffer Nat 1)
    (show ImageBuffer.Inv _ from ⟨by decide, by decide, by decide, by decide⟩) 5 1 (by decide) (by decide) (by decide) (by decide)
    (by decide) (by decide) (by decide) (by decide) (by decide) (hs.1.le.trans (by norm_num)) (hs.2.le.trans (by norm_num)) ?_
    (fun _ => 7) (by decide) ?_
  · rw [show scale (widthOf (⟨2, 2, [7, 7, 7, 7]⟩ : ImageBuffer Nat 1)) 5 = 1 from hs.1,
      show scale (heightOf (⟨2, 2, [7, 7, 7, 7]⟩ : ImageBuffer Nat 1)) 1 = 2 from hs.2,
      show ((Prim.max .u8 : ℕ) : ℚ) = 255 by norm_num [Prim.max, Prim.bits]]
    norm_num
  · intro x y hx hy
    have hx : x < 2 := hx
    have hy : y < 2 := hy
    have h : (x = 0 ∨ x = 1) ∧ (y = 0 ∨ y = 1) := by omega
    rcases h with ⟨rfl | rfl, rfl | rfl⟩ <;> decide

example : ∃ b, resize toyLibm Samp.float floatPair 4 1 .catmullRom = .ok b ∧ ∃ p q, b.getPixel 0 0 = .ok p ∧ p 0 = .fin q ∧
    1 / 5 ≤ q ∧ q < 1 / 4 := by
  have hp : ∀ x y, x < widthOf floatPair → y < heightOf floatPair →
      getPixel floatPair x y = .ok (fun _ => .fin (if x = 0 then 1 / 4 else 3 / 4)) := by
    intro x y hx hy
    have hx : x < 2 := hx
    have hy : y < 1 := hy
    have h : (x = 0 ∨ x = 1) ∧ y = 0 := by omega
    rcases h with ⟨rfl | rfl, rfl⟩ <;> decide +kernel
  obtain ⟨b, e1, -, -, e4⟩ := C126_float_enlarge toyLibm floatPair
    (show ImageBuffer.Inv _ from ⟨by decide, by decide, by decide, by decide⟩) 4 1 (by decide) (by decide) (by decide) (by decide)
    (by decide) (by decide) (by decide) (by decide) (by decide) _ hp (by intro x y _ _ _; split_ifs <;> norm_num)
  obtain ⟨p, p1, p2⟩ := e4 0 0 (by decide) (by decide)
  obtain ⟨q, q1, -, -, q4⟩ := p2 0
  refine ⟨b, e1, p, q, p1, q1, ?_⟩
  rw [show widthOf floatPair = 2 from rfl, show heightOf floatPair = 1 from rfl] at q4
  have e : cubicMean 2 4 0 1 1 0 (fun i _ => if i = 0 then (1 : ℚ) / 4 else 3 / 4) = 7 / 34 := by
    unfold cubicMean weighted cubic offset centre scale
    simp only [Finset.sum_range_succ, Finset.sum_range_zero]
    norm_num [abs_of_neg, abs_of_pos]
  rw [e] at q4
  norm_num at q4
  rw [abs_le] at q4
  constructor <;> linarith

end Verif
