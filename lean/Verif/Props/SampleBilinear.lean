import Verif.Props.SamplePoint
import Verif.Props.SampleLinear

/-!
# C84: `interpolate_bilinear` and `sample_bilinear`
-/

namespace Verif
open GenericImageView GenericImage LawfulView LawfulImage

variable {ch : Nat}

theorem rnd_le32 {q : ℚ} {n : ℕ} (hn : n ≤ 2 ^ 24) (h : q ≤ n) : f32.rnd q ≤ n := by
  have := f32.rnd_mono' (by decide) h
  rwa [rnd_nat32 hn] at this

/-- One rounded product. -/
theorem mul_step {a b A B e e' M : ℚ} (ha0 : 0 ≤ a) (ha : a ≤ 1) (hb0 : 0 ≤ b) (hb : b ≤ M) (hA0 : 0 ≤ A) (_hA : A ≤ 1)
    (hM : 1 ≤ M) (hM' : M ≤ 2 ^ 17) (h1 : |a - A| ≤ e) (h2 : |b - B| ≤ e') :
    ∃ t, (Fl.fin a).mul f32 (.fin b) = .fin t ∧ 0 ≤ t ∧ (b ≤ 1 → t ≤ 1) ∧
      |t - A * B| ≤ e * M + e' + 2 * M / 2 ^ 24 := by
  have hab : a * b ≤ 1 * M := by gcongr
  have hab0 : 0 ≤ a * b := by positivity
  refine ⟨f32.rnd (a * b), ?_, f32.rnd_nonneg hab0, fun hb1 => ?_, ?_⟩
  · rw [fl_mul, ofRat32]
    rw [abs_of_nonneg hab0]; linarith [show (2 : ℚ) ^ 17 ≤ 2 ^ 127 by norm_num]
  · have h1 : a * b ≤ 1 * 1 := by gcongr
    have := rnd_le32 (n := 1) (by norm_num) (show a * b ≤ ((1 : ℕ) : ℚ) by simpa using h1)
    simpa using this
  · have r := rnd_err32 (a * b)
    rw [abs_of_nonneg hab0] at r
    have e1 : f32.rnd (a * b) - A * B = (f32.rnd (a * b) - a * b) + ((a - A) * b + A * (b - B)) := by ring
    rw [e1]
    have h3 : |(a - A) * b| ≤ e * M := by
      rw [abs_mul, abs_of_nonneg hb0]
      have := abs_nonneg (a - A)
      gcongr
      linarith
    have h4 : |A * (b - B)| ≤ e' := by
      rw [abs_mul, abs_of_nonneg hA0]
      have := abs_nonneg (b - B)
      have : A * |b - B| ≤ 1 * |b - B| := by gcongr
      linarith
    have h5 : M / 2 ^ 24 + 1 / 2 ^ 100 ≤ 2 * M / 2 ^ 24 := by
      linarith [show (1 : ℚ) / 2 ^ 100 ≤ 1 / 2 ^ 24 by norm_num]
    have h6 : a * b / 2 ^ 24 ≤ M / 2 ^ 24 := by
      refine div_le_div_of_nonneg_right (by linarith) (by norm_num)
    refine (abs_add_le _ _).trans ?_
    have := abs_add_le ((a - A) * b) (A * (b - B))
    linarith

/-- One rounded sum. -/
theorem add_step {a b A B e e' K : ℚ} (ha0 : 0 ≤ a) (hb0 : 0 ≤ b) (hK : a + b ≤ K) (hK1 : 1 ≤ K) (hK' : K ≤ 2 ^ 20)
    (h1 : |a - A| ≤ e) (h2 : |b - B| ≤ e') :
    ∃ t, (Fl.fin a).add f32 (.fin b) = .fin t ∧ 0 ≤ t ∧ |t - (A + B)| ≤ e + e' + 2 * K / 2 ^ 24 := by
  have h0 : 0 ≤ a + b := by positivity
  refine ⟨f32.rnd (a + b), ?_, f32.rnd_nonneg h0, ?_⟩
  · rw [fl_add, ofRat32]
    rw [abs_of_nonneg h0]; linarith [show (2 : ℚ) ^ 20 ≤ 2 ^ 127 by norm_num]
  · have r := rnd_err32 (a + b)
    rw [abs_of_nonneg h0] at r
    have e1 : f32.rnd (a + b) - (A + B) = (f32.rnd (a + b) - (a + b)) + ((a - A) + (b - B)) := by ring
    rw [e1]
    have h6 : (a + b) / 2 ^ 24 ≤ K / 2 ^ 24 := by
      refine div_le_div_of_nonneg_right (by linarith) (by norm_num)
    refine (abs_add_le _ _).trans ?_
    have := abs_add_le (a - A) (b - B)
    linarith [show (1 : ℚ) / 2 ^ 100 ≤ 1 / 2 ^ 24 by norm_num]

/-- Four rounded terms added up. -/
theorem sum4 {m0 m1 m2 m3 X0 X1 X2 X3 e M : ℚ} (hM : 1 ≤ M) (hM' : M ≤ 2 ^ 17) (he : e ≤ M / 16)
    (h0 : 0 ≤ m0) (h1 : 0 ≤ m1) (h2 : 0 ≤ m2) (h3 : 0 ≤ m3)
    (g0 : |m0 - X0| ≤ e) (g1 : |m1 - X1| ≤ e) (g2 : |m2 - X2| ≤ e) (g3 : |m3 - X3| ≤ e)
    (_hX0 : 0 ≤ X0) (_hX1 : 0 ≤ X1) (hX2 : 0 ≤ X2) (hX3 : 0 ≤ X3) (hX : X0 + X1 + X2 + X3 ≤ M) :
    ∃ t, ((((Fl.fin m0).add f32 (.fin m1)).add f32 (.fin m2)).add f32 (.fin m3)) = .fin t ∧
      0 ≤ t ∧ |t - (X0 + X1 + X2 + X3)| ≤ 4 * e + 12 * M / 2 ^ 24 := by
  have b0 := abs_le.1 g0
  have b1 := abs_le.1 g1
  have b2 := abs_le.1 g2
  have b3 := abs_le.1 g3
  obtain ⟨t1, e1, p1, q1⟩ := add_step h0 h1 (K := 2 * M) (by linarith) (by linarith) (by linarith [show (2 : ℚ) * 2 ^ 17 ≤ 2 ^ 20 by norm_num]) g0 g1
  have c1 := abs_le.1 q1
  have d1 : 2 * (2 * M) / 2 ^ 24 ≤ M / 16 := by linarith
  obtain ⟨t2, e2, p2, q2⟩ := add_step p1 h2 (K := 2 * M) (by linarith) (by linarith) (by linarith [show (2 : ℚ) * 2 ^ 17 ≤ 2 ^ 20 by norm_num]) q1 g2
  have c2 := abs_le.1 q2
  obtain ⟨t3, e3, p3, q3⟩ := add_step p2 h3 (K := 2 * M) (by linarith) (by linarith) (by linarith [show (2 : ℚ) * 2 ^ 17 ≤ 2 ^ 20 by norm_num]) q2 g3
  refine ⟨t3, by rw [e1, e2, e3], p3, ?_⟩
  refine q3.trans ?_
  linarith

/-- The weights along one axis. -/
theorem axis_weights {n : Nat} (h0 : 0 < n) (hn : n < 2 ^ 24) {x : ℚ} (hx0 : 0 ≤ x) (hx : x ≤ n - 1) :
    ∃ (i : Nat) (f g : ℚ), ⌊x⌋.toNat = i ∧ (Fl.fin x).floor.toUSat 32 = i ∧ i < n ∧ i ≤ x ∧ x < i + 1 ∧
      (Fl.fin x).sub f32 (Fl.ofNat f32 i) = .fin f ∧ (Fl.ofNat f32 (i + 1)).sub f32 (.fin x) = .fin g ∧
      0 ≤ f ∧ f ≤ 1 ∧ 0 ≤ g ∧ g ≤ 1 ∧ |f - (x - i)| ≤ 2 / 2 ^ 24 ∧ |g - (1 - (x - i))| ≤ 2 / 2 ^ 24 := by
  have hf0 : 0 ≤ ⌊x⌋ := Int.floor_nonneg.2 hx0
  have e : ((⌊x⌋.toNat : ℕ) : ℤ) = ⌊x⌋ := Int.toNat_of_nonneg hf0
  have eq : ((⌊x⌋.toNat : ℕ) : ℚ) = ((⌊x⌋ : ℤ) : ℚ) := by exact_mod_cast e
  have h1 := Int.floor_le x
  have h2 := Int.lt_floor_add_one x
  rw [← eq] at h1 h2
  set i := ⌊x⌋.toNat with hi
  have hin : i < n := by
    have : (i : ℚ) < n := by linarith
    exact_mod_cast this
  have hone : ∀ q : ℚ, 0 ≤ q → q ≤ 1 → f32.ofRat q = .fin (f32.rnd q) ∧ 0 ≤ f32.rnd q ∧ f32.rnd q ≤ 1 ∧ |f32.rnd q - q| ≤ 2 / 2 ^ 24 := by
    intro q q0 q1
    have r := rnd_err32 q
    rw [abs_of_nonneg q0] at r
    have hr1 : f32.rnd q ≤ ((1 : ℕ) : ℚ) := rnd_le32 (by norm_num) (by simpa using q1)
    refine ⟨ofRat32 (by rw [abs_of_nonneg q0]; linarith [show (1 : ℚ) ≤ 2 ^ 127 by norm_num]), f32.rnd_nonneg q0, by simpa using hr1, ?_⟩
    linarith [show (1 : ℚ) / 2 ^ 100 ≤ 1 / 2 ^ 24 by norm_num]
  obtain ⟨a1, a2, a3, a4⟩ := hone (x - i) (by linarith) (by linarith)
  obtain ⟨b1, b2, b3, b4⟩ := hone ((i + 1 : ℕ) - x) (by push_cast; linarith) (by push_cast; linarith)
  refine ⟨i, f32.rnd (x - i), f32.rnd ((i + 1 : ℕ) - x), rfl, ?_, hin, h1, h2, ?_, ?_, a2, a3, b2, b3, a4, ?_⟩
  · show min ⌊((⌊x⌋ : ℤ) : ℚ)⌋.toNat (2 ^ 32 - 1) = _
    rw [Int.floor_intCast]
    omega
  · rw [ofNat32 (by omega), fl_sub, a1]
  · rw [ofNat32 (by omega), fl_sub, b1]
  · have : (1 : ℚ) - (x - i) = (i + 1 : ℕ) - x := by push_cast; ring
    rw [this]; exact b4

/-- C84: inside the picture `interpolate_bilinear` gives the bilinear interpolation of the four neighbours, rounded. -/
theorem C84_interpolate {I : Type} [GenericImageView I (Pix Nat ch)] [LawfulView I (Pix Nat ch)] (T : Prim)
    (hT : T.bits ≤ 16) (img : I) (hr : SamplesOk T img) (hc : ch ≤ 4)
    (hw : widthOf img < 2 ^ 24) (hh : heightOf img < 2 ^ 24) (x y : ℚ) (hx0 : 0 ≤ x) (hx : x ≤ widthOf img - 1)
    (hy0 : 0 ≤ y) (hy : y ≤ heightOf img - 1) (pix : Nat → Nat → Pix Nat ch)
    (hp : ∀ x y, x < widthOf img → y < heightOf img → getPixel img x y = .ok (pix x y)) :
    ∃ p, interpolateBilinear (Samp.uint T) img (.fin x) (.fin y) = .ok (some p) ∧ ∀ c, p c ≤ T.max ∧
      |(p c : ℚ) - bilinear (widthOf img) (heightOf img) (fun i j => (pix i j c : ℕ)) x y| ≤ 1 / 2 + 44 * T.max / 2 ^ 24 := by
  set w := widthOf img with ew
  set h := heightOf img with eh
  have hw0 : 0 < w := by
    have : (0 : ℚ) < w := by linarith
    exact_mod_cast this
  have hh0 : 0 < h := by
    have : (0 : ℚ) < h := by linarith
    exact_mod_cast this
  have hr' : ∀ x y, x < w → y < h → ∀ c, pix x y c ≤ T.max := fun x y hx hy c => hr x y _ hx hy (hp x y hx hy) c
  obtain ⟨i, fu, gu, i1, i2, i3, i4, i5, i6, i7, u1, u2, u3, u4, u5, u6⟩ := axis_weights hw0 hw hx0 hx
  obtain ⟨j, fv, gv, j1, j2, j3, j4, j5, j6, j7, v1, v2, v3, v4, v5, v6⟩ := axis_weights hh0 hh hy0 hy
  have hbits : T.max ≤ 2 ^ 16 := by cases T <;> simp_all [Prim.max, Prim.bits]
  have hbits1 : 255 ≤ T.max := by cases T <;> simp_all [Prim.max, Prim.bits]
  set M : ℚ := (T.max : ℚ) with hM
  have hM1 : 1 ≤ M := by rw [hM]; exact_mod_cast (by omega : 1 ≤ T.max)
  have hM2 : M ≤ 2 ^ 16 := by rw [hM]; exact_mod_cast hbits
  -- the weights
  set a := x - i with ha
  set b := y - j with hb
  have ha0 : 0 ≤ a := by linarith
  have ha1 : a ≤ 1 := by linarith
  have hb0 : 0 ≤ b := by linarith
  have hb1 : b ≤ 1 := by linarith
  obtain ⟨wff, ff, ff0, ff1, ffe⟩ := mul_step u3 u4 v3 v4 (by linarith : 0 ≤ 1 - a) (by linarith) le_rfl (by norm_num) u6 v6
  obtain ⟨wfc, fc, fc0, fc1, fce⟩ := mul_step u3 u4 v1 v2 (by linarith : 0 ≤ 1 - a) (by linarith) le_rfl (by norm_num) u6 v5
  obtain ⟨wcf, cf, cf0, cf1, cfe⟩ := mul_step u1 u2 v3 v4 (by linarith : 0 ≤ a) (by linarith) le_rfl (by norm_num) u5 v6
  obtain ⟨wcc, cc, cc0, cc1, cce⟩ := mul_step u1 u2 v1 v2 (by linarith : 0 ≤ a) (by linarith) le_rfl (by norm_num) u5 v5
  have p1 : 0 ≤ (1 - a) * (1 - b) := mul_nonneg (by linarith) (by linarith)
  have p2 : 0 ≤ (1 - a) * b := mul_nonneg (by linarith) (by linarith)
  have p3 : 0 ≤ a * (1 - b) := mul_nonneg (by linarith) (by linarith)
  have p4 : 0 ≤ a * b := mul_nonneg (by linarith) (by linarith)
  have hone : (1 - a) * (1 - b) + (1 - a) * b + a * (1 - b) + a * b = 1 := by ring
  obtain ⟨sw, es, -, hsw⟩ := sum4 (M := 1) (e := 6 / 2 ^ 24) le_rfl (by norm_num) (by norm_num) ff0 fc0 cf0 cc0
    (by linarith) (by linarith) (by linarith) (by linarith) p1 p2 p3 p4 hone.le
  rw [hone] at hsw
  have hassert : (((((Fl.fin wff).add f32 (.fin wfc)).add f32 (.fin wcf)).add f32 (.fin wcc)).sub f32 (.fin 1)).abs.lt (.fin (1 / 1000)) = true := by
    rw [es, fl_sub, ofRat32 (by linarith [show (1 : ℚ) ≤ 2 ^ 127 by norm_num])]
    have r := rnd_err32 (sw - 1)
    have r2 := abs_add_le (f32.rnd (sw - 1) - (sw - 1)) (sw - 1)
    rw [sub_add_cancel] at r2
    simp only [Fl.abs, Fl.lt, decide_eq_true_eq]
    linarith [show (1 : ℚ) / 2 ^ 100 ≤ 1 / 2 ^ 24 by norm_num]
  -- the four neighbours
  set i' := min (i + 1) (w - 1) with hi'
  set j' := min (j + 1) (h - 1) with hj'
  have hi'w : i' < w := by omega
  have hj'h : j' < h := by omega
  have hs : ∀ i j c, Fl.ofNat f32 (pix i j c) = .fin (pix i j c : ℕ) ∨ ¬ (i < w ∧ j < h) := by
    intro i j c
    by_cases hij : i < w ∧ j < h
    · exact Or.inl (ofNat32 (by have := hr' i j hij.1 hij.2 c; omega))
    · exact Or.inr hij
  -- one channel
  have key : ∀ c, ∃ q : Nat, q ≤ T.max ∧
      bilinearSample (Samp.uint T) (.fin wff) (.fin wfc) (.fin wcf) (.fin wcc) (Fl.ofNat f32 (pix i j c))
        (Fl.ofNat f32 (pix i j' c)) (Fl.ofNat f32 (pix i' j c)) (Fl.ofNat f32 (pix i' j' c)) = q ∧
      |(q : ℚ) - ((1 - a) * (1 - b) * (pix i j c : ℕ) + (1 - a) * b * (pix i j' c : ℕ) + a * (1 - b) * (pix i' j c : ℕ) +
        a * b * (pix i' j' c : ℕ))| ≤ 1 / 2 + 44 * M / 2 ^ 24 := by
    intro c
    have hq : ∀ i j, i < w → j < h → 0 ≤ ((pix i j c : ℕ) : ℚ) ∧ ((pix i j c : ℕ) : ℚ) ≤ M := by
      intro i j hi hj
      exact ⟨by positivity, by rw [hM]; exact_mod_cast hr' i j hi hj c⟩
    rw [(hs i j c).resolve_right (by simp [i3, j3]), (hs i j' c).resolve_right (by simp [i3, hj'h]),
      (hs i' j c).resolve_right (by simp [hi'w, j3]), (hs i' j' c).resolve_right (by simp [hi'w, hj'h])]
    obtain ⟨s00, s01⟩ := hq i j i3 j3
    obtain ⟨s10, s11⟩ := hq i j' i3 hj'h
    obtain ⟨s20, s21⟩ := hq i' j hi'w j3
    obtain ⟨s30, s31⟩ := hq i' j' hi'w hj'h
    generalize ((pix i j c : ℕ) : ℚ) = z0 at *
    generalize ((pix i j' c : ℕ) : ℚ) = z1 at *
    generalize ((pix i' j c : ℕ) : ℚ) = z2 at *
    generalize ((pix i' j' c : ℕ) : ℚ) = z3 at *
    have hM3 : M ≤ 2 ^ 17 := hM2.trans (by norm_num)
    obtain ⟨m0, k0, n0, -, d0⟩ := mul_step ff0 (ff1 v4) s00 s01 p1 (by linarith) hM1 hM3 ffe (show |z0 - z0| ≤ 0 by simp)
    obtain ⟨m1, k1, n1, -, d1⟩ := mul_step fc0 (fc1 v2) s10 s11 p2 (by linarith) hM1 hM3 fce (show |z1 - z1| ≤ 0 by simp)
    obtain ⟨m2, k2, n2, -, d2⟩ := mul_step cf0 (cf1 v4) s20 s21 p3 (by linarith) hM1 hM3 cfe (show |z2 - z2| ≤ 0 by simp)
    obtain ⟨m3, k3, n3, -, d3⟩ := mul_step cc0 (cc1 v2) s30 s31 p4 (by linarith) hM1 hM3 cce (show |z3 - z3| ≤ 0 by simp)
    have hX : (1 - a) * (1 - b) * z0 + (1 - a) * b * z1 + a * (1 - b) * z2 + a * b * z3 ≤ M := by
      calc (1 - a) * (1 - b) * z0 + (1 - a) * b * z1 + a * (1 - b) * z2 + a * b * z3 ≤
          (1 - a) * (1 - b) * M + (1 - a) * b * M + a * (1 - b) * M + a * b * M := by gcongr
        _ = M := by ring
    obtain ⟨t, et, t0, ht⟩ := sum4 (M := M) (e := 8 * M / 2 ^ 24) hM1 hM3 (by linarith) n0 n1 n2 n3 (by linarith) (by linarith)
      (by linarith) (by linarith) (mul_nonneg p1 s00) (mul_nonneg p2 s10) (mul_nonneg p3 s20) (mul_nonneg p4 s30) hX
    have r0 := roundHalfAway_nonneg t0
    have r1 := roundHalfAway_error t0
    have hz : (((roundHalfAway t).toNat : ℕ) : ℚ) = ((roundHalfAway t : ℤ) : ℚ) := by
      exact_mod_cast Int.toNat_of_nonneg r0
    have ht' := abs_le.1 ht
    have r1' := abs_le.1 r1
    have hlt : roundHalfAway t < (T.max : ℤ) + 1 := by
      have : ((roundHalfAway t : ℤ) : ℚ) < (T.max : ℚ) + 1 := by linarith
      exact_mod_cast this
    refine ⟨(roundHalfAway t).toNat, by omega, ?_, ?_⟩
    · unfold bilinearSample
      rw [k0, k1, k2, k3, et]
      have hmax : (Samp.uint T).toF32 (Samp.uint T).max = .fin (T.max : ℕ) := ofNat32 (show T.max ≤ 2 ^ 24 by omega)
      have hne : ¬ (Samp.uint T).toF32 (Samp.uint T).max = .fin 1 := by
        rw [hmax]
        intro h
        have h := Fl.fin.inj h
        have : T.max = 1 := by exact_mod_cast h
        omega
      simp only [if_neg hne]
      show ((Fl.fin (roundHalfAway t)).castU T.bits).getD _ = _
      have hpow : T.max + 1 = 2 ^ T.bits := by cases T <;> rfl
      have hup : ((roundHalfAway t : ℤ) : ℚ) < 2 ^ T.bits := by
        have : (roundHalfAway t) < ((2 ^ T.bits : ℕ) : ℤ) := by rw [← hpow]; exact_mod_cast hlt
        exact_mod_cast this
      have hlow : (-1 : ℚ) < ((roundHalfAway t : ℤ) : ℚ) := by
        have : (-1 : ℤ) < roundHalfAway t := by omega
        exact_mod_cast this
      simp only [Fl.castU, hup, hlow, and_self, if_true, Option.getD_some, Int.floor_intCast]
    · rw [hz]
      have e : ((roundHalfAway t : ℤ) : ℚ) - ((1 - a) * (1 - b) * z0 + (1 - a) * b * z1 + a * (1 - b) * z2 + a * b * z3) =
        (((roundHalfAway t : ℤ) : ℚ) - t) + (t - ((1 - a) * (1 - b) * z0 + (1 - a) * b * z1 + a * (1 - b) * z2 + a * b * z3)) := by ring
      rw [e]
      refine (abs_add_le _ _).trans ?_
      linarith
  choose q q1 q2 q3 using key
  refine ⟨q, ?_, fun c => ⟨q1 c, ?_⟩⟩
  · unfold interpolateBilinear
    have c1 : addC 32 i 1 = .ok (i + 1) := addC_ok (by omega)
    have c2 : addC 32 j 1 = .ok (j + 1) := addC_ok (by omega)
    simp only [← ew, ← eh, hc, decide_true, assertR_true, ok_bind, (inRange_iff hw0 hw.le _).2 ⟨x, rfl, hx0, hx⟩,
      (inRange_iff hh0 hh.le _).2 ⟨y, rfl, hy0, hy⟩, i2, j2, c1, c2, ← hi', ← hj', hp i j i3 j3, hp i j' i3 hj'h,
      hp i' j hi'w j3, hp i' j' hi'w hj'h, i6, i7, j6, j7, ff, fc, cf, cc, hassert]
    rw [if_neg (by omega)]
    simp only [Bool.not_true, Bool.false_eq_true, if_false]
    congr 2
    funext c
    exact q2 c
  · have e : bilinear w h (fun i j => ((pix i j c : ℕ) : ℚ)) x y = ((1 - a) * (1 - b) * (pix i j c : ℕ) + (1 - a) * b * (pix i j' c : ℕ) + a * (1 - b) * (pix i' j c : ℕ) +
        a * b * (pix i' j' c : ℕ)) := by
      unfold bilinear
      simp only [i1, j1]
      rfl
    rw [e]
    exact q3 c

/-- C84: the result is never outside the range of the four neighbours. -/
theorem C84_between {I : Type} [GenericImageView I (Pix Nat ch)] [LawfulView I (Pix Nat ch)] (T : Prim)
    (hT : T.bits ≤ 16) (img : I) (hr : SamplesOk T img) (hc : ch ≤ 4)
    (hw : widthOf img < 2 ^ 24) (hh : heightOf img < 2 ^ 24) (x y : ℚ) (hx0 : 0 ≤ x) (hx : x ≤ widthOf img - 1)
    (hy0 : 0 ≤ y) (hy : y ≤ heightOf img - 1) (pix : Nat → Nat → Pix Nat ch)
    (hp : ∀ x y, x < widthOf img → y < heightOf img → getPixel img x y = .ok (pix x y)) :
    ∃ p, interpolateBilinear (Samp.uint T) img (.fin x) (.fin y) = .ok (some p) ∧ ∀ c, ∀ lo hi : Nat,
      (∀ i j : Nat, i < widthOf img → j < heightOf img → |(i : ℚ) - x| ≤ 1 → |(j : ℚ) - y| ≤ 1 → lo ≤ pix i j c ∧ pix i j c ≤ hi) →
      lo ≤ p c ∧ p c ≤ hi := by
  obtain ⟨p, e, hpc⟩ := C84_interpolate T hT img hr hc hw hh x y hx0 hx hy0 hy pix hp
  refine ⟨p, e, fun c lo hi hb => ?_⟩
  set w := widthOf img
  set h := heightOf img
  have hw0 : 0 < w := by
    have : (0 : ℚ) < w := by linarith
    exact_mod_cast this
  have hh0 : 0 < h := by
    have : (0 : ℚ) < h := by linarith
    exact_mod_cast this
  obtain ⟨i, -, -, i1, -, i3, i4, i5, -⟩ := axis_weights hw0 hw hx0 hx
  obtain ⟨j, -, -, j1, -, j3, j4, j5, -⟩ := axis_weights hh0 hh hy0 hy
  have hbd := (hpc c).2
  have hbits : T.max < 2 ^ 16 := by cases T <;> simp_all [Prim.max, Prim.bits]
  have hM2 : (T.max : ℚ) ≤ 2 ^ 16 := by exact_mod_cast hbits.le
  have hnear : ∀ (n : Nat) (x : ℚ) (i : Nat), i < n → (i : ℚ) ≤ x → x < i + 1 → x ≤ n - 1 →
      |(i : ℚ) - x| ≤ 1 ∧ |((min (i + 1) (n - 1) : ℕ) : ℚ) - x| ≤ 1 ∧ min (i + 1) (n - 1) < n := by
    intro n x i h1 h2 h3 h4
    refine ⟨by rw [abs_le]; constructor <;> linarith, ?_, by omega⟩
    rcases le_total (i + 1) (n - 1) with h | h
    · rw [min_eq_left h, abs_le]; push_cast; constructor <;> linarith
    · rw [min_eq_right h, abs_le]
      have e1 : n - 1 = i ∨ n - 1 = i + 1 := by omega
      rcases e1 with e1 | e1 <;> rw [e1] <;> push_cast <;> constructor <;> linarith
  obtain ⟨a1, a2, a3⟩ := hnear w x i i3 i4 i5 hx
  obtain ⟨b1, b2, b3⟩ := hnear h y j j3 j4 j5 hy
  have c1 := hb _ _ i3 j3 a1 b1
  have c2 := hb _ _ i3 b3 a1 b2
  have c3 := hb _ _ a3 j3 a2 b1
  have c4 := hb _ _ a3 b3 a2 b2
  unfold bilinear at hbd
  simp only [i1, j1] at hbd
  set i' := min (i + 1) (w - 1)
  set j' := min (j + 1) (h - 1)
  set a := x - i with ha
  set b := y - j with hb'
  have p1 : 0 ≤ (1 - a) * (1 - b) := mul_nonneg (by linarith) (by linarith)
  have p2 : 0 ≤ (1 - a) * b := mul_nonneg (by linarith) (by linarith)
  have p3 : 0 ≤ a * (1 - b) := mul_nonneg (by linarith) (by linarith)
  have p4 : 0 ≤ a * b := mul_nonneg (by linarith) (by linarith)
  set B := (1 - a) * (1 - b) * ((pix i j c : ℕ) : ℚ) + (1 - a) * b * ((pix i j' c : ℕ) : ℚ) + a * (1 - b) * ((pix i' j c : ℕ) : ℚ) +
    a * b * ((pix i' j' c : ℕ) : ℚ) with hB
  have q1 : B ≤ hi := by
    calc B ≤ (1 - a) * (1 - b) * (hi : ℚ) + (1 - a) * b * hi + a * (1 - b) * hi + a * b * hi := by
          rw [hB]
          gcongr
          · exact_mod_cast c1.2
          · exact_mod_cast c2.2
          · exact_mod_cast c3.2
          · exact_mod_cast c4.2
      _ = hi := by ring
  have q2 : (lo : ℚ) ≤ B := by
    calc (lo : ℚ) = (1 - a) * (1 - b) * (lo : ℚ) + (1 - a) * b * lo + a * (1 - b) * lo + a * b * lo := by ring
      _ ≤ B := by
          rw [hB]
          gcongr
          · exact_mod_cast c1.1
          · exact_mod_cast c2.1
          · exact_mod_cast c3.1
          · exact_mod_cast c4.1
  rw [abs_le] at hbd
  constructor
  · have : (lo : ℚ) < p c + 1 := by linarith [hbd.1]
    have : lo < p c + 1 := by exact_mod_cast this
    omega
  · have : (p c : ℚ) < hi + 1 := by linarith [hbd.2]
    have : p c < hi + 1 := by exact_mod_cast this
    omega

/-- C84: at integer coordinates the result is the pixel there. -/
theorem C84_grid {I : Type} [GenericImageView I (Pix Nat ch)] [LawfulView I (Pix Nat ch)] (T : Prim)
    (hT : T.bits ≤ 16) (img : I) (wf : WF img) (hr : SamplesOk T img) (hc : ch ≤ 4)
    (hw : widthOf img < 2 ^ 24) (hh : heightOf img < 2 ^ 24) (i j : Nat) (hi : i < widthOf img) (hj : j < heightOf img) :
    ∃ p, getPixel img i j = .ok p ∧ interpolateBilinear (Samp.uint T) img (.fin i) (.fin j) = .ok (some p) := by
  obtain ⟨pix, hp⟩ := exists_pix wf
  have hi' : (i : ℚ) + 1 ≤ widthOf img := by exact_mod_cast hi
  have hj' : (j : ℚ) + 1 ≤ heightOf img := by exact_mod_cast hj
  obtain ⟨p, e, hpc⟩ := C84_interpolate T hT img hr hc hw hh i j (by positivity) (by linarith) (by positivity) (by linarith) pix hp
  refine ⟨p, ?_, e⟩
  rw [hp i j hi hj]
  congr 1
  funext c
  have hbits : T.max < 2 ^ 16 := by cases T <;> simp_all [Prim.max, Prim.bits]
  have hM2 : (T.max : ℚ) ≤ 2 ^ 16 := by exact_mod_cast hbits.le
  have h := (hpc c).2
  unfold bilinear at h
  simp only [Int.floor_natCast, Int.toNat_natCast, sub_self, sub_zero, one_mul, zero_mul, mul_zero, add_zero] at h
  rw [abs_le] at h
  have h1 : (p c : ℚ) < (pix i j c : ℕ) + 1 := by linarith [h.2]
  have h2 : ((pix i j c : ℕ) : ℚ) < p c + 1 := by linarith [h.1]
  have h1 : p c < pix i j c + 1 := by exact_mod_cast h1
  have h2 : pix i j c < p c + 1 := by exact_mod_cast h2
  omega

/-- C84: outside the picture, for infinities and for NaN the result is nothing. -/
theorem C84_none {α : Type} {I : Type} [GenericImageView I (Pix α ch)] (S : Samp α) (img : I) (hc : ch ≤ 4)
    (hw : widthOf img ≤ 2 ^ 24) (hh : heightOf img ≤ 2 ^ 24) (x y : Fl)
    (h : ¬ (Inside (widthOf img) x ∧ Inside (heightOf img) y)) : interpolateBilinear S img x y = .ok none := by
  unfold interpolateBilinear
  simp only [hc, decide_true, assertR_true, ok_bind]
  by_cases h0 : widthOf img = 0 ∨ heightOf img = 0
  · simp only [if_pos h0]
  simp only [if_neg h0]
  by_cases hx : Inside (widthOf img) x
  · have hy : ¬ Inside (heightOf img) y := fun hy => h ⟨hx, hy⟩
    rw [← inRange_iff (by omega) hh] at hy
    simp [(inRange_iff (by omega) hw x).2 hx, hy]
  · rw [← inRange_iff (by omega) hw] at hx
    simp [hx]

/-- C84: `sample_bilinear` interpolates at the point `(u * width - 1/2, v * height - 1/2)`, moved into the picture if it is
outside, up to rounding of the position. -/
theorem C84_sample {I : Type} [GenericImageView I (Pix Nat ch)] [LawfulView I (Pix Nat ch)] (T : Prim)
    (hT : T.bits ≤ 16) (img : I) (hr : SamplesOk T img) (hc : ch ≤ 4) (hw0 : 0 < widthOf img) (hh0 : 0 < heightOf img)
    (hw : widthOf img < 2 ^ 24) (hh : heightOf img < 2 ^ 24) (u v : ℚ) (hu0 : 0 ≤ u) (hu : u ≤ 1) (hv0 : 0 ≤ v) (hv : v ≤ 1)
    (pix : Nat → Nat → Pix Nat ch)
    (hp : ∀ x y, x < widthOf img → y < heightOf img → getPixel img x y = .ok (pix x y)) :
    ∃ a b p, |a - (widthOf img * u - 1 / 2)| ≤ widthOf img / 2 ^ 22 ∧ |b - (heightOf img * v - 1 / 2)| ≤ heightOf img / 2 ^ 22 ∧
      sampleBilinear (Samp.uint T) img (.fin u) (.fin v) = .ok (some p) ∧ ∀ c, p c ≤ T.max ∧
      |(p c : ℚ) - bilinear (widthOf img) (heightOf img) (fun i j => (pix i j c : ℕ)) (min (max a 0) (widthOf img - 1))
        (min (max b 0) (heightOf img - 1))| ≤ 1 / 2 + 44 * T.max / 2 ^ 24 := by
  obtain ⟨t, a, e1, t1, t2⟩ := sample_pos hw0 hw.le hu0 hu
  obtain ⟨t', a', e2, t3, t4⟩ := sample_pos hh0 hh.le hv0 hv
  have hw1 : (1 : ℚ) ≤ widthOf img := by exact_mod_cast hw0
  have hh1 : (1 : ℚ) ≤ heightOf img := by exact_mod_cast hh0
  obtain ⟨p, e, hpc⟩ := C84_interpolate T hT img hr hc hw hh t t'
    (by rw [t1]; exact le_min (le_max_right _ _) (by linarith)) (by rw [t1]; exact min_le_right _ _)
    (by rw [t3]; exact le_min (le_max_right _ _) (by linarith)) (by rw [t3]; exact min_le_right _ _) pix hp
  refine ⟨a, a', p, t2, t4, ?_, ?_⟩
  · unfold sampleBilinear
    rw [if_neg (by simp [inRangeF, Fl.le, hu0, hu, hv0, hv])]
    simp only [e1, e2, e]
    rw [if_neg (by omega)]
  · rw [← t1, ← t3]; exact hpc

/-- C84: no result for an empty picture or for coordinates outside `0..1`. -/
theorem C84_sample_none {α : Type} {I : Type} [GenericImageView I (Pix α ch)] (S : Samp α) (img : I) (u v : Fl)
    (h : widthOf img = 0 ∨ heightOf img = 0 ∨
      ¬ ((∃ q : ℚ, u = .fin q ∧ 0 ≤ q ∧ q ≤ 1) ∧ ∃ q : ℚ, v = .fin q ∧ 0 ≤ q ∧ q ≤ 1)) :
    sampleBilinear S img u v = .ok none := by
  have key : ∀ x : Fl, inRangeF (.fin 0) (.fin 1) x = true ↔ ∃ q : ℚ, x = .fin q ∧ 0 ≤ q ∧ q ≤ 1 := by
    intro x
    cases x with
    | nan => simp [inRangeF, Fl.le]
    | inf s => cases s <;> simp [inRangeF, Fl.le]
    | fin q => simp [inRangeF, Fl.le]
  unfold sampleBilinear
  by_cases hr : (inRangeF (.fin 0) (.fin 1) u && inRangeF (.fin 0) (.fin 1) v) = true
  · rw [Bool.and_eq_true, key, key] at hr
    have h0 : widthOf img = 0 ∨ heightOf img = 0 := by
      rcases h with h | h | h
      · exact Or.inl h
      · exact Or.inr h
      · exact absurd hr h
    rw [if_neg (by rw [Bool.not_eq_true', (key u).2 hr.1, (key v).2 hr.2]; simp)]
    simp only [if_pos h0]
  · rw [if_pos (by rw [Bool.not_eq_true']; exact Bool.eq_false_iff.2 hr)]

example : interpolateBilinear (Samp.uint .u8) grey22 (.fin (1 / 2)) (.fin (1 / 4)) = .ok (some fun _ => 20) := by decide +kernel
example : sampleBilinear (Samp.uint .u8) grey22 (.fin (1 / 2)) (.fin 0) = .ok (some fun _ => 15) := by decide +kernel
example : ∃ p, getPixel grey22 1 1 = .ok p ∧ interpolateBilinear (Samp.uint .u8) grey22 (.fin (1 : ℕ)) (.fin (1 : ℕ)) = .ok (some p) :=
  C84_grid .u8 (by decide) grey22 grey22_wf (samplesOk_buffer grey22_wf (by decide)) (by decide) (by decide) (by decide) 1 1
    (by decide) (by decide)

end Verif
