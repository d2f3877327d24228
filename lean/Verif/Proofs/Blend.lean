import Verif.Proofs.Float

/-!
# Error analysis of blending
-/

namespace Verif

/-- The unsigned types whose values are exact in `f32`. -/
def Prim.Small (T : Prim) : Prop := T = .u8 ∨ T = .u16

theorem Prim.Small.max_lt {T : Prim} (h : T.Small) : T.max < 2 ^ 16 := by rcases h with rfl | rfl <;> decide
theorem Prim.Small.max_pos {T : Prim} (h : T.Small) : 0 < T.max := by rcases h with rfl | rfl <;> decide

theorem maxF32_small {T : Prim} (h : T.Small) : maxF32 T = .fin T.max :=
  ofNat_fin wide32 (h.max_lt.trans (by decide))

theorem castU_ok {T : Prim} {q : ℚ} (h0 : 0 ≤ q) (h : q < T.max + 1) :
    (Fl.fin q).castU T.bits = some ⌊q⌋.toNat := by
  simp only [Fl.castU]
  rw [if_pos]
  refine ⟨by linarith, lt_of_lt_of_le h ?_⟩
  have : T.max + 1 = 2 ^ T.bits := by cases T <;> rfl
  exact_mod_cast this.le

/-- The float quotient `x / MAX`. -/
theorem unit_ok {T : Prim} (hT : T.Small) {x : ℕ} (hx : x ≤ T.max) :
    ∃ v : ℚ, unitF32 T x = .fin v ∧ Near (1 / 2 ^ 24) (x / T.max) v (x / T.max) ∧ v ≤ 1 ∧ Tm 17 v ∧
      (x = T.max → v = 1) ∧ (x < T.max → Tm 17 (1 - v)) ∧ (x = 0 → v = 0) := by
  have hm := hT.max_lt
  have hm0 : (0 : ℚ) < T.max := by exact_mod_cast hT.max_pos
  have hmq : (T.max : ℚ) ≤ 2 ^ 16 := by exact_mod_cast hm.le
  have hxq : (x : ℚ) ≤ T.max := by exact_mod_cast hx
  have hq1 : (x : ℚ) / T.max ≤ 1 := by rw [div_le_one hm0]; exact hxq
  have hq0 : (0 : ℚ) ≤ x / T.max := by positivity
  have htm : Tm 16 ((x : ℚ) / T.max) := by
    rcases Nat.eq_zero_or_pos x with rfl | hp
    · left; simp
    · right
      have : (1 : ℚ) ≤ x := by exact_mod_cast hp
      gcongr
  have hn := rnd_near (F := f32) (Or.inl rfl) (htm.tame (by norm_num))
  rw [show (f32.p) = 24 from rfl] at hn
  have hr1 : f32.rnd ((x : ℚ) / T.max) ≤ 1 := by
    simpa using rnd_le_nat wide32 hq0 (n := 1) (by decide) (by simpa using hq1)
  refine ⟨f32.rnd (x / T.max), ?_, ?_, hr1, htm.rnd (by norm_num), ?_, ?_, ?_⟩
  · unfold unitF32
    rw [maxF32_small hT, ofNat_fin wide32 (lt_of_le_of_lt hx (hm.trans (by decide)))]
    simp only [Fl.div]
    rw [if_neg hm0.ne']
    exact ofRat_fin wide32 hq0 (n := 1) (by decide) (by simpa using hq1)
  · unfold Near; linarith
  · rintro rfl
    rw [div_self hm0.ne']
    exact_mod_cast f32.rnd_nat (n := 1) (by decide) (by decide)
  · intro hlt
    right
    rw [abs_le] at hn
    have h1 : (x : ℚ) + 1 ≤ T.max := by exact_mod_cast hlt
    have h2 : (x : ℚ) / T.max ≤ 1 - 1 / T.max := by
      rw [le_sub_iff_add_le, ← add_div, div_le_one hm0]; exact h1
    have h3 : (1 : ℚ) / 2 ^ 16 ≤ 1 / T.max := by gcongr
    have : (x : ℚ) / T.max / 2 ^ 24 ≤ 1 / 2 ^ 24 := by gcongr
    have : (1 : ℚ) / 2 ^ 16 - 1 / 2 ^ 24 ≥ 1 / 2 ^ 17 := by norm_num
    linarith
  · rintro rfl; simp

/-- The exact resulting opacity of `f` over `b`. -/
def exactAlpha (b f : ℚ) : ℚ := b + f - b * f

/-- The computed final alpha. -/
theorem alphaFinal_ok {b f b' f' : ℚ} (hb : Near (1 / 2 ^ 24) b' b b') (hf : Near (1 / 2 ^ 24) f' f f')
    (hb0 : 0 ≤ b') (hb1 : b' ≤ 1) (hf0 : 0 ≤ f') (hf1 : f' ≤ 1) (tb : Tm 17 b) (tf : Tm 17 f) (tb' : Tm 16 b')
    (tf' : Tm 16 f') (b1 : b ≤ 1) (f1 : f ≤ 1) :
    ∃ A : ℚ, alphaFinal (.fin b) (.fin f) = .fin A ∧ Near (12 / 2 ^ 24) (exactAlpha b' f') A (exactAlpha b' f') ∧
      Tm 18 A ∧ A ≤ 2 := by
  have b0 := tb.nonneg
  have f0 := tf.nonneg
  have nS := (hb.add hf).rnd ((tb.add tf).tame (by norm_num)) le_rfl
  have nP := ((hb.mul hf hb0 le_rfl hf0 le_rfl (by norm_num)).rnd ((tb.mul tf).tame (by norm_num)) le_rfl)
  have bf1 : b * f ≤ 1 := by nlinarith
  have bf0 : 0 ≤ b * f := by positivity
  have bf1' : b' * f' ≤ 1 := by nlinarith
  have bf0' : 0 ≤ b' * f' := by positivity
  have nS' := nS.mono (e' := 33 / 10 / 2 ^ 24) (by norm_num) le_rfl (by norm_num) (by linarith)
  have nP' := nP.mono (e' := 33 / 10 / 2 ^ 24) (by norm_num) le_rfl (by norm_num) (by linarith)
  have nD := nS'.sub nP'
  have hα : b' + f' + b' * f' ≤ 3 * exactAlpha b' f' := by unfold exactAlpha; nlinarith
  have hα0 : 0 ≤ exactAlpha b' f' := by unfold exactAlpha; nlinarith
  have hα1 : exactAlpha b' f' ≤ 1 := by unfold exactAlpha; nlinarith
  have nD' : Near (10 / 2 ^ 24) (exactAlpha b' f') (f32.rnd (b + f) - f32.rnd (b * f)) (exactAlpha b' f') := by
    obtain ⟨a, c⟩ := nD.bounds
    unfold exactAlpha at hα ⊢
    apply near_of <;> linarith
  have hαt : Tm 16 (exactAlpha b' f') := by
    unfold exactAlpha
    rcases tb' with rfl | tb'
    · rcases tf' with rfl | tf'
      · left; ring
      · right; linarith
    · right; nlinarith
  have tD : Tm 17 (f32.rnd (b + f) - f32.rnd (b * f)) := by
    obtain ⟨a, c⟩ := nD'.bounds
    rcases hαt with h | h
    · left; rw [h] at a c; linarith
    · right
      have : (1 : ℚ) / 2 ^ 17 = 1 / 2 ^ 16 / 2 := by norm_num
      rw [this]
      linarith
  have nA := nD'.rnd (tD.tame (by norm_num)) le_rfl
  have hD0 := tD.nonneg
  have hD2 : f32.rnd (b + f) - f32.rnd (b * f) ≤ 2 := by
    obtain ⟨a, c⟩ := nD'.bounds
    have : 10 / 2 ^ 24 * exactAlpha b' f' ≤ 10 / 2 ^ 24 * 1 := by gcongr
    linarith
  refine ⟨f32.rnd (f32.rnd (b + f) - f32.rnd (b * f)), ?_, nA.mono (by norm_num) le_rfl (by norm_num) hα0,
    tD.rnd (by norm_num), ?_⟩
  · simp only [alphaFinal, Fl.add, Fl.mul, Fl.sub]
    rw [ofRat_fin wide32 (by positivity) (n := 2) (by decide) (by push_cast; linarith),
      ofRat_fin wide32 (by positivity) (n := 1) (by decide) (by push_cast; linarith)]
    simp only [Fl.neg]
    rw [← sub_eq_add_neg, ofRat_fin wide32 hD0 (n := 2) (by decide) (by exact_mod_cast hD2)]
  · exact_mod_cast rnd_le_nat wide32 hD0 (n := 2) (by decide) (by exact_mod_cast hD2)

/-- The exact premultiplied source-over channel. -/
def exactNum (s b r f : ℚ) : ℚ := r * f + s * b * (1 - f)

/-- One computed channel, before truncation. -/
theorem blendChannel_ok {T : Prim} (hT : T.Small) {s b r f s' b' r' f' A : ℚ}
    (hs : Near (1 / 2 ^ 24) s' s s') (hb : Near (1 / 2 ^ 24) b' b b')
    (hr : Near (1 / 2 ^ 24) r' r r') (hf : Near (1 / 2 ^ 24) f' f f')
    (hs0 : 0 ≤ s') (hs1 : s' ≤ 1) (hb0 : 0 ≤ b') (hb1 : b' ≤ 1) (hr0 : 0 ≤ r') (hr1 : r' ≤ 1) (hf0 : 0 ≤ f')
    (hf1 : f' ≤ 1) (ts : Tm 17 s) (tb : Tm 17 b) (tr : Tm 17 r) (tf : Tm 17 f) (td : Tm 17 (1 - f))
    (s1 : s ≤ 1) (b1 : b ≤ 1) (r1 : r ≤ 1)
    (hα : 0 < exactAlpha b' f') (hA : Near (12 / 2 ^ 24) (exactAlpha b' f') A (exactAlpha b' f')) (hA2 : A ≤ 2) :
    ∃ X : ℚ, blendChannel T (.fin s) (.fin b) (.fin r) (.fin f) (.fin A) = unwrapR ((Fl.fin X).castU T.bits) ∧
      Near (1 / 2 ^ 18) T.max X (T.max * (exactNum s' b' r' f' / exactAlpha b' f')) ∧ 0 ≤ X := by
  have s0 := ts.nonneg
  have b0 := tb.nonneg
  have r0 := tr.nonneg
  have f0 := tf.nonneg
  have d0 := td.nonneg
  have hm := hT.max_lt
  have hm0 : (0 : ℚ) < T.max := by exact_mod_cast hT.max_pos
  have hm1 : (1 : ℚ) ≤ T.max := by exact_mod_cast hT.max_pos
  have hmq : (T.max : ℚ) ≤ 2 ^ 16 := by exact_mod_cast hm.le
  set α := exactAlpha b' f' with hαdef
  have hbα : b' ≤ α := by rw [hαdef]; unfold exactAlpha; nlinarith
  have hfα : f' ≤ α := by rw [hαdef]; unfold exactAlpha; nlinarith
  -- premultiplied
  have rf0 : 0 ≤ r' * f' := by positivity
  have sb0 : 0 ≤ s' * b' := by positivity
  have rff : r' * f' ≤ f' := by nlinarith
  have sbb : s' * b' ≤ b' := by nlinarith
  have nF := ((hr.mul hf hr0 le_rfl hf0 le_rfl (by norm_num)).rnd ((tr.mul tf).tame (by norm_num)) le_rfl).mono
    (e' := 4 / 2 ^ 24) (by norm_num) (rff.trans hfα) (by norm_num) rf0
  have nB := ((hs.mul hb hs0 le_rfl hb0 le_rfl (by norm_num)).rnd ((ts.mul tb).tame (by norm_num)) le_rfl).mono
    (e' := 4 / 2 ^ 24) (by norm_num) (sbb.trans hbα) (by norm_num) sb0
  have tF := (tr.mul tf).rnd (by norm_num)
  have tB := (ts.mul tb).rnd (by norm_num)
  -- 1 - f
  have nd : Near (1 / 2 ^ 24) 1 (1 - f) (1 - f') := by
    obtain ⟨a, c⟩ := hf.bounds
    apply near_of <;> linarith
  have nD := (nd.rnd (td.tame (by norm_num)) (by linarith)).mono (e' := 3 / 2 ^ 24) (by norm_num) le_rfl
    (by norm_num) (by norm_num)
  have tD := td.rnd (by norm_num)
  have nG := ((nB.mul nD sb0 (sbb.trans hbα) (by linarith) (by linarith) (by norm_num)).rnd
    ((tB.mul tD).tame (by norm_num)) (by
      have : s' * b' * (1 - f') ≤ s' * b' * 1 := by gcongr; linarith
      linarith)).mono (e' := 9 / 2 ^ 24) (s' := α) (by norm_num) (by linarith) (by norm_num) (by linarith)
  have tG := (tB.mul tD).rnd (by norm_num)
  have nN := ((nF.mono (e' := 9 / 2 ^ 24) (by norm_num) le_rfl (by norm_num) hα.le).add nG)
  have hN0 : 0 ≤ exactNum s' b' r' f' := by
    have : 0 ≤ s' * b' * (1 - f') := mul_nonneg sb0 (by linarith)
    unfold exactNum; linarith
  have hNα : exactNum s' b' r' f' ≤ α := by
    have : s' * b' * (1 - f') ≤ b' * (1 - f') := by
      have : 0 ≤ 1 - f' := by linarith
      gcongr
    rw [hαdef]; unfold exactNum exactAlpha; linarith
  have tN := (tF.mono (l := 35 + 18 + 1) (by norm_num)).add (tG.mono (l := 35 + 18 + 1) (by norm_num))
  have nN' := (nN.rnd (tN.tame (by norm_num)) (by unfold exactNum at hNα; linarith))
  have nN'' : Near (21 / 2 ^ 24) α (f32.rnd (f32.rnd (r * f) + f32.rnd (f32.rnd (s * b) * f32.rnd (1 - f))))
      (exactNum s' b' r' f') := by
    obtain ⟨a, c⟩ := nN'.bounds
    unfold exactNum
    have : (9 / 2 ^ 24 + (1 + 9 / 2 ^ 24) / 2 ^ 24 : ℚ) * (α + α) ≤ 21 / 2 ^ 24 * α := by
      rw [← two_mul, ← mul_assoc]
      gcongr
      norm_num
    apply near_of <;> linarith
  have tN' := tN.rnd (by norm_num)
  -- quotient
  have hA0 : 0 < A := by
    obtain ⟨a, c⟩ := hA.bounds
    linarith
  have nQ := (nN''.div hα hA hN0 hNα (by norm_num) (by norm_num) (by norm_num)).mono (e' := 34 / 2 ^ 24) (by norm_num)
    le_rfl (by norm_num) (by norm_num)
  set N := f32.rnd (f32.rnd (r * f) + f32.rnd (f32.rnd (s * b) * f32.rnd (1 - f))) with hNdef
  have tQ : Tm 56 (N / A) := by
    rcases tN' with h | h
    · left; rw [h]; simp
    · right
      rw [le_div_iff₀ hA0]
      calc (1 : ℚ) / 2 ^ 56 * A ≤ 1 / 2 ^ 56 * 2 := by gcongr
        _ = 1 / 2 ^ (35 + 18 + 1 + 1) := by norm_num
        _ ≤ N := h
  have hq1 : exactNum s' b' r' f' / α ≤ 1 := by rw [div_le_one hα]; exact hNα
  have hq0 : 0 ≤ exactNum s' b' r' f' / α := by positivity
  have nO := (nQ.rnd (tQ.tame (by norm_num)) hq1).mono (e' := 36 / 2 ^ 24) (by norm_num) le_rfl (by norm_num)
    (by norm_num)
  have tO := tQ.rnd (by norm_num)
  have tMO : Tm 57 (T.max * f32.rnd (N / A)) := by
    rcases tO with h | h
    · left; rw [h]; simp
    · right; exact h.trans (le_mul_of_one_le_left (by linarith [show (0 : ℚ) ≤ 1 / 2 ^ (56 + 1) by positivity]) hm1)
  have nMO : Near (36 / 2 ^ 24) T.max (T.max * f32.rnd (N / A)) (T.max * (exactNum s' b' r' f' / α)) := by
    obtain ⟨a, c⟩ := nO.bounds
    apply near_of
    · have := mul_le_mul_of_nonneg_left a hm0.le
      linarith
    · have := mul_le_mul_of_nonneg_left c hm0.le
      linarith
  have hMq1 : T.max * (exactNum s' b' r' f' / α) ≤ T.max := by
    have := mul_le_mul_of_nonneg_left hq1 hm0.le
    linarith
  have nX := (nMO.rnd (tMO.tame (by norm_num)) hMq1).mono (e' := 1 / 2 ^ 18) (by norm_num) le_rfl (by norm_num) hm0.le
  refine ⟨f32.rnd (T.max * f32.rnd (N / A)), ?_, nX, f32.rnd_nonneg tMO.nonneg⟩
  -- finiteness of every step
  have hF1 : f32.rnd (r * f) ≤ 2 := by
    obtain ⟨a, c⟩ := nF.bounds
    have : α ≤ 1 := by rw [hαdef]; unfold exactAlpha; nlinarith
    have : (4 : ℚ) / 2 ^ 24 * α ≤ 4 / 2 ^ 24 * 1 := by gcongr
    linarith
  have hB1 : f32.rnd (s * b) ≤ 2 := by
    obtain ⟨a, c⟩ := nB.bounds
    have : α ≤ 1 := by rw [hαdef]; unfold exactAlpha; nlinarith
    have : (4 : ℚ) / 2 ^ 24 * α ≤ 4 / 2 ^ 24 * 1 := by gcongr
    linarith
  have hD1 : f32.rnd (1 - f) ≤ 1 := by
    exact_mod_cast rnd_le_nat wide32 d0 (n := 1) (by decide) (by push_cast; linarith)
  have hBD : f32.rnd (s * b) * f32.rnd (1 - f) ≤ 2 := by
    have := tB.nonneg
    have := tD.nonneg
    nlinarith
  have hG1 : f32.rnd (f32.rnd (s * b) * f32.rnd (1 - f)) ≤ 2 := by
    exact_mod_cast rnd_le_nat wide32 (tB.mul tD).nonneg (n := 2) (by decide) (by exact_mod_cast hBD)
  have ff1 : f ≤ 1 := by linarith
  have hQ2 : N / A ≤ 2 := by
    obtain ⟨a, c⟩ := nQ.bounds
    linarith
  have hO2 : f32.rnd (N / A) ≤ 2 := by
    exact_mod_cast rnd_le_nat wide32 tQ.nonneg (n := 2) (by decide) (by exact_mod_cast hQ2)
  have hMO : (T.max : ℚ) * f32.rnd (N / A) ≤ (2 * T.max : ℕ) := by
    push_cast
    rw [mul_comm (2 : ℚ)]
    gcongr
  simp only [blendChannel, maxF32_small hT, Fl.mul, Fl.sub, Fl.neg, Fl.add, Fl.div]
  rw [ofRat_fin wide32 (q := r * f) (by positivity) (n := 1) (by decide) (by push_cast; nlinarith),
    ofRat_fin wide32 (q := s * b) (by positivity) (n := 1) (by decide) (by push_cast; nlinarith),
    ← sub_eq_add_neg, ofRat_fin wide32 (q := 1 - f) d0 (n := 1) (by decide) (by push_cast; linarith)]
  simp only []
  rw [ofRat_fin wide32 (tB.mul tD).nonneg (n := 2) (by decide) (by exact_mod_cast hBD)]
  simp only []
  rw [ofRat_fin wide32 tN.nonneg (n := 4) (by decide) (by push_cast; linarith)]
  simp only [if_neg hA0.ne', ← hNdef]
  rw [ofRat_fin wide32 tQ.nonneg (n := 2) (by decide) (by exact_mod_cast hQ2)]
  simp only []
  rw [ofRat_fin wide32 tMO.nonneg (n := 2 * T.max) (by
    rw [show f32.p = 24 from rfl]; omega) hMO]

/-- The alpha channel, before truncation. -/
theorem alphaOut_ok {T : Prim} (hT : T.Small) {α A : ℚ} (h1 : α ≤ 1) (hA : Near (12 / 2 ^ 24) α A α)
    (tA : Tm 18 A) (hA2 : A ≤ 2) :
    ∃ X : ℚ, (maxF32 T).mul f32 (.fin A) = .fin X ∧ Near (1 / 2 ^ 18) T.max X (T.max * α) ∧ 0 ≤ X := by
  have hm := hT.max_lt
  have hm0 : (0 : ℚ) < T.max := by exact_mod_cast hT.max_pos
  have hm1 : (1 : ℚ) ≤ T.max := by exact_mod_cast hT.max_pos
  have tMA : Tm 18 (T.max * A) := by
    rcases tA with h | h
    · left; rw [h]; simp
    · right; exact h.trans (le_mul_of_one_le_left (le_trans (by positivity) h) hm1)
  have hMα : T.max * α ≤ T.max := by
    have := mul_le_mul_of_nonneg_left h1 hm0.le
    linarith
  have nMA : Near (12 / 2 ^ 24) T.max (T.max * A) (T.max * α) := by
    obtain ⟨a, c⟩ := hA.bounds
    have e : 12 / 2 ^ 24 * α ≤ 12 / 2 ^ 24 * 1 := by gcongr
    apply near_of
    · have := mul_le_mul_of_nonneg_left (show α - 12 / 2 ^ 24 ≤ A by linarith) hm0.le
      linarith
    · have := mul_le_mul_of_nonneg_left (show A ≤ α + 12 / 2 ^ 24 by linarith) hm0.le
      linarith
  refine ⟨f32.rnd (T.max * A), ?_, (nMA.rnd (tMA.tame (by norm_num)) hMα).mono (by norm_num) le_rfl (by norm_num)
    hm0.le, f32.rnd_nonneg tMA.nonneg⟩
  rw [maxF32_small hT]
  simp only [Fl.mul]
  refine ofRat_fin wide32 tMA.nonneg (n := 2 * T.max) (by rw [show f32.p = 24 from rfl]; omega) ?_
  push_cast
  rw [mul_comm (2 : ℚ)]
  gcongr

/-- Truncation of an approximation of `M * y`, `y ≤ 1`. -/
theorem castU_near {T : Prim} (hT : T.Small) {X y : ℚ} (h : Near (1 / 2 ^ 18) T.max X y) (hX : 0 ≤ X)
    (hy : y ≤ T.max) :
    ∃ n : ℕ, (Fl.fin X).castU T.bits = some n ∧ n ≤ T.max ∧ (n : ℚ) ≤ y + T.max / 2 ^ 18 ∧
      y - T.max / 2 ^ 18 < n + 1 := by
  obtain ⟨a, b⟩ := h.bounds
  have hm : (T.max : ℚ) < 2 ^ 16 := by exact_mod_cast hT.max_lt
  have hlt : X < T.max + 1 := by
    have : (1 : ℚ) / 2 ^ 18 * T.max < 1 / 2 ^ 18 * 2 ^ 16 := by gcongr
    linarith
  have hfl : 0 ≤ ⌊X⌋ := Int.floor_nonneg.2 hX
  have hc : ((⌊X⌋.toNat : ℕ) : ℚ) = ⌊X⌋ := by
    have : ((⌊X⌋.toNat : ℕ) : ℤ) = ⌊X⌋ := Int.toNat_of_nonneg hfl
    exact_mod_cast this
  have h1 := Int.floor_le X
  have h2 := Int.lt_floor_add_one X
  refine ⟨⌊X⌋.toNat, castU_ok hX hlt, ?_, ?_, ?_⟩
  · have : ⌊X⌋ < T.max + 1 := Int.floor_lt.2 (by exact_mod_cast hlt)
    omega
  · rw [hc]; linarith
  · rw [hc]; linarith

end Verif
