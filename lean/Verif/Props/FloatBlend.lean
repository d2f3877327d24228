import Verif.Proofs.FloatBlend
import Verif.Props.FloatImage
import Verif.Props.Overlay

/-!
# C121: blending of `f32` pixels
-/

namespace Verif
open GenericImageView GenericImage LawfulView LawfulImage

/-- The source-over composition of a sample `fc` of opacity `fa` over a sample `bc` of opacity `ba`: the average of the two, weighted with what
each contributes to the opacity. -/
def overExact (bc ba fc fa : ℚ) : ℚ := (fc * fa + bc * (ba * (1 - fa))) / (1 - (1 - ba) * (1 - fa))

/-- `out` is `top` over `bottom` (the last sample is alpha), up to `2^-20`. -/
def IsOver {n : Nat} (a : Fin n) (bottom top out : Pix Fl n) : Prop :=
  ∀ ba fa, bottom a = .fin ba → top a = .fin fa → 1 / 2 ^ 60 ≤ 1 - (1 - ba) * (1 - fa) →
    (∀ k, k ≠ a → ∀ bc fc, bottom k = .fin bc → top k = .fin fc → ∃ w, out k = .fin w ∧ 0 ≤ w ∧ |w - overExact bc ba fc fa| ≤ 1 / 2 ^ 20) ∧
    ∃ w, out a = .fin w ∧ 0 ≤ w ∧ |w - (1 - (1 - ba) * (1 - fa))| ≤ 1 / 2 ^ 20

variable {n : Nat}

theorem UnitPix.val {p : Pix Fl n} (h : UnitPix p) {k : Fin n} {v : ℚ} (e : p k = .fin v) : f32.rnd v = v ∧ 0 ≤ v ∧ v ≤ 1 := by
  obtain ⟨v', e', h⟩ := h k
  rw [e, Fl.fin.injEq] at e'
  subst e'
  exact h

theorem unitF_self {v : ℚ} (h : f32.rnd v = v) (h0 : 0 ≤ v) (h1 : v ≤ 1) : unitF (.fin v) = .fin v := by
  unfold unitF
  rw [fl_div _ (by norm_num), div_one, ofRat32 (by rw [abs_of_nonneg h0]; exact h1.trans (by norm_num)), h]

theorem overExact_eq (bc ba fc fa : ℚ) : overExact bc ba fc fa = premulF bc ba fc fa / opacityF ba fa := by
  unfold overExact premulF opacityF
  rw [mul_assoc]

/-- The common part of the two formulas. -/
theorem over_core {a : Fin n} {bottom top out : Pix Fl n} (hb : UnitPix bottom) (ht : UnitPix top)
    (hc : alphaFinal (unitF (bottom a)) (unitF (top a)) ≠ .fin 0 → ∀ k, k ≠ a →
      out k = blendChannelF (unitF (bottom k)) (unitF (bottom a)) (unitF (top k)) (unitF (top a)) (alphaFinal (unitF (bottom a)) (unitF (top a))))
    (ha : alphaFinal (unitF (bottom a)) (unitF (top a)) ≠ .fin 0 →
      out a = (Fl.fin 1).mul f32 (alphaFinal (unitF (bottom a)) (unitF (top a)))) : IsOver a bottom top out := by
  intro ba fa eb ef hA
  obtain ⟨rb, b0, b1⟩ := hb.val eb
  obtain ⟨rf, f0, f1⟩ := ht.val ef
  have ub := unitF_self rb b0 b1
  have uf := unitF_self rf f0 f1
  obtain ⟨A, eA, rA, A0, A2, nA⟩ := alphaFinal_float b0 b1 f0 f1 (show 1 / 2 ^ 60 ≤ opacityF ba fa from hA)
  have hop : opacityF ba fa ≤ 1 := by unfold opacityF; nlinarith
  rw [eb, ef, ub, uf, eA] at hc ha
  have hne : Fl.fin A ≠ .fin 0 := fun h => by rw [Fl.fin.injEq] at h; linarith
  have hc := hc hne
  have ha := ha hne
  refine ⟨fun k hk bc fc ebc efc => ?_, A, ?_, A0.le, ?_⟩
  · obtain ⟨r1, c0, c1⟩ := hb.val ebc
    obtain ⟨r2, g0, g1⟩ := ht.val efc
    rw [hc k hk, ebc, efc, unitF_self r1 c0 c1, unitF_self r2 g0 g1, overExact_eq]
    exact blendChannelF_near b0 b1 f0 f1 c0 c1 g0 g1 hA A0 nA
  · rw [ha, fl_mul, one_mul, ofRat32 (by rw [abs_of_nonneg A0.le]; exact A2.trans (by norm_num)), rA]
  · show |A - opacityF ba fa| ≤ _
    refine nA.trans ?_
    have : 6 / 2 ^ 24 * opacityF ba fa ≤ 6 / 2 ^ 24 * 1 := mul_le_mul_of_nonneg_left hop (by norm_num)
    exact this.trans (by norm_num)

/-- **C121: a fully transparent RGBA top leaves the bottom as it is, a fully opaque one replaces it**, exactly and for all samples (NaN too). -/
theorem C121_extremes (bottom top : Pix Fl 4) :
    (top 3 = .fin 0 → blendRgbaF bottom top = bottom) ∧ (top 3 = .fin 1 → blendRgbaF bottom top = top) := by
  constructor
  · intro h; unfold blendRgbaF; rw [if_pos h]
  · intro h
    unfold blendRgbaF
    rw [if_neg (by rw [h]; exact fun e => by rw [Fl.fin.injEq] at e; norm_num at e), if_pos h]

/-- **C121: RGBA pixels** with samples from 0 to 1 are composed with the source-over formula, unless the result is all but transparent. -/
theorem C121_rgba (bottom top : Pix Fl 4) (hb : UnitPix bottom) (ht : UnitPix top) : IsOver 3 bottom top (blendRgbaF bottom top) := by
  by_cases h0 : top 3 = .fin 0
  · rw [(C121_extremes bottom top).1 h0]
    intro ba fa eb ef hA
    rw [h0, Fl.fin.injEq] at ef
    subst ef
    have hba : ba ≠ 0 := by rintro rfl; norm_num at hA
    refine ⟨fun k _ bc fc ebc efc => ⟨bc, ebc, (hb.val ebc).2.1, ?_⟩, ba, eb, (hb.val eb).2.1, ?_⟩
    · have : overExact bc ba fc 0 = bc := by
        unfold overExact
        rw [show fc * 0 + bc * (ba * (1 - 0)) = bc * ba by ring, show 1 - (1 - ba) * (1 - 0) = ba by ring, mul_div_cancel_right₀ _ hba]
      rw [this]; simp
    · rw [show ba - (1 - (1 - ba) * (1 - 0)) = 0 by ring]; simp
  · by_cases h1 : top 3 = .fin 1
    · rw [(C121_extremes bottom top).2 h1]
      intro ba fa eb ef hA
      rw [h1, Fl.fin.injEq] at ef
      subst ef
      refine ⟨fun k _ bc fc ebc efc => ⟨fc, efc, (ht.val efc).2.1, ?_⟩, 1, h1, by norm_num, ?_⟩
      · have : overExact bc ba fc 1 = fc := by unfold overExact; simp
        rw [this]; simp
      · simp
    · have e : blendRgbaF bottom top =
          if alphaFinal (unitF (bottom 3)) (unitF (top 3)) = .fin 0 then bottom else px4
            (blendChannelF (unitF (bottom 0)) (unitF (bottom 3)) (unitF (top 0)) (unitF (top 3)) (alphaFinal (unitF (bottom 3)) (unitF (top 3))))
            (blendChannelF (unitF (bottom 1)) (unitF (bottom 3)) (unitF (top 1)) (unitF (top 3)) (alphaFinal (unitF (bottom 3)) (unitF (top 3))))
            (blendChannelF (unitF (bottom 2)) (unitF (bottom 3)) (unitF (top 2)) (unitF (top 3)) (alphaFinal (unitF (bottom 3)) (unitF (top 3))))
            ((Fl.fin 1).mul f32 (alphaFinal (unitF (bottom 3)) (unitF (top 3)))) := by
        unfold blendRgbaF
        rw [if_neg h0, if_neg h1]
      refine over_core hb ht (fun h k hk => ?_) (fun h => by rw [e, if_neg h]; rfl)
      rw [e, if_neg h]
      match k, hk with
      | 0, _ => rfl
      | 1, _ => rfl
      | 2, _ => rfl
      | 3, h => exact absurd rfl h

/-- **C121: grey pixels with alpha.** -/
theorem C121_lumaA (bottom top : Pix Fl 2) (hb : UnitPix bottom) (ht : UnitPix top) : IsOver 1 bottom top (blendLumaAF bottom top) := by
  have e : blendLumaAF bottom top =
      if alphaFinal (unitF (bottom 1)) (unitF (top 1)) = .fin 0 then bottom else px2
        (blendChannelF (unitF (bottom 0)) (unitF (bottom 1)) (unitF (top 0)) (unitF (top 1)) (alphaFinal (unitF (bottom 1)) (unitF (top 1))))
        ((Fl.fin 1).mul f32 (alphaFinal (unitF (bottom 1)) (unitF (top 1)))) := rfl
  refine over_core hb ht (fun h k hk => ?_) (fun h => by rw [e, if_neg h]; rfl)
  rw [e, if_neg h]
  match k, hk with
  | 0, _ => rfl
  | 1, h => exact absurd rfl h

/-- **C121: `overlay` of `f32` images with alpha**: it succeeds for every offset, composes the pixels that the top covers, and leaves the others. -/
theorem C121_overlay {D I : Type} [GenericImage D (Pix Fl 4)] [LawfulImage D (Pix Fl 4)] [GenericImageView I (Pix Fl 4)] [LawfulView I (Pix Fl 4)]
    (bottom : D) (top : I) (wb : WF bottom) (wt : WF top) (x y : Int) (hx : -2 ^ 63 ≤ x ∧ x < 2 ^ 63) (hy : -2 ^ 63 ≤ y ∧ y < 2 ^ 63)
    (hb : UnitImage bottom) (ht : UnitImage top) :
    ∃ d, overlay (fun a b => .ok (blendRgbaF a b)) bottom top x y = .ok d ∧ WF d ∧ dims d = dims bottom ∧
      ∀ a b, a < widthOf bottom → b < heightOf bottom →
        (Covered (dims top) x y a b → ∀ p q, getPixel bottom a b = .ok p → getPixel top (a - x).toNat (b - y).toNat = .ok q →
          ∃ r, getPixel d a b = .ok r ∧ IsOver 3 p q r ∧ (q 3 = .fin 0 → r = p) ∧ (q 3 = .fin 1 → r = q)) ∧
        (¬Covered (dims top) x y a b → getPixel d a b = getPixel bottom a b) := by
  obtain ⟨d, e1, e2, e3, e4⟩ := C12_overlay (fun a b => .ok (blendRgbaF a b)) blendRgbaF (fun _ _ => rfl) bottom top wb wt x y hx hy
  refine ⟨d, e1, e2, e3, fun a b ha hb' => ⟨fun hc p q hp hq => ⟨_, (e4 a b ha hb').1 hc p q hp hq, ?_, ?_⟩, (e4 a b ha hb').2⟩⟩
  · refine C121_rgba p q (hb a b p ha hb' hp) (ht _ _ q ?_ ?_ hq)
    · have h := hc
      unfold Covered at h
      show (a - x).toNat < (dims top).1
      omega
    · have h := hc
      unfold Covered at h
      show (b - y).toNat < (dims top).2
      omega
  · exact ⟨(C121_extremes p q).1, (C121_extremes p q).2⟩

/-- **An opaque bottom does not always stay opaque**: a top of alpha `2^-24` makes it slightly transparent. -/
theorem C121_opaque_false :
    blendRgbaF (px4 (.fin 1) (.fin 1) (.fin 1) (.fin 1)) (px4 (.fin 1) (.fin 1) (.fin 1) (.fin (1 / 2 ^ 24))) 3 = .fin (1 - 1 / 2 ^ 24) := by
  decide +kernel

/-- **The bound on the opacity is needed**: a grey of alpha `2^-149` over nothing becomes black. -/
theorem C121_faint_false :
    blendRgbaF (px4 (.fin 0) (.fin 0) (.fin 0) (.fin 0)) (px4 (.fin (1 / 2)) (.fin (1 / 2)) (.fin (1 / 2)) (.fin (1 / 2 ^ 149))) 0 = .fin 0 := by
  decide +kernel

/-- **A transparent grey pixel does not leave the bottom exactly as it is**: over alpha 1/4 the smallest sample becomes 0. -/
theorem C121_lumaA_false :
    ∃ v a : ℚ, f32.rnd v = v ∧ f32.rnd a = a ∧ 0 ≤ v ∧ v ≤ 1 ∧ 0 < a ∧ a ≤ 1 ∧
      blendLumaAF (px2 (.fin v) (.fin a)) (px2 (.fin 0) (.fin 0)) 0 ≠ .fin v := by
  refine ⟨1 / 2 ^ 149, 1 / 4, by decide +kernel, by decide +kernel, by norm_num, by norm_num, by norm_num, by norm_num, by decide +kernel⟩

example : blendRgbaF (px4 (.fin 1) (.fin 0) (.fin (1 / 2)) (.fin 1)) (px4 (.fin 0) (.fin 1) (.fin (1 / 2)) (.fin (1 / 2))) =
    px4 (.fin (1 / 2)) (.fin (1 / 2)) (.fin (1 / 2)) (.fin 1) := by decide +kernel
example : ∃ d, overlay (fun a b => .ok (blendRgbaF a b)) floatDot floatDot 0 0 = .ok d ∧ WF d := by
  obtain ⟨d, h1, h2, -⟩ := C121_overlay floatDot floatDot floatDot_wf floatDot_wf 0 0 (by norm_num) (by norm_num) floatDot_unit floatDot_unit
  exact ⟨d, h1, h2⟩

end Verif
