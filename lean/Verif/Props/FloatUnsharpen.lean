import Verif.Model.FloatFilter
import Verif.Spec.Unsharpen
import Verif.Props.SampleFloat
import Verif.Props.FloatImage
import Verif.Proofs.JpegScan
import Mathlib.Data.Finset.Max

/-!
# C123: `unsharpen` of `f32` pictures
-/

namespace Verif
open GenericImageView GenericImage LawfulView LawfulImage

variable {ch : Nat}

/-- What becomes of a sample `c` between 0 and 1 whose blurred version is `d`: both are cut to integers first. -/
def cutSharpened (threshold : ℤ) (c d : ℚ) : ℚ :=
  if |⌊c⌋ - ⌊d⌋| ≤ threshold then c else (sharpened 1 threshold ⌊c⌋ ⌊d⌋ : ℤ)

theorem castI32_unit {q : ℚ} (h0 : 0 ≤ q) (h1 : q ≤ 1) : (Fl.fin q).castI32 = some ⌊q⌋ := by
  show (if -2 ^ 31 ≤ q ∧ q < 2 ^ 31 then some (if 0 ≤ q then ⌊q⌋ else ⌈q⌉) else none) = _
  rw [if_pos ⟨by linarith, by linarith⟩, if_pos h0]

theorem floor_unit {q : ℚ} (h0 : 0 ≤ q) (h1 : q ≤ 1) : ⌊q⌋ = 0 ∨ ⌊q⌋ = 1 := by
  have h2 : 0 ≤ ⌊q⌋ := Int.floor_nonneg.2 h0
  have h3 : ⌊q⌋ ≤ 1 := by
    have := Int.floor_le q
    have : ((⌊q⌋ : ℤ) : ℚ) ≤ ((1 : ℤ) : ℚ) := by push_cast; linarith
    exact_mod_cast this
  omega

theorem unsharpenSampleF_ok {threshold : Int} {c d : ℚ} (hc0 : 0 ≤ c) (hc1 : c ≤ 1) (hd0 : 0 ≤ d) (hd1 : d ≤ 1) :
    unsharpenSampleF threshold (.fin c) (.fin d) = .ok (.fin (cutSharpened threshold c d)) := by
  unfold unsharpenSampleF cutSharpened sharpened
  rw [castI32_unit hc0 hc1, castI32_unit hd0 hd1]
  have e0 : f32.ofRat 0 = .fin 0 := by decide +kernel
  have e1 : f32.ofRat 1 = .fin 1 := by decide +kernel
  rcases floor_unit hc0 hc1 with a | a <;> rcases floor_unit hd0 hd1 with b | b <;> rw [a, b]
  · by_cases h : threshold < 0
    · simp [unwrapR, addI32, h, not_le.2 h, clampZ, e0, ok_bind]
    · simp [unwrapR, addI32, h, not_lt.1 h, ok_bind]
  · by_cases h : threshold < 1
    · simp [unwrapR, addI32, h, not_le.2 h, clampZ, e0, ok_bind]
    · simp [unwrapR, addI32, h, not_lt.1 h, ok_bind]
  · by_cases h : threshold < 1
    · simp [unwrapR, addI32, h, not_le.2 h, clampZ, e1, ok_bind]
    · simp [unwrapR, addI32, h, not_lt.1 h, ok_bind]
  · by_cases h : threshold < 0
    · simp [unwrapR, addI32, h, not_le.2 h, clampZ, e1, ok_bind]
    · simp [unwrapR, addI32, h, not_lt.1 h, ok_bind]

/-- **C123, what the code computes**: for samples between 0 and 1 `unsharpen` succeeds, and compares the samples and the blurred samples only after it has
cut both to integers. -/
theorem C123_formula_partial {I : Type} [GenericImageView I (Pix Fl ch)] [LawfulView I (Pix Fl ch)] (L : Libm) (hL : L.Ok) (sigma : ℚ)
    (hrep : f32.rnd sigma = sigma) (hlo : 1 / 8 ≤ sigma) (hhi : sigma ≤ 2047) (threshold : Int) (img : I) (hc : ch ≤ 4)
    (hw0 : 0 < widthOf img) (hh0 : 0 < heightOf img) (hw : widthOf img ≤ 2 ^ 17) (hh : heightOf img ≤ 2 ^ 17)
    (hsw : (1 + 2 * sigma) * widthOf img ≤ 2 ^ 19) (hsh : (1 + 2 * sigma) * heightOf img ≤ 2 ^ 19)
    (val : Nat → Nat → Fin ch → ℚ)
    (hp : ∀ x y, x < widthOf img → y < heightOf img → getPixel img x y = .ok (fun c => .fin (val x y c)))
    (hv : ∀ x y, x < widthOf img → y < heightOf img → ∀ c, 0 ≤ val x y c ∧ val x y c ≤ 1) :
    ∃ blurred b, blur L Samp.float img (.fin sigma) = .ok blurred ∧ unsharpenF L img (.fin sigma) threshold = .ok b ∧
      b.width = widthOf img ∧ b.height = heightOf img ∧
      ∀ x y, x < widthOf img → y < heightOf img → ∃ d : Fin ch → ℚ, blurred.getPixel x y = .ok (fun c => .fin (d c)) ∧
        b.getPixel x y = .ok (fun c => .fin (cutSharpened threshold (val x y c) (d c))) := by
  obtain ⟨t, hb, hi, htw, hth, hpx⟩ := blur_float L hL sigma hrep hlo hhi img hc hw0 hh0 hw hh hsw hsh val hp hv
  have hpx' : ∀ x y, ∃ d : Fin ch → ℚ, x < widthOf img → y < heightOf img → t.getPixel x y = .ok (fun c => .fin (d c)) ∧ ∀ c, 0 ≤ d c ∧ d c ≤ 1 := by
    intro x y
    by_cases hx : x < widthOf img
    · by_cases hy : y < heightOf img
      · obtain ⟨p, h1, h2⟩ := hpx x y hx hy
        choose q q1 q2 q3 _ using h2
        exact ⟨q, fun _ _ => ⟨by rw [h1]; congr 1; funext c; exact q1 c, fun c => ⟨q2 c, q3 c⟩⟩⟩
      · exact ⟨fun _ => 0, fun _ h => absurd h hy⟩
    · exact ⟨fun _ => 0, fun h => absurd h hx⟩
  choose d hd using hpx'
  refine ⟨t, ?_⟩
  unfold unsharpenF
  rw [hb, ok_bind]
  obtain ⟨b, h1, h2, h3, h4, -⟩ := update_loop' (D := ImageBuffer Fl ch) (P := Pix Fl ch) (w := widthOf img) (h := heightOf img)
    (body := fun x y tmp => do
        let a ← getPixel img x y
        let b ← tmp.getPixel x y
        let p ← (List.finRange ch).mapM fun c => unsharpenSampleF threshold (a c) (b c)
        tmp.putPixel x y (← fromSlice ch p)) (d0 := t) (fun x y => (x, y))
    (fun x y _ c => .fin (cutSharpened threshold (val x y c) (d x y c))) hi
    (fun x y hx hy => ⟨by show x < t.width; omega, by show y < t.height; omega⟩) (fun x y x' y' _ _ _ _ h => by simpa using h)
    (by
      intro x y hx hy e hw he p hp1 hp0
      have hwd : e.width = widthOf img := by
        have : (e.width, e.height) = (t.width, t.height) := he
        rw [← htw]; exact (Prod.mk.inj this).1
      have hhd : e.height = heightOf img := by
        have : (e.width, e.height) = (t.width, t.height) := he
        rw [← hth]; exact (Prod.mk.inj this).2
      obtain ⟨k1, k2⟩ := hd x y hx hy
      have hpe : p = fun c => .fin (d x y c) := by
        have hp0 : t.getPixel x y = .ok p := hp0
        rw [k1] at hp0
        exact (Except.ok.inj hp0).symm
      have hs : ∀ c, unsharpenSampleF threshold (.fin (val x y c)) (p c) = .ok (.fin (cutSharpened threshold (val x y c) (d x y c))) := by
        intro c
        rw [hpe]
        exact unsharpenSampleF_ok (hv x y hx hy c).1 (hv x y hx hy c).2 (k2 c).1 (k2 c).2
      have hm : ((List.finRange ch).mapM fun c => unsharpenSampleF threshold (.fin (val x y c)) (p c)) =
          .ok ((List.finRange ch).map fun c => Fl.fin (cutSharpened threshold (val x y c) (d x y c))) :=
        Jpeg.mapM_ok fun c _ => hs c
      have hf : fromSlice ch ((List.finRange ch).map fun c => Fl.fin (cutSharpened threshold (val x y c) (d x y c))) =
          .ok fun c => .fin (cutSharpened threshold (val x y c) (d x y c)) := by
        rw [fromSlice_eq_ok]
        refine ⟨by simp, fun c => by simp⟩
      obtain ⟨d', e1, e2, e3, e4, -, e5, e6⟩ := ImageBuffer.put_spec hw (x := x) (y := y) (by omega) (by omega)
        (fun c => Fl.fin (cutSharpened threshold (val x y c) (d x y c)))
      refine ⟨d', ?_, e2, ?_, e5, ?_⟩
      · rw [hp x y hx hy, ok_bind]
        have : e.getPixel x y = .ok p := hp1
        rw [this, ok_bind, hm, ok_bind, hf, ok_bind, e1]
      · show (d'.width, d'.height) = (e.width, e.height)
        rw [e3, e4]
      · intro a b ha hb hne
        exact e6 a b ha hb (fun h => hne (by simp [h])))
  have hwb : (b.width, b.height) = (t.width, t.height) := h3
  have hwb' := Prod.mk.inj hwb
  exact ⟨b, rfl, h1, by rw [hwb'.1, htw], by rw [hwb'.2, hth], fun x y hx hy => ⟨d x y, (hd x y hx hy).1, h4 x y _ hx hy (hd x y hx hy).1⟩⟩

/-- **C123, large thresholds**: no difference between samples exceeds 1, so with a threshold of 1 or more nothing changes. -/
theorem C123_threshold {I : Type} [GenericImageView I (Pix Fl ch)] [LawfulView I (Pix Fl ch)] (L : Libm) (hL : L.Ok) (sigma : ℚ)
    (hrep : f32.rnd sigma = sigma) (hlo : 1 / 8 ≤ sigma) (hhi : sigma ≤ 2047) (threshold : Int) (ht : 1 ≤ threshold) (img : I) (hc : ch ≤ 4)
    (hw0 : 0 < widthOf img) (hh0 : 0 < heightOf img) (hw : widthOf img ≤ 2 ^ 17) (hh : heightOf img ≤ 2 ^ 17)
    (hsw : (1 + 2 * sigma) * widthOf img ≤ 2 ^ 19) (hsh : (1 + 2 * sigma) * heightOf img ≤ 2 ^ 19)
    (val : Nat → Nat → Fin ch → ℚ)
    (hp : ∀ x y, x < widthOf img → y < heightOf img → getPixel img x y = .ok (fun c => .fin (val x y c)))
    (hv : ∀ x y, x < widthOf img → y < heightOf img → ∀ c, 0 ≤ val x y c ∧ val x y c ≤ 1) :
    ∃ b, unsharpenF L img (.fin sigma) threshold = .ok b ∧ b.width = widthOf img ∧ b.height = heightOf img ∧
      ∀ x y, x < widthOf img → y < heightOf img → b.getPixel x y = getPixel img x y := by
  obtain ⟨t, b, h1, h2, h3, h4, h5⟩ := C123_formula_partial L hL sigma hrep hlo hhi threshold img hc hw0 hh0 hw hh hsw hsh val hp hv
  obtain ⟨t', k1, -, -, -, k2⟩ := blur_float L hL sigma hrep hlo hhi img hc hw0 hh0 hw hh hsw hsh val hp hv
  rw [h1] at k1
  obtain rfl := Except.ok.inj k1
  refine ⟨b, h2, h3, h4, fun x y hx hy => ?_⟩
  obtain ⟨d, g1, g2⟩ := h5 x y hx hy
  obtain ⟨p, l1, l2⟩ := k2 x y hx hy
  rw [g1] at l1
  obtain rfl := Except.ok.inj l1
  rw [g2, hp x y hx hy]
  congr 1
  funext c
  obtain ⟨q, m1, m2, m3, -⟩ := l2 c
  cases m1
  unfold cutSharpened
  rw [if_pos]
  rcases floor_unit (hv x y hx hy c).1 (hv x y hx hy c).2 with a | a <;> rcases floor_unit m2 m3 with e | e <;> rw [a, e] <;> simp <;> omega

/-- **C123 is false: `unsharpen` does not sharpen.** With a threshold that is not negative every picture whose samples stay a little below 1 is returned
unchanged, however far its samples are from the blurred ones. -/
theorem C123_unchanged_false {I : Type} [GenericImageView I (Pix Fl ch)] [LawfulView I (Pix Fl ch)] (L : Libm) (hL : L.Ok) (sigma : ℚ)
    (hrep : f32.rnd sigma = sigma) (hlo : 1 / 8 ≤ sigma) (hhi : sigma ≤ 2047) (threshold : Int) (ht : 0 ≤ threshold) (img : I) (hc : ch ≤ 4)
    (hw0 : 0 < widthOf img) (hh0 : 0 < heightOf img) (hw : widthOf img ≤ 2 ^ 17) (hh : heightOf img ≤ 2 ^ 17)
    (hsw : (1 + 2 * sigma) * widthOf img ≤ 2 ^ 19) (hsh : (1 + 2 * sigma) * heightOf img ≤ 2 ^ 19)
    (val : Nat → Nat → Fin ch → ℚ)
    (hp : ∀ x y, x < widthOf img → y < heightOf img → getPixel img x y = .ok (fun c => .fin (val x y c)))
    (hv : ∀ x y, x < widthOf img → y < heightOf img → ∀ c, 0 ≤ val x y c ∧ val x y c < 1 - 12 * (4 * sigma + 13 / 4) / 2 ^ 24) :
    ∃ b, unsharpenF L img (.fin sigma) threshold = .ok b ∧ b.width = widthOf img ∧ b.height = heightOf img ∧
      ∀ x y, x < widthOf img → y < heightOf img → b.getPixel x y = getPixel img x y := by
  have hpos : 0 ≤ 12 * (4 * sigma + 13 / 4) / 2 ^ 24 := by positivity
  have hv' : ∀ x y, x < widthOf img → y < heightOf img → ∀ c, 0 ≤ val x y c ∧ val x y c ≤ 1 := fun x y hx hy c =>
    ⟨(hv x y hx hy c).1, by linarith [(hv x y hx hy c).2]⟩
  obtain ⟨t, b, h1, h2, h3, h4, h5⟩ := C123_formula_partial L hL sigma hrep hlo hhi threshold img hc hw0 hh0 hw hh hsw hsh val hp hv'
  obtain ⟨t', k1, -, -, -, k2⟩ := blur_float L hL sigma hrep hlo hhi img hc hw0 hh0 hw hh hsw hsh val hp hv'
  rw [h1] at k1
  obtain rfl := Except.ok.inj k1
  refine ⟨b, h2, h3, h4, fun x y hx hy => ?_⟩
  obtain ⟨d, g1, g2⟩ := h5 x y hx hy
  obtain ⟨p, l1, l2⟩ := k2 x y hx hy
  rw [g1] at l1
  obtain rfl := Except.ok.inj l1
  rw [g2, hp x y hx hy]
  congr 1
  funext c
  obtain ⟨q, m1, m2, m3, m4⟩ := l2 c
  cases m1
  -- the greatest sample of the channel
  obtain ⟨z, z1, z2⟩ := Finset.exists_max_image (Finset.range (widthOf img) ×ˢ Finset.range (heightOf img)) (fun z => val z.1 z.2 c)
    ⟨(x, y), by simp [hx, hy]⟩
  have hz : z.1 < widthOf img ∧ z.2 < heightOf img := by simpa using z1
  have hlt := (hv z.1 z.2 hz.1 hz.2 c).2
  have hd : d c < 1 := by
    have := (m4 0 (val z.1 z.2 c) le_rfl (hv' _ _ hz.1 hz.2 c).2 fun i j hi hj _ _ =>
      ⟨(hv i j hi hj c).1, z2 (i, j) (by simp [hi, hj])⟩).2
    linarith
  have hcc : val x y c < 1 := by linarith [(hv x y hx hy c).2]
  unfold cutSharpened
  rw [Int.floor_eq_zero_iff.2 ⟨(hv x y hx hy c).1, hcc⟩, Int.floor_eq_zero_iff.2 ⟨m2, hd⟩, if_pos (by simpa using ht)]

/-- With threshold 0 a sample next to white that is not quite white becomes black. -/
theorem C123_dot_false : unsharpenF toyLibm (⟨2, 1, [.fin 1, .fin (1 - 1 / 2 ^ 24)]⟩ : ImageBuffer Fl 1) (.fin (3 / 2)) 0 =
    .ok ⟨2, 1, [.fin 1, .fin 0]⟩ := by decide +kernel

/-- With a negative threshold everything but white becomes black. -/
theorem C123_negative_false : unsharpenF toyLibm (⟨3, 1, [.fin (1 / 4), .fin (3 / 4), .fin 1]⟩ : ImageBuffer Fl 1) (.fin (3 / 2)) (-1) =
    .ok ⟨3, 1, [.fin 0, .fin 0, .fin 1]⟩ := by decide +kernel

/-- Samples that are not numbers make it panic. -/
theorem C123_nan_false : unsharpenF toyLibm (⟨1, 1, [.nan]⟩ : ImageBuffer Fl 1) (.fin (3 / 2)) 0 = panicR := by decide +kernel

/-! ## Instances -/

/-- A picture of two pixels. -/
def edgeF : ImageBuffer Fl 1 := ⟨2, 1, [.fin 0, .fin (3 / 4)]⟩

theorem edgeF_pix : ∀ x y, x < widthOf edgeF → y < heightOf edgeF →
    getPixel edgeF x y = .ok (fun _ : Fin 1 => Fl.fin (if x = 0 then 0 else 3 / 4)) := by
  intro x y hx hy
  have hx' : x < 2 := hx
  have hy' : y < 1 := hy
  have : (x = 0 ∨ x = 1) ∧ y = 0 := by omega
  rcases this with ⟨rfl | rfl, rfl⟩ <;> decide +kernel

example : ∃ b, unsharpenF toyLibm edgeF (.fin (3 / 2)) 0 = .ok b ∧ b.getPixel 1 0 = .ok (fun _ => .fin (3 / 4)) := by
  obtain ⟨b, e1, -, -, e4⟩ := C123_unchanged_false toyLibm toyLibm_ok (3 / 2) (by decide +kernel) (by norm_num) (by norm_num) 0
    (by decide) edgeF (by decide) (by decide) (by decide) (by decide) (by decide)
    (by rw [show widthOf edgeF = 2 from rfl]; norm_num) (by rw [show heightOf edgeF = 1 from rfl]; norm_num) _ edgeF_pix
    (fun x y _ _ _ => by split_ifs <;> norm_num)
  exact ⟨b, e1, by rw [e4 1 0 (by decide) (by decide), edgeF_pix 1 0 (by decide) (by decide)]; rfl⟩

example : ∃ b, unsharpenF toyLibm edgeF (.fin (3 / 2)) 7 = .ok b ∧ b.width = 2 := by
  obtain ⟨b, e1, e2, -, -⟩ := C123_threshold toyLibm toyLibm_ok (3 / 2) (by decide +kernel) (by norm_num) (by norm_num) 7
    (by decide) edgeF (by decide) (by decide) (by decide) (by decide) (by decide)
    (by rw [show widthOf edgeF = 2 from rfl]; norm_num) (by rw [show heightOf edgeF = 1 from rfl]; norm_num) _ edgeF_pix
    (fun x y _ _ _ => by split_ifs <;> norm_num)
  exact ⟨b, e1, e2⟩

end Verif
