import Verif.Spec.Unsharpen
import Verif.Props.Blur
import Verif.Proofs.JpegScan

/-!
# C89: `unsharpen`
-/

namespace Verif
open GenericImageView GenericImage LawfulView LawfulImage

variable {ch : Nat}

theorem unsharpenSample_ok {T : Prim} (hT : T.bits ≤ 16) {threshold : Int} {c d : Nat} (hc : c ≤ T.max) (hd : d ≤ T.max) :
    ∃ v : Nat, unsharpenSample T threshold c d = .ok v ∧ (v : ℤ) = sharpened T.max threshold c d := by
  have hbits : T.max < 2 ^ 16 := by cases T <;> simp_all [Prim.max, Prim.bits]
  unfold unsharpenSample sharpened
  dsimp only
  rw [if_pos (by omega), ok_bind, if_pos (by omega), ok_bind, if_pos (by omega), ok_bind]
  have habs : |(c : ℤ) - d| = (((c : ℤ) - d).natAbs : ℤ) := (Int.natCast_natAbs _).symm
  rw [habs]
  by_cases h : threshold < (((c : ℤ) - d).natAbs : ℤ)
  · rw [if_pos h, if_pos (by omega), if_neg (by omega)]
    have hcl : clampZ ((c : ℤ) + (c - d)) 0 T.max = max 0 (min (T.max : ℤ) (c + (c - d))) := by
      unfold clampZ; split_ifs <;> omega
    rw [hcl]
    unfold Prim.castFrom
    rw [if_pos (by omega)]
    exact ⟨_, rfl, by omega⟩
  · rw [if_neg h, if_pos (by omega)]
    exact ⟨c, rfl, rfl⟩

/-- `unsharpen` succeeds when `blur` does, and doubles the differences from the blurred picture that exceed the threshold. -/
theorem unsharpen_ok {I : Type} [GenericImageView I (Pix Nat ch)] [LawfulView I (Pix Nat ch)] {L : Libm} {T : Prim}
    (hT : T.bits ≤ 16) {sigma : Fl} {threshold : Int} {img : I} {t : ImageBuffer Nat ch} (hb : blur L (Samp.uint T) img sigma = .ok t)
    (hi : t.Inv) (htw : t.width = widthOf img) (hth : t.height = heightOf img) (htr : SamplesOk T t) (hr : SamplesOk T img)
    {pix : Nat → Nat → Pix Nat ch} (hp : ∀ x y, x < widthOf img → y < heightOf img → getPixel img x y = .ok (pix x y)) :
    ∃ b, unsharpen L T img sigma threshold = .ok b ∧ b.width = widthOf img ∧ b.height = heightOf img ∧
      ∀ x y, x < widthOf img → y < heightOf img → ∃ d p, t.getPixel x y = .ok d ∧ b.getPixel x y = .ok p ∧
        ∀ c, (p c : ℤ) = sharpened T.max threshold (pix x y c) (d c) := by
  have hbits : T.max < 2 ^ 16 := by cases T <;> simp_all [Prim.max, Prim.bits]
  unfold unsharpen
  rw [hb, ok_bind, if_pos (by omega)]
  obtain ⟨b, h1, h2, h3, h4, -⟩ := update_loop' (D := ImageBuffer Nat ch) (P := Pix Nat ch) (w := widthOf img) (h := heightOf img)
    (body := fun x y tmp => do
        let a ← getPixel img x y
        let b ← tmp.getPixel x y
        let p ← (List.finRange ch).mapM fun c => unsharpenSample T threshold (a c) (b c)
        tmp.putPixel x y (← fromSlice ch p)) (d0 := t) (fun x y => (x, y))
    (fun x y d c => (sharpened T.max threshold (pix x y c) (d c)).toNat) hi
    (fun x y hx hy => ⟨by show x < t.width; omega, by show y < t.height; omega⟩) (fun x y x' y' _ _ _ _ h => by simpa using h)
    (by
      intro x y hx hy d hw hd p hp1 hp0
      have hwd : d.width = widthOf img := by
        have : (d.width, d.height) = (t.width, t.height) := hd
        rw [← htw]; exact (Prod.mk.inj this).1
      have hhd : d.height = heightOf img := by
        have : (d.width, d.height) = (t.width, t.height) := hd
        rw [← hth]; exact (Prod.mk.inj this).2
      have hpr : ∀ c, p c ≤ T.max := htr x y p (by show x < t.width; omega) (by show y < t.height; omega) hp0
      have hpx : ∀ c, pix x y c ≤ T.max := hr x y _ hx hy (hp x y hx hy)
      have hs : ∀ c, unsharpenSample T threshold (pix x y c) (p c) = .ok (sharpened T.max threshold (pix x y c) (p c)).toNat := by
        intro c
        obtain ⟨v, e1, e2⟩ := unsharpenSample_ok hT (threshold := threshold) (hpx c) (hpr c)
        rw [e1, ← e2]; rfl
      have hm : ((List.finRange ch).mapM fun c => unsharpenSample T threshold (pix x y c) (p c)) =
          .ok ((List.finRange ch).map fun c => (sharpened T.max threshold (pix x y c) (p c)).toNat) := by
        exact Jpeg.mapM_ok fun c _ => hs c
      have hf : fromSlice ch ((List.finRange ch).map fun c => (sharpened T.max threshold (pix x y c) (p c)).toNat) =
          .ok fun c => (sharpened T.max threshold (pix x y c) (p c)).toNat := by
        rw [fromSlice_eq_ok]
        refine ⟨by simp, fun c => by simp⟩
      obtain ⟨d', e1, e2, e3, e4, -, e5, e6⟩ := ImageBuffer.put_spec hw (x := x) (y := y) (by omega) (by omega)
        (fun c => (sharpened T.max threshold (pix x y c) (p c)).toNat)
      refine ⟨d', ?_, e2, ?_, e5, ?_⟩
      · rw [hp x y hx hy, ok_bind]
        have : d.getPixel x y = .ok p := hp1
        rw [this, ok_bind, hm, ok_bind, hf, ok_bind, e1]
      · show (d'.width, d'.height) = (d.width, d.height)
        rw [e3, e4]
      · intro a b ha hb hne
        exact e6 a b ha hb (fun h => hne (by simp [h])))
  have hwb : (b.width, b.height) = (t.width, t.height) := h3
  have hwb' := Prod.mk.inj hwb
  refine ⟨b, h1, by rw [hwb'.1, htw], by rw [hwb'.2, hth], fun x y hx hy => ?_⟩
  obtain ⟨d, hd⟩ := ImageBuffer.getPixel_exists hi (x := x) (y := y) (by omega) (by omega)
  refine ⟨d, _, hd, h4 x y d hx hy hd, fun c => ?_⟩
  have hpr : d c ≤ T.max := htr x y d (by show x < t.width; omega) (by show y < t.height; omega) hd c
  obtain ⟨v, -, e2⟩ := unsharpenSample_ok hT (threshold := threshold) (hr x y _ hx hy (hp x y hx hy) c) hpr
  rw [← e2]; rfl

/-- C89: `unsharpen` succeeds and doubles the differences from the blurred picture that exceed the threshold. -/
theorem C89_formula {I : Type} [GenericImageView I (Pix Nat ch)] [LawfulView I (Pix Nat ch)] (L : Libm) (hL : L.Ok) (T : Prim)
    (hT : T.bits ≤ 16) (sigma : ℚ) (hrep : f32.rnd sigma = sigma) (hlo : 1 / 8 ≤ sigma) (hhi : sigma ≤ 2047) (threshold : Int)
    (img : I) (hr : SamplesOk T img) (hc : ch ≤ 4)
    (hw0 : 0 < widthOf img) (hh0 : 0 < heightOf img) (hw : widthOf img ≤ 2 ^ 17) (hh : heightOf img ≤ 2 ^ 17)
    (hsw : (1 + 2 * sigma) * widthOf img ≤ 2 ^ 19) (hsh : (1 + 2 * sigma) * heightOf img ≤ 2 ^ 19)
    (pix : Nat → Nat → Pix Nat ch)
    (hp : ∀ x y, x < widthOf img → y < heightOf img → getPixel img x y = .ok (pix x y)) :
    ∃ blurred b, blur L (Samp.uint T) img (.fin sigma) = .ok blurred ∧ unsharpen L T img (.fin sigma) threshold = .ok b ∧
      b.width = widthOf img ∧ b.height = heightOf img ∧
      ∀ x y, x < widthOf img → y < heightOf img → ∃ d p, blurred.getPixel x y = .ok d ∧ b.getPixel x y = .ok p ∧
        ∀ c, (p c : ℤ) = sharpened T.max threshold (pix x y c) (d c) := by
  obtain ⟨t, e1, e2, e3, e4, e5⟩ := C87_within L hL T hT sigma hrep hlo hhi img hr hc hw0 hh0 hw hh hsw hsh pix hp
  have htr : SamplesOk T t := by
    intro x y p hx hy hg c
    obtain ⟨p', g1, g2⟩ := e5 x y (by rw [← e3]; exact hx) (by rw [← e4]; exact hy)
    have : p = p' := by
      have hg : t.getPixel x y = .ok p := hg
      rw [g1] at hg
      exact (Except.ok.inj hg).symm
    rw [this]
    exact (g2 c).1
  obtain ⟨b, h⟩ := unsharpen_ok (threshold := threshold) hT e1 e2 e3 e4 htr hr hp
  exact ⟨t, b, e1, h⟩

/-- C89: with a threshold that no difference can exceed nothing changes. -/
theorem C89_threshold {I : Type} [GenericImageView I (Pix Nat ch)] [LawfulView I (Pix Nat ch)] (L : Libm) (hL : L.Ok) (T : Prim)
    (hT : T.bits ≤ 16) (sigma : ℚ) (hrep : f32.rnd sigma = sigma) (hlo : 1 / 8 ≤ sigma) (hhi : sigma ≤ 2047) (threshold : Int)
    (ht : T.max ≤ threshold) (img : I) (hr : SamplesOk T img) (hc : ch ≤ 4)
    (hw0 : 0 < widthOf img) (hh0 : 0 < heightOf img) (hw : widthOf img ≤ 2 ^ 17) (hh : heightOf img ≤ 2 ^ 17)
    (hsw : (1 + 2 * sigma) * widthOf img ≤ 2 ^ 19) (hsh : (1 + 2 * sigma) * heightOf img ≤ 2 ^ 19)
    (pix : Nat → Nat → Pix Nat ch)
    (hp : ∀ x y, x < widthOf img → y < heightOf img → getPixel img x y = .ok (pix x y)) :
    ∃ b, unsharpen L T img (.fin sigma) threshold = .ok b ∧ b.width = widthOf img ∧ b.height = heightOf img ∧
      ∀ x y, x < widthOf img → y < heightOf img → b.getPixel x y = .ok (pix x y) := by
  obtain ⟨t, e1, e2, e3, e4, e5⟩ := C87_within L hL T hT sigma hrep hlo hhi img hr hc hw0 hh0 hw hh hsw hsh pix hp
  obtain ⟨t', b, f1, f2, f3, f4, f5⟩ := C89_formula L hL T hT sigma hrep hlo hhi threshold img hr hc hw0 hh0 hw hh hsw hsh pix hp
  rw [e1] at f1
  obtain rfl := Except.ok.inj f1
  refine ⟨b, f2, f3, f4, fun x y hx hy => ?_⟩
  obtain ⟨d, p, g1, g2, g3⟩ := f5 x y hx hy
  obtain ⟨d', g4, g5⟩ := e5 x y hx hy
  rw [g1] at g4
  obtain rfl := Except.ok.inj g4
  rw [g2]
  congr 1
  funext c
  have h1 := g3 c
  have h2 := (g5 c).1
  have h3 := hr x y _ hx hy (hp x y hx hy) c
  unfold sharpened at h1
  rw [if_pos (by rw [abs_le]; omega)] at h1
  omega

/-- C89: an image of one colour is unchanged, whatever the threshold. -/
theorem C89_constant {I : Type} [GenericImageView I (Pix Nat ch)] [LawfulView I (Pix Nat ch)] (L : Libm) (hL : L.Ok) (T : Prim)
    (hT : T.bits ≤ 16) (sigma : ℚ) (hrep : f32.rnd sigma = sigma) (hlo : 1 / 8 ≤ sigma)
    (hs : 12 * T.max * (4 * sigma + 13 / 4) < 2 ^ 23) (threshold : Int) (img : I) (hc : ch ≤ 4)
    (hw0 : 0 < widthOf img) (hh0 : 0 < heightOf img) (hw : widthOf img ≤ 2 ^ 17) (hh : heightOf img ≤ 2 ^ 17)
    (hsw : (1 + 2 * sigma) * widthOf img ≤ 2 ^ 19) (hsh : (1 + 2 * sigma) * heightOf img ≤ 2 ^ 19)
    (q : Pix Nat ch) (hq : ∀ c, q c ≤ T.max)
    (hp : ∀ x y, x < widthOf img → y < heightOf img → getPixel img x y = .ok q) :
    ∃ b, unsharpen L T img (.fin sigma) threshold = .ok b ∧ b.width = widthOf img ∧ b.height = heightOf img ∧
      ∀ x y, x < widthOf img → y < heightOf img → b.getPixel x y = .ok q := by
  have hr : SamplesOk T img := by
    intro x y p hx hy e c
    rw [hp x y hx hy] at e
    cases e
    exact hq c
  have hM : (255 : ℚ) ≤ T.max := by
    cases T <;> simp [Prim.max, Prim.bits] <;> norm_num
  have h1 : 12 * (255 : ℚ) * (4 * sigma + 13 / 4) ≤ 12 * T.max * (4 * sigma + 13 / 4) := by gcongr
  obtain ⟨t, e1, -, -, e4⟩ := C87_constant L hL T hT sigma hrep hlo hs img hc hw0 hh0 hw hh hsw hsh q hq hp
  obtain ⟨t', b, f1, f2, f3, f4, f5⟩ := C89_formula L hL T hT sigma hrep hlo (by linarith [show (2 : ℚ) ^ 23 = 8388608 by norm_num]) threshold
    img hr hc hw0 hh0 hw hh hsw hsh (fun _ _ => q) hp
  rw [e1] at f1
  obtain rfl := Except.ok.inj f1
  refine ⟨b, f2, f3, f4, fun x y hx hy => ?_⟩
  obtain ⟨d, p, g1, g2, g3⟩ := f5 x y hx hy
  rw [e4 x y hx hy] at g1
  obtain rfl := Except.ok.inj g1
  rw [g2]
  congr 1
  funext c
  have h1 := g3 c
  have h3 := hq c
  unfold sharpened at h1
  split_ifs at h1 <;> omega

/-- The statement that `unsharpen` works for every sample type is false: images of `u32` samples always make it panic, unless
blurring does so already. -/
theorem C89_wide_false {I : Type} [GenericImageView I (Pix Nat ch)] (L : Libm) (img : I) (sigma : Fl) (threshold : Int) (b : ImageBuffer Nat ch) :
    unsharpen L .u32 img sigma threshold ≠ .ok b := by
  unfold unsharpen
  intro h
  rw [bind_eq_ok] at h
  obtain ⟨t, -, h⟩ := h
  rw [if_neg (by decide)] at h
  cases h

example : unsharpen toyLibm .u8 grey22 (.fin (3 / 2)) 0 = .ok ⟨2, 2, [0, 15, 35, 55]⟩ := by decide +kernel

example : ∃ b, unsharpen toyLibm .u8 grey22 (.fin (3 / 2)) 300 = .ok b ∧ b.getPixel 1 1 = .ok (grey22Pix 1 1) := by
  obtain ⟨b, e1, -, -, e4⟩ := C89_threshold toyLibm toyLibm_ok .u8 (by decide) (3 / 2) (by decide +kernel) (by norm_num) (by norm_num) 300
    (by decide) grey22 grey22_samples (by decide) (by decide) (by decide) (by decide) (by decide)
    (by rw [show widthOf grey22 = 2 from rfl]; norm_num) (by rw [show heightOf grey22 = 2 from rfl]; norm_num) grey22Pix grey22_pix
  exact ⟨b, e1, e4 1 1 (by decide) (by decide)⟩

end Verif
