import Verif.Props.SampleBetween

/-!
# C87: `blur`
-/

namespace Verif
open GenericImageView GenericImage LawfulView LawfulImage

variable {α : Type} {ch : Nat}

/-- At its own size, indices are where they are. -/
theorem centre_same {len o : Nat} (h0 : 0 < len) : centre len len o = o + 1 / 2 ∧ scale len len = 1 := by
  have hl : (len : ℚ) ≠ 0 := by
    have : (0 : ℚ) < len := by exact_mod_cast h0
    exact this.ne'
  unfold centre scale
  rw [div_self hl]
  simp

/-- C87: `blur` succeeds, and no sample of the result is outside the range of the samples in a square of side about
`4 * sigma` around it, up to rounding. -/
theorem C87_within {I : Type} [GenericImageView I (Pix Nat ch)] [LawfulView I (Pix Nat ch)] (L : Libm) (hL : L.Ok) (T : Prim)
    (hT : T.bits ≤ 16) (sigma : ℚ) (hrep : f32.rnd sigma = sigma) (hlo : 1 / 8 ≤ sigma) (hhi : sigma ≤ 2047)
    (img : I) (hr : SamplesOk T img) (hc : ch ≤ 4)
    (hw0 : 0 < widthOf img) (hh0 : 0 < heightOf img) (hw : widthOf img ≤ 2 ^ 17) (hh : heightOf img ≤ 2 ^ 17)
    (hsw : (1 + 2 * sigma) * widthOf img ≤ 2 ^ 19) (hsh : (1 + 2 * sigma) * heightOf img ≤ 2 ^ 19)
    (pix : Nat → Nat → Pix Nat ch)
    (hp : ∀ x y, x < widthOf img → y < heightOf img → getPixel img x y = .ok (pix x y)) :
    ∃ b, blur L (Samp.uint T) img (.fin sigma) = .ok b ∧ b.Inv ∧ b.width = widthOf img ∧ b.height = heightOf img ∧
      ∀ x y, x < widthOf img → y < heightOf img → ∃ p, b.getPixel x y = .ok p ∧ ∀ c, p c ≤ T.max ∧
        ∀ lo hi : Nat, hi ≤ T.max →
          (∀ i j, i < widthOf img → j < heightOf img → |(i : ℚ) - x| ≤ 2 * sigma + 5 / 8 → |(j : ℚ) - y| ≤ 2 * sigma + 5 / 8 →
            lo ≤ pix i j c ∧ pix i j c ≤ hi) →
          (lo : ℚ) - (1 / 2 + 12 * T.max * (4 * sigma + 13 / 4) / 2 ^ 24) ≤ p c ∧
            (p c : ℚ) ≤ hi + (1 / 2 + 12 * T.max * (4 * sigma + 13 / 4) / 2 ^ 24) := by
  set w := widthOf img
  set h := heightOf img
  have hr' : ∀ x y, x < w → y < h → ∀ c, pix x y c ≤ T.max := fun x y hx hy c => hr x y _ hx hy (hp x y hx hy) c
  have hk := blur_nonneg hL (r := sigma) (by linarith) (by linarith [show (2 : ℚ) ^ 11 = 2048 by norm_num]) (rnd_double hrep) rfl hlo
  have hmid : ∀ {len : Nat}, 0 < len → ∀ x, x < len → ∃ i, i < len ∧
      |(i : ℚ) + 1 / 2 - centre len len x| ≤ 2 * sigma * scale len len + 1 / 4 ∧ |offset len len x i| ≤ 1 / 16 - 1 / 16 := by
    intro len h0 x hx
    obtain ⟨e1, e2⟩ := centre_same (o := x) h0
    refine ⟨x, hx, ?_, ?_⟩
    · rw [e1, e2, sub_self, abs_zero]; linarith
    · unfold offset; rw [e1, e2]; simp
  have ew := (centre_same (o := 0) hw0).2
  have eh := (centre_same (o := 0) hh0).2
  obtain ⟨g, g1, g2⟩ := between_picture hT hk hw0 hh0 hw hh hw hh hsw hsh (by rw [ew]; linarith [show (2 : ℚ) ^ 13 = 8192 by norm_num])
    (by rw [eh]; linarith [show (2 : ℚ) ^ 13 = 8192 by norm_num]) (hmid hw0) (hmid hh0) hc hr'
  have hmul : w * h * 4 < 2 ^ 64 := by
    have : w * h ≤ 2 ^ 17 * 2 ^ 17 := Nat.mul_le_mul hw hh
    omega
  obtain ⟨b, e1, e2⟩ := blur_ok (L := L) (S := Samp.uint T) (sigma := .fin sigma) (rfl : dims img = (w, h)) hc hw0 hh0
    (show w < 2 ^ 32 by omega) (show h < 2 ^ 32 by omega) hmul hp g g1
  refine ⟨b, e1, e2.inv, e2.width, e2.height, fun x y hx hy => ⟨_, e2.pixel x y hx hy, fun c => ?_⟩⟩
  obtain ⟨q1, q2⟩ := g2 x y hx hy c
  refine ⟨q1, fun lo hi hhi hb => ?_⟩
  have := q2 lo hi hhi fun i j hi hj ri rj => hb i j hi hj ?_ ?_
  · unfold slack at this
    rw [ew, eh, show 2 * sigma * (1 + 1) = 4 * sigma by ring] at this
    exact this
  · unfold Reach at ri
    rw [(centre_same hw0).1, ew, mul_one, add_sub_add_right_eq_sub] at ri
    exact ri
  · unfold Reach at rj
    rw [(centre_same hh0).1, eh, mul_one, add_sub_add_right_eq_sub] at rj
    exact rj

/-- C87: for 8-bit samples, and for 16-bit samples with a moderate `sigma`, the range is kept exactly. -/
theorem C87_between {I : Type} [GenericImageView I (Pix Nat ch)] [LawfulView I (Pix Nat ch)] (L : Libm) (hL : L.Ok) (T : Prim)
    (hT : T.bits ≤ 16) (sigma : ℚ) (hrep : f32.rnd sigma = sigma) (hlo : 1 / 8 ≤ sigma)
    (hs : 12 * T.max * (4 * sigma + 13 / 4) < 2 ^ 23) (img : I) (hr : SamplesOk T img) (hc : ch ≤ 4)
    (hw0 : 0 < widthOf img) (hh0 : 0 < heightOf img) (hw : widthOf img ≤ 2 ^ 17) (hh : heightOf img ≤ 2 ^ 17)
    (hsw : (1 + 2 * sigma) * widthOf img ≤ 2 ^ 19) (hsh : (1 + 2 * sigma) * heightOf img ≤ 2 ^ 19)
    (pix : Nat → Nat → Pix Nat ch)
    (hp : ∀ x y, x < widthOf img → y < heightOf img → getPixel img x y = .ok (pix x y)) :
    ∃ b, blur L (Samp.uint T) img (.fin sigma) = .ok b ∧ b.width = widthOf img ∧ b.height = heightOf img ∧
      ∀ x y, x < widthOf img → y < heightOf img → ∃ p, b.getPixel x y = .ok p ∧ ∀ c,
        ∀ lo hi : Nat, hi ≤ T.max →
          (∀ i j, i < widthOf img → j < heightOf img → |(i : ℚ) - x| ≤ 2 * sigma + 5 / 8 → |(j : ℚ) - y| ≤ 2 * sigma + 5 / 8 →
            lo ≤ pix i j c ∧ pix i j c ≤ hi) → lo ≤ p c ∧ p c ≤ hi := by
  have hM : (255 : ℚ) ≤ T.max := by
    cases T <;> simp [Prim.max, Prim.bits] <;> norm_num
  have h1 : 12 * (255 : ℚ) * (4 * sigma + 13 / 4) ≤ 12 * T.max * (4 * sigma + 13 / 4) := by gcongr
  obtain ⟨b, e1, -, e2, e3, e4⟩ := C87_within L hL T hT sigma hrep hlo (by linarith [show (2 : ℚ) ^ 23 = 8388608 by norm_num])
    img hr hc hw0 hh0 hw hh hsw hsh pix hp
  refine ⟨b, e1, e2, e3, fun x y hx hy => ?_⟩
  obtain ⟨p, p1, p2⟩ := e4 x y hx hy
  refine ⟨p, p1, fun c lo hi hhi hb => ?_⟩
  obtain ⟨h1, h2⟩ := (p2 c).2 lo hi hhi hb
  refine exact_bounds ?_ h1 h2
  rw [div_lt_iff₀ (by norm_num)]
  linarith [show (1 / 2 : ℚ) * 2 ^ 24 = 2 ^ 23 by norm_num]

/-- C87: an image of one colour is unchanged by `blur`. -/
theorem C87_constant {I : Type} [GenericImageView I (Pix Nat ch)] [LawfulView I (Pix Nat ch)] (L : Libm) (hL : L.Ok) (T : Prim)
    (hT : T.bits ≤ 16) (sigma : ℚ) (hrep : f32.rnd sigma = sigma) (hlo : 1 / 8 ≤ sigma)
    (hs : 12 * T.max * (4 * sigma + 13 / 4) < 2 ^ 23) (img : I) (hc : ch ≤ 4)
    (hw0 : 0 < widthOf img) (hh0 : 0 < heightOf img) (hw : widthOf img ≤ 2 ^ 17) (hh : heightOf img ≤ 2 ^ 17)
    (hsw : (1 + 2 * sigma) * widthOf img ≤ 2 ^ 19) (hsh : (1 + 2 * sigma) * heightOf img ≤ 2 ^ 19)
    (q : Pix Nat ch) (hq : ∀ c, q c ≤ T.max)
    (hp : ∀ x y, x < widthOf img → y < heightOf img → getPixel img x y = .ok q) :
    ∃ b, blur L (Samp.uint T) img (.fin sigma) = .ok b ∧ b.width = widthOf img ∧ b.height = heightOf img ∧
      ∀ x y, x < widthOf img → y < heightOf img → b.getPixel x y = .ok q := by
  have hr : SamplesOk T img := by
    intro x y p hx hy e c
    rw [hp x y hx hy] at e
    cases e
    exact hq c
  obtain ⟨b, e1, e2, e3, e4⟩ := C87_between L hL T hT sigma hrep hlo hs img hr hc hw0 hh0 hw hh hsw hsh (fun _ _ => q) hp
  refine ⟨b, e1, e2, e3, fun x y hx hy => ?_⟩
  obtain ⟨p, p1, p2⟩ := e4 x y hx hy
  rw [p1]
  congr 1
  funext c
  obtain ⟨h1, h2⟩ := p2 c (q c) (q c) (hq c) fun _ _ _ _ _ _ => ⟨le_rfl, le_rfl⟩
  omega

/-- C87: a `sigma` that is zero or negative is taken to be one. -/
theorem C87_nonpositive {I : Type} [GenericImageView I (Pix α ch)] (L : Libm) (S : Samp α) (img : I) (sigma : ℚ)
    (h : sigma ≤ 0) : blur L S img (.fin sigma) = blur L S img (.fin 1) := by
  unfold blur blurFilter
  have h1 : (Fl.fin sigma).le (.fin 0) = true := by simp [Fl.le, h]
  have h2 : ¬ (Fl.fin 1).le (.fin 0) = true := by simp [Fl.le]
  simp only [if_pos h1, if_neg h2]

/-- C87: an image without pixels stays so. -/
theorem C87_empty {I : Type} [GenericImageView I (Pix α ch)] (L : Libm) (S : Samp α) (img : I) (sigma : Fl)
    (h : widthOf img = 0 ∨ heightOf img = 0) (hw : widthOf img < 2 ^ 32) (hc : ch ≤ 4) :
    ∃ b, blur L S img sigma = .ok b ∧ b.width = widthOf img ∧ b.height = heightOf img ∧ b.data = [] := by
  have hz : widthOf img * heightOf img = 0 := by rcases h with h | h <;> simp [h]
  unfold blur
  simp only [if_pos h]
  refine ⟨_, ImageBuffer.new_ok (by omega) hw (by rw [hz]; simp), rfl, rfl, ?_⟩
  simp [hz]

/-- A picture of one pixel. -/
def onePixel : ImageBuffer Nat 1 := ⟨1, 1, [100]⟩

theorem nan_mul (x : Fl) : Fl.mul f32 .nan x = .nan := by cases x <;> rfl
theorem mul_nan (x : Fl) : Fl.mul f32 x .nan = .nan := by cases x <;> rfl
theorem div_nan (x : Fl) : Fl.div f32 x .nan = .nan := by cases x <;> rfl

/-- Filters with the same taps give the same picture. -/
theorem blur_one {L : Libm} {sigma : Fl} {f : Filter} (h : sampleTaps (blurFilter L sigma) 1 1 0 = sampleTaps f 1 1 0) :
    blur L (Samp.uint .u8) onePixel sigma =
      (do let tmp ← verticalSample (Samp.uint .u8) onePixel 1 f; horizontalSample 1 (Samp.uint .u8) tmp 1 f) := by
  have hv : verticalSample (Samp.uint .u8) onePixel 1 (blurFilter L sigma) = verticalSample (Samp.uint .u8) onePixel 1 f := by
    unfold verticalSample
    simp only [show widthOf onePixel = 1 from rfl, show heightOf onePixel = 1 from rfl, forRange, h]
  have hd : ∀ t : ImageBuffer Fl 4, t.width = 1 →
      horizontalSample 1 (Samp.uint .u8) t 1 (blurFilter L sigma) = horizontalSample 1 (Samp.uint .u8) t 1 f := by
    intro t ht
    unfold horizontalSample
    simp only [ht, forRange, h]
  unfold blur
  simp only [show widthOf onePixel = 1 from rfl, show heightOf onePixel = 1 from rfl]
  rw [if_neg (by decide), hv]
  obtain ⟨b, e1, e2⟩ := verticalSample_ok (S := Samp.uint .u8) (f := f) (img := onePixel) (nh := 1) (w := 1) (h := 1)
    (pix := fun _ _ _ => 100) rfl (by decide) (by decide) (by decide) (by decide) (by decide)
    (by intro x y hx hy; obtain ⟨rfl, rfl⟩ : x = 0 ∧ y = 0 := by omega
        decide +kernel)
  rw [e1]
  simp only [ok_bind]
  exact hd b e2.width

/-- The statement that `blur` works for every `sigma` is false: a `NaN` makes it panic. -/
theorem C87_total_false (L : Libm) : blur L (Samp.uint .u8) onePixel .nan = panicR := by
  have hk : ∀ x, gaussian L x .nan = .nan := by
    intro x
    unfold gaussian
    simp only [mul_nan, div_nan, nan_mul]
  have ht : sampleTaps (blurFilter L .nan) 1 1 0 = sampleTaps ⟨fun _ => .nan, .nan⟩ 1 1 0 := by
    unfold blurFilter
    simp only [if_neg (show ¬ Fl.nan.le (.fin 0) = true by decide), hk, mul_nan]
  rw [blur_one ht]
  decide +kernel

/-- So does a positive `sigma` whose square vanishes. -/
theorem C87_tiny_false (L : Libm) (hL : L.exp .nan = .nan) :
    blur L (Samp.uint .u8) onePixel (.fin (1 / 2 ^ 100)) = panicR := by
  have hk : gaussian L (.fin 0) (.fin (1 / 2 ^ 100)) = .nan := by
    unfold gaussian
    have : ((Fl.mul f32 (.fin 0) (.fin 0)).neg.div f32 ((Fl.fin 2).mul f32 ((Fl.fin (1 / 2 ^ 100)).mul f32 (.fin (1 / 2 ^ 100))))) = .nan := by
      decide +kernel
    rw [this, hL, mul_nan]
  have ht : sampleTaps (blurFilter L (.fin (1 / 2 ^ 100))) 1 1 0 = sampleTaps ⟨fun _ => .nan, .fin (1 / 2 ^ 99)⟩ 1 1 0 := by
    have e0 : ∀ k : Fl → Fl, sampleTaps ⟨k, .fin (1 / 2 ^ 99)⟩ 1 1 0 =
        (0, [(k (.fin 0)).div f32 ((Fl.fin 0).add f32 (k (.fin 0)))]) := by
      intro k
      have a1 : (Fl.ofNat f32 1).div f32 (Fl.ofNat f32 1) = .fin 1 := by decide +kernel
      have a2 : ((Fl.ofNat f32 0).add f32 (.fin (1 / 2))).mul f32 (.fin 1) = .fin (1 / 2) := by decide +kernel
      have a3 : ((Fl.ofNat f32 0).sub f32 ((Fl.fin (1 / 2)).sub f32 (.fin (1 / 2)))).div f32 (.fin 1) = .fin 0 := by decide +kernel
      have a4 : (clampZ (((Fl.fin (1 / 2)).sub f32 ((Fl.fin (1 / 2 ^ 99)).mul f32 (.fin 1))).floor.toISat 64) 0 ((1 : Nat) - 1 : Int) % 2 ^ 32).toNat = 0 := by
        decide +kernel
      have a5 : (clampZ (((Fl.fin (1 / 2)).add f32 ((Fl.fin (1 / 2 ^ 99)).mul f32 (.fin 1))).ceil.toISat 64) ((0 : Nat) + 1 : Int) (1 : Nat) % 2 ^ 32).toNat = 1 := by
        decide +kernel
      unfold sampleTaps
      simp only [a1, if_neg (show ¬ (Fl.fin 1).lt (.fin 1) = true by decide), a2, a4, a5,
        show List.range (1 - 0) = [0] from rfl, List.map, List.foldl, a3, Nat.add_zero]
    have hf : blurFilter L (.fin (1 / 2 ^ 100)) = ⟨fun x => gaussian L x (.fin (1 / 2 ^ 100)), .fin (1 / 2 ^ 99)⟩ := by
      unfold blurFilter
      simp only [if_neg (show ¬ (Fl.fin (1 / 2 ^ 100)).le (.fin 0) = true by decide +kernel)]
      congr 1
      decide +kernel
    rw [hf, e0, e0, hk]
  rw [blur_one ht]
  decide +kernel

example : ∃ b, blur toyLibm (Samp.uint .u8) grey22 (.fin (3 / 2)) = .ok b ∧
    ∀ x y, x < 2 → y < 2 → ∃ p, b.getPixel x y = .ok p ∧ 10 ≤ p 0 ∧ p 0 ≤ 40 := by
  have e255 : ((Prim.max .u8 : ℕ) : ℚ) = 255 := by norm_num [Prim.max, Prim.bits]
  obtain ⟨b, e1, -, -, e4⟩ := C87_between toyLibm toyLibm_ok .u8 (by decide) (3 / 2) (by decide +kernel) (by norm_num)
    (by rw [e255]; norm_num) grey22 grey22_samples (by decide) (by decide) (by decide) (by decide) (by decide)
    (by rw [show widthOf grey22 = 2 from rfl]; norm_num) (by rw [show heightOf grey22 = 2 from rfl]; norm_num) grey22Pix grey22_pix
  refine ⟨b, e1, fun x y hx hy => ?_⟩
  obtain ⟨p, p1, p2⟩ := e4 x y hx hy
  refine ⟨p, p1, p2 0 10 40 (by decide) ?_⟩
  intro i j hi hj _ _
  have : i < 2 := hi
  have : j < 2 := hj
  have h : (i = 0 ∨ i = 1) ∧ (j = 0 ∨ j = 1) := by omega
  rcases h with ⟨rfl | rfl, rfl | rfl⟩ <;> decide

end Verif
