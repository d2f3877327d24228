import Verif.Proofs.SampleBetween

/-!
# C82: smoothing filters invent no values; C87: `blur`
-/

namespace Verif
open GenericImageView GenericImage LawfulView LawfulImage

variable {ch : Nat}

/-- How far the documented filters reach, in (stretched) pixels. -/
def FilterType.reach : FilterType → ℚ
  | .nearest => 0
  | .triangle => 1
  | .catmullRom => 2
  | .gaussian => 3
  | .lanczos3 => 3

/-- Filters whose kernel is nowhere negative. -/
def Smoothing (L : Libm) (ft : FilterType) : Prop := ft = .triangle ∨ (ft = .gaussian ∧ L.Ok)

theorem Smoothing.kernel {L : Libm} {ft : FilterType} (h : Smoothing L ft) :
    ∃ b B, NonnegKernel (ft.method L) ft.reach b B (9 / 16) := by
  rcases h with rfl | ⟨rfl, hL⟩
  · exact ⟨_, _, triangle_nonneg L⟩
  · exact ⟨_, _, gaussian_nonneg hL⟩

theorem Smoothing.reach_bounds {L : Libm} {ft : FilterType} (h : Smoothing L ft) : 1 ≤ ft.reach ∧ ft.reach ≤ 3 := by
  rcases h with rfl | ⟨rfl, -⟩ <;> simp [FilterType.reach]

theorem reach_self {s : ℚ} (hs : 0 ≤ s) {len o : Nat} (ho : o < len) : Reach s len len o o := by
  have hl : (len : ℚ) ≠ 0 := by
    have : (0 : ℚ) < len := by exact_mod_cast (by omega : 0 < len)
    exact this.ne'
  have := scale_ge_one len len
  unfold Reach centre
  rw [div_self hl]
  simp only [mul_one, sub_self, abs_zero]
  positivity

/-- C82: `resize` with the triangle or Gaussian filter succeeds, and no sample of the result is outside the range of the
source samples within the filter's reach, up to rounding. -/
theorem C82_within {I : Type} [GenericImageView I (Pix Nat ch)] [LawfulView I (Pix Nat ch)] (L : Libm) (T : Prim)
    (hT : T.bits ≤ 16) (ft : FilterType) (hft : Smoothing L ft) (img : I) (wf : WF img) (hr : SamplesOk T img)
    (nw nh : Nat) (hc : ch ≤ 4)
    (hw0 : 0 < widthOf img) (hh0 : 0 < heightOf img) (hw : widthOf img ≤ 2 ^ 17) (hh : heightOf img ≤ 2 ^ 17)
    (hnw : nw ≤ 2 ^ 17) (hnh : nh ≤ 2 ^ 17) (hsx : ft.reach * scale (widthOf img) nw ≤ 4094)
    (hsy : ft.reach * scale (heightOf img) nh ≤ 4094) (pix : Nat → Nat → Pix Nat ch)
    (hp : ∀ x y, x < widthOf img → y < heightOf img → getPixel img x y = .ok (pix x y)) :
    ∃ b, resize L (Samp.uint T) img nw nh ft = .ok b ∧ b.width = nw ∧ b.height = nh ∧
      ∀ x y, x < nw → y < nh → ∃ p, b.getPixel x y = .ok p ∧ ∀ c, p c ≤ T.max ∧
        ∀ lo hi : Nat, hi ≤ T.max →
          (∀ i j, i < widthOf img → j < heightOf img → Reach ft.reach (widthOf img) nw x i →
            Reach ft.reach (heightOf img) nh y j → lo ≤ pix i j c ∧ pix i j c ≤ hi) →
          (lo : ℚ) - (1 / 2 + slack T ft.reach (widthOf img) nw (heightOf img) nh) ≤ p c ∧
            (p c : ℚ) ≤ hi + (1 / 2 + slack T ft.reach (widthOf img) nw (heightOf img) nh) := by
  obtain ⟨b0, B0, hk⟩ := hft.kernel
  obtain ⟨r1, r2⟩ := hft.reach_bounds
  set w := widthOf img
  set h := heightOf img
  have hr' : ∀ x y, x < w → y < h → ∀ c, pix x y c ≤ T.max := fun x y hx hy c => hr x y _ hx hy (hp x y hx hy) c
  have hsw := scale_ge_one w nw
  have hsh := scale_ge_one h nh
  have hsl : 0 ≤ slack T ft.reach w nw h nh := by unfold slack; positivity
  by_cases hne : (nw, nh) = (w, h)
  · obtain ⟨rfl, rfl⟩ : nw = w ∧ nh = h := by simpa using hne
    have hs : w * h * ch < 2 ^ 64 := by
      have h1 : w * h ≤ 2 ^ 17 * 2 ^ 17 := Nat.mul_le_mul hw hh
      have h2 : w * h * ch ≤ w * h * 4 := Nat.mul_le_mul_left _ hc
      omega
    obtain ⟨b, e1, e2, e3, e4⟩ := C81_same_size L (Samp.uint T) img ft wf hc hs
    refine ⟨b, e1, e2, e3, ?_⟩
    intro x y hx hy
    refine ⟨pix x y, by rw [e4 x y hx hy, hp x y hx hy], fun c => ⟨hr' x y hx hy c, ?_⟩⟩
    intro lo hi _ hb
    obtain ⟨h1, h2⟩ := hb x y hx hy (reach_self (by linarith) hx) (reach_self (by linarith) hy)
    have h1' : (lo : ℚ) ≤ pix x y c := by exact_mod_cast h1
    have h2' : (pix x y c : ℚ) ≤ hi := by exact_mod_cast h2
    constructor <;> linarith
  have hlen : ∀ n : Nat, n ≤ 2 ^ 17 → (1 + ft.reach) * n ≤ 2 ^ 19 := by
    intro n hn
    have : (n : ℚ) ≤ 2 ^ 17 := by exact_mod_cast hn
    calc (1 + ft.reach) * n ≤ 4 * 2 ^ 17 := by gcongr; linarith
      _ = 2 ^ 19 := by norm_num
  obtain ⟨g, g1, g2⟩ := between_picture hT hk hw0 hh0 hw hh hnw hnh (hlen w hw) (hlen h hh)
    (by linarith [show (2 : ℚ) ^ 13 = 8192 by norm_num]) (by linarith [show (2 : ℚ) ^ 13 = 8192 by norm_num])
    (fun x hx => central_mid (by linarith) hw0 hx) (fun y hy => central_mid (by linarith) hh0 hy) hc hr'
  have hmul : ∀ a b, a ≤ 2 ^ 17 → b ≤ 2 ^ 17 → a * b * 4 < 2 ^ 64 := by
    intro a b ha hb
    have : a * b ≤ 2 ^ 17 * 2 ^ 17 := Nat.mul_le_mul ha hb
    omega
  have h1 := hmul w nh hw hnh
  have h2 := hmul nw nh hnw hnh
  have h3 : nw * nh * ch ≤ nw * nh * 4 := Nat.mul_le_mul_left _ hc
  obtain ⟨b, e1, e2⟩ := resize_ok (L := L) (S := Samp.uint T) (ft := ft) (rfl : dims img = (w, h)) hc hw0 hh0
    (show w < 2 ^ 32 by omega) (show h < 2 ^ 32 by omega) (by omega) (by omega) hne h1 (by omega) hp g g1
  exact ⟨b, e1, e2.width, e2.height, fun x y hx hy => ⟨_, e2.pixel x y hx hy, g2 x y hx hy⟩⟩

/-- C82: for 8-bit samples, and for 16-bit samples up to a moderate shrink factor, the range is kept exactly. -/
theorem C82_between {I : Type} [GenericImageView I (Pix Nat ch)] [LawfulView I (Pix Nat ch)] (L : Libm) (T : Prim)
    (hT : T.bits ≤ 16) (ft : FilterType) (hft : Smoothing L ft) (img : I) (wf : WF img) (hr : SamplesOk T img)
    (nw nh : Nat) (hc : ch ≤ 4)
    (hw0 : 0 < widthOf img) (hh0 : 0 < heightOf img) (hw : widthOf img ≤ 2 ^ 17) (hh : heightOf img ≤ 2 ^ 17)
    (hnw : nw ≤ 2 ^ 17) (hnh : nh ≤ 2 ^ 17)
    (hs : 12 * T.max * (ft.reach * (scale (widthOf img) nw + scale (heightOf img) nh) + 13 / 4) < 2 ^ 23)
    (pix : Nat → Nat → Pix Nat ch)
    (hp : ∀ x y, x < widthOf img → y < heightOf img → getPixel img x y = .ok (pix x y)) :
    ∃ b, resize L (Samp.uint T) img nw nh ft = .ok b ∧ b.width = nw ∧ b.height = nh ∧
      ∀ x y, x < nw → y < nh → ∃ p, b.getPixel x y = .ok p ∧ ∀ c, ∀ lo hi : Nat, hi ≤ T.max →
          (∀ i j, i < widthOf img → j < heightOf img → Reach ft.reach (widthOf img) nw x i →
            Reach ft.reach (heightOf img) nh y j → lo ≤ pix i j c ∧ pix i j c ≤ hi) → lo ≤ p c ∧ p c ≤ hi := by
  have hsw := scale_ge_one (widthOf img) nw
  have hsh := scale_ge_one (heightOf img) nh
  obtain ⟨r1, r2⟩ := hft.reach_bounds
  have hM : (255 : ℚ) ≤ T.max := by
    cases T <;> simp [Prim.max, Prim.bits] <;> norm_num
  have hsum : ft.reach * scale (widthOf img) nw + ft.reach * scale (heightOf img) nh + 13 / 4 < 4094 := by
    have h0 : (0 : ℚ) ≤ ft.reach * (scale (widthOf img) nw + scale (heightOf img) nh) + 13 / 4 := by positivity
    have h1 : 12 * (255 : ℚ) * (ft.reach * (scale (widthOf img) nw + scale (heightOf img) nh) + 13 / 4) ≤
        12 * T.max * (ft.reach * (scale (widthOf img) nw + scale (heightOf img) nh) + 13 / 4) := by gcongr
    linarith [show (2 : ℚ) ^ 23 = 8388608 by norm_num,
      show ft.reach * (scale (widthOf img) nw + scale (heightOf img) nh) = ft.reach * scale (widthOf img) nw + ft.reach * scale (heightOf img) nh by ring]
  have q1 : 0 ≤ ft.reach * scale (widthOf img) nw := by positivity
  have q2 : 0 ≤ ft.reach * scale (heightOf img) nh := by positivity
  obtain ⟨b, e1, e2, e3, e4⟩ := C82_within L T hT ft hft img wf hr nw nh hc hw0 hh0 hw hh hnw hnh (by linarith) (by linarith)
    pix hp
  refine ⟨b, e1, e2, e3, fun x y hx hy => ?_⟩
  obtain ⟨p, p1, p2⟩ := e4 x y hx hy
  refine ⟨p, p1, fun c lo hi hhi hb => ?_⟩
  obtain ⟨h1, h2⟩ := (p2 c).2 lo hi hhi hb
  refine exact_bounds ?_ h1 h2
  unfold slack
  rw [div_lt_iff₀ (by norm_num)]
  linarith [show (1 / 2 : ℚ) * 2 ^ 24 = 2 ^ 23 by norm_num]

/-- C82: an image of one colour keeps that colour. -/
theorem C82_constant {I : Type} [GenericImageView I (Pix Nat ch)] [LawfulView I (Pix Nat ch)] (L : Libm) (T : Prim)
    (hT : T.bits ≤ 16) (ft : FilterType) (hft : Smoothing L ft) (img : I) (wf : WF img)
    (nw nh : Nat) (hc : ch ≤ 4)
    (hw0 : 0 < widthOf img) (hh0 : 0 < heightOf img) (hw : widthOf img ≤ 2 ^ 17) (hh : heightOf img ≤ 2 ^ 17)
    (hnw : nw ≤ 2 ^ 17) (hnh : nh ≤ 2 ^ 17)
    (hs : 12 * T.max * (ft.reach * (scale (widthOf img) nw + scale (heightOf img) nh) + 13 / 4) < 2 ^ 23)
    (q : Pix Nat ch) (hq : ∀ c, q c ≤ T.max)
    (hp : ∀ x y, x < widthOf img → y < heightOf img → getPixel img x y = .ok q) :
    ∃ b, resize L (Samp.uint T) img nw nh ft = .ok b ∧ b.width = nw ∧ b.height = nh ∧
      ∀ x y, x < nw → y < nh → b.getPixel x y = .ok q := by
  have hr : SamplesOk T img := by
    intro x y p hx hy e c
    rw [hp x y hx hy] at e
    cases e
    exact hq c
  obtain ⟨b, e1, e2, e3, e4⟩ := C82_between L T hT ft hft img wf hr nw nh hc hw0 hh0 hw hh hnw hnh hs (fun _ _ => q) hp
  refine ⟨b, e1, e2, e3, fun x y hx hy => ?_⟩
  obtain ⟨p, p1, p2⟩ := e4 x y hx hy
  rw [p1]
  congr 1
  funext c
  obtain ⟨h1, h2⟩ := p2 c (q c) (q c) (hq c) fun _ _ _ _ _ _ => ⟨le_rfl, le_rfl⟩
  omega

/-! ## Instances -/

/-- The pixels of the test image. -/
def grey22Pix (x y : Nat) : Pix Nat 1 := fun _ => 10 + 10 * x + 20 * y

theorem grey22_pix : ∀ x y, x < widthOf grey22 → y < heightOf grey22 → getPixel grey22 x y = .ok (grey22Pix x y) := by
  intro x y hx hy
  have : x < 2 := hx
  have : y < 2 := hy
  have h : (x = 0 ∨ x = 1) ∧ (y = 0 ∨ y = 1) := by omega
  rcases h with ⟨rfl | rfl, rfl | rfl⟩ <;> decide +kernel

/-- A library that satisfies the assumptions: `exp` cut off, `sqrt` constant. -/
def toyLibm : Libm where
  exp x := match x with
    | .fin q => if -3 ≤ q then .fin 1 else .fin 0
    | _ => .fin 0
  sin _ := .fin 0
  sqrt _ := .fin (5 / 2)
  pi := .fin 3

theorem toyLibm_ok : toyLibm.Ok where
  pi := ⟨3, rfl, by norm_num, by norm_num⟩
  sqrt q _ _ := ⟨5 / 2, rfl, by norm_num, by norm_num⟩
  exp q _ := by
    by_cases h : -3 ≤ q
    · exact ⟨1, by simp [toyLibm, h], by norm_num, by norm_num, fun _ => by norm_num⟩
    · exact ⟨0, by simp [toyLibm, h], by norm_num, by norm_num, fun h' => absurd h' h⟩

theorem grey22_samples : SamplesOk .u8 grey22 := samplesOk_buffer grey22_wf (by decide)

example (ft : FilterType) (hft : Smoothing toyLibm ft) : ∃ b, resize toyLibm (Samp.uint .u8) grey22 3 3 ft = .ok b ∧
    ∀ x y, x < 3 → y < 3 → ∃ p, b.getPixel x y = .ok p ∧ 10 ≤ p 0 ∧ p 0 ≤ 40 := by
  obtain ⟨r1, r2⟩ := hft.reach_bounds
  have hsc : scale 2 3 = 1 := by unfold scale; norm_num
  obtain ⟨b, e1, -, -, e4⟩ := C82_between toyLibm .u8 (by decide) ft hft grey22 grey22_wf grey22_samples 3 3 (by decide)
    (by decide) (by decide) (by decide) (by decide) (by decide) (by decide)
    (by
      rw [show widthOf grey22 = 2 from rfl, show heightOf grey22 = 2 from rfl, hsc,
        show ((Prim.max .u8 : ℕ) : ℚ) = 255 by norm_num [Prim.max, Prim.bits]]
      linarith [show (2 : ℚ) ^ 23 = 8388608 by norm_num]) grey22Pix grey22_pix
  refine ⟨b, e1, fun x y hx hy => ?_⟩
  obtain ⟨p, p1, p2⟩ := e4 x y hx hy
  refine ⟨p, p1, p2 0 10 40 (by decide) ?_⟩
  intro i j hi hj _ _
  have : i < 2 := hi
  have : j < 2 := hj
  have h : (i = 0 ∨ i = 1) ∧ (j = 0 ∨ j = 1) := by omega
  rcases h with ⟨rfl | rfl, rfl | rfl⟩ <;> decide

example : ∃ b, resize toyLibm (Samp.uint .u8) grey22 3 1 .triangle = .ok b ∧ b.getPixel 0 0 = .ok (fun _ => 20) := by
  obtain ⟨b, e1, -, -, e4⟩ := C82_triangle toyLibm .u8 (by decide) grey22 grey22_wf grey22_samples 3 1 (by decide)
    (by decide) (by decide) (by decide) (by decide) (by decide) (by decide)
    (by rw [show widthOf grey22 = 2 from rfl]; unfold scale; norm_num)
    (by rw [show heightOf grey22 = 2 from rfl]; unfold scale; norm_num) grey22Pix grey22_pix
  obtain ⟨p, p1, p2⟩ := e4 0 0 (by decide) (by decide)
  refine ⟨b, e1, ?_⟩
  rw [p1]
  have h := (p2 0).2
  rw [show widthOf grey22 = 2 from rfl, show heightOf grey22 = 2 from rfl] at h
  have e : tentMean 2 3 0 2 1 0 (fun i j => ((grey22Pix i j 0 : ℕ) : ℚ)) = 20 := by
    unfold tentMean weighted tent offset centre scale grey22Pix
    simp only [Finset.sum_range_succ, Finset.sum_range_zero]
    norm_num [abs_of_neg, abs_of_pos]
  rw [e] at h
  have hs : scale 2 3 = 1 ∧ scale 2 1 = 2 := by unfold scale; norm_num
  rw [hs.1, hs.2, show ((Prim.max .u8 : ℕ) : ℚ) = 255 by norm_num [Prim.max, Prim.bits]] at h
  norm_num at h
  rw [abs_le] at h
  have h1 : (p 0 : ℚ) < 21 := by linarith
  have h2 : (19 : ℚ) < p 0 := by linarith
  have h1 : p 0 < 21 := by exact_mod_cast h1
  have h2 : 19 < p 0 := by exact_mod_cast h2
  congr 1
  funext c
  rw [show c = 0 by omega]
  omega

end Verif
