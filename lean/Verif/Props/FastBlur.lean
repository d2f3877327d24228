import Verif.Proofs.FastBlur

/-!
# C88: `fast_blur`
-/

namespace Verif
open GenericImageView GenericImage LawfulView LawfulImage
open Jpeg (getR setR)

variable {ch : Nat}

theorem boxVariance_eq (r : Nat) : boxVariance r = (r : ℚ) * (r + 1) / 3 := by
  have h1 : ∀ n : ℕ, ∀ a : ℚ, ∑ d ∈ Finset.range n, ((d : ℚ) - a) ^ 2 = (n : ℚ) * (n - 1) * (2 * n - 1) / 6 - a * (n * (n - 1)) + n * a ^ 2 := by
    intro n a
    induction n with
    | zero => simp
    | succ n ih => rw [Finset.sum_range_succ, ih]; push_cast; ring
  unfold boxVariance
  rw [h1, div_eq_iff (by positivity)]
  push_cast
  ring

theorem boxMean_le {r n M : Nat} {v : Nat → Nat} (hn : 0 < n) (hv : ∀ i, i < n → v i ≤ M) (x : Nat) : boxMean r n v x ≤ M :=
  Nat.div_le_of_le_mul (boxSum_le hn hv x)

theorem boxBlur_le {r w h M : Nat} {v : Nat → Nat → Nat} (hw : 0 < w) (hh : 0 < h) (hv : ∀ i j, i < w → j < h → v i j ≤ M) (x y : Nat) :
    boxBlur r w h v x y ≤ M :=
  boxMean_le hh (fun j hj => boxMean_le hw (fun i hi => hv i j hi hj) x) y

theorem boxMean_congr {r n : Nat} {v v' : Nat → Nat} (hn : 0 < n) (h : ∀ i, i < n → v i = v' i) (x : Nat) : boxMean r n v x = boxMean r n v' x := by
  unfold boxMean
  congr 1
  exact Finset.sum_congr rfl fun d _ => h _ (by omega)

theorem boxBlur_congr {r w h : Nat} {v v' : Nat → Nat → Nat} (hw : 0 < w) (hh : 0 < h) (hv : ∀ i j, i < w → j < h → v i j = v' i j) (x y : Nat) :
    boxBlur r w h v x y = boxBlur r w h v' x y :=
  boxMean_congr hh (fun j hj => boxMean_congr hw (fun i hi => hv i j hi hj) x) y

/-- One pass: a box blur. -/
theorem pass_ok {T : Prim} (hT : T.bits ≤ 16) {s : List Nat} {w h r : Nat} {v : Nat → Nat → Nat → Nat} (hs : Holds s w h ch v)
    (hw : 0 < w) (hh : 0 < h) (hw32 : w < 2 ^ 32) (hh32 : h < 2 ^ 32) (hsz : w * h * ch < 2 ^ 64) (hch : 0 < ch)
    (hM : ∀ x y c, x < w → y < h → c < ch → v x y c ≤ T.max) (hr : (2 * r + 1) * T.max < 2 ^ 24) :
    ∃ t out, horizontalHalf (Samp.uint T) s w h r ch = .ok t ∧ horizontalHalf (Samp.uint T) t h w r ch = .ok out ∧
      out.length = w * h * ch ∧ Holds out w h ch fun x y c => boxBlur r w h (fun i j => v i j c) x y := by
  obtain ⟨t, h1, h2, h3⟩ := half_ok hT hs hw hw32 hsz hch hM hr
  obtain ⟨out, h4, h5, h6⟩ := half_ok hT h3 hh hh32 (by rw [Nat.mul_comm h w]; exact hsz) hch
    (fun y x c hy hx hc => boxMean_le hw (fun i hi => hM i y c hi hy hc) x) hr
  exact ⟨t, out, h1, h4, by rw [h5, Nat.mul_comm h w], fun x y c hx hy hc => h6 x y c hx hy hc⟩

/-- Three passes with given boxes. -/
theorem passes_ok {T : Prim} (hT : T.bits ≤ 16) {s : List Nat} {w h r0 r1 r2 : Nat} {v : Nat → Nat → Nat → Nat} (hs : Holds s w h ch v)
    (hw : 0 < w) (hh : 0 < h) (hw32 : w < 2 ^ 32) (hh32 : h < 2 ^ 32) (hsz : w * h * ch < 2 ^ 64) (hch : 0 < ch)
    (hM : ∀ x y c, x < w → y < h → c < ch → v x y c ≤ T.max)
    (hr0 : (2 * r0 + 1) * T.max < 2 ^ 24) (hr1 : (2 * r1 + 1) * T.max < 2 ^ 24) (hr2 : (2 * r2 + 1) * T.max < 2 ^ 24) :
    ∃ out, forList [2 * r0 + 1, 2 * r1 + 1, 2 * r2 + 1] (fun radius samples => do
        let r1 ← subC radius 1
        let t ← horizontalHalf (Samp.uint T) samples w h (r1 / 2) ch
        horizontalHalf (Samp.uint T) t h w (r1 / 2) ch) s = .ok out ∧ out.length = w * h * ch ∧
      Holds out w h ch fun x y c => boxBlur r2 w h (boxBlur r1 w h (boxBlur r0 w h fun i j => v i j c)) x y := by
  obtain ⟨t0, o0, a1, a2, a3, a4⟩ := pass_ok hT hs hw hh hw32 hh32 hsz hch hM hr0
  obtain ⟨t1, o1, b1, b2, b3, b4⟩ := pass_ok hT a4 hw hh hw32 hh32 hsz hch
    (fun x y c hx hy hc => boxBlur_le hw hh (fun i j hi hj => hM i j c hi hj hc) x y) hr1
  obtain ⟨t2, o2, c1, c2, c3, c4⟩ := pass_ok hT b4 hw hh hw32 hh32 hsz hch
    (fun x y c hx hy hc => boxBlur_le hw hh (fun i j hi hj => boxBlur_le hw hh (fun i j hi hj => hM i j c hi hj hc) i j) x y) hr2
  have e : ∀ r, subC (2 * r + 1) 1 = .ok (2 * r) := fun r => by rw [subC_ok (by omega)]; rfl
  have e2 : ∀ r, 2 * r / 2 = r := fun r => by omega
  refine ⟨o2, ?_, c3, c4⟩
  simp only [forList, e, ok_bind, e2, a1, a2, b1, b2, c1, c2]

/-- `fast_blur` replaces an image by three box blurs (means rounded down) whose variances add up to about `sigma²`. -/
theorem C88_boxes (L : Libm) (hL : L.SqrtOk) (T : Prim) (hT : T.bits ≤ 16) (sigma : ℚ) (hs : |sigma| ≤ 2 ^ 15)
    (hsT : (2 * |sigma| + 3) * T.max < 2 ^ 24) (img : ImageBuffer Nat ch) (hi : img.Inv) (hr : SamplesOk T img) (hch : 0 < ch) (hch' : ch < 256)
    (hw0 : 0 < img.width) (hh0 : 0 < img.height) (pix : Nat → Nat → Pix Nat ch)
    (hp : ∀ x y, x < img.width → y < img.height → img.getPixel x y = .ok (pix x y)) :
    ∃ (r0 r1 r2 : ℕ) (b : ImageBuffer Nat ch), r0 ≤ r1 ∧ r1 ≤ r2 ∧ r2 ≤ r0 + 1 ∧ (r2 : ℚ) ≤ |sigma| + 1 ∧
      |boxVariance r0 + boxVariance r1 + boxVariance r2 - sigma ^ 2| ≤ 2 / 5 * (r0 + 1) ∧
      fastBlur L (Samp.uint T) img (.fin sigma) = .ok b ∧ b.Inv ∧ b.width = img.width ∧ b.height = img.height ∧
      ∀ x y, x < img.width → y < img.height → b.getPixel x y = .ok fun c =>
        boxBlur r2 img.width img.height (boxBlur r1 img.width img.height (boxBlur r0 img.width img.height fun i j => pix i j c)) x y := by
  obtain ⟨wl, m, hodd, hm, hbox, hwl, hvar⟩ := boxes_ok hL hs
  obtain ⟨k, hk⟩ : ∃ k, wl = 2 * k + 1 := ⟨wl / 2, by omega⟩
  subst hk
  let r : ℕ → ℕ := fun i => if i < m then k else k + 1
  have hbox' : boxesForGauss L (.fin sigma) 3 = [2 * r 0 + 1, 2 * r 1 + 1, 2 * r 2 + 1] := by
    rw [hbox]
    simp only [r, List.range, List.range.loop, List.map]
    congr 1
    · split <;> omega
    congr 1
    · split <;> omega
    congr 1
    split <;> omega
  have hk1 : (k : ℚ) ≤ |sigma| := by push_cast at hwl; linarith
  have hrk : ∀ i, r i ≤ k + 1 ∧ k ≤ r i := fun i => by simp only [r]; split <;> omega
  have hrT : ∀ i, (2 * r i + 1) * T.max < 2 ^ 24 := by
    intro i
    have h1 : ((r i : ℕ) : ℚ) ≤ k + 1 := by exact_mod_cast (hrk i).1
    have h2 : (2 * (r i : ℚ) + 1) * T.max ≤ (2 * |sigma| + 3) * T.max :=
      mul_le_mul_of_nonneg_right (by linarith) (by positivity)
    have h3 : (2 * (r i : ℚ) + 1) * T.max < 2 ^ 24 := by linarith
    exact_mod_cast h3
  have hmono : r 0 ≤ r 1 ∧ r 1 ≤ r 2 ∧ r 2 ≤ r 0 + 1 := by
    simp only [r]
    refine ⟨?_, ?_, ?_⟩ <;> split_ifs <;> omega
  have hv : |boxVariance (r 0) + boxVariance (r 1) + boxVariance (r 2) - sigma ^ 2| ≤ 2 / 5 * (r 0 + 1) := by
    have hk0 : ((r 0 : ℕ) : ℚ) ≥ k := by exact_mod_cast (hrk 0).2
    have hN : (0 : ℚ) < ((2 * k + 1 : ℕ) : ℚ) + 1 := by positivity
    have e : boxVariance (r 0) + boxVariance (r 1) + boxVariance (r 2) - sigma ^ 2 =
        (3 / 4 * (((2 * k + 1 : ℕ) : ℚ) + 3) - 3 * sigma ^ 2 / (((2 * k + 1 : ℕ) : ℚ) + 1) - m) * ((((2 * k + 1 : ℕ) : ℚ) + 1) / 3) := by
      have e1 : 3 * sigma ^ 2 / (((2 * k + 1 : ℕ) : ℚ) + 1) * ((((2 * k + 1 : ℕ) : ℚ) + 1) / 3) = sigma ^ 2 := by field_simp
      rw [sub_mul, sub_mul, e1, boxVariance_eq, boxVariance_eq, boxVariance_eq]
      simp only [r]
      obtain rfl | rfl | rfl | rfl : m = 0 ∨ m = 1 ∨ m = 2 ∨ m = 3 := by omega
      all_goals
        norm_num
        ring
    rw [e, abs_mul, abs_of_pos (show (0 : ℚ) < (((2 * k + 1 : ℕ) : ℚ) + 1) / 3 by positivity)]
    calc _ ≤ 3 / 5 * ((((2 * k + 1 : ℕ) : ℚ) + 1) / 3) := by gcongr
      _ = 2 / 5 * (k + 1) := by push_cast; ring
      _ ≤ _ := by linarith
  have hfits := hi.fits
  have hsz : img.width * img.height * ch < 2 ^ 64 := lt_of_le_of_lt hfits hi.len64
  have hgp := fun x y hx hy => (ImageBuffer.getPixel_eq_ok hi (x := x) (y := y) hx hy (pix x y)).1 (hp x y hx hy)
  let v : Nat → Nat → Nat → Nat := fun x y c => if h : c < ch then pix x y ⟨c, h⟩ else 0
  obtain ⟨out, h1, h2, h3⟩ := passes_ok (ch := ch) hT (s := img.data) (w := img.width) (h := img.height) (r0 := r 0) (r1 := r 1) (r2 := r 2) (v := v)
    (by
      intro x y c hx hy hc
      simp only [v, dif_pos hc]
      exact hgp x y hx hy ⟨c, hc⟩) hw0 hh0 hi.w32 hi.h32 hsz hch
    (by
      intro x y c hx hy hc
      simp only [v, dif_pos hc]
      exact hr x y _ hx hy (hp x y hx hy) _) (hrT 0) (hrT 1) (hrT 2)
  have hraw : ImageBuffer.fromRaw ch img.width img.height out = some ⟨img.width, img.height, out⟩ := by
    unfold ImageBuffer.fromRaw
    rw [if_pos]
    rw [ImageBuffer.checkImageFits_iff hch' hi.w32]
    omega
  have hInv : ImageBuffer.Inv (⟨img.width, img.height, out⟩ : ImageBuffer Nat ch) :=
    ⟨hi.w32, hi.h32, by show out.length < 2 ^ 64; omega, by show img.width * img.height * ch ≤ out.length; omega⟩
  refine ⟨r 0, r 1, r 2, ⟨img.width, img.height, out⟩, hmono.1, hmono.2.1, hmono.2.2, ?_, hv, ?_, hInv, rfl, rfl, ?_⟩
  · have : ((r 2 : ℕ) : ℚ) ≤ k + 1 := by exact_mod_cast (hrk 2).1
    linarith
  · unfold fastBlur
    dsimp only
    rw [if_neg (by omega), hbox', List.take_of_length_le (show [2 * r 0 + 1, 2 * r 1 + 1, 2 * r 2 + 1].length ≤ 3 from le_rfl), h1, ok_bind, hraw, unwrapR]
  · intro x y hx hy
    rw [ImageBuffer.getPixel_eq_ok hInv hx hy]
    intro c
    have := h3 x y c hx hy c.isLt
    refine this.trans (congrArg some ?_)
    refine boxBlur_congr hw0 hh0 (fun i j _ _ => boxBlur_congr hw0 hh0 (fun i j _ _ => boxBlur_congr hw0 hh0 (fun i j _ _ => ?_) i j) i j) x y
    simp only [v, dif_pos c.isLt]

theorem boxMean_between {r n lo hi x : Nat} {v : Nat → Nat} (hx : x < n)
    (hv : ∀ i, i < n → x ≤ i + r → i ≤ x + r → lo ≤ v i ∧ v i ≤ hi) : lo ≤ boxMean r n v x ∧ boxMean r n v x ≤ hi := by
  have h : ∀ d ∈ Finset.range (2 * r + 1), lo ≤ v (min (x + d - r) (n - 1)) ∧ v (min (x + d - r) (n - 1)) ≤ hi := by
    intro d hd
    rw [Finset.mem_range] at hd
    exact hv _ (by omega) (by omega) (by omega)
  have h1 := Finset.sum_le_card_nsmul _ _ hi (fun d hd => (h d hd).2)
  have h2 := Finset.card_nsmul_le_sum _ _ lo (fun d hd => (h d hd).1)
  simp only [Finset.card_range, nsmul_eq_mul, Nat.cast_id] at h1 h2
  unfold boxMean
  refine ⟨?_, Nat.div_le_of_le_mul h1⟩
  rw [Nat.le_div_iff_mul_le (by omega), Nat.mul_comm]
  exact h2

theorem boxBlur_between {r w h lo hi x y : Nat} {v : Nat → Nat → Nat} (hx : x < w) (hy : y < h)
    (hv : ∀ i j, i < w → j < h → x ≤ i + r → i ≤ x + r → y ≤ j + r → j ≤ y + r → lo ≤ v i j ∧ v i j ≤ hi) :
    lo ≤ boxBlur r w h v x y ∧ boxBlur r w h v x y ≤ hi :=
  boxMean_between hy fun j hj h1 h2 => boxMean_between hx fun i hi h3 h4 => hv i j hi hj h3 h4 h1 h2

/-- Every sample of the result lies between the samples of the image at most `3 |sigma| + 3` columns and rows away. -/
theorem C88_within (L : Libm) (hL : L.SqrtOk) (T : Prim) (hT : T.bits ≤ 16) (sigma : ℚ) (hs : |sigma| ≤ 2 ^ 15)
    (hsT : (2 * |sigma| + 3) * T.max < 2 ^ 24) (img : ImageBuffer Nat ch) (hi : img.Inv) (hr : SamplesOk T img) (hch : 0 < ch)
    (hch' : ch < 256) (hw0 : 0 < img.width) (hh0 : 0 < img.height) (pix : Nat → Nat → Pix Nat ch)
    (hp : ∀ x y, x < img.width → y < img.height → img.getPixel x y = .ok (pix x y)) :
    ∃ b, fastBlur L (Samp.uint T) img (.fin sigma) = .ok b ∧ b.width = img.width ∧ b.height = img.height ∧
      ∀ x y, x < img.width → y < img.height → ∃ p, b.getPixel x y = .ok p ∧ ∀ c (lo hi : Nat),
        (∀ i j, i < img.width → j < img.height → |(i : ℚ) - x| ≤ 3 * |sigma| + 3 → |(j : ℚ) - y| ≤ 3 * |sigma| + 3 →
          lo ≤ pix i j c ∧ pix i j c ≤ hi) → lo ≤ p c ∧ p c ≤ hi := by
  obtain ⟨r0, r1, r2, b, h01, h12, -, h2, -, h3, -, h4, h5, h6⟩ := C88_boxes L hL T hT sigma hs hsT img hi hr hch hch' hw0 hh0 pix hp
  refine ⟨b, h3, h4, h5, fun x y hx hy => ⟨_, h6 x y hx hy, fun c lo hi hv => ?_⟩⟩
  have hR : ((r0 + r1 + r2 : ℕ) : ℚ) ≤ 3 * |sigma| + 3 := by
    have q0 : (r0 : ℚ) ≤ r1 := by exact_mod_cast h01
    have q1 : (r1 : ℚ) ≤ r2 := by exact_mod_cast h12
    push_cast
    linarith
  have near : ∀ {i x : ℕ}, x ≤ i + (r0 + r1 + r2) → i ≤ x + (r0 + r1 + r2) → |(i : ℚ) - x| ≤ 3 * |sigma| + 3 := by
    intro i x g1 g2
    have g1 : (x : ℚ) ≤ i + (r0 + r1 + r2 : ℕ) := by exact_mod_cast g1
    have g2 : (i : ℚ) ≤ x + (r0 + r1 + r2 : ℕ) := by exact_mod_cast g2
    rw [abs_le]
    constructor <;> linarith
  refine boxBlur_between hx hy fun i j hi' hj a1 a2 a3 a4 => ?_
  refine boxBlur_between hi' hj fun i' j' hi'' hj' b1 b2 b3 b4 => ?_
  refine boxBlur_between hi'' hj' fun i'' j'' hi3 hj3 c1 c2 c3 c4 => ?_
  exact hv i'' j'' hi3 hj3 (near (by omega) (by omega)) (near (by omega) (by omega))

/-- An image of one colour keeps it. -/
theorem C88_constant (L : Libm) (hL : L.SqrtOk) (T : Prim) (hT : T.bits ≤ 16) (sigma : ℚ) (hs : |sigma| ≤ 2 ^ 15)
    (hsT : (2 * |sigma| + 3) * T.max < 2 ^ 24) (img : ImageBuffer Nat ch) (hi : img.Inv) (hr : SamplesOk T img) (hch : 0 < ch)
    (hch' : ch < 256) (hw0 : 0 < img.width) (hh0 : 0 < img.height) (colour : Pix Nat ch)
    (hp : ∀ x y, x < img.width → y < img.height → img.getPixel x y = .ok colour) :
    ∃ b, fastBlur L (Samp.uint T) img (.fin sigma) = .ok b ∧ b.width = img.width ∧ b.height = img.height ∧
      ∀ x y, x < img.width → y < img.height → b.getPixel x y = .ok colour := by
  obtain ⟨b, h1, h2, h3, h4⟩ := C88_within L hL T hT sigma hs hsT img hi hr hch hch' hw0 hh0 (fun _ _ => colour) hp
  refine ⟨b, h1, h2, h3, fun x y hx hy => ?_⟩
  obtain ⟨p, h5, h6⟩ := h4 x y hx hy
  rw [h5]
  congr 1
  funext c
  have := h6 c (colour c) (colour c) (fun _ _ _ _ _ _ => ⟨le_rfl, le_rfl⟩)
  omega

theorem boxBlur_zero {w h x y : Nat} (v : Nat → Nat → Nat) (hx : x < w) (hy : y < h) : boxBlur 0 w h v x y = v x y := by
  simp [boxBlur, boxMean, show min x (w - 1) = x by omega, show min y (h - 1) = y by omega]

/-- `sigma = 0` changes nothing. -/
theorem C88_identity (L : Libm) (hL : L.SqrtOk) (T : Prim) (hT : T.bits ≤ 16) (img : ImageBuffer Nat ch) (hi : img.Inv)
    (hr : SamplesOk T img) (hch : 0 < ch) (hch' : ch < 256) (hw0 : 0 < img.width) (hh0 : 0 < img.height) :
    ∃ b, fastBlur L (Samp.uint T) img (.fin 0) = .ok b ∧ b.width = img.width ∧ b.height = img.height ∧
      ∀ x y, x < img.width → y < img.height → b.getPixel x y = img.getPixel x y := by
  have hbits : T.max < 2 ^ 16 := by cases T <;> simp_all [Prim.max, Prim.bits]
  have hb : (T.max : ℚ) < 2 ^ 16 := by exact_mod_cast hbits
  obtain ⟨pix, hp⟩ : ∃ pix : Nat → Nat → Pix Nat ch, ∀ x y, x < img.width → y < img.height → img.getPixel x y = .ok (pix x y) := by
    refine ⟨fun x y => (img.getPixel x y).toOption.getD default, fun x y hx hy => ?_⟩
    obtain ⟨p, hp⟩ := ImageBuffer.getPixel_exists hi hx hy
    simp [hp, Except.toOption]
  obtain ⟨r0, r1, r2, b, h01, h12, -, h2, hv, h3, -, h4, h5, h6⟩ := C88_boxes L hL T hT 0 (by norm_num) (by norm_num; linarith) img hi hr hch hch' hw0 hh0 pix hp
  have hr2 : r2 ≤ 1 := by
    have : (r2 : ℚ) ≤ 1 := by simpa using h2
    exact_mod_cast this
  rw [boxVariance_eq, boxVariance_eq, boxVariance_eq] at hv
  have hz : r0 = 0 ∧ r1 = 0 ∧ r2 = 0 := by
    have e0 : r0 = 0 ∨ r0 = 1 := by omega
    have e1 : r1 = 0 ∨ r1 = 1 := by omega
    have e2 : r2 = 0 ∨ r2 = 1 := by omega
    rcases e0 with rfl | rfl <;> rcases e1 with rfl | rfl <;> rcases e2 with rfl | rfl <;> first | omega | (norm_num at hv)
  obtain ⟨rfl, rfl, rfl⟩ := hz
  refine ⟨b, h3, h4, h5, fun x y hx hy => ?_⟩
  rw [h6 x y hx hy, hp x y hx hy]
  congr 1
  funext c
  rw [boxBlur_zero _ hx hy, boxBlur_zero _ hx hy, boxBlur_zero _ hx hy]

/-- An image without pixels is returned as it is. -/
theorem C88_empty (L : Libm) (T : Prim) (sigma : Fl) (img : ImageBuffer Nat ch) (h : img.width = 0 ∨ img.height = 0) :
    fastBlur L (Samp.uint T) img sigma = .ok img := by
  unfold fastBlur
  dsimp only
  rw [if_pos h]

/-- A standard deviation that is not a number makes it panic. -/
theorem C88_nan_false (L : Libm) (hL : L.sqrt .nan = .nan) (T : Prim) (img : ImageBuffer Nat ch) (hw0 : 0 < img.width)
    (hh0 : 0 < img.height) : fastBlur L (Samp.uint T) img .nan = panicR := by
  have hb : boxesForGauss L .nan 3 = [0, 0, 0] := by
    unfold boxesForGauss
    simp [Fl.mul, Fl.div, Fl.add, Fl.sub, hL, Fl.floor, Fl.isEven, Fl.round, Fl.toUSat, List.range, List.range.loop]
  unfold fastBlur
  dsimp only
  rw [if_neg (by omega), hb]
  rfl

/-- An infinite one makes an image black. -/
theorem C88_infinite_false (L : Libm) (hL : L.sqrt (.inf false) = .inf false) :
    fastBlur L (Samp.uint .u8) (⟨2, 1, [200, 100]⟩ : ImageBuffer Nat 1) (.inf false) = .ok ⟨2, 1, [0, 0]⟩ := by
  have hb : boxesForGauss L (.inf false) 3 = [2 ^ 64 - 1, 2 ^ 64 - 1, 2 ^ 64 - 1] := by
    unfold boxesForGauss
    have e1 : (((Fl.fin 12).mul f32 ((Fl.inf false).mul f32 (.inf false))).div f32 (Fl.ofNat f32 3)).add f32 (.fin 1) = .inf false := by decide +kernel
    simp only [e1, hL]
    decide +kernel
  unfold fastBlur
  dsimp only
  rw [if_neg (by decide), hb]
  decide +kernel

/-- `u32` samples do not survive: white makes it panic even with `sigma = 0`. -/
theorem C88_wide_false (L : Libm) (hL : L.SqrtOk) :
    fastBlur L (Samp.uint .u32) (⟨1, 1, [2 ^ 32 - 1]⟩ : ImageBuffer Nat 1) (.fin 0) = panicR := by
  have hb : boxesForGauss L (.fin 0) 3 = [1, 1, 1] := by
    unfold boxesForGauss
    have e1 : (((Fl.fin 12).mul f32 ((Fl.fin 0).mul f32 (.fin 0))).div f32 (Fl.ofNat f32 3)).add f32 (.fin 1) = .fin 1 := by decide +kernel
    simp only [e1, hL.one]
    decide +kernel
  unfold fastBlur
  dsimp only
  rw [if_neg (by decide), hb]
  decide +kernel

/-- A 16-bit image of one colour can lose it: sums of 257 samples are not exact. -/
theorem C88_drift_false (L : Libm) (hL : (L.sqrt (.fin 66050)).floor = .fin 257) :
    fastBlur L (Samp.uint .u16) (⟨1, 1, [65533]⟩ : ImageBuffer Nat 1) (.fin (257 / 2)) = .ok ⟨1, 1, [65532]⟩ := by
  have hb : boxesForGauss L (.fin (257 / 2)) 3 = [257, 257, 257] := by
    unfold boxesForGauss
    have e1 : (((Fl.fin 12).mul f32 ((Fl.fin (257 / 2)).mul f32 (.fin (257 / 2)))).div f32 (Fl.ofNat f32 3)).add f32 (.fin 1) = .fin 66050 := by decide +kernel
    simp only [e1, hL]
    decide +kernel
  unfold fastBlur
  dsimp only
  rw [if_neg (by decide), hb]
  decide +kernel

/-! ## The hypotheses are met -/

/-- A square root that is accurate enough. -/
def rootLibm : Libm where
  exp := id
  sin := id
  sqrt x := match x with
    | .fin q => .fin ((Nat.sqrt ⌊q * 2 ^ 60⌋.toNat : ℕ) / 2 ^ 30)
    | x => x
  pi := .fin 3

theorem rootLibm_ok : rootLibm.SqrtOk where
  one := by decide +kernel
  near := by
    intro q h1 h2 _
    have hn0 : 0 ≤ ⌊q * 2 ^ 60⌋ := Int.floor_nonneg.2 (by positivity)
    obtain ⟨n, hn⟩ : ∃ n : ℕ, ⌊q * 2 ^ 60⌋ = n := ⟨_, (Int.toNat_of_nonneg hn0).symm⟩
    refine ⟨(Nat.sqrt n : ℕ) / 2 ^ 30, by show Fl.fin _ = _; rw [hn]; simp, ?_⟩
    set k := Nat.sqrt n
    have a1 : k * k ≤ n := Nat.sqrt_le n
    have a2 : n ≤ k * k + k + k := Nat.sqrt_le_add n
    have b1 : (k : ℚ) * k ≤ n := by exact_mod_cast a1
    have b2 : (n : ℚ) ≤ k * k + k + k := by exact_mod_cast a2
    have c1 : (n : ℚ) ≤ q * 2 ^ 60 := by
      have := Int.floor_le (q * 2 ^ 60)
      rw [hn] at this
      exact_mod_cast this
    have c2 : q * 2 ^ 60 < n + 1 := by
      have := Int.lt_floor_add_one (q * 2 ^ 60)
      rw [hn] at this
      exact_mod_cast this
    have hk0 : (0 : ℚ) ≤ k := by positivity
    have hk : (2 ^ 30 : ℕ) ≤ k := by
      have : 2 ^ 60 ≤ n := by
        have : (2 ^ 60 : ℤ) ≤ n := by
          rw [← hn]
          exact Int.le_floor.2 (by push_cast; linarith)
        exact_mod_cast this
      refine Nat.le_sqrt.2 ?_
      norm_num
      omega
    have hk' : (2 : ℚ) ^ 30 ≤ k := by exact_mod_cast hk
    refine ⟨by rw [le_div_iff₀ (by norm_num)]; linarith, ?_⟩
    have hkq : (k : ℚ) * 2 ^ 30 ≤ q * 2 ^ 60 := by nlinarith
    rw [div_pow, ← pow_mul, abs_le]
    have e : ((k : ℚ) ^ 2) / 2 ^ (30 * 2) * 2 ^ 60 = k * k := by field_simp
    constructor
    · have : -(q / 2 ^ 22) * 2 ^ 60 ≤ ((k : ℚ) ^ 2 / 2 ^ (30 * 2) - q) * 2 ^ 60 := by
        rw [sub_mul, e]
        linarith
      exact le_of_mul_le_mul_right this (by norm_num)
    · have : ((k : ℚ) ^ 2 / 2 ^ (30 * 2) - q) * 2 ^ 60 ≤ q / 2 ^ 22 * 2 ^ 60 := by
        rw [sub_mul, e]
        linarith
      exact le_of_mul_le_mul_right this (by norm_num)

/-- A row with one bright pixel. -/
def dot51 : ImageBuffer Nat 1 := ⟨5, 1, [0, 0, 240, 0, 0]⟩

theorem dot51_inv : dot51.Inv := ⟨by decide, by decide, by decide, by decide⟩
theorem dot51_samples : SamplesOk .u8 dot51 := samplesOk_buffer dot51_inv (by decide)

example : fastBlur rootLibm (Samp.uint .u8) dot51 (.fin 1) = .ok ⟨5, 1, [0, 80, 80, 80, 0]⟩ := by decide +kernel

example : ∃ b, fastBlur rootLibm (Samp.uint .u8) dot51 (.fin 1) = .ok b ∧ b.width = 5 ∧
    ∀ x, x < 5 → ∃ p, b.getPixel x 0 = .ok p ∧ ∀ c, p c ≤ 240 := by
  obtain ⟨pix, hp⟩ := exists_pix (img := dot51) dot51_inv
  obtain ⟨b, h1, h2, -, h3⟩ := C88_within rootLibm rootLibm_ok .u8 (by decide) 1 (by norm_num)
    (by norm_num [Prim.max, Prim.bits]) dot51 dot51_inv dot51_samples (by decide) (by decide) (by decide) (by decide) pix hp
  refine ⟨b, h1, h2, fun x hx => ?_⟩
  obtain ⟨p, h4, h5⟩ := h3 x 0 hx (by decide)
  refine ⟨p, h4, fun c => (h5 c 0 240 fun i j hi hj _ _ => ⟨Nat.zero_le _, ?_⟩).2⟩
  have := (ImageBuffer.getPixel_eq_ok dot51_inv hi hj (pix i j)).1 (hp i j hi hj) c
  have hm := List.mem_of_getElem? this
  simp [dot51] at hm
  omega

example : ∃ b, fastBlur rootLibm (Samp.uint .u8) dot51 (.fin 0) = .ok b ∧ b.getPixel 2 0 = dot51.getPixel 2 0 := by
  obtain ⟨b, h1, -, -, h2⟩ := C88_identity rootLibm rootLibm_ok .u8 (by decide) dot51 dot51_inv dot51_samples (by decide) (by decide) (by decide) (by decide)
  exact ⟨b, h1, h2 2 0 (by decide) (by decide)⟩

example : ∃ b, fastBlur rootLibm (Samp.uint .u16) (⟨2, 1, [7, 65535, 7, 65535]⟩ : ImageBuffer Nat 2) (.fin 100) = .ok b ∧
    b.getPixel 1 0 = .ok (px2 7 65535) := by
  have hi : ImageBuffer.Inv (⟨2, 1, [7, 65535, 7, 65535]⟩ : ImageBuffer Nat 2) := ⟨by decide, by decide, by decide, by decide⟩
  obtain ⟨b, h1, -, -, h2⟩ := C88_constant rootLibm rootLibm_ok .u16 (by decide) 100 (by norm_num)
    (by norm_num [Prim.max, Prim.bits]) _ hi (samplesOk_buffer hi (by decide)) (by decide) (by decide) (by decide) (by decide) (px2 7 65535)
    (by
      intro x y hx hy
      have hx : x = 0 ∨ x = 1 := by simp only at hx; omega
      have hy : y = 0 := by simp only at hy; omega
      subst hy
      rcases hx with rfl | rfl <;> decide +kernel)
  exact ⟨b, h1, h2 1 0 (by decide) (by decide)⟩

example : rootLibm.sqrt .nan = .nan ∧ rootLibm.sqrt (.inf false) = .inf false ∧ (rootLibm.sqrt (.fin 66050)).floor = .fin 257 :=
  ⟨rfl, rfl, by decide +kernel⟩

end Verif
