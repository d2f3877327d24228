import Verif.Proofs.FastBlurFloat

/-!
# C124: `fast_blur` of `f32` pictures
-/

namespace Verif
open GenericImageView GenericImage LawfulView LawfulImage

variable {ch : Nat}

theorem boxMeanQ_near {r n : Nat} {v v' : Nat → ℚ} {e : ℚ} (hn : 0 < n) (h : ∀ i, i < n → |v i - v' i| ≤ e) (x : Nat) :
    |boxMeanQ r n v x - boxMeanQ r n v' x| ≤ e := by
  unfold boxMeanQ
  have hN : (0 : ℚ) < (2 * r + 1 : ℕ) := by exact_mod_cast (by omega : 0 < 2 * r + 1)
  rw [← sub_div, ← Finset.sum_sub_distrib, abs_div, abs_of_pos hN, div_le_iff₀ hN]
  refine (Finset.abs_sum_le_sum_abs _ _).trans ?_
  have := Finset.sum_le_card_nsmul (Finset.range (2 * r + 1)) (fun d => |v (min (x + d - r) (n - 1)) - v' (min (x + d - r) (n - 1))|) e
    fun d _ => h _ (by omega)
  rw [Finset.card_range, nsmul_eq_mul] at this
  linarith

theorem boxMeanQ_between {r n x : Nat} {lo hi : ℚ} {v : Nat → ℚ} (hx : x < n)
    (hv : ∀ i, i < n → x ≤ i + r → i ≤ x + r → lo ≤ v i ∧ v i ≤ hi) : lo ≤ boxMeanQ r n v x ∧ boxMeanQ r n v x ≤ hi := by
  have hN : (0 : ℚ) < (2 * r + 1 : ℕ) := by exact_mod_cast (by omega : 0 < 2 * r + 1)
  have h : ∀ d ∈ Finset.range (2 * r + 1), lo ≤ v (min (x + d - r) (n - 1)) ∧ v (min (x + d - r) (n - 1)) ≤ hi := by
    intro d hd
    rw [Finset.mem_range] at hd
    exact hv _ (by omega) (by omega) (by omega)
  have h1 := Finset.sum_le_card_nsmul _ _ hi (fun d hd => (h d hd).2)
  have h2 := Finset.card_nsmul_le_sum _ _ lo (fun d hd => (h d hd).1)
  rw [Finset.card_range, nsmul_eq_mul] at h1 h2
  unfold boxMeanQ
  rw [le_div_iff₀ hN, div_le_iff₀ hN]
  constructor <;> linarith

theorem boxBlurQ_between {r w h x y : Nat} {lo hi : ℚ} {v : Nat → Nat → ℚ} (hx : x < w) (hy : y < h)
    (hv : ∀ i j, i < w → j < h → x ≤ i + r → i ≤ x + r → y ≤ j + r → j ≤ y + r → lo ≤ v i j ∧ v i j ≤ hi) :
    lo ≤ boxBlurQ r w h v x y ∧ boxBlurQ r w h v x y ≤ hi :=
  boxMeanQ_between hy fun j hj h1 h2 => boxMeanQ_between hx fun i hi h3 h4 => hv i j hi hj h3 h4 h1 h2

theorem boxBlurQ_congr {r w h : Nat} {v v' : Nat → Nat → ℚ} (hw : 0 < w) (hh : 0 < h) (hv : ∀ i j, i < w → j < h → v i j = v' i j) (x y : Nat) :
    boxBlurQ r w h v x y = boxBlurQ r w h v' x y := by
  unfold boxBlurQ boxMeanQ
  congr 1
  refine Finset.sum_congr rfl fun d _ => ?_
  dsimp only
  congr 1
  exact Finset.sum_congr rfl fun e _ => hv _ _ (by omega) (by omega)

/-- Samples `q` between 0 and 1 that are close to `v`. -/
structure Close (s : List Fl) (w h ch : Nat) (v : Nat → Nat → Nat → ℚ) (e : ℚ) : Prop where
  samples : ∃ q : Nat → Nat → Nat → ℚ, HoldsF s w h ch (fun x y c => .fin (q x y c)) ∧
    ∀ x y c, x < w → y < h → c < ch → (0 ≤ q x y c ∧ q x y c ≤ 1) ∧ |q x y c - v x y c| ≤ e

theorem half_close {s : List Fl} {w h r : Nat} {v : Nat → Nat → Nat → ℚ} {e : ℚ} (hs : Close s w h ch v e) (hw : 0 < w)
    (hsz : w * h * ch < 2 ^ 64) (hch : 0 < ch) (hr : 2 * r + 1 + 2 * w ≤ 2 ^ 21) :
    ∃ out, horizontalHalf Samp.float s w h r ch = .ok out ∧ out.length = w * h * ch ∧
      Close out h w ch (fun y x c => boxMeanQ r w (fun i => v i y c) x) (e + halfErr r w) := by
  obtain ⟨q, q1, q2⟩ := hs.samples
  obtain ⟨out, h1, h2, h3⟩ := half_okF q1 hw (by omega) hsz hch (r := r) (by omega)
  refine ⟨out, h1, h2, ?_⟩
  have key : ∀ y x c, ∃ f : ℚ, y < h → x < w → c < ch → meanF r w (fun i => .fin (q i y c)) x = .fin f ∧ (0 ≤ f ∧ f ≤ 1) ∧
      |f - boxMeanQ r w (fun i => v i y c) x| ≤ e + halfErr r w := by
    intro y x c
    by_cases hy : y < h ∧ x < w ∧ c < ch
    · obtain ⟨hy, hx, hc⟩ := hy
      obtain ⟨f, f1, f2, f3, f4⟩ := meanF_near (r := r) hw (fun i hi => (q2 i y c hi hy hc).1) hr hx
      refine ⟨f, fun _ _ _ => ⟨f1, ⟨f2, f3⟩, ?_⟩⟩
      have h5 := boxMeanQ_near (r := r) hw (fun i hi => (q2 i y c hi hy hc).2) x
      have := abs_sub_le f (boxMeanQ r w (fun i => q i y c) x) (boxMeanQ r w (fun i => v i y c) x)
      linarith
    · exact ⟨0, fun a b c => absurd ⟨a, b, c⟩ hy⟩
  choose f hf using key
  refine ⟨f, ?_, fun y x c hy hx hc => (hf y x c hy hx hc).2⟩
  intro y x c hy hx hc
  exact (h3 y x c hy hx hc).trans (congrArg some (hf y x c hy hx hc).1)

theorem pass_close {s : List Fl} {w h r : Nat} {v : Nat → Nat → Nat → ℚ} {e : ℚ} (hs : Close s w h ch v e) (hw : 0 < w) (hh : 0 < h)
    (hsz : w * h * ch < 2 ^ 64) (hch : 0 < ch) (hr : 2 * r + 1 + 2 * w ≤ 2 ^ 21) (hr' : 2 * r + 1 + 2 * h ≤ 2 ^ 21) :
    ∃ t out, horizontalHalf Samp.float s w h r ch = .ok t ∧ horizontalHalf Samp.float t h w r ch = .ok out ∧
      out.length = w * h * ch ∧ Close out w h ch (fun x y c => boxBlurQ r w h (fun i j => v i j c) x y) (e + halfErr r w + halfErr r h) := by
  obtain ⟨t, h1, h2, h3⟩ := half_close hs hw hsz hch hr
  obtain ⟨out, h4, h5, h6⟩ := half_close h3 hh (by rw [Nat.mul_comm h w]; exact hsz) hch hr'
  exact ⟨t, out, h1, h4, by rw [h5, Nat.mul_comm h w], h6⟩

/-- The radii of the three boxes: their variances add up to about `sigma²`. -/
theorem radii_ok {L : Libm} (hL : L.SqrtOk) {sigma : ℚ} (hs : |sigma| ≤ 2 ^ 15) :
    ∃ r0 r1 r2 : ℕ, boxesForGauss L (.fin sigma) 3 = [2 * r0 + 1, 2 * r1 + 1, 2 * r2 + 1] ∧ r0 ≤ r1 ∧ r1 ≤ r2 ∧ r2 ≤ r0 + 1 ∧
      (r2 : ℚ) ≤ |sigma| + 1 ∧ |boxVariance r0 + boxVariance r1 + boxVariance r2 - sigma ^ 2| ≤ 2 / 5 * (r0 + 1) := by
  obtain ⟨wl, m, hodd, hm, hbox, hwl, hvar⟩ := boxes_ok hL hs
  obtain ⟨k, hk⟩ : ∃ k, wl = 2 * k + 1 := ⟨wl / 2, by omega⟩
  subst hk
  let r : ℕ → ℕ := fun i => if i < m then k else k + 1
  have hbox' : boxesForGauss L (.fin sigma) 3 = [2 * r 0 + 1, 2 * r 1 + 1, 2 * r 2 + 1] := by
    rw [hbox]
    simp only [r, List.range, List.range.loop, List.map]
    congr 1
    · split <;> omega
    congr 1
    · split <;> omega
    congr 1
    split <;> omega
  have hk1 : (k : ℚ) ≤ |sigma| := by push_cast at hwl; linarith
  have hrk : ∀ i, r i ≤ k + 1 ∧ k ≤ r i := fun i => by simp only [r]; split <;> omega
  have hmono : r 0 ≤ r 1 ∧ r 1 ≤ r 2 ∧ r 2 ≤ r 0 + 1 := by
    simp only [r]
    refine ⟨?_, ?_, ?_⟩ <;> split_ifs <;> omega
  have hv : |boxVariance (r 0) + boxVariance (r 1) + boxVariance (r 2) - sigma ^ 2| ≤ 2 / 5 * (r 0 + 1) := by
    have hk0 : ((r 0 : ℕ) : ℚ) ≥ k := by exact_mod_cast (hrk 0).2
    have hN : (0 : ℚ) < ((2 * k + 1 : ℕ) : ℚ) + 1 := by positivity
    have e : boxVariance (r 0) + boxVariance (r 1) + boxVariance (r 2) - sigma ^ 2 =
        (3 / 4 * (((2 * k + 1 : ℕ) : ℚ) + 3) - 3 * sigma ^ 2 / (((2 * k + 1 : ℕ) : ℚ) + 1) - m) * ((((2 * k + 1 : ℕ) : ℚ) + 1) / 3) := by
      have e1 : 3 * sigma ^ 2 / (((2 * k + 1 : ℕ) : ℚ) + 1) * ((((2 * k + 1 : ℕ) : ℚ) + 1) / 3) = sigma ^ 2 := by field_simp
      rw [sub_mul, sub_mul, e1, boxVariance_eq, boxVariance_eq, boxVariance_eq]
      simp only [r]
      obtain rfl | rfl | rfl | rfl : m = 0 ∨ m = 1 ∨ m = 2 ∨ m = 3 := by omega
      all_goals
        norm_num
        ring
    rw [e, abs_mul, abs_of_pos (show (0 : ℚ) < (((2 * k + 1 : ℕ) : ℚ) + 1) / 3 by positivity)]
    calc _ ≤ 3 / 5 * ((((2 * k + 1 : ℕ) : ℚ) + 1) / 3) := by gcongr
      _ = 2 / 5 * (k + 1) := by push_cast; ring
      _ ≤ _ := by linarith
  refine ⟨r 0, r 1, r 2, hbox', hmono.1, hmono.2.1, hmono.2.2, ?_, hv⟩
  have : ((r 2 : ℕ) : ℚ) ≤ k + 1 := by exact_mod_cast (hrk 2).1
  linarith

/-- **C124: `fast_blur` of an `f32` image** with samples between 0 and 1 is three box blurs whose variances add up to about `sigma²`, up to rounding errors. -/
theorem C124_boxes (L : Libm) (hL : L.SqrtOk) (sigma : ℚ) (hs : |sigma| ≤ 2 ^ 15) (img : ImageBuffer Fl ch) (hi : img.Inv) (hch : 0 < ch) (hch' : ch < 256)
    (hw0 : 0 < img.width) (hh0 : 0 < img.height) (hw : img.width ≤ 2 ^ 19) (hh : img.height ≤ 2 ^ 19) (val : Nat → Nat → Fin ch → ℚ)
    (hp : ∀ x y, x < img.width → y < img.height → img.getPixel x y = .ok (fun c => .fin (val x y c)))
    (hv : ∀ x y, x < img.width → y < img.height → ∀ c, 0 ≤ val x y c ∧ val x y c ≤ 1) :
    ∃ (r0 r1 r2 : ℕ) (b : ImageBuffer Fl ch), r0 ≤ r1 ∧ r1 ≤ r2 ∧ r2 ≤ r0 + 1 ∧ (r2 : ℚ) ≤ |sigma| + 1 ∧
      |boxVariance r0 + boxVariance r1 + boxVariance r2 - sigma ^ 2| ≤ 2 / 5 * (r0 + 1) ∧
      fastBlur L Samp.float img (.fin sigma) = .ok b ∧ b.width = img.width ∧ b.height = img.height ∧
      ∀ x y, x < img.width → y < img.height → ∃ p : Fin ch → ℚ, b.getPixel x y = .ok (fun c => .fin (p c)) ∧ ∀ c, 0 ≤ p c ∧ p c ≤ 1 ∧
        |p c - boxBlurQ r2 img.width img.height (boxBlurQ r1 img.width img.height (boxBlurQ r0 img.width img.height fun i j => val i j c)) x y| ≤
          8 * (2 * |sigma| + img.width + img.height + 3) / 2 ^ 24 := by
  obtain ⟨r0, r1, r2, hbox, m1, m2, m3, m4, m5⟩ := radii_ok hL hs
  have hfits := hi.fits
  have hsz : img.width * img.height * ch < 2 ^ 64 := lt_of_le_of_lt hfits hi.len64
  have hgp := fun x y hx hy => (ImageBuffer.getPixel_eq_ok hi (x := x) (y := y) hx hy _).1 (hp x y hx hy)
  let v : Nat → Nat → Nat → ℚ := fun x y c => if h : c < ch then val x y ⟨c, h⟩ else 0
  have hr2 : r2 ≤ 2 ^ 15 + 1 := by
    have : (r2 : ℚ) ≤ ((2 ^ 15 + 1 : ℕ) : ℚ) := by push_cast; linarith
    exact_mod_cast this
  have c0 : Close img.data img.width img.height ch v 0 := ⟨⟨v, by
      intro x y c hx hy hc
      simp only [v, dif_pos hc]
      exact hgp x y hx hy ⟨c, hc⟩, by
      intro x y c hx hy hc
      refine ⟨?_, by simp⟩
      simp only [v, dif_pos hc]
      exact hv x y hx hy _⟩⟩
  obtain ⟨t0, o0, a1, a2, a3, a4⟩ := pass_close c0 hw0 hh0 hsz hch (r := r0) (by omega) (by omega)
  obtain ⟨t1, o1, b1, b2, b3, b4⟩ := pass_close a4 hw0 hh0 hsz hch (r := r1) (by omega) (by omega)
  obtain ⟨t2, o2, d1, d2, d3, d4⟩ := pass_close b4 hw0 hh0 hsz hch (r := r2) (by omega) (by omega)
  have e : ∀ r, subC (2 * r + 1) 1 = .ok (2 * r) := fun r => by rw [subC_ok (by omega)]; rfl
  have e2 : ∀ r, 2 * r / 2 = r := fun r => by omega
  have hloop : forList [2 * r0 + 1, 2 * r1 + 1, 2 * r2 + 1] (fun radius samples => do
        let r1 ← subC radius 1
        let t ← horizontalHalf Samp.float samples img.width img.height (r1 / 2) ch
        horizontalHalf Samp.float t img.height img.width (r1 / 2) ch) img.data = .ok o2 := by
    simp only [forList, e, ok_bind, e2, a1, a2, b1, b2, d1, d2]
  have hraw : ImageBuffer.fromRaw ch img.width img.height o2 = some ⟨img.width, img.height, o2⟩ := by
    unfold ImageBuffer.fromRaw
    rw [if_pos]
    rw [ImageBuffer.checkImageFits_iff hch' hi.w32]
    omega
  have hInv : ImageBuffer.Inv (⟨img.width, img.height, o2⟩ : ImageBuffer Fl ch) :=
    ⟨hi.w32, hi.h32, by show o2.length < 2 ^ 64; omega, by show img.width * img.height * ch ≤ o2.length; omega⟩
  refine ⟨r0, r1, r2, ⟨img.width, img.height, o2⟩, m1, m2, m3, m4, m5, ?_, rfl, rfl, ?_⟩
  · unfold fastBlur
    dsimp only
    rw [if_neg (by omega), hbox, List.take_of_length_le (show [2 * r0 + 1, 2 * r1 + 1, 2 * r2 + 1].length ≤ 3 from le_rfl), hloop, ok_bind, hraw, unwrapR]
  · intro x y hx hy
    obtain ⟨q, q1, q2⟩ := d4.samples
    refine ⟨fun c => q x y c, ?_, fun c => ?_⟩
    · rw [ImageBuffer.getPixel_eq_ok hInv hx hy]
      exact fun c => q1 x y c hx hy c.isLt
    · obtain ⟨g1, g2⟩ := q2 x y c hx hy c.isLt
      refine ⟨g1.1, g1.2, ?_⟩
      have ev : boxBlurQ r2 img.width img.height (boxBlurQ r1 img.width img.height (boxBlurQ r0 img.width img.height fun i j => v i j c)) x y =
          boxBlurQ r2 img.width img.height (boxBlurQ r1 img.width img.height (boxBlurQ r0 img.width img.height fun i j => val i j c)) x y := by
        refine boxBlurQ_congr hw0 hh0 (fun i j _ _ => boxBlurQ_congr hw0 hh0 (fun i j _ _ => boxBlurQ_congr hw0 hh0 (fun i j _ _ => ?_) i j) i j) x y
        simp only [v, dif_pos c.isLt]
      rw [← ev]
      refine g2.trans ?_
      have n1 : (r1 : ℚ) ≤ r2 := by exact_mod_cast m2
      have n0 : (r0 : ℚ) ≤ r1 := by exact_mod_cast m1
      unfold halfErr
      push_cast
      rw [← sub_nonneg]
      have : 0 ≤ (|sigma| + 1 - r0) + (|sigma| + 1 - r1) + (|sigma| + 1 - r2) := by linarith
      calc (0 : ℚ) ≤ 16 / 3 * ((|sigma| + 1 - r0) + (|sigma| + 1 - r1) + (|sigma| + 1 - r2)) / 2 ^ 24 := by positivity
        _ = _ := by ring

/-- **C124**: every sample of the result lies between the samples of the image at most `3 |sigma| + 3` columns and rows away, up to rounding errors. -/
theorem C124_within (L : Libm) (hL : L.SqrtOk) (sigma : ℚ) (hs : |sigma| ≤ 2 ^ 15) (img : ImageBuffer Fl ch) (hi : img.Inv) (hch : 0 < ch) (hch' : ch < 256)
    (hw0 : 0 < img.width) (hh0 : 0 < img.height) (hw : img.width ≤ 2 ^ 19) (hh : img.height ≤ 2 ^ 19) (val : Nat → Nat → Fin ch → ℚ)
    (hp : ∀ x y, x < img.width → y < img.height → img.getPixel x y = .ok (fun c => .fin (val x y c)))
    (hv : ∀ x y, x < img.width → y < img.height → ∀ c, 0 ≤ val x y c ∧ val x y c ≤ 1) :
    ∃ b, fastBlur L Samp.float img (.fin sigma) = .ok b ∧ b.width = img.width ∧ b.height = img.height ∧
      ∀ x y, x < img.width → y < img.height → ∃ p : Fin ch → ℚ, b.getPixel x y = .ok (fun c => .fin (p c)) ∧ ∀ c, 0 ≤ p c ∧ p c ≤ 1 ∧ ∀ lo hi : ℚ,
        (∀ i j, i < img.width → j < img.height → |(i : ℚ) - x| ≤ 3 * |sigma| + 3 → |(j : ℚ) - y| ≤ 3 * |sigma| + 3 →
          lo ≤ val i j c ∧ val i j c ≤ hi) →
        lo - 8 * (2 * |sigma| + img.width + img.height + 3) / 2 ^ 24 ≤ p c ∧ p c ≤ hi + 8 * (2 * |sigma| + img.width + img.height + 3) / 2 ^ 24 := by
  obtain ⟨r0, r1, r2, b, h01, h12, -, h2, -, h3, h4, h5, h6⟩ := C124_boxes L hL sigma hs img hi hch hch' hw0 hh0 hw hh val hp hv
  refine ⟨b, h3, h4, h5, fun x y hx hy => ?_⟩
  obtain ⟨p, p1, p2⟩ := h6 x y hx hy
  refine ⟨p, p1, fun c => ⟨(p2 c).1, (p2 c).2.1, fun lo hi hv => ?_⟩⟩
  have hR : ((r0 + r1 + r2 : ℕ) : ℚ) ≤ 3 * |sigma| + 3 := by
    have q0 : (r0 : ℚ) ≤ r1 := by exact_mod_cast h01
    have q1 : (r1 : ℚ) ≤ r2 := by exact_mod_cast h12
    push_cast
    linarith
  have near : ∀ {i x : ℕ}, x ≤ i + (r0 + r1 + r2) → i ≤ x + (r0 + r1 + r2) → |(i : ℚ) - x| ≤ 3 * |sigma| + 3 := by
    intro i x g1 g2
    have g1 : (x : ℚ) ≤ i + (r0 + r1 + r2 : ℕ) := by exact_mod_cast g1
    have g2 : (i : ℚ) ≤ x + (r0 + r1 + r2 : ℕ) := by exact_mod_cast g2
    rw [abs_le]
    constructor <;> linarith
  have hb : lo ≤ boxBlurQ r2 img.width img.height (boxBlurQ r1 img.width img.height (boxBlurQ r0 img.width img.height fun i j => val i j c)) x y ∧
      boxBlurQ r2 img.width img.height (boxBlurQ r1 img.width img.height (boxBlurQ r0 img.width img.height fun i j => val i j c)) x y ≤ hi := by
    refine boxBlurQ_between hx hy fun i j hi' hj a1 a2 a3 a4 => ?_
    refine boxBlurQ_between hi' hj fun i' j' hi'' hj' b1 b2 b3 b4 => ?_
    refine boxBlurQ_between hi'' hj' fun i'' j'' hi3 hj3 c1 c2 c3 c4 => ?_
    exact hv i'' j'' hi3 hj3 (near (by omega) (by omega)) (near (by omega) (by omega))
  have := abs_le.1 (p2 c).2.2
  constructor <;> linarith [hb.1, hb.2]

/-- An image without pixels is returned as it is. -/
theorem C124_empty (L : Libm) (sigma : Fl) (img : ImageBuffer Fl ch) (h : img.width = 0 ∨ img.height = 0) :
    fastBlur L Samp.float img sigma = .ok img := by
  unfold fastBlur
  dsimp only
  rw [if_pos h]

/-! ## Samples beyond the range from 0 to 1 -/

/-- The statement is false for samples above 1, which HDR images have: they are cut. -/
theorem C124_clip_false : fastBlur rootLibm Samp.float (⟨2, 1, [.fin 4, .fin 4]⟩ : ImageBuffer Fl 1) (.fin 1) = .ok ⟨2, 1, [.fin 1, .fin 1]⟩ := by
  decide +kernel

/-- One infinite sample makes the whole picture NaN, also where no box reaches it. -/
theorem C124_infinite_false : fastBlur rootLibm Samp.float (⟨9, 1, [.inf false, .fin 0, .fin 0, .fin 0, .fin 0, .fin 0, .fin 0, .fin 0, .fin 0]⟩ : ImageBuffer Fl 1) (.fin 1) =
    .ok ⟨9, 1, List.replicate 9 .nan⟩ := by
  decide +kernel

/-! ## The hypotheses are met -/

/-- A row with one bright pixel. -/
def dot51F : ImageBuffer Fl 1 := ⟨5, 1, [.fin 0, .fin 0, .fin (3 / 4), .fin 0, .fin 0]⟩

theorem dot51F_inv : dot51F.Inv := ⟨by decide, by decide, by decide, by decide⟩

theorem dot51F_pix : ∀ x y, x < dot51F.width → y < dot51F.height →
    dot51F.getPixel x y = .ok (fun _ : Fin 1 => Fl.fin (if x = 2 then 3 / 4 else 0)) := by
  intro x y hx hy
  have hx' : x < 5 := hx
  have hy' : y < 1 := hy
  have : (x = 0 ∨ x = 1 ∨ x = 2 ∨ x = 3 ∨ x = 4) ∧ y = 0 := by omega
  rcases this with ⟨rfl | rfl | rfl | rfl | rfl, rfl⟩ <;> decide +kernel

example : fastBlur rootLibm Samp.float dot51F (.fin 1) = .ok ⟨5, 1, [.fin 0, .fin (1 / 4), .fin (1 / 4), .fin (1 / 4), .fin 0]⟩ := by decide +kernel

example : ∃ b, fastBlur rootLibm Samp.float dot51F (.fin 1) = .ok b ∧ b.width = 5 := by
  obtain ⟨b, h1, h2, -⟩ := C124_within rootLibm rootLibm_ok 1 (by norm_num) dot51F dot51F_inv (by decide) (by decide) (by decide) (by decide) (by decide) (by decide)
    _ dot51F_pix (fun x y _ _ _ => by split_ifs <;> norm_num)
  exact ⟨b, h1, h2⟩

end Verif
