import Verif.Proofs.FloatThumbnail

/-!
# C122: `thumbnail` of `f32` images

A thumbnail is expected to be made of means of source pixels, as for integer samples (C85). For `f32` samples the code adds the
`n / 2` that rounds integer divisions, which makes every mean one half too large.
-/

namespace Verif
open GenericImageView GenericImage LawfulView LawfulImage

variable {ch : Nat}

/-- The image has the `f32` samples `q`, all between 0 and 1. -/
structure UnitSamples {I : Type} [GenericImageView I (Pix Fl ch)] (img : I) (q : Nat → Nat → Fin ch → ℚ) : Prop where
  pixel : ∀ x y, x < widthOf img → y < heightOf img → getPixel img x y = .ok fun c => .fin (q x y c)
  unit : ∀ x y, x < widthOf img → y < heightOf img → ∀ c, 0 ≤ q x y c ∧ q x y c ≤ 1

/-- All pixels of a thumbnail. -/
theorem thumbF_main {I : Type} [GenericImageView I (Pix Fl ch)] [LawfulView I (Pix Fl ch)] (img : I) (hc : ch ≤ 4) (hw0 : 0 < widthOf img)
    (hh0 : 0 < heightOf img) (hw1 : widthOf img ≤ 2 ^ 20) (hh1 : heightOf img ≤ 2 ^ 20) (nw nh : Nat) (hnw : nw < 2 ^ 32) (hnh : nh < 2 ^ 32)
    (hs : nw * nh * ch < 2 ^ 64) (hsum : (widthOf img / nw + 2) * (heightOf img / nh + 2) ≤ 2 ^ 24)
    (q : Nat → Nat → Fin ch → ℚ) (hq : UnitSamples img q) :
    ∃ b, thumbnailF img nw nh = .ok b ∧ b.width = nw ∧ b.height = nh ∧
      ∀ x y, x < nw → y < nh → ∃ (v : Fin ch → ℚ) (l r bo tp : Nat) (fl fr fb ft : Fl), b.getPixel x y = .ok (fun c => .fin (v c)) ∧
        thumbnailSpan (widthOf img) nw x = (fl, fr, l, r) ∧ thumbnailSpan (heightOf img) nh y = (fb, ft, bo, tp) ∧
        r ≤ widthOf img ∧ tp ≤ heightOf img ∧
        (nw ≤ widthOf img → widthOf img * nw ≤ 2 ^ 21 → l < r) ∧ (nh ≤ heightOf img → heightOf img * nh ≤ 2 ^ 21 → bo < tp) ∧
        (∀ i, l ≤ i → i < r → Covers (widthOf img) nw x i) ∧ (∀ j, bo ≤ j → j < tp → Covers (heightOf img) nh y j) ∧
        (¬ (l < r ∧ bo < tp) → ∀ c L H, (∀ i j, Covers (widthOf img) nw x i → Covers (heightOf img) nh y j → L ≤ q i j c ∧ q i j c ≤ H) →
          L - 1 / 2 ^ 18 ≤ v c ∧ v c ≤ H + 1 / 2 ^ 18) ∧
        (l < r → bo < tp → ∀ c, |v c - (blockTotal (fun i j => q i j c) l (r - l) bo (tp - bo) / ((r - l) * (tp - bo) : ℕ) + 1 / 2)| ≤ 1 / 2 ^ 23) := by
  have key : ∀ x y, ∃ P : Fin 4 → ℚ, x < nw → y < nh → ∃ (l r bo tp : Nat) (fl fr fb ft : Fl),
      thumbnailPixelF img (thumbnailSpan (widthOf img) nw x) (thumbnailSpan (heightOf img) nh y) = .ok (fun c => .fin (P c)) ∧
        thumbnailSpan (widthOf img) nw x = (fl, fr, l, r) ∧ thumbnailSpan (heightOf img) nh y = (fb, ft, bo, tp) ∧
        r ≤ widthOf img ∧ tp ≤ heightOf img ∧
        (nw ≤ widthOf img → widthOf img * nw ≤ 2 ^ 21 → l < r) ∧ (nh ≤ heightOf img → heightOf img * nh ≤ 2 ^ 21 → bo < tp) ∧
        (∀ i, l ≤ i → i < r → Covers (widthOf img) nw x i) ∧ (∀ j, bo ≤ j → j < tp → Covers (heightOf img) nh y j) ∧
        (¬ (l < r ∧ bo < tp) → ∀ c L H, (∀ i j, Covers (widthOf img) nw x i → Covers (heightOf img) nh y j →
          L ≤ four (q i j) c ∧ four (q i j) c ≤ H) → L - 1 / 2 ^ 18 ≤ P c ∧ P c ≤ H + 1 / 2 ^ 18) ∧
        (l < r → bo < tp → ∀ c, |P c - (blockTotal (fun i j => four (q i j) c) l (r - l) bo (tp - bo) / ((r - l) * (tp - bo) : ℕ) + 1 / 2)| ≤ 1 / 2 ^ 23) := by
    intro x y
    by_cases hxy : x < nw ∧ y < nh
    · obtain ⟨fl, fr, l, r, e1, p1, p2, p3, p4, p5, p6, p7, p8, p9⟩ := thumb_axis hw0 hw1 hxy.1 hnw
      obtain ⟨fb, ft, bo, tp, e2, q1, q2, q3, q4, q5, q6, q7, q8, q9⟩ := thumb_axis hh0 hh1 hxy.2 hnh
      obtain ⟨P, g1, g2, g3⟩ := pixelF_ok hq.pixel hq.unit hw1 hh1 p1 p2 q1 q2 p3 p4 p5 p6 q3 q4 q5 q6 ((Nat.mul_le_mul p7 q7).trans hsum)
      exact ⟨P, fun _ _ => ⟨l, r, bo, tp, _, _, _, _, by rw [e1, e2, g1], e1, e2, p5, q5, p9, q9, fun i a b => p8 i (Or.inl ⟨a, b⟩),
        fun j a b => q8 j (Or.inl ⟨a, b⟩), fun hn c L H hLH => g2 hn c L H fun i j hi hj => hLH i j (p8 i hi) (q8 j hj), g3⟩⟩
    · exact ⟨fun _ => 0, fun a b => absurd ⟨a, b⟩ hxy⟩
  choose P hP using key
  obtain ⟨b, e1, e2⟩ := fill_rows (z := Fl.fin 0) (ch := ch) (w := nw) (h := nh) (by omega) hnw hnh hs
    (fun x y => do
      let avg ← thumbnailPixelF img (thumbnailSpan (widthOf img) nw x) (thumbnailSpan (heightOf img) nh y)
      .ok (fromChannels4 Samp.float avg))
    (fun x y => fromChannels4 Samp.float fun c => .fin (P x y c))
    (by
      intro x y hx hy
      obtain ⟨l, r, bo, tp, fl, fr, fb, ft, h, -⟩ := hP x y hx hy
      rw [h]
      rfl)
  refine ⟨b, ?_, e2.width, e2.height, ?_⟩
  · unfold thumbnailF
    simp only [if_neg (show ¬ (heightOf img = 0 ∨ widthOf img = 0) by omega)]
    rw [← e1]
    simp only [bind_assoc, ok_bind]
  · intro x y hx hy
    obtain ⟨l, r, bo, tp, fl, fr, fb, ft, -, h1, h2, h3, h4, h5, h6, h7, h8, h9, h10⟩ := hP x y hx hy
    have hf : (fromChannels4 Samp.float (fun c => .fin (P x y c)) : Pix Fl ch) = fun c => .fin (P x y ⟨c.val, by omega⟩) := by
      funext c; unfold fromChannels4; rw [dif_pos]
    have hg : ∀ (c : Fin ch) i j, four (q i j) ⟨c.val, by omega⟩ = q i j c := by
      intro c i j; unfold four; rw [dif_pos c.isLt]
    refine ⟨fun c => P x y ⟨c.val, by omega⟩, l, r, bo, tp, fl, fr, fb, ft, by rw [e2.pixel x y hx hy, hf], h1, h2, h3, h4, h5, h6, h7, h8, ?_, ?_⟩
    · intro hn c L H hLH
      exact h9 hn _ L H fun i j hi hj => by rw [hg]; exact hLH i j hi hj
    · intro a b c
      have := h10 a b ⟨c.val, by omega⟩
      simpa only [hg] using this

theorem blockTotal_between {v : Nat → Nat → ℚ} {x nx y ny : Nat} {L H : ℚ} (hn : 0 < nx * ny)
    (h : ∀ i j, i < nx → j < ny → L ≤ v (x + i) (y + j) ∧ v (x + i) (y + j) ≤ H) :
    L ≤ blockTotal v x nx y ny / (nx * ny : ℕ) ∧ blockTotal v x nx y ny / (nx * ny : ℕ) ≤ H := by
  have hall := sum_between (n := ny) (v := fun j => ∑ i ∈ Finset.range nx, v (x + i) (y + j)) (L := nx * L) (H := nx * H)
    fun j hj => sum_between fun i hi => h i j hi hj
  have hp : (0 : ℚ) < (nx * ny : ℕ) := by exact_mod_cast hn
  rw [le_div_iff₀ hp, div_le_iff₀ hp]
  push_cast
  unfold blockTotal
  constructor <;> linarith [hall.1, hall.2]

/-- **C122, any sizes**: `thumbnail` of an `f32` image with samples between 0 and 1 does not panic, gives the requested size, and
every sample is between the least source sample that its span meets and one half above the greatest. -/
theorem C122_within_partial {I : Type} [GenericImageView I (Pix Fl ch)] [LawfulView I (Pix Fl ch)] (img : I) (hc : ch ≤ 4)
    (hw0 : 0 < widthOf img) (hh0 : 0 < heightOf img) (hw1 : widthOf img ≤ 2 ^ 20) (hh1 : heightOf img ≤ 2 ^ 20) (nw nh : Nat)
    (hnw : nw < 2 ^ 32) (hnh : nh < 2 ^ 32) (hs : nw * nh * ch < 2 ^ 64) (hsum : (widthOf img / nw + 2) * (heightOf img / nh + 2) ≤ 2 ^ 24)
    (q : Nat → Nat → Fin ch → ℚ) (hq : UnitSamples img q) :
    ∃ b, thumbnailF img nw nh = .ok b ∧ b.width = nw ∧ b.height = nh ∧
      ∀ x y, x < nw → y < nh → ∃ v : Fin ch → ℚ, b.getPixel x y = .ok (fun c => .fin (v c)) ∧ ∀ c L H,
        (∀ i j, Covers (widthOf img) nw x i → Covers (heightOf img) nh y j → L ≤ q i j c ∧ q i j c ≤ H) →
          L - 1 / 2 ^ 18 ≤ v c ∧ v c ≤ H + 1 / 2 + 1 / 2 ^ 18 := by
  obtain ⟨b, h1, h2, h3, h4⟩ := thumbF_main img hc hw0 hh0 hw1 hh1 nw nh hnw hnh hs hsum q hq
  refine ⟨b, h1, h2, h3, fun x y hx hy => ?_⟩
  obtain ⟨v, l, r, bo, tp, fl, fr, fb, ft, g0, -, -, -, -, -, -, g5, g6, g7, g8⟩ := h4 x y hx hy
  refine ⟨v, g0, fun c L H hLH => ?_⟩
  by_cases hn : l < r ∧ bo < tp
  · have hb := blockTotal_between (v := fun i j => q i j c) (x := l) (nx := r - l) (y := bo) (ny := tp - bo) (Nat.mul_pos (by omega) (by omega))
      fun i j hi hj => hLH _ _ (g5 _ (by omega) (by omega)) (g6 _ (by omega) (by omega))
    have := abs_le.1 (g8 hn.1 hn.2 c)
    constructor <;> linarith [hb.1, hb.2, this.1, this.2, show (1 : ℚ) / 2 ^ 23 ≤ 1 / 2 ^ 18 by norm_num]
  · have := g7 hn c L H hLH
    exact ⟨this.1, by linarith [this.2]⟩

/-- **C122, shrinking**: every sample is one half more than the mean of a block of source samples that the span of the output pixel meets. -/
theorem C122_shrink_partial {I : Type} [GenericImageView I (Pix Fl ch)] [LawfulView I (Pix Fl ch)] (img : I) (hc : ch ≤ 4)
    (hw0 : 0 < widthOf img) (hh0 : 0 < heightOf img) (hw1 : widthOf img ≤ 2 ^ 20) (hh1 : heightOf img ≤ 2 ^ 20) (nw nh : Nat)
    (hnw : nw ≤ widthOf img) (hnh : nh ≤ heightOf img) (hpw : widthOf img * nw ≤ 2 ^ 21) (hph : heightOf img * nh ≤ 2 ^ 21)
    (hsum : (widthOf img / nw + 2) * (heightOf img / nh + 2) ≤ 2 ^ 24) (q : Nat → Nat → Fin ch → ℚ) (hq : UnitSamples img q) :
    ∃ b, thumbnailF img nw nh = .ok b ∧ b.width = nw ∧ b.height = nh ∧
      ∀ x y, x < nw → y < nh → ∃ (v : Fin ch → ℚ) (l r bo tp : Nat), b.getPixel x y = .ok (fun c => .fin (v c)) ∧
        l < r ∧ r ≤ widthOf img ∧ bo < tp ∧ tp ≤ heightOf img ∧
        (∀ i, l ≤ i → i < r → Covers (widthOf img) nw x i) ∧ (∀ j, bo ≤ j → j < tp → Covers (heightOf img) nh y j) ∧
        ∀ c, |v c - (blockTotal (fun i j => q i j c) l (r - l) bo (tp - bo) / ((r - l) * (tp - bo) : ℕ) + 1 / 2)| ≤ 1 / 2 ^ 23 := by
  have hs : nw * nh * ch < 2 ^ 64 := by
    calc nw * nh * ch ≤ 2 ^ 20 * 2 ^ 20 * 4 := Nat.mul_le_mul (Nat.mul_le_mul (by omega) (by omega)) hc
      _ < 2 ^ 64 := by norm_num
  obtain ⟨b, h1, h2, h3, h4⟩ := thumbF_main img hc hw0 hh0 hw1 hh1 nw nh (by omega) (by omega) hs hsum q hq
  refine ⟨b, h1, h2, h3, fun x y hx hy => ?_⟩
  obtain ⟨v, l, r, bo, tp, fl, fr, fb, ft, g0, -, -, g1, g2, g3, g4, g5, g6, -, g8⟩ := h4 x y hx hy
  exact ⟨v, l, r, bo, tp, g0, g3 hnw hpw, g1, g4 hnh hph, g2, g5, g6, g8 (g3 hnw hpw) (g4 hnh hph)⟩

/-- **C122 is false, integer factors**: when `kx × ky` source pixels make one output pixel, each of its samples is not their mean but one half
more, whatever the image. -/
theorem C122_mean_false {I : Type} [GenericImageView I (Pix Fl ch)] [LawfulView I (Pix Fl ch)] (img : I) (hc : ch ≤ 4)
    (kx ky nw nh : Nat) (hkx : 0 < kx) (hky : 0 < ky) (hnw : 0 < nw) (hnh : 0 < nh)
    (hw : widthOf img = kx * nw) (hh : heightOf img = ky * nh) (hw1 : widthOf img ≤ 2 ^ 20) (hh1 : heightOf img ≤ 2 ^ 20)
    (hsum : (kx + 2) * (ky + 2) ≤ 2 ^ 24) (q : Nat → Nat → Fin ch → ℚ) (hq : UnitSamples img q) :
    ∃ b, thumbnailF img nw nh = .ok b ∧ b.width = nw ∧ b.height = nh ∧
      ∀ x y, x < nw → y < nh → ∃ v : Fin ch → ℚ, b.getPixel x y = .ok (fun c => .fin (v c)) ∧
        ∀ c, |v c - (blockTotal (fun i j => q i j c) (x * kx) kx (y * ky) ky / (kx * ky : ℕ) + 1 / 2)| ≤ 1 / 2 ^ 23 := by
  have hnw1 : nw ≤ 2 ^ 20 := by have := Nat.le_mul_of_pos_left nw hkx; omega
  have hnh1 : nh ≤ 2 ^ 20 := by have := Nat.le_mul_of_pos_left nh hky; omega
  have hs : nw * nh * ch < 2 ^ 64 := by
    calc nw * nh * ch ≤ 2 ^ 20 * 2 ^ 20 * 4 := Nat.mul_le_mul (Nat.mul_le_mul hnw1 hnh1) hc
      _ < 2 ^ 64 := by norm_num
  have e1 : widthOf img / nw = kx := by rw [hw]; exact Nat.mul_div_cancel _ hnw
  have e2 : heightOf img / nh = ky := by rw [hh]; exact Nat.mul_div_cancel _ hnh
  obtain ⟨b, h1, h2, h3, h4⟩ := thumbF_main img hc (by rw [hw]; exact Nat.mul_pos hkx hnw) (by rw [hh]; exact Nat.mul_pos hky hnh)
    hw1 hh1 nw nh (by omega) (by omega) hs (by rw [e1, e2]; exact hsum) q hq
  refine ⟨b, h1, h2, h3, fun x y hx hy => ?_⟩
  obtain ⟨v, l, r, bo, tp, fl, fr, fb, ft, g0, g2, g3, -, -, -, -, -, -, -, g8⟩ := h4 x y hx hy
  obtain ⟨a1, a2, ea⟩ := thumb_exact hkx hx (by omega)
  obtain ⟨b1, b2, eb⟩ := thumb_exact hky hy (by omega)
  rw [hw, ea] at g2
  rw [hh, eb] at g3
  simp only [Prod.mk.injEq] at g2 g3
  obtain ⟨-, -, rfl, rfl⟩ := g2
  obtain ⟨-, -, rfl, rfl⟩ := g3
  have e3 : (x + 1) * kx = x * kx + kx := by rw [Nat.add_mul, Nat.one_mul]
  have e4 : (y + 1) * ky = y * ky + ky := by rw [Nat.add_mul, Nat.one_mul]
  rw [e3, e4] at g8
  simp only [Nat.add_sub_cancel_left] at g8
  exact ⟨v, g0, g8 (by omega) (by omega)⟩

/-- A black picture of 2×2 pixels. -/
def black22 : ImageBuffer Fl 1 := ⟨2, 2, [.fin 0, .fin 0, .fin 0, .fin 0]⟩

/-- Shrunk, a black picture is grey; enlarged from two pixels to six, it is grey with two black columns. -/
theorem C122_black_false : thumbnailF black22 1 1 = .ok ⟨1, 1, [.fin (1 / 2)]⟩ ∧
    thumbnailF (⟨2, 1, [.fin 0, .fin 0]⟩ : ImageBuffer Fl 1) 6 1 =
      .ok ⟨6, 1, [.fin (1 / 2), .fin 0, .fin 0, .fin (1 / 2), .fin (1 / 2), .fin (1 / 2)]⟩ := by decide +kernel

/-- White becomes brighter than white. -/
theorem C122_white_false : thumbnailF (⟨2, 2, [.fin 1, .fin 1, .fin 1, .fin 1]⟩ : ImageBuffer Fl 1) 1 1 = .ok ⟨1, 1, [.fin (3 / 2)]⟩ := by decide +kernel

/-! ## Instances -/

/-- A picture of 2×2 pixels. -/
def grey22F : ImageBuffer Fl 1 := ⟨2, 2, [.fin 0, .fin (1 / 4), .fin (1 / 2), .fin 1]⟩

theorem grey22F_samples : UnitSamples grey22F (fun x y _ => if x = 0 then (if y = 0 then 0 else 1 / 2) else if y = 0 then 1 / 4 else 1) where
  pixel x y hx hy := by
    have hx' : x < 2 := hx
    have hy' : y < 2 := hy
    have : (x = 0 ∨ x = 1) ∧ (y = 0 ∨ y = 1) := by omega
    rcases this with ⟨rfl | rfl, rfl | rfl⟩ <;> decide +kernel
  unit x y _ _ c := by
    split_ifs <;> norm_num

example : thumbnailF grey22F 1 1 = .ok ⟨1, 1, [.fin (15 / 16)]⟩ := by decide +kernel
example : ∃ b, thumbnailF grey22F 3 5 = .ok b ∧ b.width = 3 ∧ b.height = 5 := by
  obtain ⟨b, h1, h2, h3, -⟩ := C122_within_partial grey22F (by decide) (by decide) (by decide) (by decide) (by decide) 3 5 (by decide) (by decide)
    (by decide) (by decide) _ grey22F_samples
  exact ⟨b, h1, h2, h3⟩
example : ∃ b, thumbnailF grey22F 1 2 = .ok b ∧ b.width = 1 ∧ b.height = 2 := by
  obtain ⟨b, h1, h2, h3, -⟩ := C122_shrink_partial grey22F (by decide) (by decide) (by decide) (by decide) (by decide) 1 2 (by decide) (by decide)
    (by decide) (by decide) (by decide) _ grey22F_samples
  exact ⟨b, h1, h2, h3⟩
example : ∃ b, thumbnailF grey22F 1 1 = .ok b ∧ b.width = 1 ∧ b.height = 1 := by
  obtain ⟨b, h1, h2, h3, -⟩ := C122_mean_false grey22F (by decide) 2 2 1 1 (by decide) (by decide) (by decide) (by decide) rfl rfl (by decide) (by decide)
    (by decide) _ grey22F_samples
  exact ⟨b, h1, h2, h3⟩

end Verif
