import Verif.Proofs.Avif
import Verif.Proofs.AvifColour

/-!
# AVIF: the conversion of whole pictures
-/

namespace Verif
namespace Avif

/-- The value of a successful computation. -/
def value (x : R (List Nat)) : List Nat :=
  match x with
  | .ok a => a
  | .error _ => []

theorem value_eq {x : R (List Nat)} {a : List Nat} (h : x = .ok a) : x = .ok (value x) := by rw [h]; rfl

theorem value_shown {x : R (List Nat)} {d : Nat} {q : Fin 3 → ℚ} (h : ∃ px, x = .ok px ∧ Shown d q px) : x = .ok (value x) ∧ Shown d q (value x) := by
  obtain ⟨px, rfl, hs⟩ := h
  exact ⟨rfl, hs⟩

theorem Shown.length {d : Nat} {q : Fin 3 → ℚ} {px : List Nat} (h : Shown d q px) : px.length = 4 := by
  obtain ⟨r, g, b, rfl, -⟩ := h
  rfl

/-- `h` rows of at least `w` samples of `d` bits. -/
structure Samples (d : Nat) (l : List Nat) (stride w h : Nat) : Prop where
  len : l.length = stride * h
  fits : stride * h < 2 ^ 64
  row : w ≤ stride
  bits : ∀ x < w, ∀ y < h, l.getD (y * stride + x) 0 < 2 ^ d

namespace Samples
variable {d : Nat} {l : List Nat} {stride w h : Nat}

theorem check (s : Samples d l stride w h) : checkPlane l stride h = .ok () := checkPlane_ok s.len s.fits

theorem get (s : Samples d l stride w h) (hw : 0 < w) {k : Nat} (hk : k < h) {r : List Nat} (hr : (chunksExact stride l)[k]? = some r) :
    r.length = stride ∧ ∀ x < w, r.getD x 0 = l.getD (k * stride + x) 0 := by
  have hp : 0 < stride := lt_of_lt_of_le hw s.row
  rw [row_get hp s.len hk] at hr
  obtain rfl := Option.some.inj hr
  exact ⟨row_length s.len hk, fun x hx => row_getD (lt_of_lt_of_le hx s.row)⟩

theorem rows (s : Samples d l stride w h) (hw : 0 < w) : (chunksExact stride l).length = h := by
  rw [length_chunksExact, s.len, Nat.mul_div_cancel_left _ (lt_of_lt_of_le hw s.row)]

end Samples

/-- The inverse transform that the workers compute. -/
theorem transform_steps {m : Matrix} {r : Range} {d : Nat} {t : Transform} (h : transformOf m r d = .ok t) :
    ∃ k, m.krKb = .ok k ∧ inverseTransform (2 ^ d - 1) (r.yuvRange d).rangeY (r.yuvRange d).rangeUv k.1 k.2 = .ok t := bind_eq_ok.mp h

theorem weights_ne {m : Matrix} (hm : m ≠ .identity) : 1 - m.weights.1 - m.weights.2 ≠ 0 := by
  cases m <;> first | exact absurd rfl hm | (simp only [Matrix.weights]; norm_num)

/-- 4:0:0. -/
theorem yuv400_ok {d : Nat} (hd : d = 8 ∨ d = 10 ∨ d = 12) {i : Planar} {r : Range} {m : Matrix} (hm : m ≠ .identity) (hw : 0 < i.width)
    (hs : i.width * 4 * i.height < 2 ^ 64) (hw64 : i.width * 4 < 2 ^ 64) (y : Samples d i.y i.yStride i.width i.height) (rgba : List Nat) (hl : rgba.length = i.width * 4 * i.height) :
    ∃ g, yuv400 d i rgba r m = .ok (canvas i.width i.height g) ∧
      ∀ a < i.width, ∀ b < i.height, Shown d (fun _ => luma r d (i.y.getD (b * i.yStride + a) 0)) (g a b) := by
  have hstride : 0 < i.width * 4 := by omega
  have hys : 0 < i.yStride := lt_of_lt_of_le hw y.row
  -- the loops, for any conversion of a sample
  have loops : ∀ (px : Nat → R (List Nat)), (∀ s < 2 ^ d, ∃ p, px s = .ok p ∧ Shown d (fun _ => luma r d s) p) →
      ∃ g, zipChunks (i.width * 4) (fun row rgb => zipChunks 4 (fun y _ => px y) row rgb) (chunksExact i.yStride i.y) rgba = .ok (canvas i.width i.height g) ∧
        ∀ a < i.width, ∀ b < i.height, Shown d (fun _ => luma r d (i.y.getD (b * i.yStride + a) 0)) (g a b) := by
    intro px hpx
    refine ⟨fun a b => value (px (i.y.getD (b * i.yStride + a) 0)), ?_, fun a ha b hb => (value_shown (hpx _ (y.bits a ha b hb))).2⟩
    refine zipChunks_ok hstride _ _ _ hl (by rw [y.rows hw]) ?_
    intro k row rgb hk hrow hrgb
    obtain ⟨h1, h2⟩ := y.get hw hk hrow
    apply zipChunks_ok (by omega) _ row rgb (by rw [hrgb, Nat.mul_comm]) (by rw [h1]; exact y.row)
    intro x s b hx hs _
    have e := h2 x hx
    rw [getD_of_some hs] at e
    subst e
    exact (value_shown (hpx _ (y.bits x hx k hk))).1
  unfold yuv400
  rw [assert_ok (by simpa using hm), ok_bind, y.check, ok_bind, mulC_ok hw64, ok_bind, checkPlane_ok hl hs, ok_bind]
  split
  · next hr =>
    subst hr
    rw [rowsOf_ok hys, ok_bind]
    apply loops
    intro s hs
    refine ⟨_, rfl, s, s, s, ?_, hs, hs, hs, ?_⟩
    · rw [solid_eq hd]
    · have : (s : ℚ) = (2 ^ d - 1) * limited (luma .pc d s) := by
        have h1 : (0 : ℚ) < 2 ^ d - 1 := by
          rcases hd with rfl | rfl | rfl <;> norm_num
        have h2 : (s : ℚ) ≤ 2 ^ d - 1 := by
          have : (s : ℚ) + 1 ≤ 2 ^ d := by exact_mod_cast hs
          linarith
        have h3 : (s : ℚ) / (2 ^ d - 1) ≤ 1 := by rw [div_le_one h1]; exact h2
        simp only [luma, limited]
        rw [min_eq_left h3, max_eq_right (by positivity), mul_div_cancel₀ _ (ne_of_gt h1)]
      have h0 : (0 : ℚ) ≤ tolerance d := by unfold tolerance; positivity
      simp only [← this, sub_self, abs_zero]
      exact ⟨h0, h0, h0⟩
  · next hr =>
    obtain ⟨t, ht, hg⟩ := transform_ok m r d hm hd
    obtain ⟨k, hk, ht⟩ := transform_steps ht
    rw [hk, ok_bind, ht, ok_bind, rowsOf_ok hys, ok_bind]
    apply loops
    intro s hs
    have hb := hg
    simp only [Transform.good, Bool.and_eq_true, decide_eq_true_eq] at hb
    obtain ⟨v, hv, hlt, hn⟩ := scaled_ok hd hb.1.1.1.1 hb.1.1.1.2.1 (good_luma hg) hs
    refine ⟨_, by rw [hv, ok_bind], v, v, v, ?_, hlt, hlt, hlt, hn, hn, hn⟩
    rw [solid_eq hd]

/-- The bytes that the loops over three planes of full size produce. -/
theorem full_loops {d : Nat} {i : Planar} {q : Nat → Nat → Nat → Fin 3 → ℚ} (hw : 0 < i.width) (y : Samples d i.y i.yStride i.width i.height)
    (u : Samples d i.u i.uStride i.width i.height) (v : Samples d i.v i.vStride i.width i.height) (rgba : List Nat)
    (hl : rgba.length = i.width * 4 * i.height) (px : Nat → Nat → Nat → R (List Nat))
    (hpx : ∀ a b c, a < 2 ^ d → b < 2 ^ d → c < 2 ^ d → ∃ p, px a b c = .ok p ∧ Shown d (q a b c) p) :
    ∃ g, zipChunks (i.width * 4) (fullRow px) (((chunksExact i.yStride i.y).zip (chunksExact i.uStride i.u)).zip (chunksExact i.vStride i.v)) rgba =
        .ok (canvas i.width i.height g) ∧
      ∀ a < i.width, ∀ b < i.height,
        Shown d (q (i.y.getD (b * i.yStride + a) 0) (i.u.getD (b * i.uStride + a) 0) (i.v.getD (b * i.vStride + a) 0)) (g a b) := by
  refine ⟨fun a b => value (px (i.y.getD (b * i.yStride + a) 0) (i.u.getD (b * i.uStride + a) 0) (i.v.getD (b * i.vStride + a) 0)), ?_,
    fun a ha b hb => (value_shown (hpx _ _ _ (y.bits a ha b hb) (u.bits a ha b hb) (v.bits a ha b hb))).2⟩
  refine zipChunks_ok (by omega) _ _ _ hl (by rw [List.length_zip, List.length_zip, y.rows hw, u.rows hw, v.rows hw]; omega) ?_
  intro k row rgb hk hrow hrgb
  obtain ⟨h1, hv⟩ := zip_getElem? hrow
  obtain ⟨hy, hu⟩ := zip_getElem? h1
  obtain ⟨y1, y2⟩ := y.get hw hk hy
  obtain ⟨u1, u2⟩ := u.get hw hk hu
  obtain ⟨v1, v2⟩ := v.get hw hk hv
  refine fullRow_ok _ row.1.1 row.1.2 row.2 rgb (by rw [y1]; exact y.row) (by rw [u1]; exact u.row) (by rw [v1]; exact v.row)
    (by rw [hrgb, Nat.mul_comm]) ?_
  intro x hx
  rw [y2 x hx, u2 x hx, v2 x hx]
  exact (value_shown (hpx _ _ _ (y.bits x hx k hk) (u.bits x hx k hk) (v.bits x hx k hk))).1

/-- The colours for a matrix of the code. -/
def Matrix.colours (m : Matrix) (r : Range) (d y u v : Nat) : Fin 3 → ℚ :=
  if m = .identity then fun c => luma r d (match c with | 0 => v | 1 => y | 2 => u)
  else Avif.colours m.weights.1 m.weights.2 (luma r d y) (difference r d u) (difference r d v)

theorem limited_luma {d s : Nat} (hd : d = 8 ∨ d = 10 ∨ d = 12) (hs : s < 2 ^ d) : (2 ^ d - 1) * limited (luma .pc d s) = (s : ℚ) := by
  have h1 : (0 : ℚ) < 2 ^ d - 1 := by rcases hd with rfl | rfl | rfl <;> norm_num
  have h2 : (s : ℚ) ≤ 2 ^ d - 1 := by
    have : (s : ℚ) + 1 ≤ 2 ^ d := by exact_mod_cast hs
    linarith
  have h3 : (s : ℚ) / (2 ^ d - 1) ≤ 1 := by rw [div_le_one h1]; exact h2
  simp only [luma, limited]
  rw [min_eq_left h3, max_eq_right (by positivity), mul_div_cancel₀ _ (ne_of_gt h1)]

theorem tolerance_nonneg (d : Nat) : (0 : ℚ) ≤ tolerance d := by unfold tolerance; positivity

/-- 4:4:4, with a matrix or with green, blue and red in the planes. -/
theorem yuv444_ok {d : Nat} (hd : d = 8 ∨ d = 10 ∨ d = 12) {i : Planar} {r : Range} {m : Matrix} (hw : 0 < i.width)
    (hs : i.width * 4 * i.height < 2 ^ 64) (hw64 : i.width * 4 < 2 ^ 64) (y : Samples d i.y i.yStride i.width i.height)
    (u : Samples d i.u i.uStride i.width i.height) (v : Samples d i.v i.vStride i.width i.height) (rgba : List Nat)
    (hl : rgba.length = i.width * 4 * i.height) :
    ∃ g, yuv444 d i rgba r m = .ok (canvas i.width i.height g) ∧ ∀ a < i.width, ∀ b < i.height,
      Shown d (m.colours r d (i.y.getD (b * i.yStride + a) 0) (i.u.getD (b * i.uStride + a) 0) (i.v.getD (b * i.vStride + a) 0)) (g a b) := by
  have ys : 0 < i.yStride := lt_of_lt_of_le hw y.row
  have us : 0 < i.uStride := lt_of_lt_of_le hw u.row
  have vs : 0 < i.vStride := lt_of_lt_of_le hw v.row
  unfold yuv444
  by_cases hm : m = .identity
  · subst hm
    rw [if_pos rfl]
    unfold gbr
    rw [y.check, ok_bind, u.check, ok_bind, v.check, ok_bind, mulC_ok hw64, ok_bind, checkPlane_ok hl hs, ok_bind, rowsOf_ok ys, ok_bind, rowsOf_ok us, ok_bind,
      rowsOf_ok vs, ok_bind]
    cases r with
    | tv =>
      apply full_loops hw y u v rgba hl
      intro a b c ha hb hc
      obtain ⟨g0, g1, g2⟩ := gbrCoef_ok hd
      obtain ⟨p, hp, lp, np⟩ := scaled_ok hd (r := .tv) g0 g1 g2 hc
      obtain ⟨p', hp', lp', np'⟩ := scaled_ok hd (r := .tv) g0 g1 g2 ha
      obtain ⟨p'', hp'', lp'', np''⟩ := scaled_ok hd (r := .tv) g0 g1 g2 hb
      refine ⟨_, by rw [hp, ok_bind, hp', ok_bind, hp'', ok_bind], p, p', p'', by rw [solid_eq hd], lp, lp', lp'', np, np', np''⟩
    | pc =>
      apply full_loops hw y u v rgba hl
      intro a b c ha hb hc
      refine ⟨_, rfl, c, a, b, by rw [solid_eq hd], hc, ha, hb, ?_⟩
      simp only [Matrix.colours, if_pos, limited_luma hd ha, limited_luma hd hb, limited_luma hd hc, sub_self, abs_zero]
      exact ⟨tolerance_nonneg d, tolerance_nonneg d, tolerance_nonneg d⟩
  · rw [if_neg hm]
    unfold yuv444Impl
    obtain ⟨t, ht, hg⟩ := transform_ok m r d hm hd
    obtain ⟨k, hk, ht⟩ := transform_steps ht
    rw [y.check, ok_bind, u.check, ok_bind, v.check, ok_bind, mulC_ok hw64, ok_bind, checkPlane_ok hl hs, ok_bind]
    simp only []
    rw [hk, ok_bind, ht, ok_bind, rowsOf_ok ys, ok_bind, rowsOf_ok us, ok_bind, rowsOf_ok vs, ok_bind]
    apply full_loops hw y u v rgba hl
    intro a b c ha hb hc
    simp only [Matrix.colours, if_neg hm]
    exact pixel_shown hd (weights_ne hm) hg ha hb hc

/-- 4:2:2. -/
theorem yuv422_ok {d : Nat} (hd : d = 8 ∨ d = 10 ∨ d = 12) {i : Planar} {r : Range} {m : Matrix} (hm : m ≠ .identity) (hw : 0 < i.width)
    (hs : i.width * 4 * i.height < 2 ^ 64) (hw64 : i.width * 4 < 2 ^ 64) (y : Samples d i.y i.yStride i.width i.height)
    (u : Samples d i.u i.uStride ((i.width + 1) / 2) i.height) (v : Samples d i.v i.vStride ((i.width + 1) / 2) i.height) (rgba : List Nat)
    (hl : rgba.length = i.width * 4 * i.height) :
    ∃ g, yuv422 d i rgba r m = .ok (canvas i.width i.height g) ∧ ∀ a < i.width, ∀ b < i.height,
      Shown d (m.colours r d (i.y.getD (b * i.yStride + a) 0) (i.u.getD (b * i.uStride + a / 2) 0) (i.v.getD (b * i.vStride + a / 2) 0)) (g a b) := by
  have hw2 : 0 < (i.width + 1) / 2 := by omega
  have ys : 0 < i.yStride := lt_of_lt_of_le hw y.row
  have us : 0 < i.uStride := lt_of_lt_of_le hw2 u.row
  have vs : 0 < i.vStride := lt_of_lt_of_le hw2 v.row
  obtain ⟨t, ht, hg⟩ := transform_ok m r d hm hd
  obtain ⟨k, hk, ht⟩ := transform_steps ht
  have hpx : ∀ a < i.width, ∀ b < i.height, _ := fun a ha b hb => value_shown (pixel_shown hd (weights_ne hm) hg (y.bits a ha b hb)
    (u.bits (a / 2) (by omega) b hb) (v.bits (a / 2) (by omega) b hb))
  refine ⟨fun a b => value (pixel d t (r.yuvRange d) (i.y.getD (b * i.yStride + a) 0) (i.u.getD (b * i.uStride + a / 2) 0)
    (i.v.getD (b * i.vStride + a / 2) 0)), ?_, fun a ha b hb => by
      simp only [Matrix.colours, if_neg hm]
      exact (hpx a ha b hb).2⟩
  unfold yuv422
  rw [assert_ok (by simpa using hm), ok_bind, y.check, ok_bind, u.check, ok_bind, v.check, ok_bind, mulC_ok hw64, ok_bind, checkPlane_ok hl hs, ok_bind]
  simp only []
  rw [hk, ok_bind, ht, ok_bind, rowsOf_ok ys, ok_bind, rowsOf_ok us, ok_bind, rowsOf_ok vs, ok_bind]
  refine zipChunks_ok (by omega) _ _ _ hl (by rw [List.length_zip, List.length_zip, y.rows hw, u.rows hw2, v.rows hw2]; omega) ?_
  intro k row rgb hk hrow hrgb
  obtain ⟨h1, hv⟩ := zip_getElem? hrow
  obtain ⟨hy, hu⟩ := zip_getElem? h1
  obtain ⟨y1, y2⟩ := y.get hw hk hy
  obtain ⟨u1, u2⟩ := u.get hw2 hk hu
  obtain ⟨v1, v2⟩ := v.get hw2 hk hv
  refine halvedRow_ok _ row.1.1 row.1.2 row.2 rgb (by rw [y1]; exact y.row) (by rw [u1]; exact u.row) (by rw [v1]; exact v.row)
    (by rw [hrgb, Nat.mul_comm]) ?_ (fun x hx => (hpx x hx k hk).2.length)
  intro x hx
  rw [y2 x hx, u2 _ (by omega), v2 _ (by omega)]
  exact (hpx x hx k hk).1

end Avif
end Verif
