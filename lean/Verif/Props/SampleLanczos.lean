import Verif.Proofs.SampleLanczosAxis
import Verif.Props.SampleCubic

/-!
# C127: enlarging with the Lanczos filter
-/

namespace Verif
open GenericImageView GenericImage LawfulView LawfulImage

variable {ch : Nat}

/-- To the same size: a copy, as for the exact filter. -/
theorem lanczos_same_size {α : Type} {I : Type} [GenericImageView I (Pix α ch)] [LawfulView I (Pix α ch)] (L : Libm) (S : Samp α) (img : I)
    (wf : WF img) (hc : ch ≤ 4) (hw : widthOf img ≤ 2 ^ 17) (hh : heightOf img ≤ 2 ^ 17) {nw nh : Nat}
    (hne : (nw, nh) = (widthOf img, heightOf img)) :
    ∃ b, resize L S img nw nh .lanczos3 = .ok b ∧ b.width = nw ∧ b.height = nh ∧ ∀ x y, x < nw → y < nh →
      b.getPixel x y = getPixel img x y ∧ ∀ (n : ℕ) (v : Nat → Nat → ℚ), (weighted (widthOf img) (fun i => lanczosQ n (offset (widthOf img) nw x i)) fun i =>
        weighted (heightOf img) (fun j => lanczosQ n (offset (heightOf img) nh y j)) fun j => v i j) = v x y := by
  obtain ⟨rfl, rfl⟩ : nw = widthOf img ∧ nh = heightOf img := by simpa using hne
  have hs : widthOf img * heightOf img * ch < 2 ^ 64 := by
    have h1 : widthOf img * heightOf img ≤ 2 ^ 17 * 2 ^ 17 := Nat.mul_le_mul hw hh
    have h2 : widthOf img * heightOf img * ch ≤ widthOf img * heightOf img * 4 := Nat.mul_le_mul_left _ hc
    omega
  obtain ⟨b, e1, e2, e3, e4⟩ := C81_same_size L S img .lanczos3 wf hc hs
  refine ⟨b, e1, e2, e3, fun x y hx hy => ⟨e4 x y hx hy, fun n v => ?_⟩⟩
  rw [interp_same (lanczosQ_interp n).1 (lanczosQ_interp n).2 hx, interp_same (lanczosQ_interp n).1 (lanczosQ_interp n).2 hy]

/-- One approximation. -/
theorem lanczos_picture {I : Type} [GenericImageView I (Pix Nat ch)] [LawfulView I (Pix Nat ch)] (L : Libm) (hL : L.SinOk) (T : Prim)
    (hT : T.bits ≤ 16) (img : I) (wf : WF img) (nw nh : Nat) (hc : ch ≤ 4)
    (hw0 : 0 < widthOf img) (hh0 : 0 < heightOf img) (hw : widthOf img ≤ 11000) (hh : heightOf img ≤ 11000)
    (hnw : widthOf img ≤ nw) (hnh : heightOf img ≤ nh) (hnw' : nw ≤ 2 ^ 17) (hnh' : nh ≤ 2 ^ 17)
    (pix : Nat → Nat → Pix Nat ch)
    (hp : ∀ x y, x < widthOf img → y < heightOf img → getPixel img x y = .ok (pix x y))
    (hr' : ∀ x y, x < widthOf img → y < heightOf img → ∀ c, pix x y c ≤ T.max) {n : ℕ} (hn : 22 ≤ n) :
    ∃ b, resize L (Samp.uint T) img nw nh .lanczos3 = .ok b ∧ b.width = nw ∧ b.height = nh ∧
      ∀ x y, x < nw → y < nh → ∃ p, b.getPixel x y = .ok p ∧ ∀ c, p c ≤ T.max ∧
        |(p c : ℚ) - max 0 (min (weighted (widthOf img) (fun i => lanczosQ n (offset (widthOf img) nw x i)) fun i =>
          weighted (heightOf img) (fun j => lanczosQ n (offset (heightOf img) nh y j)) fun j => (pix i j c : ℕ)) T.max)| ≤
          1 / 2 + T.max * (240 * (widthOf img + heightOf img + 26) / 2 ^ 22) ∧
        ∀ v : Nat, (∀ i j, i < widthOf img → j < heightOf img → pix i j c = v) → |(p c : ℚ) - v| ≤ 1 / 2 + T.max * (1735 / 2 ^ 24) := by
  by_cases hne : (nw, nh) = (widthOf img, heightOf img)
  · obtain ⟨b, e1, e2, e3, e4⟩ := lanczos_same_size L (Samp.uint T) img wf hc (by omega) (by omega) hne
    refine ⟨b, e1, e2, e3, fun x y hx hy => ?_⟩
    obtain ⟨e5, e6⟩ := e4 x y hx hy
    have hxw : x < widthOf img := by rw [Prod.mk.injEq] at hne; omega
    have hyh : y < heightOf img := by rw [Prod.mk.injEq] at hne; omega
    refine ⟨pix x y, by rw [e5, hp x y hxw hyh], fun c => ⟨hr' x y hxw hyh c, ?_, fun v hv => ?_⟩⟩
    · rw [e6, min_eq_left (by exact_mod_cast hr' x y hxw hyh c), max_eq_right (by positivity), sub_self, abs_zero]
      positivity
    · rw [hv x y hxw hyh, sub_self, abs_zero]
      positivity
  obtain ⟨b, e1, e2, e3, e4⟩ := signed_picture (L := L) (ft := .lanczos3) (w := widthOf img) (h := heightOf img) hT
    (rfl : dims img = (widthOf img, heightOf img)) hc hw0 hh0
    (by omega) (by omega) hnw' hnh' hne hp hr' (by norm_num) (by positivity)
    (fun x hx => lanczos_axis hL hn hw0 hw hx hnw' hnw) (fun y hy => lanczos_axis hL hn hh0 hh hy hnh' hnh)
  refine ⟨b, e1, e2, e3, fun x y hx hy => ?_⟩
  obtain ⟨p, p1, p2⟩ := e4 x y hx hy
  have hM0 : (0 : ℚ) ≤ T.max := by positivity
  refine ⟨p, p1, fun c => ⟨(p2 c).1, (p2 c).2.1.trans ?_, fun v hv => ((p2 c).2.2 v hv).trans ?_⟩⟩
  · refine add_le_add le_rfl (mul_le_mul_of_nonneg_left ?_ hM0)
    rw [← sub_nonneg]
    have e : 240 * ((widthOf img : ℚ) + heightOf img + 26) / 2 ^ 22 - (5 / 2 * (96 * (widthOf img + 12) / 2 ^ 22 + 96 * (heightOf img + 12) / 2 ^ 22) +
      6 * (5 / 2) ^ 3 * (33 / 4 + 33 / 4 + 2) / 2 ^ 24) = 480 / 2 ^ 22 - 6 * (5 / 2) ^ 3 * (33 / 4 + 33 / 4 + 2) / 2 ^ 24 := by ring
    rw [e]; norm_num
  · refine add_le_add le_rfl (mul_le_mul_of_nonneg_left ?_ hM0)
    norm_num

/-- C127: enlarging with the Lanczos filter: it succeeds, and every sample is the exact Lanczos mean cut to the range of the sample type and
rounded, up to a small error. -/
theorem C127_enlarge {I : Type} [GenericImageView I (Pix Nat ch)] [LawfulView I (Pix Nat ch)] (L : Libm) (hL : L.SinOk) (T : Prim)
    (hT : T.bits ≤ 16) (img : I) (wf : WF img) (hr : SamplesOk T img) (nw nh : Nat) (hc : ch ≤ 4)
    (hw0 : 0 < widthOf img) (hh0 : 0 < heightOf img) (hw : widthOf img ≤ 11000) (hh : heightOf img ≤ 11000)
    (hnw : widthOf img ≤ nw) (hnh : heightOf img ≤ nh) (hnw' : nw ≤ 2 ^ 17) (hnh' : nh ≤ 2 ^ 17)
    (pix : Nat → Nat → Pix Nat ch)
    (hp : ∀ x y, x < widthOf img → y < heightOf img → getPixel img x y = .ok (pix x y)) :
    ∃ b, resize L (Samp.uint T) img nw nh .lanczos3 = .ok b ∧ b.width = nw ∧ b.height = nh ∧
      ∀ x y, x < nw → y < nh → ∃ p, b.getPixel x y = .ok p ∧ ∀ c, p c ≤ T.max ∧
        |(p c : ℝ) - max 0 (min (lanczosMean (widthOf img) nw x (heightOf img) nh y fun i j => (pix i j c : ℕ)) T.max)| ≤
          1 / 2 + T.max * (240 * (widthOf img + heightOf img + 26) / 2 ^ 22) := by
  have hr' : ∀ x y, x < widthOf img → y < heightOf img → ∀ c, pix x y c ≤ T.max := fun x y hx hy c => hr x y _ hx hy (hp x y hx hy) c
  have key := fun n (hn : 22 ≤ n) => lanczos_picture L hL T hT img wf nw nh hc hw0 hh0 hw hh hnw hnh hnw' hnh' pix hp hr' hn
  obtain ⟨b, e1, e2, e3, e4⟩ := key 22 le_rfl
  refine ⟨b, e1, e2, e3, fun x y hx hy => ?_⟩
  obtain ⟨p, p1, p2⟩ := e4 x y hx hy
  refine ⟨p, p1, fun c => ⟨(p2 c).1, ?_⟩⟩
  have := lanczos_limit (p := (p c : ℕ)) (M := (T.max : ℕ)) (v := fun i j => ((pix i j c : ℕ) : ℚ))
    (B := 1 / 2 + T.max * (240 * (widthOf img + heightOf img + 26) / 2 ^ 22)) hw0 hh0 hx hy hnw hnh (fun n hn => by
      obtain ⟨b', f1, -, -, f4⟩ := key n hn
      obtain rfl : b' = b := by rw [e1] at f1; injection f1 with f1; exact f1.symm
      obtain ⟨p', g1, g2⟩ := f4 x y hx hy
      obtain rfl : p' = p := by rw [p1] at g1; injection g1 with g1; exact g1.symm
      exact (g2 c).2.1)
  push_cast at this
  exact this

/-- C127: an 8-bit picture of one colour keeps that colour. -/
theorem C127_constant {I : Type} [GenericImageView I (Pix Nat ch)] [LawfulView I (Pix Nat ch)] (L : Libm) (hL : L.SinOk)
    (img : I) (wf : WF img) (nw nh : Nat) (hc : ch ≤ 4)
    (hw0 : 0 < widthOf img) (hh0 : 0 < heightOf img) (hw : widthOf img ≤ 11000) (hh : heightOf img ≤ 11000)
    (hnw : widthOf img ≤ nw) (hnh : heightOf img ≤ nh) (hnw' : nw ≤ 2 ^ 17) (hnh' : nh ≤ 2 ^ 17)
    (q : Pix Nat ch) (hq : ∀ c, q c ≤ 255)
    (hp : ∀ x y, x < widthOf img → y < heightOf img → getPixel img x y = .ok q) :
    ∃ b, resize L (Samp.uint .u8) img nw nh .lanczos3 = .ok b ∧ b.width = nw ∧ b.height = nh ∧
      ∀ x y, x < nw → y < nh → b.getPixel x y = .ok q := by
  obtain ⟨b, e1, e2, e3, e4⟩ := lanczos_picture L hL .u8 (by decide) img wf nw nh hc hw0 hh0 hw hh hnw hnh hnw' hnh' (fun _ _ => q) hp
    (fun _ _ _ _ => hq) le_rfl
  refine ⟨b, e1, e2, e3, fun x y hx hy => ?_⟩
  obtain ⟨p, p1, p2⟩ := e4 x y hx hy
  rw [p1]
  congr 1
  funext c
  have h1 := (p2 c).2.2 (q c) fun _ _ _ _ => rfl
  rw [show ((Prim.max .u8 : ℕ) : ℚ) = 255 by norm_num [Prim.max, Prim.bits]] at h1
  have h3 : |(p c : ℚ) - q c| < 1 := lt_of_le_of_lt h1 (by norm_num)
  rw [abs_lt] at h3
  have h4 : (p c : ℚ) < q c + 1 := by linarith
  have h5 : (q c : ℚ) < p c + 1 := by linarith
  have h4 : p c < q c + 1 := by exact_mod_cast h4
  have h5 : q c < p c + 1 := by exact_mod_cast h5
  omega

theorem lanczos_picture_float {I : Type} [GenericImageView I (Pix Fl ch)] [LawfulView I (Pix Fl ch)] (L : Libm) (hL : L.SinOk)
    (img : I) (wf : WF img) (nw nh : Nat) (hc : ch ≤ 4)
    (hw0 : 0 < widthOf img) (hh0 : 0 < heightOf img) (hw : widthOf img ≤ 11000) (hh : heightOf img ≤ 11000)
    (hnw : widthOf img ≤ nw) (hnh : heightOf img ≤ nh) (hnw' : nw ≤ 2 ^ 17) (hnh' : nh ≤ 2 ^ 17)
    (val : Nat → Nat → Fin ch → ℚ)
    (hp : ∀ x y, x < widthOf img → y < heightOf img → getPixel img x y = .ok (fun c => .fin (val x y c)))
    (hv : ∀ x y, x < widthOf img → y < heightOf img → ∀ c, 0 ≤ val x y c ∧ val x y c ≤ 1) {n : ℕ} (hn : 22 ≤ n) :
    ∃ b, resize L Samp.float img nw nh .lanczos3 = .ok b ∧ b.width = nw ∧ b.height = nh ∧
      ∀ x y, x < nw → y < nh → ∃ p, b.getPixel x y = .ok p ∧ ∀ c, ∃ q, p c = .fin q ∧ 0 ≤ q ∧ q ≤ 1 ∧
        |q - max 0 (min (weighted (widthOf img) (fun i => lanczosQ n (offset (widthOf img) nw x i)) fun i =>
          weighted (heightOf img) (fun j => lanczosQ n (offset (heightOf img) nh y j)) fun j => val i j c) 1)| ≤
          240 * (widthOf img + heightOf img + 26) / 2 ^ 22 := by
  by_cases hne : (nw, nh) = (widthOf img, heightOf img)
  · obtain ⟨b, e1, e2, e3, e4⟩ := lanczos_same_size L Samp.float img wf hc (by omega) (by omega) hne
    refine ⟨b, e1, e2, e3, fun x y hx hy => ?_⟩
    obtain ⟨e5, e6⟩ := e4 x y hx hy
    have hxw : x < widthOf img := by rw [Prod.mk.injEq] at hne; omega
    have hyh : y < heightOf img := by rw [Prod.mk.injEq] at hne; omega
    refine ⟨_, by rw [e5, hp x y hxw hyh], fun c => ⟨val x y c, rfl, (hv x y hxw hyh c).1, (hv x y hxw hyh c).2, ?_⟩⟩
    rw [e6, min_eq_left (hv x y hxw hyh c).2, max_eq_right (hv x y hxw hyh c).1, sub_self, abs_zero]
    positivity
  obtain ⟨b, e1, e2, e3, e4⟩ := signed_picture_float (L := L) (ft := .lanczos3) (w := widthOf img) (h := heightOf img)
    (rfl : dims img = (widthOf img, heightOf img)) hc hw0 hh0
    (by omega) (by omega) hnw' hnh' hne hp hv (by norm_num) (by positivity)
    (fun x hx => lanczos_axis hL hn hw0 hw hx hnw' hnw) (fun y hy => lanczos_axis hL hn hh0 hh hy hnh' hnh)
  refine ⟨b, e1, e2, e3, fun x y hx hy => ?_⟩
  obtain ⟨p, p1, p2⟩ := e4 x y hx hy
  refine ⟨p, p1, fun c => ?_⟩
  obtain ⟨q, q1, q2, q3, q4⟩ := p2 c
  refine ⟨q, q1, q2, q3, q4.trans ?_⟩
  rw [← sub_nonneg]
  have e : 240 * ((widthOf img : ℚ) + heightOf img + 26) / 2 ^ 22 - (5 / 2 * (96 * (widthOf img + 12) / 2 ^ 22 + 96 * (heightOf img + 12) / 2 ^ 22) +
    6 * (5 / 2) ^ 3 * (33 / 4 + 33 / 4 + 2) / 2 ^ 24) = 480 / 2 ^ 22 - 6 * (5 / 2) ^ 3 * (33 / 4 + 33 / 4 + 2) / 2 ^ 24 := by ring
  rw [e]; norm_num

/-- C127: pictures of `f32` samples between 0 and 1. -/
theorem C127_float {I : Type} [GenericImageView I (Pix Fl ch)] [LawfulView I (Pix Fl ch)] (L : Libm) (hL : L.SinOk)
    (img : I) (wf : WF img) (nw nh : Nat) (hc : ch ≤ 4)
    (hw0 : 0 < widthOf img) (hh0 : 0 < heightOf img) (hw : widthOf img ≤ 11000) (hh : heightOf img ≤ 11000)
    (hnw : widthOf img ≤ nw) (hnh : heightOf img ≤ nh) (hnw' : nw ≤ 2 ^ 17) (hnh' : nh ≤ 2 ^ 17)
    (val : Nat → Nat → Fin ch → ℚ)
    (hp : ∀ x y, x < widthOf img → y < heightOf img → getPixel img x y = .ok (fun c => .fin (val x y c)))
    (hv : ∀ x y, x < widthOf img → y < heightOf img → ∀ c, 0 ≤ val x y c ∧ val x y c ≤ 1) :
    ∃ b, resize L Samp.float img nw nh .lanczos3 = .ok b ∧ b.width = nw ∧ b.height = nh ∧
      ∀ x y, x < nw → y < nh → ∃ p, b.getPixel x y = .ok p ∧ ∀ c, ∃ q : ℚ, p c = .fin q ∧ 0 ≤ q ∧ q ≤ 1 ∧
        |(q : ℝ) - max 0 (min (lanczosMean (widthOf img) nw x (heightOf img) nh y fun i j => (val i j c : ℝ)) 1)| ≤
          240 * (widthOf img + heightOf img + 26) / 2 ^ 22 := by
  have key := fun n (hn : 22 ≤ n) => lanczos_picture_float L hL img wf nw nh hc hw0 hh0 hw hh hnw hnh hnw' hnh' val hp hv hn
  obtain ⟨b, e1, e2, e3, e4⟩ := key 22 le_rfl
  refine ⟨b, e1, e2, e3, fun x y hx hy => ?_⟩
  obtain ⟨p, p1, p2⟩ := e4 x y hx hy
  refine ⟨p, p1, fun c => ?_⟩
  obtain ⟨q, q1, q2, q3, -⟩ := p2 c
  refine ⟨q, q1, q2, q3, ?_⟩
  have := lanczos_limit (p := q) (M := 1) (v := fun i j => val i j c)
    (B := 240 * (widthOf img + heightOf img + 26) / 2 ^ 22) hw0 hh0 hx hy hnw hnh (fun n hn => by
      obtain ⟨b', f1, -, -, f4⟩ := key n hn
      obtain rfl : b' = b := by rw [e1] at f1; injection f1 with f1; exact f1.symm
      obtain ⟨p', g1, g2⟩ := f4 x y hx hy
      obtain rfl : p' = p := by rw [p1] at g1; injection g1 with g1; exact g1.symm
      obtain ⟨q', q1', -, -, q4'⟩ := g2 c
      obtain rfl : q' = q := by rw [q1] at q1'; injection q1' with h; exact h.symm
      exact q4')
  push_cast at this
  exact this

/-! ## Examples -/

theorem exists_near (x : ℝ) {e : ℝ} (he : 0 < e) : ∃ r : ℚ, |(r : ℝ) - x| ≤ e := by
  obtain ⟨r, r1, r2⟩ := exists_rat_btwn (show x - e < x + e by linarith)
  exact ⟨r, by rw [abs_le]; constructor <;> linarith⟩

theorem exists_sin (q : ℚ) : ∃ r : ℚ, |(r : ℝ) - Real.sin q| ≤ |(q : ℝ)| / 2 ^ 22 := by
  rcases eq_or_ne q 0 with rfl | h
  · exact ⟨0, by simp⟩
  · have : (0 : ℝ) < |(q : ℝ)| := abs_pos.2 (by exact_mod_cast h)
    exact exists_near _ (by positivity)

/-- A library whose `sin` is as accurate as assumed. -/
noncomputable def sineLibm : Libm where
  exp x := x
  sin
    | .fin q => .fin (exists_sin q).choose
    | x => x
  sqrt x := x
  pi := .fin (exists_near Real.pi (e := 1 / 2 ^ 23) (by positivity)).choose

theorem sineLibm_ok : sineLibm.SinOk where
  pi := ⟨_, rfl, (exists_near Real.pi (e := 1 / 2 ^ 23) (by positivity)).choose_spec⟩
  sin q _ := ⟨_, rfl, (exists_sin q).choose_spec⟩

/-- The exact value in a corner: bounds. -/
example : ∃ b, resize sineLibm (Samp.uint .u8) grey22 4 4 .lanczos3 = .ok b ∧ ∀ x y, x < 4 → y < 4 → ∃ p, b.getPixel x y = .ok p ∧
    |(p 0 : ℝ) - max 0 (min (lanczosMean 2 4 x 2 4 y fun i j => (grey22Pix i j 0 : ℕ)) 255)| < 1 := by
  obtain ⟨b, e1, -, -, e4⟩ := C127_enlarge sineLibm sineLibm_ok .u8 (by decide) grey22 grey22_wf grey22_samples 4 4 (by decide)
    (by decide) (by decide) (by decide) (by decide) (by decide) (by decide) (by decide) (by decide) grey22Pix grey22_pix
  refine ⟨b, e1, fun x y hx hy => ?_⟩
  obtain ⟨p, p1, p2⟩ := e4 x y hx hy
  refine ⟨p, p1, lt_of_le_of_lt ((le_of_eq ?_).trans (p2 0).2) ?_⟩
  · rw [show ((Prim.max .u8 : ℕ) : ℝ) = 255 by norm_num [Prim.max, Prim.bits]]
    rfl
  · rw [show widthOf grey22 = 2 from rfl, show heightOf grey22 = 2 from rfl,
      show ((Prim.max .u8 : ℕ) : ℝ) = 255 by norm_num [Prim.max, Prim.bits]]
    norm_num

example : ∃ b, resize sineLibm (Samp.uint .u8) (⟨2, 2, [7, 7, 7, 7]⟩ : ImageBuffer Nat 1) 5 3 .lanczos3 = .ok b ∧
    b.width = 5 ∧ b.height = 3 ∧ ∀ x y, x < 5 → y < 3 → b.getPixel x y = .ok (fun _ => 7) := by
  refine C127_constant sineLibm sineLibm_ok (⟨2, 2, [7, 7, 7, 7]⟩ : ImageBuffer Nat 1)
    (show ImageBuffer.Inv _ from ⟨by decide, by decide, by decide, by decide⟩) 5 3 (by decide) (by decide) (by decide) (by decide)
    (by decide) (by decide) (by decide) (by decide) (by decide) (fun _ => 7) (by decide) ?_
  intro x y hx hy
  have hx : x < 2 := hx
  have hy : y < 2 := hy
  have h : (x = 0 ∨ x = 1) ∧ (y = 0 ∨ y = 1) := by omega
  rcases h with ⟨rfl | rfl, rfl | rfl⟩ <;> decide

example : ∃ b, resize sineLibm Samp.float floatPair 4 1 .lanczos3 = .ok b ∧ ∀ x, x < 4 → ∃ p q, b.getPixel x 0 = .ok p ∧ p 0 = .fin q ∧
    0 ≤ q ∧ q ≤ 1 := by
  have hp : ∀ x y, x < widthOf floatPair → y < heightOf floatPair →
      getPixel floatPair x y = .ok (fun _ => .fin (if x = 0 then 1 / 4 else 3 / 4)) := by
    intro x y hx hy
    have hx : x < 2 := hx
    have hy : y < 1 := hy
    have h : (x = 0 ∨ x = 1) ∧ y = 0 := by omega
    rcases h with ⟨rfl | rfl, rfl⟩ <;> decide +kernel
  obtain ⟨b, e1, -, -, e4⟩ := C127_float sineLibm sineLibm_ok floatPair
    (show ImageBuffer.Inv _ from ⟨by decide, by decide, by decide, by decide⟩) 4 1 (by decide) (by decide) (by decide) (by decide)
    (by decide) (by decide) (by decide) (by decide) (by decide) _ hp (by intro x y _ _ _; split_ifs <;> norm_num)
  refine ⟨b, e1, fun x hx => ?_⟩
  obtain ⟨p, p1, p2⟩ := e4 x 0 hx (by decide)
  obtain ⟨q, q1, q2, q3, -⟩ := p2 0
  exact ⟨p, q, p1, q1, q2, q3⟩

end Verif
