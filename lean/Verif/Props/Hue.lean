import Verif.Proofs.Hue
import Verif.Props.Contrast

/-!
# Hue rotation (C94)

`cos` and `sin` are library functions; what is assumed of them is only that their values are finite and between -1
and 1 (`GoodTrig`). The exact matrix is in `Verif/Spec/Hue.lean`.
-/

namespace Verif
open GenericImageView GenericImage LawfulView LawfulImage

/-- `c` and `s` are the cosine and sine that `trig` gives for `value` degrees. -/
def GoodTrig (trig : Trig) (value : Int) (c s : ℚ) : Prop :=
  trig.cos (trig.toRadians (f64.ofRat value)) = .fin c ∧ trig.sin (trig.toRadians (f64.ofRat value)) = .fin s ∧
    |c| ≤ 1 ∧ |s| ≤ 1

/-- The pixel stored for `p` (`p` itself stands for a panic, excluded by `C94_in_place`). -/
def hued {n : Nat} (trig : Trig) (T : Prim) (value : Int) (p : Pix Nat n) : Pix Nat n :=
  match huePixel T (hueMatrixOf trig value) p with
  | .ok q => q
  | .error _ => p

/-- `dst` has the size of `src` and every pixel is the image of the pixel of `src` under `f`. -/
def IsPixelMap {I J : Type} {n : Nat} [GenericImageView I (Pix Nat n)] [GenericImageView J (Pix Nat n)]
    (f : Pix Nat n → Pix Nat n) (src : I) (dst : J) : Prop :=
  dims dst = dims src ∧ ∀ x y p, x < widthOf src → y < heightOf src → getPixel src x y = .ok p →
    getPixel dst x y = .ok (f p)

variable {trig : Trig} {value : Int} {c s : ℚ} {T : Prim} {n : Nat}

theorem prim_lt64 (T : Prim) : T.max < 2 ^ 64 := by cases T <;> decide

theorem channels4_lt {p : Pix Nat n} (hp : ∀ k, p k ≤ T.max) (k : Fin 4) : channels4 (Samp.uint T) p k < 2 ^ 64 := by
  have := prim_lt64 T
  unfold channels4
  split
  · exact lt_of_le_of_lt (hp _) this
  · exact this

/-- The channels of the result. -/
theorem huePixel_ok (h : GoodTrig trig value c s) {p : Pix Nat n} (hp : ∀ k, p k ≤ T.max) :
    ∃ q0 q1 q2 : ℚ,
      (∀ i : Fin 3, hueRow (hueMatrix (.fin c) (.fin s)) i.val (Fl.ofNat f64 (channels4 (Samp.uint T) p 0))
        (Fl.ofNat f64 (channels4 (Samp.uint T) p 1)) (Fl.ofNat f64 (channels4 (Samp.uint T) p 2)) =
          .fin (match i with | 0 => q0 | 1 => q1 | 2 => q2)) ∧
      ∃ q3 : ℚ, Fl.ofNat f64 (channels4 (Samp.uint T) p 3) = .fin q3 ∧
      huePixel T (hueMatrixOf trig value) p = .ok (fromChannels4 (Samp.uint T) (px4
        ⌊max 0 (min q0 (255 : ℚ))⌋.toNat ⌊max 0 (min q1 (255 : ℚ))⌋.toNat ⌊max 0 (min q2 (255 : ℚ))⌋.toNat
        ⌊max 0 (min q3 (255 : ℚ))⌋.toNat)) := by
  obtain ⟨h1, h2, h3, h4⟩ := h
  have l := fun k => channels4_lt (T := T) hp k
  obtain ⟨q0, e0⟩ := row_fin h3 h4 (i := 0) (by omega) (l 0) (l 1) (l 2)
  obtain ⟨q1, e1⟩ := row_fin h3 h4 (i := 1) (by omega) (l 0) (l 1) (l 2)
  obtain ⟨q2, e2⟩ := row_fin h3 h4 (i := 2) (by omega) (l 0) (l 1) (l 2)
  obtain ⟨q3, e3, -⟩ := Ap.ofNat (B := 2 ^ 64) (n := channels4 (Samp.uint T) p 3) (by exact_mod_cast (l 3).le) le_rfl
  refine ⟨q0, q1, q2, ?_, q3, e3, ?_⟩
  · intro i
    match i with
    | 0 => exact e0
    | 1 => exact e1
    | 2 => exact e2
  · unfold huePixel hueMatrixOf
    simp only [h1, h2, e0, e1, e2, e3, out255, ok_bind]

theorem huePixel_hued (h : GoodTrig trig value c s) {p : Pix Nat n} (hp : ∀ k, p k ≤ T.max) :
    huePixel T (hueMatrixOf trig value) p = .ok (hued trig T value p) := by
  obtain ⟨q0, q1, q2, -, q3, -, e⟩ := huePixel_ok (n := n) h hp
  unfold hued
  rw [e]

/-- `huerotate_in_place` succeeds for every sample type, every pixel type and every angle, and treats every pixel
alike. -/
theorem C94_in_place {D : Type} [GenericImage D (Pix Nat n)] [LawfulImage D (Pix Nat n)]
    (h : GoodTrig trig value c s) (img : D) (wf : WF img)
    (hr : ∀ x y p, x < widthOf img → y < heightOf img → getPixel img x y = .ok p → ∀ k, p k ≤ T.max) :
    ∃ img', huerotateInPlace trig T value img = .ok img' ∧ WF img' ∧ IsPixelMap (hued trig T value) img img' := by
  obtain ⟨d, e1, e2, e3, e4⟩ := map_loop (d0 := img) (huePixel T (hueMatrixOf trig value)) (hued trig T value) wf
    (fun x y p hx hy hp => huePixel_hued h (hr x y p hx hy hp))
  exact ⟨d, e1, e2, e3, e4⟩

/-- `huerotate` is `huerotate_in_place` on a copy. -/
theorem C94_copy {I : Type} (hn : n < 256) [GenericImageView I (Pix Nat n)] [LawfulView I (Pix Nat n)]
    (h : GoodTrig trig value c s) (img : I) (wf : WF img) (hs : widthOf img * heightOf img * n < 2 ^ 64)
    (hr : ∀ x y p, x < widthOf img → y < heightOf img → getPixel img x y = .ok p → ∀ k, p k ≤ T.max) :
    ∃ out : ImageBuffer Nat n, huerotate trig T value img = .ok out ∧ out.Inv ∧
      IsPixelMap (hued trig T value) img out := by
  have hnew := ImageBuffer.new_inv (ch := n) (z := 0) (width_lt wf) (height_lt wf) hs
  obtain ⟨d', g1, g2, g3, g4, -⟩ := copy_loop (D := ImageBuffer Nat n) (w := widthOf img) (h := heightOf img)
    (body := fun x y (d : ImageBuffer Nat n) => do
      let p ← getPixel img x y
      d.putPixel x y (← huePixel T (hueMatrixOf trig value) p))
    (d0 := (⟨widthOf img, heightOf img, List.replicate (widthOf img * heightOf img * n) 0⟩ : ImageBuffer Nat n))
    (fun x y => do
      let p ← getPixel img x y
      huePixel T (hueMatrixOf trig value) p)
    (fun x y => (x, y)) hnew
    (fun x y hx hy => by
      obtain ⟨p, hp⟩ := get_ok wf hx hy
      exact ⟨_, by rw [hp, ok_bind]; exact huePixel_hued h (hr x y p hx hy hp)⟩)
    (fun x y hx hy => ⟨hx, hy⟩) (fun x y x' y' _ _ _ _ h => by simpa using h)
    (fun x y hx hy d _ _ q hq => by
      obtain ⟨p, hp⟩ := get_ok wf hx hy
      rw [hp, ok_bind] at hq ⊢
      rw [hq]; rfl)
  refine ⟨d', ?_, g2, g3, ?_⟩
  · unfold huerotate
    dsimp only
    rw [ImageBuffer.new_ok hn (width_lt wf) hs]
    exact g1
  · intro x y p hx hy hp
    rw [g4 x y hx hy, hp, ok_bind, huePixel_hued h (hr x y p hx hy hp)]

/-! ## What happens to a pixel (8 bits) -/

/-- RGB and RGBA: every colour channel is the truncation of a value within `2⁻³⁶` of the exact channel cut off at 0 and
255; alpha is kept. -/
theorem C94_accurate (h : GoodTrig trig value c s) (hn : n = 3 ∨ n = 4) {p : Pix Nat n} (hp : ∀ k, p k ≤ 255)
    (k : Fin n) :
    (k.val < 3 → TruncNear (1 / 2 ^ 36)
      (max 0 (min (hueRowExact k.val c s (p ⟨0, by omega⟩) (p ⟨1, by omega⟩) (p ⟨2, by omega⟩)) 255))
      (hued trig .u8 value p k)) ∧
    (k.val = 3 → hued trig .u8 value p k = p k) := by
  have hmax : Prim.u8.max = 255 := rfl
  have hp' : ∀ k, p k ≤ Prim.u8.max := hp
  obtain ⟨q0, q1, q2, e, q3, e3, ho⟩ := huePixel_ok (T := .u8) h hp'
  have hh := huePixel_hued h hp'
  rw [ho] at hh
  have hh := Except.ok.inj hh
  rw [← hh]
  obtain ⟨-, -, hc, hs⟩ := h
  have key : ∀ (i : ℕ) (hi : i < 3) (q : ℚ) (r g b : ℕ), r ≤ 255 → g ≤ 255 → b ≤ 255 →
      hueRow (hueMatrix (.fin c) (.fin s)) i (Fl.ofNat f64 r) (Fl.ofNat f64 g) (Fl.ofNat f64 b) = .fin q →
      TruncNear (1 / 2 ^ 36) (max 0 (min (hueRowExact i c s r g b) 255)) ⌊max 0 (min q (255 : ℚ))⌋.toNat := by
    intro i hi q r g b hr hg hb he
    rw [ofNat64 (by omega), ofNat64 (by omega), ofNat64 (by omega)] at he
    obtain ⟨q', a1, a2, -⟩ := row_near hc hs hi hr hg hb
    rw [he] at a1
    rw [← Fl.fin.inj a1] at a2
    have := truncNear_of (T := .u8) a2
    rwa [show ((Prim.u8.max : ℕ) : ℚ) = 255 by norm_num [Prim.max, Prim.bits]] at this
  rcases hn with rfl | rfl
  · match k with
    | 0 => exact ⟨fun _ => key 0 (by omega) q0 _ _ _ (hp _) (hp _) (hp _) (e 0), fun h => absurd h (by decide)⟩
    | 1 => exact ⟨fun _ => key 1 (by omega) q1 _ _ _ (hp _) (hp _) (hp _) (e 1), fun h => absurd h (by decide)⟩
    | 2 => exact ⟨fun _ => key 2 (by omega) q2 _ _ _ (hp _) (hp _) (hp _) (e 2), fun h => absurd h (by decide)⟩
  · match k with
    | 0 => exact ⟨fun _ => key 0 (by omega) q0 _ _ _ (hp _) (hp _) (hp _) (e 0), fun h => absurd h (by decide)⟩
    | 1 => exact ⟨fun _ => key 1 (by omega) q1 _ _ _ (hp _) (hp _) (hp _) (e 1), fun h => absurd h (by decide)⟩
    | 2 => exact ⟨fun _ => key 2 (by omega) q2 _ _ _ (hp _) (hp _) (hp _) (e 2), fun h => absurd h (by decide)⟩
    | 3 =>
      refine ⟨fun h => absurd h (by decide), fun _ => ?_⟩
      have e3' : Fl.ofNat f64 (p 3) = .fin q3 := e3
      have h3 := hp 3
      rw [ofNat64 (by omega)] at e3'
      rw [← Fl.fin.inj e3']
      show ⌊max 0 (min ((p 3 : ℕ) : ℚ) (255 : ℚ))⌋.toNat = p 3
      rw [trunc_nat, min_eq_left h3]

/-- Greys stay the same or get one darker. -/
theorem C94_grey (h : GoodTrig trig value c s) (hn : n = 3 ∨ n = 4) {p : Pix Nat n} {v : Nat} (hp : ∀ k, p k ≤ 255)
    (hv : ∀ k : Fin n, k.val < 3 → p k = v) (k : Fin n) :
    hued trig .u8 value p k ≤ p k ∧ p k ≤ hued trig .u8 value p k + 1 := by
  obtain ⟨h1, h2⟩ := C94_accurate h hn hp k
  by_cases hk : k.val < 3
  · have hr : ∀ i < 3, hueRowExact i c s v v v = v := by
      intro i hi
      match i, hi with
      | 0, _ => simp [hueRowExact, hueExact, hueCoef, hueEntry]; ring
      | 1, _ => simp [hueRowExact, hueExact, hueCoef, hueEntry]; ring
      | 2, _ => simp [hueRowExact, hueExact, hueCoef, hueEntry]; ring
    have hv0 := hv ⟨0, by omega⟩ (by show 0 < 3; omega)
    have hv1 := hv ⟨1, by omega⟩ (by show 1 < 3; omega)
    have hv2 := hv ⟨2, by omega⟩ (by show 2 < 3; omega)
    obtain ⟨a, b⟩ := h1 hk
    have hvle : v ≤ 255 := by rw [← hv0]; exact hp _
    have hvq : (v : ℚ) ≤ 255 := by exact_mod_cast hvle
    rw [hv0, hv1, hv2, hr _ hk, min_eq_left hvq, max_eq_right (by positivity)] at a b
    rw [hv k hk]
    clear hv0 hv1 hv2 h1 h2 h hr
    revert a b
    generalize hued trig .u8 value p k = m
    intro a b
    constructor
    · have : (m : ℚ) < v + 1 := by linarith [show (1 : ℚ) / 2 ^ 36 < 1 by norm_num]
      have : m < v + 1 := by exact_mod_cast this
      omega
    · have : (v : ℚ) < m + 1 + 1 := by linarith [show (1 : ℚ) / 2 ^ 36 < 1 by norm_num]
      have : v < m + 1 + 1 := by exact_mod_cast this
      omega
  · have : k.val = 3 := by omega
    rw [h2 this]; omega

/-- Rotating by an angle with cosine 1 and sine 0 (0 degrees) does nothing, whatever the pixel type. -/
theorem C94_zero (h : GoodTrig trig value 1 0) (hn : n ≤ 4) {p : Pix Nat n} (hp : ∀ k, p k ≤ 255) :
    hued trig .u8 value p = p := by
  have hp' : ∀ k, p k ≤ Prim.u8.max := hp
  obtain ⟨q0, q1, q2, e, q3, e3, ho⟩ := huePixel_ok (T := .u8) h hp'
  have hh := huePixel_hued h hp'
  rw [ho] at hh
  have hh := Except.ok.inj hh
  rw [← hh]
  have hM : hueMatrix (.fin 1) (.fin 0) =
      [.fin 1, .fin 0, .fin 0, .fin 0, .fin 1, .fin 0, .fin 0, .fin 0, .fin 1] := by decide +kernel
  have hc4 : ∀ k, channels4 (Samp.uint .u8) p k ≤ 255 := by
    intro k; unfold channels4; split
    · exact hp _
    · exact le_rfl
  have hz : f64.ofRat 0 = .fin 0 := by
    have := ofNat64 (n := 0) (by norm_num); simpa [Fl.ofNat] using this
  have hr : ∀ n : ℕ, n ≤ 255 → f64.ofRat (n : ℚ) = .fin n := fun n hn => ofNat64 (n := n) (by omega)
  rw [ofNat64 (n := channels4 (Samp.uint .u8) p 3) (by have := hc4 3; omega)] at e3
  rw [hM, ofNat64 (n := channels4 (Samp.uint .u8) p 0) (by have := hc4 0; omega),
    ofNat64 (n := channels4 (Samp.uint .u8) p 1) (by have := hc4 1; omega),
    ofNat64 (n := channels4 (Samp.uint .u8) p 2) (by have := hc4 2; omega)] at e
  have g0 := e 0
  have g1 := e 1
  have g2 := e 2
  simp [hueRow, Fl.mul, Fl.add, hz, hr _ (hc4 0)] at g0
  simp [hueRow, Fl.mul, Fl.add, hz, hr _ (hc4 1)] at g1
  simp [hueRow, Fl.mul, Fl.add, hz, hr _ (hc4 2)] at g2
  rw [← g0, ← g1, ← g2, ← Fl.fin.inj e3, trunc_nat, trunc_nat, trunc_nat, trunc_nat, min_eq_left (hc4 0),
    min_eq_left (hc4 1), min_eq_left (hc4 2), min_eq_left (hc4 3)]
  funext k
  have hk : k.val < 4 := by omega
  unfold fromChannels4
  rw [dif_pos hk]
  obtain ⟨k, hkn⟩ := k
  have hcases : k = 0 ∨ k = 1 ∨ k = 2 ∨ k = 3 := by simp only at hk; omega
  rcases hcases with rfl | rfl | rfl | rfl <;> simp [px4, channels4, hkn]

/-! ## What does not hold -/

/-- A library with the cosine and sine of one angle. -/
def trigOf (c s : ℚ) : Trig where
  cos _ := .fin c
  sin _ := .fin s
  toRadians := id

/-- The hypotheses hold for 0 degrees, and a pixel is rotated by 90 degrees. -/
example : GoodTrig (trigOf 1 0) 0 1 0 := ⟨rfl, rfl, by norm_num, by norm_num⟩
example : huerotateInPlace (trigOf 0 1) .u8 90 (⟨1, 1, [200, 100, 50, 7]⟩ : ImageBuffer Nat 4) =
    .ok ⟨1, 1, [50, 146, 35, 7]⟩ := by decide +kernel
example : huerotate (trigOf 0 1) .u8 90 (⟨1, 1, [200, 100, 50, 7]⟩ : ImageBuffer Nat 4) =
    .ok ⟨1, 1, [50, 146, 35, 7]⟩ := by decide +kernel

/-- 16-bit images are cut off at 255 even by a rotation of 0 degrees (white becomes almost black). -/
theorem C94_wide_false :
    huerotateInPlace (trigOf 1 0) .u16 0 (⟨1, 1, [65535, 65535, 65535]⟩ : ImageBuffer Nat 3) =
      .ok ⟨1, 1, [255, 255, 255]⟩ := by decide +kernel

/-- 360 degrees is not "do nothing": for every library whose cosine and sine of `2π` as an `f64` are the correctly rounded
`1` and `-2.4492935982947064e-16`, the red channel 10 of a pixel becomes 9. -/
theorem C94_full_turn_false (trig : Trig)
    (h1 : trig.cos (trig.toRadians (f64.ofRat 360)) = .fin 1)
    (h2 : trig.sin (trig.toRadians (f64.ofRat 360)) = .fin (-4967757600021511 / 20282409603651670423947251286016)) :
    huerotateInPlace trig .u8 360 (⟨1, 1, [10, 20, 30]⟩ : ImageBuffer Nat 3) = .ok ⟨1, 1, [9, 20, 30]⟩ := by
  have : huerotateInPlace trig .u8 360 (⟨1, 1, [10, 20, 30]⟩ : ImageBuffer Nat 3) =
      huerotateInPlace (trigOf 1 (-4967757600021511 / 20282409603651670423947251286016)) .u8 360
        (⟨1, 1, [10, 20, 30]⟩ : ImageBuffer Nat 3) := by
    unfold huerotateInPlace hueMatrixOf
    simp only [show ((360 : ℤ) : ℚ) = 360 from rfl, h1, h2]
    rfl
  rw [this]
  decide +kernel

/-- Grey images have a hue after all: their missing channels count as 255, and black rotated by 180 degrees (the correctly
rounded cosine and sine) becomes white. -/
theorem C94_luma_false :
    huerotateInPlace (trigOf (-1) (4967757600021511 / 40564819207303340847894502572032)) .u8 180
      (⟨1, 1, [0]⟩ : ImageBuffer Nat 1) = .ok ⟨1, 1, [255]⟩ := by decide +kernel

/-- The alpha of a grey image with alpha is taken for green. -/
theorem C94_luma_alpha_false :
    huerotateInPlace (trigOf 0 1) .u8 90 (⟨1, 1, [0, 0]⟩ : ImageBuffer Nat 2) = .ok ⟨1, 1, [255, 0]⟩ ∧
    huerotateInPlace (trigOf 0 1) .u8 90 (⟨1, 1, [100, 200]⟩ : ImageBuffer Nat 2) = .ok ⟨1, 1, [255, 152]⟩ := by
  decide +kernel

end Verif
