import Verif.Proofs.Gradient
import Verif.Proofs.Color

/-!
# Gradients (C95)

Specification: row `y` of a vertical gradient over `h ≥ 2` rows has in every channel `start + (stop - start) * y / (h - 1)`;
a horizontal gradient is the same with columns.
-/

namespace Verif
open GenericImageView GenericImage LawfulView LawfulImage

variable {T : Prim} {n : Nat}

/-- The sample at step `y` of `len` (0 stands for a panic, excluded by `C95_vertical_partial`). -/
def gradientSample (T : Prim) (a b y len : Nat) : Nat :=
  match lerp T a b ((Fl.ofNat (lerpFmt T) y).div (lerpFmt T) (Fl.ofNat (lerpFmt T) (len - 1))) with
  | .ok v => v
  | .error _ => 0

theorem gradientSample_eq (hT : T ≠ .u64) {a b y len : Nat} (ha : a ≤ T.max) (hb : b ≤ T.max) (hl : 2 ≤ len)
    (hl32 : len < 2 ^ 32) (hy : y < len) :
    lerp T a b ((Fl.ofNat (lerpFmt T) y).div (lerpFmt T) (Fl.ofNat (lerpFmt T) (len - 1))) =
      .ok (gradientSample T a b y len) ∧
    gradientSample T a b y len = ⌊lerpQ (lerpFmt T) a b (ratioQ (lerpFmt T) y (len - 1))⌋.toNat := by
  have hF := lerpFmt_or T
  obtain ⟨t0, t1⟩ := ratioQ_bounds hF (show 1 ≤ len - 1 by omega) (show y ≤ len - 1 by omega)
  have e := lerp_ok hT ha hb t0 t1
  have r := ratio_ok hF (show 1 ≤ len - 1 by omega) (show y ≤ len - 1 by omega) (by omega)
  unfold gradientSample
  rw [r, e]
  exact ⟨rfl, rfl⟩

theorem gradientPixel_ok (hT : T ≠ .u64) {a b : Pix Nat n} {y len : Nat} (ha : ∀ c, a c ≤ T.max) (hb : ∀ c, b c ≤ T.max)
    (hl : 2 ≤ len) (hl32 : len < 2 ^ 32) (hy : y < len) :
    gradientPixel T a b y len = .ok (fun c => gradientSample T (a c) (b c) y len) := by
  unfold gradientPixel
  refine seqFin_ok fun c => ?_
  rw [subC_ok (by omega)]
  exact (gradientSample_eq hT (ha c) (hb c) hl hl32 hy).1

/-- `vertical_gradient` on images of at least two rows: succeeds, keeps the size, and fills row `y` with one colour. -/
theorem C95_vertical_partial {D : Type} [GenericImage D (Pix Nat n)] [LawfulImage D (Pix Nat n)] (hT : T ≠ .u64)
    (img : D) (wf : WF img) (hh : 2 ≤ heightOf img) {start stop : Pix Nat n} (ha : ∀ c, start c ≤ T.max)
    (hb : ∀ c, stop c ≤ T.max) :
    ∃ img', verticalGradient T img start stop = .ok img' ∧ WF img' ∧ dims img' = dims img ∧
      ∀ x y, x < widthOf img → y < heightOf img →
        getPixel img' x y = .ok (fun c => gradientSample T (start c) (stop c) y (heightOf img)) := by
  have h32 := height_lt wf
  obtain ⟨d', e1, e2, e3, e4⟩ := forRange_inv (n := heightOf img) (s := img)
    (f := fun y d => do
      let pixel ← gradientPixel T start stop y (heightOf d)
      forRange (widthOf d) (fun x d => putPixel d x y pixel) d)
    (fun k d => WF d ∧ dims d = dims img ∧ ∀ x y, x < widthOf img → y < k → y < heightOf img →
      getPixel d x y = .ok (fun c => gradientSample T (start c) (stop c) y (heightOf img)))
    ⟨wf, rfl, fun x y _ h => absurd h (by omega)⟩ (by
      intro k hk d ⟨w, dd, g⟩
      have hw := widthOf_eq dd
      have hhh := heightOf_eq dd
      rw [hhh, hw, gradientPixel_ok hT ha hb hh h32 hk, ok_bind]
      obtain ⟨d2, f1, f2, f3, f4, f5⟩ := forRange_inv (n := widthOf img) (s := d)
        (f := fun x d => putPixel d x k (fun c => gradientSample T (start c) (stop c) k (heightOf img)))
        (fun j e => WF e ∧ dims e = dims img ∧
          (∀ x, x < j → x < widthOf img →
            getPixel e x k = .ok (fun c => gradientSample T (start c) (stop c) k (heightOf img))) ∧
          (∀ x y, x < widthOf img → y < heightOf img → y ≠ k → getPixel e x y = getPixel d x y))
        ⟨w, dd, fun x h => absurd h (by omega), fun _ _ _ _ _ => rfl⟩ (by
          intro j hj e ⟨we, de, ge, he⟩
          have hw' := widthOf_eq de
          have hh' := heightOf_eq de
          obtain ⟨e', p1, p2, p3, p4, p5⟩ := put_ok (i := e) (x := j) (y := k)
            (fun c => gradientSample T (start c) (stop c) k (heightOf img)) we (by omega) (by omega)
          refine ⟨e', p1, p2, p3.trans de, ?_, ?_⟩
          · intro x hx hxw
            by_cases hxj : x = j
            · subst hxj; exact p4
            · rw [p5 x k (by omega) (by omega) (fun h => hxj h.1)]
              exact ge x (by omega) hxw
          · intro x y hx hy hne
            rw [p5 x y (by omega) (by omega) (fun h => hne h.2)]
            exact he x y hx hy hne)
      refine ⟨d2, f1, f2, f3, ?_⟩
      intro x y hx hy hyh
      by_cases hyk : y = k
      · subst hyk; exact f4 x hx hx
      · rw [f5 x y hx hyh hyk]; exact g x y hx (by omega) hyh)
  exact ⟨d', e1, e2, e3, fun x y hx hy => e4 x y hx hy hy⟩

/-- `horizontal_gradient` on images of at least two columns. -/
theorem C95_horizontal_partial {D : Type} [GenericImage D (Pix Nat n)] [LawfulImage D (Pix Nat n)] (hT : T ≠ .u64)
    (img : D) (wf : WF img) (hh : 2 ≤ widthOf img) {start stop : Pix Nat n} (ha : ∀ c, start c ≤ T.max)
    (hb : ∀ c, stop c ≤ T.max) :
    ∃ img', horizontalGradient T img start stop = .ok img' ∧ WF img' ∧ dims img' = dims img ∧
      ∀ x y, x < widthOf img → y < heightOf img →
        getPixel img' x y = .ok (fun c => gradientSample T (start c) (stop c) x (widthOf img)) := by
  have h32 := width_lt wf
  obtain ⟨d', e1, e2, e3, e4⟩ := forRange_inv (n := widthOf img) (s := img)
    (f := fun x d => do
      let pixel ← gradientPixel T start stop x (widthOf d)
      forRange (heightOf d) (fun y d => putPixel d x y pixel) d)
    (fun k d => WF d ∧ dims d = dims img ∧ ∀ x y, x < k → x < widthOf img → y < heightOf img →
      getPixel d x y = .ok (fun c => gradientSample T (start c) (stop c) x (widthOf img)))
    ⟨wf, rfl, fun x y h => absurd h (by omega)⟩ (by
      intro k hk d ⟨w, dd, g⟩
      have hw := widthOf_eq dd
      have hhh := heightOf_eq dd
      rw [hhh, hw, gradientPixel_ok hT ha hb hh h32 hk, ok_bind]
      obtain ⟨d2, f1, f2, f3, f4, f5⟩ := forRange_inv (n := heightOf img) (s := d)
        (f := fun y d => putPixel d k y (fun c => gradientSample T (start c) (stop c) k (widthOf img)))
        (fun j e => WF e ∧ dims e = dims img ∧
          (∀ y, y < j → y < heightOf img →
            getPixel e k y = .ok (fun c => gradientSample T (start c) (stop c) k (widthOf img))) ∧
          (∀ x y, x < widthOf img → y < heightOf img → x ≠ k → getPixel e x y = getPixel d x y))
        ⟨w, dd, fun x h => absurd h (by omega), fun _ _ _ _ _ => rfl⟩ (by
          intro j hj e ⟨we, de, ge, he⟩
          have hw' := widthOf_eq de
          have hh' := heightOf_eq de
          obtain ⟨e', p1, p2, p3, p4, p5⟩ := put_ok (i := e) (x := k) (y := j)
            (fun c => gradientSample T (start c) (stop c) k (widthOf img)) we (by omega) (by omega)
          refine ⟨e', p1, p2, p3.trans de, ?_, ?_⟩
          · intro y hy hyh
            by_cases hyj : y = j
            · subst hyj; exact p4
            · rw [p5 k y (by omega) (by omega) (fun h => hyj h.2)]
              exact ge y (by omega) hyh
          · intro x y hx hy hne
            rw [p5 x y (by omega) (by omega) (fun h => hne h.1)]
            exact he x y hx hy hne)
      refine ⟨d2, f1, f2, f3, ?_⟩
      intro x y hx hxw hy
      by_cases hxk : x = k
      · subst hxk; exact f4 y hy hy
      · rw [f5 x y hxw hy hxk]; exact g x y (by omega) hxw hy)
  exact ⟨d', e1, e2, e3, fun x y hx hy => e4 x y hx hx hy⟩

/-- The first step is `start` and the last is `stop`, exactly. -/
theorem C95_ends (hT : T ≠ .u64) {a b len : Nat} (ha : a ≤ T.max) (hb : b ≤ T.max) (hl : 2 ≤ len)
    (hl32 : len < 2 ^ 32) : gradientSample T a b 0 len = a ∧ gradientSample T a b (len - 1) len = b := by
  have hF := lerpFmt_or T
  have hm := max_lt_p hT
  rw [(gradientSample_eq hT ha hb hl hl32 (by omega)).2, (gradientSample_eq hT ha hb hl hl32 (by omega)).2,
    ratioQ_zero, ratioQ_one hF (by omega), lerpQ_start hF (by omega), lerpQ_stop hF (by omega) (by omega)]
  simp

/-- Every step lies between `start` and `stop`, and the steps go in one direction. -/
theorem C95_monotone (hT : T ≠ .u64) {a b y z len : Nat} (ha : a ≤ T.max) (hb : b ≤ T.max) (hl : 2 ≤ len)
    (hl32 : len < 2 ^ 32) (hyz : y ≤ z) (hz : z < len) :
    (a ≤ b → a ≤ gradientSample T a b y len ∧ gradientSample T a b y len ≤ gradientSample T a b z len ∧
      gradientSample T a b z len ≤ b) ∧
    (b ≤ a → b ≤ gradientSample T a b z len ∧ gradientSample T a b z len ≤ gradientSample T a b y len ∧
      gradientSample T a b y len ≤ a) := by
  have hF := lerpFmt_or T
  have hm := max_lt_p hT
  have key : ∀ y < len, (min a b : ℕ) ≤ gradientSample T a b y len ∧ gradientSample T a b y len ≤ (max a b : ℕ) := by
    intro y hy
    rw [(gradientSample_eq hT ha hb hl hl32 hy).2]
    obtain ⟨t0, t1⟩ := ratioQ_bounds hF (show 1 ≤ len - 1 by omega) (show y ≤ len - 1 by omega)
    obtain ⟨l, u⟩ := lerpQ_bounds hF (a := a) (b := b) (by omega) (by omega) t0 t1
    have f1 := Int.floor_mono l
    have f2 := Int.floor_mono u
    rw [Int.floor_natCast] at f1 f2
    omega
  have ky := key y (by omega)
  have kz := key z hz
  constructor
  · intro h
    rw [min_eq_left h, max_eq_right h] at ky kz
    refine ⟨ky.1, ?_, kz.2⟩
    rw [(gradientSample_eq hT ha hb hl hl32 (y := y) (by omega)).2, (gradientSample_eq hT ha hb hl hl32 hz).2]
    exact Int.toNat_le_toNat (Int.floor_mono (lerpQ_mono hF h (ratioQ_mono hF (by omega) hyz)))
  · intro h
    rw [min_eq_right h, max_eq_left h] at ky kz
    refine ⟨kz.1, ?_, ky.2⟩
    rw [(gradientSample_eq hT ha hb hl hl32 (y := y) (by omega)).2, (gradientSample_eq hT ha hb hl hl32 hz).2]
    exact Int.toNat_le_toNat (Int.floor_mono (lerpQ_anti hF h (ratioQ_mono hF (by omega) hyz)))

/-- Every step is the truncation of a value within `max / 2^20` (8 and 16 bits) or `max / 2^49` (32 bits) of the exact
one: always within a sixteenth. -/
theorem C95_accurate (hT : T ≠ .u64) {a b y len : Nat} (ha : a ≤ T.max) (hb : b ≤ T.max) (hl : 2 ≤ len)
    (hl32 : len < 2 ^ 32) (hy : y < len) :
    TruncNear (1 / 16) (a + ((b : ℚ) - a) * (y / (len - 1 : ℕ))) (gradientSample T a b y len) := by
  have hF := lerpFmt_or T
  have hm := max_lt_p hT
  obtain ⟨t0, t1⟩ := ratioQ_bounds hF (show 1 ≤ len - 1 by omega) (show y ≤ len - 1 by omega)
  have hr := ratioQ_near hF (show 1 ≤ len - 1 by omega) (show y ≤ len - 1 by omega)
  have hmax : 1 ≤ T.max := by cases T <;> decide
  have he := lerpQ_near hF hmax ha hb t0 t1 hr
  obtain ⟨l, -⟩ := lerpQ_bounds hF (a := a) (b := b) (by omega) (by omega) t0 t1
  have hb16 : 9 / 2 ^ (lerpFmt T).p * (T.max : ℚ) ≤ 1 / 16 := by
    cases T
    · norm_num [lerpFmt, f32, Prim.max, Prim.bits]
    · norm_num [lerpFmt, f32, Prim.max, Prim.bits]
    · norm_num [lerpFmt, f64, Prim.max, Prim.bits]
    · exact absurd rfl hT
  rw [(gradientSample_eq hT ha hb hl hl32 hy).2]
  set Q := lerpQ (lerpFmt T) a b (ratioQ (lerpFmt T) y (len - 1))
  have h0 : 0 ≤ Q := le_trans (by positivity) l
  have hf : ((⌊Q⌋.toNat : ℕ) : ℚ) = (⌊Q⌋ : ℚ) := by
    have : ((⌊Q⌋.toNat : ℤ)) = ⌊Q⌋ := Int.toNat_of_nonneg (Int.floor_nonneg.mpr h0)
    exact_mod_cast this
  rw [abs_le] at he
  unfold TruncNear
  rw [hf]
  have := Int.floor_le Q
  have := Int.lt_floor_add_one Q
  constructor <;> linarith

/-- A gradient over a single row panics: the ratio is `0 / 0`. -/
theorem C95_single_row_false :
    verticalGradient .u8 (⟨2, 1, [1, 2]⟩ : ImageBuffer Nat 1) (px1 0) (px1 255) = panicR := by decide +kernel

/-- A gradient over a single column panics. -/
theorem C95_single_column_false :
    horizontalGradient .u8 (⟨1, 2, [1, 2]⟩ : ImageBuffer Nat 1) (px1 0) (px1 255) = panicR := by decide +kernel

/-- Images without rows are left alone. -/
theorem C95_empty {D : Type} [GenericImage D (Pix Nat n)] (T : Prim) (img : D) (start stop : Pix Nat n) :
    (heightOf img = 0 → verticalGradient T img start stop = .ok img) ∧
    (widthOf img = 0 → horizontalGradient T img start stop = .ok img) := by
  constructor
  · intro h; unfold verticalGradient; rw [h]; rfl
  · intro h; unfold horizontalGradient; rw [h]; rfl

example : verticalGradient .u8 (⟨1, 4, [9, 9, 9, 9]⟩ : ImageBuffer Nat 1) (px1 10) (px1 201) =
    .ok ⟨1, 4, [10, 73, 137, 201]⟩ := by decide +kernel
example : horizontalGradient .u32 (⟨3, 1, [9, 9, 9]⟩ : ImageBuffer Nat 1) (px1 4000000000) (px1 1) =
    .ok ⟨3, 1, [4000000000, 2000000000, 1]⟩ := by decide +kernel

end Verif
