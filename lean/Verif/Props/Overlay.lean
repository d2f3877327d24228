import Verif.Proofs.GenericOps
import Verif.Model.ImageOps

/-!
# Overlaying images (C11, C12)

Specification: a top image of size `tw × th` placed at `(x, y)` covers the points `(a, b)` with
`x ≤ a < x + tw`, `y ≤ b < y + th` (mathematical integers).
-/

namespace Verif
open GenericImageView GenericImage LawfulView LawfulImage

variable {I D P : Type}

/-- The bottom point `(a, b)` is covered by a `top`-sized image at `(x, y)`. -/
def Covered (top : Nat × Nat) (x y : Int) (a b : Nat) : Prop :=
  x ≤ a ∧ (a : Int) < x + top.1 ∧ y ≤ b ∧ (b : Int) < y + top.2

theorem clampI_eq {a b : Int} (h : 0 ≤ b) : clampI 0 b a = max 0 (min b a) := by
  unfold clampI; split
  · omega
  · split <;> omega

/-! ## C11 -/

/-- `(a, b)` is in the rectangle of the bottom image that `overlay_bounds_ext` selects. -/
def OverlayBounds.Contains (o : OverlayBounds) (a b : Nat) : Prop :=
  o.bottomX ≤ a ∧ a < o.bottomX + o.rangeW ∧ o.bottomY ≤ b ∧ b < o.bottomY + o.rangeH

/-- For all sizes and all `i64` offsets the computation does not overflow and the selected rectangle
consists exactly of the covered bottom pixels; it is mapped to the top pixels at `(a - x, b - y)`; both
rectangles are inside their images. -/
theorem C11_overlay_bounds_ext (bottom top : Nat × Nat) (x y : Int)
    (hb1 : bottom.1 < 2 ^ 32) (hb2 : bottom.2 < 2 ^ 32) (ht1 : top.1 < 2 ^ 32) (ht2 : top.2 < 2 ^ 32)
    (hx : -2 ^ 63 ≤ x ∧ x < 2 ^ 63) (hy : -2 ^ 63 ≤ y ∧ y < 2 ^ 63) :
    ∃ o, overlayBoundsExt bottom top x y = .ok o ∧
      (∀ a b, o.Contains a b ↔ a < bottom.1 ∧ b < bottom.2 ∧ Covered top x y a b) ∧
      (∀ a b, o.Contains a b → ((o.topX + (a - o.bottomX) : Nat) : Int) = a - x ∧
        ((o.topY + (b - o.bottomY) : Nat) : Int) = b - y) ∧
      o.bottomX + o.rangeW ≤ bottom.1 ∧ o.bottomY + o.rangeH ≤ bottom.2 ∧
      o.topX + o.rangeW ≤ top.1 ∧ o.topY + o.rangeH ≤ top.2 := by
  obtain ⟨bw, bh⟩ := bottom
  obtain ⟨tw, th⟩ := top
  simp only at hb1 hb2 ht1 ht2
  unfold overlayBoundsExt
  simp only [OverlayBounds.Contains, Covered]
  split
  · rename_i h
    refine ⟨_, rfl, ?_, ?_, by simp, by simp, by simp, by simp⟩
    · intro a b
      simp only [satAddI64] at h
      constructor
      · intro hc; dsimp only at hc; omega
      · intro hc; dsimp only; omega
    · intro a b hc; dsimp only at hc; omega
  · rename_i h
    simp only [satAddI64, not_or] at h
    obtain ⟨h1, h2, h3, h4⟩ := h
    -- evaluate each component
    have e1 : asU32 (clampI 0 bw (satAddI64 x tw)) = (min (bw : Int) (x + tw)).toNat := by
      rw [clampI_eq (by omega)]; simp only [asU32, satAddI64]; omega
    have e2 : asU32 (clampI 0 bh (satAddI64 y th)) = (min (bh : Int) (y + th)).toNat := by
      rw [clampI_eq (by omega)]; simp only [asU32, satAddI64]; omega
    have e3 : asU32 (clampI 0 bw x) = x.toNat := by
      rw [clampI_eq (by omega)]; simp only [asU32]; omega
    have e4 : asU32 (clampI 0 bh y) = y.toNat := by
      rw [clampI_eq (by omega)]; simp only [asU32]; omega
    have e5 : asU32 (clampI 0 tw (satMulI64 x (-1))) = (-x).toNat := by
      rw [clampI_eq (by omega)]; simp only [asU32, satMulI64]; omega
    have e6 : asU32 (clampI 0 th (satMulI64 y (-1))) = (-y).toNat := by
      rw [clampI_eq (by omega)]; simp only [asU32, satMulI64]; omega
    simp only [e1, e2, e3, e4, e5, e6]
    rw [subC_ok (by omega), subC_ok (by omega)]
    simp only [ok_bind]
    refine ⟨_, rfl, ?_, ?_, ?_, ?_, ?_, ?_⟩
    · intro a b; constructor
      · intro hc; dsimp only at hc; omega
      · intro hc; dsimp only; omega
    · intro a b hc; simp only at hc ⊢; omega
    all_goals (simp only; omega)

/-- `overlay_bounds` (non-negative `u32` offsets) gives, for each axis, exactly the number of covered
bottom pixels from `x` on: `(a, b)` is covered by the top image iff `x ≤ a < x + x_range` and
`y ≤ b < y + y_range`. -/
theorem C11_overlay_bounds (bottom top : Nat × Nat) (x y : Nat)
    (hb1 : bottom.1 < 2 ^ 32) (hb2 : bottom.2 < 2 ^ 32) :
    let (xr, yr) := overlayBounds bottom top x y
    (∀ a, (x ≤ a ∧ a < x + xr) ↔ (a < bottom.1 ∧ x ≤ a ∧ a < x + top.1)) ∧
    (∀ b, (y ≤ b ∧ b < y + yr) ↔ (b < bottom.2 ∧ y ≤ b ∧ b < y + top.2)) ∧
    xr ≤ top.1 ∧ yr ≤ top.2 := by
  simp only [overlayBounds, satAdd, satSub]
  refine ⟨fun a => ?_, fun b => ?_, ?_, ?_⟩ <;> omega

/-- For offsets inside the bottom image, both functions compute the same ranges. -/
theorem C11_bounds_agree (bottom top : Nat × Nat) (x y : Nat)
    (hb1 : bottom.1 < 2 ^ 32) (hb2 : bottom.2 < 2 ^ 32) (ht1 : 0 < top.1 ∧ top.1 < 2 ^ 32)
    (ht2 : 0 < top.2 ∧ top.2 < 2 ^ 32) (hx : x ≤ bottom.1) (hy : y ≤ bottom.2) :
    overlayBoundsExt bottom top x y =
      .ok ⟨x, y, 0, 0, (overlayBounds bottom top x y).1, (overlayBounds bottom top x y).2⟩ := by
  obtain ⟨bw, bh⟩ := bottom
  obtain ⟨tw, th⟩ := top
  simp only at *
  unfold overlayBoundsExt
  rw [if_neg (by simp only [satAddI64]; omega)]
  have e1 : asU32 (clampI 0 bw (satAddI64 x tw)) = min bw (x + tw) := by
    rw [clampI_eq (by omega)]; simp only [asU32, satAddI64]; omega
  have e2 : asU32 (clampI 0 bh (satAddI64 y th)) = min bh (y + th) := by
    rw [clampI_eq (by omega)]; simp only [asU32, satAddI64]; omega
  have e3 : asU32 (clampI 0 bw x) = x := by
    rw [clampI_eq (by omega)]; simp only [asU32]; omega
  have e4 : asU32 (clampI 0 bh y) = y := by
    rw [clampI_eq (by omega)]; simp only [asU32]; omega
  have e5 : asU32 (clampI 0 tw (satMulI64 x (-1))) = 0 := by
    rw [clampI_eq (by omega)]; simp only [asU32, satMulI64]; omega
  have e6 : asU32 (clampI 0 th (satMulI64 y (-1))) = 0 := by
    rw [clampI_eq (by omega)]; simp only [asU32, satMulI64]; omega
  simp only [e1, e2, e3, e4, e5, e6]
  rw [subC_ok (by omega), subC_ok (by omega)]
  simp only [ok_bind, overlayBounds, satAdd, satSub, Except.ok.injEq, OverlayBounds.mk.injEq, true_and]
  omega

example : overlayBoundsExt (10, 10) (2 ^ 32 - 1, 10) (10 - (2 ^ 32 - 1)) 0 =
    .ok ⟨0, 0, 2 ^ 32 - 1 - 10, 0, 10, 10⟩ := by rfl

/-! ## C12 -/

section
variable [GenericImage D P] [LawfulImage D P] [GenericImageView I P] [LawfulView I P]

/-- `replace` writes exactly the covered pixels, each with the corresponding top pixel. -/
theorem C12_replace (bottom : D) (top : I) (wb : WF bottom) (wt : WF top) (x y : Int)
    (hx : -2 ^ 63 ≤ x ∧ x < 2 ^ 63) (hy : -2 ^ 63 ≤ y ∧ y < 2 ^ 63) :
    ∃ d, replace bottom top x y = .ok d ∧ WF d ∧ dims d = dims bottom ∧
      ∀ a b, a < widthOf bottom → b < heightOf bottom →
        (Covered (dims top) x y a b →
          getPixel d a b = getPixel top (a - x).toNat (b - y).toNat) ∧
        (¬Covered (dims top) x y a b → getPixel d a b = getPixel bottom a b) := by
  have wb1 := width_lt wb
  have wb2 := height_lt wb
  have wt1 := width_lt wt
  have wt2 := height_lt wt
  obtain ⟨o, ho, hc, hm, r1, r2, r3, r4⟩ :=
    C11_overlay_bounds_ext (dims bottom) (dims top) x y wb1 wb2 wt1 wt2 hx hy
  obtain ⟨d', g1, g2, g3, g4, g5⟩ := copy_loop (w := o.rangeW) (h := o.rangeH)
    (body := fun x y bottom => do
      let p ← getPixel top (← addC 32 o.topX x) (← addC 32 o.topY y)
      putPixel bottom (← addC 32 o.bottomX x) (← addC 32 o.bottomY y) p) (d0 := bottom)
    (fun i k => getPixel top (o.topX + i) (o.topY + k)) (fun i k => (o.bottomX + i, o.bottomY + k)) wb
    (fun i k hi hk => get_ok wt (by show _ < (dims top).1; omega) (by show _ < (dims top).2; omega))
    (fun i k hi hk => ⟨by show _ < (dims bottom).1; simp only; omega, by
      show _ < (dims bottom).2; simp only; omega⟩)
    (fun i k i' k' _ _ _ _ h => by simp only [Prod.mk.injEq] at h; omega)
    (fun i k hi hk d _ _ p hp => by
      change (dims top).1 < _ at wt1
      change (dims top).2 < _ at wt2
      change (dims bottom).1 < _ at wb1
      change (dims bottom).2 < _ at wb2
      rw [addC_ok (by omega), addC_ok (by omega)]; simp only [ok_bind]
      rw [hp]; simp only [ok_bind]
      rw [addC_ok (by omega), addC_ok (by omega)]; simp only [ok_bind])
  refine ⟨d', by unfold replace; rw [ho]; exact g1, g2, g3, ?_⟩
  intro a b ha hb
  constructor
  · intro hcov
    have hin := (hc a b).2 ⟨ha, hb, hcov⟩
    have hmap := hm a b hin
    unfold OverlayBounds.Contains at hin
    have := g4 (a - o.bottomX) (b - o.bottomY) (by omega) (by omega)
    simp only at this
    rw [show o.bottomX + (a - o.bottomX) = a by omega,
      show o.bottomY + (b - o.bottomY) = b by omega] at this
    rw [this, ← hmap.1, ← hmap.2]; rfl
  · intro hcov
    apply g5 a b ha hb
    intro i k hi hk he
    simp only [Prod.mk.injEq] at he
    exact hcov ((hc a b).1 ⟨by omega, by omega, by omega, by omega⟩).2.2

/-- Effect of one `overlay`, as an update of the covered pixels. -/
theorem C12_overlay (blend : P → P → R P) (bl : P → P → P) (hbl : ∀ a b, blend a b = .ok (bl a b))
    (bottom : D) (top : I) (wb : WF bottom) (wt : WF top) (x y : Int)
    (hx : -2 ^ 63 ≤ x ∧ x < 2 ^ 63) (hy : -2 ^ 63 ≤ y ∧ y < 2 ^ 63) :
    ∃ d, overlay blend bottom top x y = .ok d ∧ WF d ∧ dims d = dims bottom ∧
      ∀ a b, a < widthOf bottom → b < heightOf bottom →
        (Covered (dims top) x y a b → ∀ p q, getPixel bottom a b = .ok p →
          getPixel top (a - x).toNat (b - y).toNat = .ok q → getPixel d a b = .ok (bl p q)) ∧
        (¬Covered (dims top) x y a b → getPixel d a b = getPixel bottom a b) := by
  have wb1 := width_lt wb
  have wb2 := height_lt wb
  have wt1 := width_lt wt
  have wt2 := height_lt wt
  obtain ⟨o, ho, hc, hm, r1, r2, r3, r4⟩ :=
    C11_overlay_bounds_ext (dims bottom) (dims top) x y wb1 wb2 wt1 wt2 hx hy
  change (dims top).1 < _ at wt1
  change (dims top).2 < _ at wt2
  change (dims bottom).1 < _ at wb1
  change (dims bottom).2 < _ at wb2
  have topOk : ∀ i k, i < o.rangeW → k < o.rangeH →
      ∃ q, getPixel top (o.topX + i) (o.topY + k) = .ok q := fun i k hi hk =>
    get_ok wt (by show _ < (dims top).1; omega) (by show _ < (dims top).2; omega)
  obtain ⟨d', g1, g2, g3, g4, g5⟩ := update_loop (w := o.rangeW) (h := o.rangeH)
    (body := fun x y bottom => do
      let p ← getPixel top (← addC 32 o.topX x) (← addC 32 o.topY y)
      let b ← getPixel bottom (← addC 32 o.bottomX x) (← addC 32 o.bottomY y)
      let b ← blend b p
      putPixel bottom (← addC 32 o.bottomX x) (← addC 32 o.bottomY y) b) (d0 := bottom)
    (fun i k => (o.bottomX + i, o.bottomY + k))
    (fun i k p => match getPixel top (o.topX + i) (o.topY + k) with
      | .ok q => bl p q
      | .error _ => p) wb
    (fun i k hi hk => ⟨by show _ < (dims bottom).1; simp only; omega, by
      show _ < (dims bottom).2; simp only; omega⟩)
    (fun i k i' k' _ _ _ _ h => by simp only [Prod.mk.injEq] at h; omega)
    (fun i k hi hk d hw hd p hp => by
      obtain ⟨q, hq⟩ := topOk i k hi hk
      simp only at hp
      obtain ⟨d', p1, p2, p3, p4, p5⟩ := put_ok (i := d) (x := o.bottomX + i) (y := o.bottomY + k)
        (bl p q) hw (by show _ < (dims d).1; rw [hd]; omega) (by show _ < (dims d).2; rw [hd]; omega)
      refine ⟨d', ?_, p2, p3, ?_, ?_⟩
      · rw [addC_ok (by omega), addC_ok (by omega)]; simp only [ok_bind]
        rw [hq]; simp only [ok_bind]
        rw [addC_ok (by omega), addC_ok (by omega)]; simp only [ok_bind]
        rw [hp]; simp only [ok_bind]
        rw [hbl]; simp only [ok_bind]
        exact p1
      · simp only [hq]; exact p4
      · intro a b ha hb hne
        exact p5 a b ha hb (fun h => hne (Prod.ext h.1 h.2)))
  refine ⟨d', by unfold overlay; rw [ho]; exact g1, g2, g3, ?_⟩
  intro a b ha hb
  constructor
  · intro hcov p q hp hq
    have hin := (hc a b).2 ⟨ha, hb, hcov⟩
    have hmap := hm a b hin
    unfold OverlayBounds.Contains at hin
    have := g4 (a - o.bottomX) (b - o.bottomY) p (by omega) (by omega)
    simp only at this
    rw [show o.bottomX + (a - o.bottomX) = a by omega,
      show o.bottomY + (b - o.bottomY) = b by omega] at this
    rw [this hp]
    rw [← hmap.1, ← hmap.2, Int.toNat_natCast, Int.toNat_natCast] at hq
    rw [hq]
  · intro hcov
    apply g5 a b ha hb
    intro i k hi hk he
    simp only [Prod.mk.injEq] at he
    exact hcov ((hc a b).1 ⟨by omega, by omega, by omega, by omega⟩).2.2

/-- Point `a` lies in step `i` of `(0..n).step_by(t)` exactly when `i = a / t`. -/
theorem step_cover {t a i : Nat} (ht : 0 < t) : (i * t ≤ a ∧ a < i * t + t) ↔ i = a / t := by
  constructor
  · rintro ⟨h1, h2⟩
    have h3 : i ≤ a / t := (Nat.le_div_iff_mul_le ht).2 h1
    have h4 : a / t < i + 1 := by rw [Nat.div_lt_iff_lt_mul ht, Nat.succ_mul]; exact h2
    omega
  · rintro rfl
    have := Nat.div_add_mod a t
    have := Nat.mod_lt a ht
    rw [Nat.mul_comm]; omega

theorem div_lt_stepCount {n t a : Nat} (ht : 0 < t) (ha : a < n) : a / t < stepCount n t := by
  unfold stepCount
  rw [Nat.lt_iff_add_one_le, Nat.le_div_iff_mul_le ht, Nat.succ_mul]
  have := Nat.div_mul_le_self a t
  omega

theorem stepCount_le {n t i : Nat} (ht : 0 < t) (hi : i < stepCount n t) : i * t < n := by
  unfold stepCount at hi
  rw [Nat.lt_iff_add_one_le, Nat.le_div_iff_mul_le ht, Nat.succ_mul] at hi
  omega

/-- `tile` blends every bottom pixel exactly once, with the top pixel at the coordinates modulo the
top size. -/
theorem C12_tile (blend : P → P → R P) (bl : P → P → P) (hbl : ∀ a b, blend a b = .ok (bl a b))
    (bottom : D) (top : I) (wb : WF bottom) (wt : WF top) (ht1 : 0 < widthOf top)
    (ht2 : 0 < heightOf top) :
    ∃ d, tile blend bottom top = .ok d ∧ WF d ∧ dims d = dims bottom ∧
      ∀ a b p q, a < widthOf bottom → b < heightOf bottom → getPixel bottom a b = .ok p →
        getPixel top (a % widthOf top) (b % heightOf top) = .ok q →
        getPixel d a b = .ok (bl p q) := by
  have wb1 := width_lt wb
  have wb2 := height_lt wb
  have e1 : (widthOf top != 0) = true := by simp; omega
  have e2 : (heightOf top != 0) = true := by simp; omega
  -- state after the blocks `i' < i`, and in block column `i` the rows `j' < j`
  let Inv : Nat → Nat → D → Prop := fun i j d =>
    WF d ∧ dims d = dims bottom ∧ ∀ a b, a < widthOf bottom → b < heightOf bottom →
      ((a / widthOf top < i ∨ (a / widthOf top = i ∧ b / heightOf top < j)) →
        ∀ p q, getPixel bottom a b = .ok p →
          getPixel top (a % widthOf top) (b % heightOf top) = .ok q → getPixel d a b = .ok (bl p q)) ∧
      (¬(a / widthOf top < i ∨ (a / widthOf top = i ∧ b / heightOf top < j)) →
        getPixel d a b = getPixel bottom a b)
  have step : ∀ i j, i < stepCount (widthOf bottom) (widthOf top) →
      j < stepCount (heightOf bottom) (heightOf top) → ∀ d, Inv i j d →
      ∃ d', overlay blend d top (i * widthOf top : Nat) (j * heightOf top : Nat) = .ok d' ∧
        Inv i (j + 1) d' := by
    intro i j hi hj d ⟨w1, w2, w3⟩
    have hi' := stepCount_le ht1 hi
    have hj' := stepCount_le ht2 hj
    obtain ⟨d', o1, o2, o3, o4⟩ := C12_overlay blend bl hbl d top w1 wt
      ((i * widthOf top : Nat) : Int) ((j * heightOf top : Nat) : Int) (by omega) (by omega)
    refine ⟨d', o1, o2, o3.trans w2, ?_⟩
    intro a b ha hb
    have hwd := widthOf_eq w2
    have hhd := heightOf_eq w2
    obtain ⟨c1, c2⟩ := o4 a b (by omega) (by omega)
    obtain ⟨v1, v2⟩ := w3 a b ha hb
    have hcov : Covered (dims top) ((i * widthOf top : Nat) : Int) ((j * heightOf top : Nat) : Int) a b ↔
        i = a / widthOf top ∧ j = b / heightOf top := by
      rw [← step_cover ht1, ← step_cover ht2]
      unfold Covered
      change _ ≤ _ ∧ _ < _ + ((widthOf top : Nat) : Int) ∧ _ ≤ _ ∧ _ < _ + ((heightOf top : Nat) : Int) ↔ _
      omega
    by_cases hcv : i = a / widthOf top ∧ j = b / heightOf top
    · constructor
      · intro _ p q hp hq
        apply c1 (hcov.2 hcv) p q
        · rw [v2 (by omega)]; exact hp
        · have m1 : (((a : Nat) : Int) - ((i * widthOf top : Nat) : Int)).toNat = a % widthOf top := by
            have := Nat.div_add_mod a (widthOf top)
            rw [← hcv.1, Nat.mul_comm] at this; omega
          have m2 : (((b : Nat) : Int) - ((j * heightOf top : Nat) : Int)).toNat = b % heightOf top := by
            have := Nat.div_add_mod b (heightOf top)
            rw [← hcv.2, Nat.mul_comm] at this; omega
          rw [m1, m2]; exact hq
      · intro hn; omega
    · rw [c2 (fun h => hcv (hcov.1 h))]
      constructor
      · intro h p q hp hq
        exact v1 (by omega) p q hp hq
      · intro h; exact v2 (by omega)
  have close : ∀ i d, Inv i (stepCount (heightOf bottom) (heightOf top)) d → Inv (i + 1) 0 d := by
    intro i d ⟨w1, w2, w3⟩
    refine ⟨w1, w2, fun a b ha hb => ?_⟩
    obtain ⟨v1, v2⟩ := w3 a b ha hb
    have hbj := div_lt_stepCount ht2 hb
    have := Nat.zero_le (b / heightOf top)
    constructor
    · intro h; exact v1 (by omega)
    · intro h; exact v2 (by omega)
  obtain ⟨d, h1, h2, h3, h4⟩ := forRange_inv (n := stepCount (widthOf bottom) (widthOf top))
    (f := fun i bottom' => forRange (stepCount (heightOf bottom') (heightOf top)) (fun j bottom'' =>
      overlay blend bottom'' top (i * widthOf top : Nat) (j * heightOf top : Nat)) bottom')
    (fun i d => Inv i 0 d) (s := bottom)
    ⟨wb, rfl, fun a b _ _ => ⟨fun h => by simp at h, fun _ => rfl⟩⟩ (by
      intro i hi d hd
      rw [heightOf_eq hd.2.1]
      obtain ⟨d', e1, e2⟩ := forRange_inv (fun j d => Inv i j d) hd (fun j hj d h => step i j hi hj d h)
      exact ⟨d', e1, close i d' e2⟩)
  refine ⟨d, ?_, h2, h3, ?_⟩
  · unfold tile
    rw [e1, e2]
    simp only [assertR_true, ok_bind]
    -- the inner loop bound does not change during the loop: it is evaluated on the current image
    exact h1
  · intro a b p q ha hb hp hq
    exact (h4 a b ha hb).1 (Or.inl (div_lt_stepCount ht1 ha)) p q hp hq
end

/-- `tile` with an empty top image panics (`step_by(0)`). -/
theorem C12_tile_empty_top [GenericImage D P] [GenericImageView I P] (blend : P → P → R P)
    (bottom : D) (top : I) (h : widthOf top = 0) : tile blend bottom top = .error .panic := by
  unfold tile; rw [h]; rfl

-- Non-vacuity: runs on concrete images, negative and partially overlapping offsets.
example : replace (⟨2, 2, [1, 2, 3, 4]⟩ : ImageBuffer Nat 1) (⟨2, 1, [8, 9]⟩ : ImageBuffer Nat 1) (-1) 1 =
  .ok ⟨2, 2, [1, 2, 9, 4]⟩ := by rfl
example : tile (fun a b => .ok (fun c => a c + b c)) (⟨3, 1, [1, 2, 3]⟩ : ImageBuffer Nat 1)
    (⟨2, 1, [10, 20]⟩ : ImageBuffer Nat 1) = .ok ⟨3, 1, [11, 22, 13]⟩ := by rfl

end Verif
