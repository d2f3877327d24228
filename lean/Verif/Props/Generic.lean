import Verif.Proofs.GenericOps
import Verif.Model.ImageOps

/-!
# Properties of the generic image operations (C05, C07 - C10)

`LawfulView` / `LawfulImage` is the contract of `GenericImageView` / `GenericImage` (dimensions are
`u32`, in-bounds reads and writes succeed, a write changes one pixel). It is proved for `ImageBuffer`
(`Proofs/Buffer.lean`) and for sub-images of lawful images (`Proofs/GenericOps.lean`), so every
theorem below applies to both.
-/

namespace Verif
open GenericImageView GenericImage LawfulView LawfulImage

variable {I D P : Type}

/-! ## C05 -/

/-- The claim of C05 for one image: for every large enough number of `next` calls, the iterator yields
`(x, y, pixel)` at position `y * width + x` for all in-bounds coordinates, and nothing else. -/
def C05_claim [GenericImageView I P] (img : I) : Prop :=
  ∀ fuel, widthOf img * heightOf img < fuel →
    ∃ items, ImageBuffer.drain (PixelsIter.next img) fuel (pixelsIter img) = .ok items ∧
      items.length = widthOf img * heightOf img ∧
      ∀ x y, x < widthOf img → y < heightOf img →
        ∃ p, items[y * widthOf img + x]? = some (x, y, p) ∧ getPixel img x y = .ok p

theorem drain_pixelsIter [GenericImageView I P] [LawfulView I P] {img : I} (wf : WF img)
    (hw : 0 < widthOf img) (rem : Nat) : ∀ (x y fuel : Nat), x ≤ widthOf img →
    y * widthOf img + x + rem = widthOf img * heightOf img → rem < fuel →
    ∃ items, ImageBuffer.drain (PixelsIter.next img) fuel ⟨x, y, widthOf img, heightOf img⟩ = .ok items ∧
      items.length = rem ∧
      ∀ k, k < rem → ∃ p, items[k]? = some ((y * widthOf img + x + k) % widthOf img,
          (y * widthOf img + x + k) / widthOf img, p) ∧
        getPixel img ((y * widthOf img + x + k) % widthOf img)
          ((y * widthOf img + x + k) / widthOf img) = .ok p := by
  have hw32 := width_lt wf
  have hh32 := height_lt wf
  generalize hW : widthOf img = W at *
  generalize hH : heightOf img = H at *
  induction rem with
  | zero =>
    intro x y fuel hx hn hf
    obtain ⟨n, rfl⟩ : ∃ n, fuel = n + 1 := ⟨fuel - 1, by omega⟩
    refine ⟨[], ?_, rfl, fun k hk => by omega⟩
    simp only [ImageBuffer.drain, PixelsIter.next]
    by_cases hxw : W ≤ x
    · have : x = W := by omega
      subst this
      have hyH : (y + 1) = H := by
        have : x * (y + 1) = x * H := by rw [Nat.mul_succ, Nat.mul_comm x y]; omega
        exact Nat.eq_of_mul_eq_mul_left hw this
      rw [if_pos (Nat.le_refl _), addC_ok (by omega)]
      simp only [ok_bind]
      rw [if_pos (by omega)]; rfl
    · have hyH : H ≤ y := by
        apply Nat.le_of_not_lt; intro hlt
        have := idx_lt (x := x) (y := y) (w := W) (h := H) (by omega) (by omega)
        omega
      rw [if_neg hxw]
      simp only [ok_bind]
      rw [if_pos hyH]; rfl
  | succ rem ih =>
    intro x y fuel hx hn hf
    obtain ⟨n, rfl⟩ : ∃ n, fuel = n + 1 := ⟨fuel - 1, by omega⟩
    -- one `next` call
    have hstep : ∃ x' y' p, x' < W ∧ y' * W + x' = y * W + x ∧ getPixel img x' y' = .ok p ∧
        PixelsIter.next img ⟨x, y, W, H⟩ = .ok (some (x', y', p), ⟨x' + 1, y', W, H⟩) := by
      have hin : ∀ x' y', x' < W → y' * W + x' = y * W + x → y' < H := by
        intro x' y' hx' he
        have : y' * W < H * W := by rw [Nat.mul_comm H]; omega
        exact Nat.lt_of_mul_lt_mul_right this
      simp only [PixelsIter.next]
      by_cases hxw : W ≤ x
      · have he : (y + 1) * W + 0 = y * W + x := by rw [Nat.succ_mul]; omega
        have hy' := hin 0 (y + 1) hw he
        obtain ⟨p, hp⟩ := get_ok wf (x := 0) (y := y + 1) (by omega) (by omega)
        refine ⟨0, y + 1, p, hw, he, hp, ?_⟩
        rw [if_pos hxw, addC_ok (by omega)]
        simp only [ok_bind]
        rw [if_neg (by omega), hp]; rfl
      · have hy' := hin x y (by omega) rfl
        obtain ⟨p, hp⟩ := get_ok wf (x := x) (y := y) (by omega) (by omega)
        refine ⟨x, y, p, by omega, rfl, hp, ?_⟩
        rw [if_neg hxw]
        simp only [ok_bind]
        rw [if_neg (by omega), hp]
        simp only [ok_bind]
        rw [addC_ok (by omega)]; rfl
    obtain ⟨x', y', p, hx', he, hp, hnext⟩ := hstep
    have hmod : (y * W + x) % W = x' := by
      rw [← he, Nat.add_comm, Nat.add_mul_mod_self_right, Nat.mod_eq_of_lt hx']
    have hdiv : (y * W + x) / W = y' := by
      rw [← he, Nat.add_comm, Nat.add_mul_div_right _ _ hw, Nat.div_eq_of_lt hx', Nat.zero_add]
    obtain ⟨items, e1, e2, e3⟩ := ih (x' + 1) y' n (by omega) (by omega) (by omega)
    refine ⟨(x', y', p) :: items, ?_, by simp [e2], ?_⟩
    · simp only [ImageBuffer.drain, hnext, ok_bind, e1]
    · intro k hk
      cases k with
      | zero => exact ⟨p, by simp [hmod, hdiv], by rw [Nat.add_zero, hmod, hdiv]; exact hp⟩
      | succ k =>
        obtain ⟨q, hq1, hq2⟩ := e3 k (by omega)
        have : y' * W + (x' + 1) + k = y * W + x + (k + 1) := by omega
        rw [this] at hq1 hq2
        exact ⟨q, by simpa using hq1, hq2⟩

/-- C05 for every view with at least one column (or at most one row). Missing from C05: width 0 with
height at least 2, where the claim is false (`C05_pixels_false`). -/
theorem C05_pixels_partial [GenericImageView I P] [LawfulView I P] (img : I) (wf : WF img)
    (hw : 0 < widthOf img ∨ heightOf img ≤ 1) : C05_claim img := by
  intro fuel hf
  by_cases h0 : widthOf img = 0
  · obtain ⟨n, rfl⟩ : ∃ n, fuel = n + 1 := ⟨fuel - 1, by omega⟩
    refine ⟨[], ?_, by simp [h0], fun x y hx => by omega⟩
    simp only [ImageBuffer.drain, PixelsIter.next, pixelsIter, h0, Nat.le_refl, if_true]
    rw [addC_ok (by omega)]
    simp only [ok_bind]
    rw [if_pos (by omega)]; rfl
  · have hw' : 0 < widthOf img := by omega
    obtain ⟨items, e1, e2, e3⟩ := drain_pixelsIter wf hw' (widthOf img * heightOf img) 0 0 fuel
      (by omega) (by omega) hf
    refine ⟨items, e1, e2, ?_⟩
    intro x y hx hy
    obtain ⟨p, hp1, hp2⟩ := e3 (y * widthOf img + x) (idx_lt hx hy)
    have hmod : (0 * widthOf img + 0 + (y * widthOf img + x)) % widthOf img = x := by
      rw [Nat.zero_mul, Nat.zero_add, Nat.add_comm, Nat.add_mul_mod_self_right,
        Nat.mod_eq_of_lt hx]
    have hdiv : (0 * widthOf img + 0 + (y * widthOf img + x)) / widthOf img = y := by
      rw [Nat.zero_mul, Nat.zero_add, Nat.add_comm, Nat.add_mul_div_right _ _ hw',
        Nat.div_eq_of_lt hx, Nat.zero_add]
    rw [hmod, hdiv] at hp1 hp2
    exact ⟨p, hp1, hp2⟩

/-- C05 is false of the code: on a `0 × 2` image the iterator reads pixel `(0, 1)` and panics. -/
theorem C05_pixels_false :
    ¬ ∀ img : ImageBuffer Nat 1, WF img → C05_claim img := by
  intro h
  obtain ⟨items, h1, -⟩ := h ⟨0, 2, []⟩ ⟨by decide, by decide, by decide, by decide⟩ 1 (by decide)
  have h2 : ImageBuffer.drain (PixelsIter.next (⟨0, 2, []⟩ : ImageBuffer Nat 1)) 1
      (pixelsIter (⟨0, 2, []⟩ : ImageBuffer Nat 1)) = .error .panic := rfl
  rw [h2] at h1; cases h1

example : C05_claim (⟨2, 1, [5, 6]⟩ : ImageBuffer Nat 1) :=
  C05_pixels_partial _ (ImageBuffer.Inv.mk (by decide) (by decide) (by decide) (by decide))
    (Or.inl (by decide))

/-! ## C07 -/

/-- The claim of C07. -/
def C07_claim [GenericImage D P] [GenericImageView I P] (dst : D) (src : I) (x y : Nat) : Prop :=
  if x + widthOf src ≤ widthOf dst ∧ y + heightOf src ≤ heightOf dst then
    ∃ dst', copyFrom dst src x y = .ok dst' ∧ dims dst' = dims dst ∧
      (∀ i k, i < widthOf src → k < heightOf src →
        getPixel dst' (x + i) (y + k) = getPixel src i k) ∧
      (∀ a b, a < widthOf dst → b < heightOf dst →
        ¬(x ≤ a ∧ a < x + widthOf src ∧ y ≤ b ∧ b < y + heightOf src) →
        getPixel dst' a b = getPixel dst a b)
  else copyFrom dst src x y = .error (.err .dimensionMismatch)

/-- C07 whenever `x + src.width` and `y + src.height` fit in `u32`. Missing: offsets for which the
sum overflows, where `copy_from` panics instead of returning an error (`C07_copy_from_false`). -/
theorem C07_copy_from_partial [GenericImage D P] [LawfulImage D P] [GenericImageView I P]
    [LawfulView I P] (dst : D) (src : I) (wd : WF dst) (ws : WF src) (x y : Nat)
    (hx : x + widthOf src < 2 ^ 32) (hy : y + heightOf src < 2 ^ 32) : C07_claim dst src x y := by
  have hcx : widthOf src + x = x + widthOf src := Nat.add_comm _ _
  have hcy : heightOf src + y = y + heightOf src := Nat.add_comm _ _
  unfold C07_claim
  split
  · rename_i hf
    obtain ⟨d', g1, g2, g3, g4, g5⟩ := copy_loop (w := widthOf src) (h := heightOf src)
      (body := fun i k dst => do
        let p ← getPixel src i k
        putPixel dst (← addC 32 i x) (← addC 32 k y) p) (d0 := dst)
      (fun i k => getPixel src i k) (fun i k => (x + i, y + k)) wd
      (fun i k hi hk => get_ok ws hi hk)
      (fun i k hi hk => ⟨by omega, by omega⟩)
      (fun i k i' k' _ _ _ _ h => by simp only [Prod.mk.injEq] at h; omega)
      (fun i k hi hk d _ _ p hp => by
        rw [hp]; simp only [ok_bind]
        rw [addC_ok (by omega), addC_ok (by omega)]; simp only [ok_bind]
        rw [Nat.add_comm i, Nat.add_comm k])
    refine ⟨d', ?_, g3, g4, ?_⟩
    · unfold copyFrom
      rw [addC_ok (by omega)]; simp only [ok_bind]
      rw [if_neg (by omega), addC_ok (by omega)]; simp only [ok_bind]
      rw [if_neg (by omega)]; exact g1
    · intro a b ha hb hn
      apply g5 a b ha hb
      intro i k hi hk h
      simp only [Prod.mk.injEq] at h
      omega
  · rename_i hf
    unfold copyFrom
    rw [addC_ok (by omega)]; simp only [ok_bind]
    split
    · rfl
    · rw [addC_ok (by omega)]; simp only [ok_bind]
      rw [if_pos (by omega)]; rfl

/-- Whatever the offsets, a `copy_from` that returns an error or an image behaves as claimed. In
particular no out-of-range write happens and a failure has no effect. -/
theorem C07_copy_from_no_panic_partial [GenericImage D P] [LawfulImage D P] [GenericImageView I P]
    [LawfulView I P] (dst : D) (src : I) (wd : WF dst) (ws : WF src) (x y : Nat)
    (hp : copyFrom dst src x y ≠ .error .panic) : C07_claim dst src x y := by
  by_cases hx : x + widthOf src < 2 ^ 32
  · by_cases hy : y + heightOf src < 2 ^ 32
    · exact C07_copy_from_partial dst src wd ws x y hx hy
    · have hd := height_lt wd
      unfold C07_claim
      rw [if_neg (by omega)]
      unfold copyFrom at hp ⊢
      rw [addC_ok (by omega)] at hp ⊢; simp only [ok_bind] at hp ⊢
      split
      · rfl
      · rename_i h
        rw [if_neg h] at hp
        rw [addC, if_neg (by omega)] at hp
        exact absurd rfl hp
  · exfalso; apply hp
    unfold copyFrom
    rw [addC, if_neg (by omega)]; rfl

/-- C07 is false of the code for offsets near `u32::MAX`: the bounds check itself overflows
(witness: a 1×1 image copied into a 1×1 image at `x = u32::MAX`). In a release build the sum wraps to
0, the check passes and `put_pixel` panics. -/
theorem C07_copy_from_false :
    ¬ ∀ (dst src : ImageBuffer Nat 1), WF dst → WF src → ∀ x y, x < 2 ^ 32 → y < 2 ^ 32 →
      C07_claim dst src x y := by
  intro h
  have h1 := h ⟨1, 1, [7]⟩ ⟨1, 1, [9]⟩ ⟨by decide, by decide, by decide, by decide⟩
    ⟨by decide, by decide, by decide, by decide⟩ (2 ^ 32 - 1) 0 (by decide) (by decide)
  unfold C07_claim at h1
  rw [if_neg (by simp [widthOf, dims])] at h1
  have h2 : copyFrom (⟨1, 1, [7]⟩ : ImageBuffer Nat 1) (⟨1, 1, [9]⟩ : ImageBuffer Nat 1)
      (2 ^ 32 - 1) 0 = .error .panic := rfl
  rw [h2] at h1; cases h1

example : C07_claim (⟨3, 1, [1, 2, 3]⟩ : ImageBuffer Nat 1) (⟨2, 1, [8, 9]⟩ : ImageBuffer Nat 1) 1 0 :=
  C07_copy_from_partial _ _ (ImageBuffer.Inv.mk (by decide) (by decide) (by decide) (by decide))
    (ImageBuffer.Inv.mk (by decide) (by decide) (by decide) (by decide)) 1 0 (by decide) (by decide)
example : copyFrom (⟨3, 1, [1, 2, 3]⟩ : ImageBuffer Nat 1) (⟨2, 1, [8, 9]⟩ : ImageBuffer Nat 1) 1 0 =
  .ok ⟨3, 1, [1, 8, 9]⟩ := rfl

/-! ## C08 -/

/-- `d'` is `d` after moving the `w × h` rectangle at `(sx, sy)` to `(dx, dy)`. -/
def Moved [GenericImageView D P] (d d' : D) (sx sy w h dx dy : Nat) : Prop :=
  dims d' = dims d ∧
  (∀ i k, i < w → k < h → getPixel d' (dx + i) (dy + k) = getPixel d (sx + i) (sy + k)) ∧
  (∀ a b, a < widthOf d → b < heightOf d →
    ¬(dx ≤ a ∧ a < dx + w ∧ dy ≤ b ∧ b < dy + h) → getPixel d' a b = getPixel d a b)

/-- Both rectangles lie inside the image. -/
def BothFit [GenericImageView D P] (d : D) (sx sy w h dx dy : Nat) : Prop :=
  sx + w ≤ widthOf d ∧ dx + w ≤ widthOf d ∧ sy + h ≤ heightOf d ∧ dy + h ≤ heightOf d

/-- The generic `copy_within` moves exactly when both rectangles fit, for every overlap. -/
theorem C08_copy_within_generic [GenericImage D P] [LawfulImage D P] (d : D) (wf : WF d)
    (sx sy w h dx dy : Nat) (h1 : sx < widthOf d) (h2 : dx < widthOf d) (h3 : sy < heightOf d)
    (h4 : dy < heightOf d) :
    (BothFit d sx sy w h dx dy →
      ∃ d', copyWithin d sx sy w h dx dy = .ok (true, d') ∧ WF d' ∧ Moved d d' sx sy w h dx dy) ∧
    (¬BothFit d sx sy w h dx dy → copyWithin d sx sy w h dx dy = .ok (false, d)) := by
  have hs := copyWithin_spec wf (w := w) (h := h) h1 h2 h3 h4
  constructor
  · intro hf
    unfold BothFit at hf
    rw [if_pos hf] at hs
    obtain ⟨d', e1, e2, e3, e4, e5⟩ := hs
    exact ⟨d', e1, e2, e3, e4, e5⟩
  · intro hf
    unfold BothFit at hf
    rw [if_neg hf] at hs
    exact hs

/-- A corner outside the image panics (generic version). -/
theorem C08_copy_within_generic_corner [GenericImage D P] (d : D) (sx sy w h dx dy : Nat)
    (hc : widthOf d ≤ sx ∨ widthOf d ≤ dx ∨ heightOf d ≤ sy ∨ heightOf d ≤ dy) :
    copyWithin d sx sy w h dx dy = .error .panic := by
  unfold copyWithin
  by_cases h1 : sx < widthOf d ∧ dx < widthOf d
  · have h2 : ¬(sy < heightOf d ∧ dy < heightOf d) := by omega
    simp only [h1.1, h1.2, decide_true, Bool.and_self, assertR_true, ok_bind]
    have : (decide (sy < heightOf d) && decide (dy < heightOf d)) = false := by
      simp only [Bool.and_eq_false_iff, decide_eq_false_iff_not]; omega
    rw [this]; rfl
  · have : (decide (sx < widthOf d) && decide (dx < widthOf d)) = false := by
      simp only [Bool.and_eq_false_iff, decide_eq_false_iff_not]; omega
    rw [this]; rfl

/-- The specialised `ImageBuffer::copy_within` has the same effect, unless the source rectangle has
width 0 and starts at column 0 (see `C08_copy_within_buffer_false`). -/
theorem C08_copy_within_buffer_partial {α : Type} {ch : Nat} (b : ImageBuffer α ch) (hb : b.Inv)
    (sx sy w h dx dy : Nat) (h0 : 0 < sx + w) (h1 : sx < b.width) (h2 : dx < b.width)
    (h3 : sy < b.height) (h4 : dy < b.height) :
    (BothFit b sx sy w h dx dy →
      ∃ b', b.copyWithin sx sy w h dx dy = .ok (true, b') ∧ b'.Inv ∧ Moved b b' sx sy w h dx dy) ∧
    (¬BothFit b sx sy w h dx dy → b.copyWithin sx sy w h dx dy = .ok (false, b)) := by
  have hs := ImageBuffer.copyWithin_spec hb (w := w) (h := h) h0 h1 h2 h3 h4
  constructor
  · intro hf
    unfold BothFit at hf; change _ ≤ b.width ∧ _ ≤ b.width ∧ _ ≤ b.height ∧ _ ≤ b.height at hf
    rw [if_pos hf] at hs
    obtain ⟨d', e1, e2, e3, e4, _, e5, e6⟩ := hs
    exact ⟨d', e1, e2, by simp [dims, e3, e4], e5, e6⟩
  · intro hf
    unfold BothFit at hf; change ¬(_ ≤ b.width ∧ _ ≤ b.width ∧ _ ≤ b.height ∧ _ ≤ b.height) at hf
    rw [if_neg hf] at hs
    exact hs

/-- The two implementations disagree on an empty source rectangle at column 0: the specialised one
panics (`sx + width - 1` underflows), the generic one returns `true`. -/
theorem C08_copy_within_buffer_false :
    ¬ ∀ (b : ImageBuffer Nat 1), b.Inv → ∀ sx sy w h dx dy, sx < b.width → dx < b.width →
      sy < b.height → dy < b.height → BothFit b sx sy w h dx dy →
      ∃ b', b.copyWithin sx sy w h dx dy = .ok (true, b') := by
  intro hall
  obtain ⟨b', h1⟩ := hall ⟨1, 1, [7]⟩ ⟨by decide, by decide, by decide, by decide⟩ 0 0 0 1 0 0
    (by decide) (by decide) (by decide) (by decide)
    ⟨by simp [widthOf, dims], by simp [widthOf, dims], by simp [heightOf, dims], by simp [heightOf, dims]⟩
  have h2 : (⟨1, 1, [7]⟩ : ImageBuffer Nat 1).copyWithin 0 0 0 1 0 0 = .error .panic := rfl
  rw [h2] at h1; cases h1

/-- The two implementations agree pixel by pixel wherever both are defined. -/
theorem C08_implementations_agree_partial {α : Type} {ch : Nat} (b : ImageBuffer α ch) (hb : b.Inv)
    (sx sy w h dx dy : Nat) (h0 : 0 < sx + w) (h1 : sx < b.width) (h2 : dx < b.width)
    (h3 : sy < b.height) (h4 : dy < b.height) (hf : BothFit b sx sy w h dx dy) :
    ∃ b1 b2, copyWithin b sx sy w h dx dy = .ok (true, b1) ∧
      b.copyWithin sx sy w h dx dy = .ok (true, b2) ∧
      ∀ u v, u < b.width → v < b.height → b1.getPixel u v = b2.getPixel u v := by
  obtain ⟨b1, e1, _, _, m1, r1⟩ := (C08_copy_within_generic b hb sx sy w h dx dy h1 h2 h3 h4).1 hf
  obtain ⟨b2, e2, _, _, m2, r2⟩ := (C08_copy_within_buffer_partial b hb sx sy w h dx dy h0 h1 h2 h3 h4).1 hf
  refine ⟨b1, b2, e1, e2, ?_⟩
  intro u v hu hv
  by_cases hin : dx ≤ u ∧ u < dx + w ∧ dy ≤ v ∧ v < dy + h
  · have q1 := m1 (u - dx) (v - dy) (by omega) (by omega)
    have q2 := m2 (u - dx) (v - dy) (by omega) (by omega)
    rw [show dx + (u - dx) = u by omega, show dy + (v - dy) = v by omega] at q1 q2
    exact q1.trans q2.symm
  · exact (r1 u v hu hv hin).trans (r2 u v hu hv hin).symm

-- Non-vacuity: an overlapping move on a concrete 3×1 image, run in both models.
example : (⟨3, 1, [1, 2, 3]⟩ : ImageBuffer Nat 1).copyWithin 0 0 2 1 1 0 = .ok (true, ⟨3, 1, [1, 1, 2]⟩) :=
  rfl
example : copyWithin (⟨3, 1, [1, 2, 3]⟩ : ImageBuffer Nat 1) 0 0 2 1 1 0 = .ok (true, ⟨3, 1, [1, 1, 2]⟩) :=
  rfl

/-! ## C09 -/

/-- `view`/`sub_image` panic exactly when the rectangle is not inside the image; otherwise pixel
`(i, j)` of the view is pixel `(x+i, y+j)` of the image. -/
theorem C09_view [GenericImageView I P] [LawfulView I P] (img : I) (wf : WF img) (x y w h : Nat) :
    if x + w ≤ widthOf img ∧ y + h ≤ heightOf img then
      ∃ v, view img x y w h = .ok v ∧ WF v ∧ dims v = (w, h) ∧ v.image = img ∧
        ∀ i j, i < w → j < h → getPixel v i j = getPixel img (x + i) (y + j)
    else view img x y w h = .error .panic := by
  split
  · rename_i hf
    refine ⟨⟨img, x, y, w, h⟩, ?_, ⟨wf, hf.1, hf.2⟩, rfl, rfl, ?_⟩
    · unfold view; simp [hf.1, hf.2]
    · intro i j hi hj
      exact SubImage.getPixel_eq (s := ⟨img, x, y, w, h⟩) ⟨wf, hf.1, hf.2⟩ hi hj
  · rename_i hf
    unfold view
    by_cases h1 : x + w ≤ widthOf img
    · have h2 : ¬ y + h ≤ heightOf img := fun h2 => hf ⟨h1, h2⟩
      simp only [h1, h2, decide_true, decide_false, assertR_true, ok_bind]; rfl
    · simp only [h1, decide_false]; rfl

/-- A view of a view is the view at the summed offsets (same object, so same pixels), and is inside. -/
theorem C09_view_compose [GenericImageView I P] [LawfulView I P] (img : I) (wf : WF img)
    (x y w h x' y' w' h' : Nat) (hf : x + w ≤ widthOf img ∧ y + h ≤ heightOf img) :
    if x' + w' ≤ w ∧ y' + h' ≤ h then
      (view img x y w h >>= fun v => v.view x' y' w' h') = view img (x + x') (y + y') w' h'
    else (view img x y w h >>= fun v => v.view x' y' w' h') = .error .panic := by
  have hw := width_lt wf
  have hh := height_lt wf
  have h1 : view img x y w h = .ok ⟨img, x, y, w, h⟩ := by unfold view; simp [hf.1, hf.2]
  rw [h1]; simp only [ok_bind]
  split
  · rename_i hg
    have e1 : satAdd 32 x x' = x + x' := by unfold satAdd; omega
    have e2 : satAdd 32 y y' = y + y' := by unfold satAdd; omega
    have g1 : x + x' + w' ≤ widthOf img := by omega
    have g2 : y + y' + h' ≤ heightOf img := by omega
    unfold SubImage.view view
    simp [hg.1, hg.2, e1, e2, g1, g2]
  · rename_i hg
    unfold SubImage.view
    by_cases h1 : x' + w' ≤ w
    · have h2 : ¬ y' + h' ≤ h := fun h2 => hg ⟨h1, h2⟩
      simp only [h1, h2, decide_true, decide_false, assertR_true, ok_bind]; rfl
    · simp only [h1, decide_false]; rfl

/-- `put_pixel` through a sub-image changes exactly one pixel of the parent. -/
theorem C09_sub_image_put [GenericImage D P] [LawfulImage D P] (s : SubImage D) (wf : WF s)
    (i j : Nat) (hi : i < s.xstride) (hj : j < s.ystride) (p : P) :
    ∃ s', putPixel s i j p = .ok s' ∧ WF s' ∧ dims s'.image = dims s.image ∧ dims s' = dims s ∧
      getPixel s' i j = .ok p ∧
      getPixel s'.image (s.xoffset + i) (s.yoffset + j) = .ok p ∧
      ∀ a b, a < widthOf s.image → b < heightOf s.image →
        ¬(a = s.xoffset + i ∧ b = s.yoffset + j) → getPixel s'.image a b = getPixel s.image a b := by
  obtain ⟨s', h1, h2, h3, h4, h5, h6, h7, h8, h9⟩ := SubImage.put_spec wf hi hj p
  refine ⟨s', h1, h2, h7, ?_, ?_, h8, h9⟩
  · show (s'.xstride, s'.ystride) = (s.xstride, s.ystride); rw [h5, h6]
  · rw [SubImage.getPixel_eq h2 (by omega) (by omega), h3, h4]; exact h8

/-- `to_image` copies exactly the rectangle into a tight buffer of the view's size. -/
theorem C09_to_image {α : Type} {ch : Nat} [GenericImageView I (Pix α ch)] [LawfulView I (Pix α ch)]
    (z : α) (s : SubImage I) (wf : WF s) (hc : ch < 256) (hs : s.xstride * s.ystride * ch < 2 ^ 64) :
    ∃ out, s.toImage z = .ok out ∧ out.Inv ∧ out.width = s.xstride ∧ out.height = s.ystride ∧
      ∀ i j, i < s.xstride → j < s.ystride →
        out.getPixel i j = getPixel s.image (s.xoffset + i) (s.yoffset + j) := by
  have hw := width_lt wf.1
  have hh := height_lt wf.1
  have h1 := wf.2
  have hi : (⟨s.xstride, s.ystride, List.replicate (s.xstride * s.ystride * ch) z⟩ :
    ImageBuffer α ch).Inv := ImageBuffer.new_inv (by omega) (by omega) hs
  obtain ⟨d', g1, g2, g3, g4, g5⟩ := copy_loop (w := s.xstride) (h := s.ystride)
    (D := ImageBuffer α ch)
    (body := fun x y out => do
      let p ← getPixel s.image (← addC 32 x s.xoffset) (← addC 32 y s.yoffset)
      putPixel out x y p)
    (fun i k => getPixel s.image (s.xoffset + i) (s.yoffset + k)) (fun i k => (i, k)) hi
    (fun i k hi hk => get_ok wf.1 (by omega) (by omega))
    (fun i k hi hk => ⟨hi, hk⟩)
    (fun i k i' k' _ _ _ _ h => by simpa using h)
    (fun i k hi hk d _ _ p hp => by
      rw [addC_ok (by omega), addC_ok (by omega)]; simp only [ok_bind]
      rw [Nat.add_comm i, Nat.add_comm k, hp]; rfl)
  refine ⟨d', ?_, g2, ?_, ?_, fun i j hi hj => g4 i j hi hj⟩
  · unfold SubImage.toImage
    rw [ImageBuffer.new_ok hc (by omega) hs]
    exact g1
  · have := congrArg Prod.fst g3; exact this
  · have := congrArg Prod.snd g3; exact this

example : WF (⟨⟨2, 2, [1, 2, 3, 4]⟩, 1, 0, 1, 2⟩ : SubImage (ImageBuffer Nat 1)) :=
  ⟨⟨by decide, by decide, by decide, by decide⟩, by decide, by decide⟩
example : (⟨⟨2, 2, [1, 2, 3, 4]⟩, 1, 0, 1, 2⟩ : SubImage (ImageBuffer Nat 1)).toImage 0 =
  .ok (⟨1, 2, [2, 4]⟩ : ImageBuffer Nat 1) := rfl

/-! ## C10 -/

/-- `crop`/`crop_imm` never panics; the result is a view inside the image, of the size of the
intersection of the requested rectangle with the image, with the translated pixels. -/
theorem C10_crop [GenericImageView I P] [LawfulView I P] (img : I) (wf : WF img) (x y w h : Nat) :
    ∃ v, cropImm img x y w h = .ok v ∧ WF v ∧ v.image = img ∧
      v.xstride = min w (widthOf img - x) ∧ v.ystride = min h (heightOf img - y) ∧
      -- the sub-image consists exactly of the image pixels inside the requested rectangle
      (∀ a b, (v.xoffset ≤ a ∧ a < v.xoffset + v.xstride ∧ v.yoffset ≤ b ∧ b < v.yoffset + v.ystride) ↔
        (x ≤ a ∧ a < x + w ∧ a < widthOf img) ∧ (y ≤ b ∧ b < y + h ∧ b < heightOf img)) ∧
      (∀ i j, i < v.xstride → j < v.ystride → getPixel v i j = getPixel img (x + i) (y + j)) := by
  have hwf : WF (⟨img, min x (widthOf img), min y (heightOf img),
      min w (widthOf img - min x (widthOf img)), min h (heightOf img - min y (heightOf img))⟩ :
      SubImage I) := by
    refine ⟨wf, ?_, ?_⟩
    · show min x (widthOf img) + min w (widthOf img - min x (widthOf img)) ≤ widthOf img; omega
    · show min y (heightOf img) + min h (heightOf img - min y (heightOf img)) ≤ heightOf img; omega
  refine ⟨_, ?_, hwf, rfl, by dsimp only; omega, by dsimp only; omega, ?_, ?_⟩
  · unfold cropImm cropDimms
    dsimp only
    rw [subC_ok (by omega), subC_ok (by omega)]; rfl
  · intro a b; simp only; omega
  · intro i j hi hj
    rw [SubImage.getPixel_eq hwf hi hj]
    simp only at hi hj ⊢
    congr 1 <;> omega

example : WF (⟨2, 2, [1, 2, 3, 4]⟩ : ImageBuffer Nat 1) := ⟨by decide, by decide, by decide, by decide⟩

end Verif
