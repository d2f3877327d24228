import Verif.Model.Flat
import Verif.Proofs.Buffer

/-!
# Flat sample buffers (C22 - C26)
-/

namespace Verif
open GenericImageView GenericImage LawfulView LawfulImage

namespace SampleLayout

/-- The field types: `u8` channels, `u32` extents, `usize` strides. -/
structure Typed (l : SampleLayout) : Prop where
  c8 : l.channels < 2 ^ 8
  w32 : l.width < 2 ^ 32
  h32 : l.height < 2 ^ 32
  cs : l.channelStride < 2 ^ 64
  ws : l.widthStride < 2 ^ 64
  hs : l.heightStride < 2 ^ 64

/-- `(c, x, y)` is a sample of the image. -/
def Inside (l : SampleLayout) (c x y : Nat) : Prop := c < l.channels ∧ x < l.width ∧ y < l.height

/-- The documented position of a sample: the sum of coordinates times strides, as an unbounded number. -/
def pos (l : SampleLayout) (c x y : Nat) : Nat :=
  c * l.channelStride + x * l.widthStride + y * l.heightStride

theorem inBounds_iff {l : SampleLayout} {c x y : Nat} : l.inBounds c x y = true ↔ l.Inside c x y := by
  simp [inBounds, Inside, and_assoc]

theorem indexIgnoringBounds_eq (l : SampleLayout) (c x y : Nat) :
    l.indexIgnoringBounds c x y = if l.pos c x y < 2 ^ 64 then some (l.pos c x y) else none := by
  unfold indexIgnoringBounds checkedMul checkedAdd pos
  have h1 : ∀ a b c : Nat, ¬ a < 2 ^ 64 → ¬ a + b + c < 2 ^ 64 := by omega
  by_cases hc : c * l.channelStride < 2 ^ 64
  · by_cases hx : x * l.widthStride < 2 ^ 64
    · by_cases hy : y * l.heightStride < 2 ^ 64
      · by_cases hcx : c * l.channelStride + x * l.widthStride < 2 ^ 64
        · simp [hc, hx, hy, hcx]
        · simp [hc, hx, hy, hcx]; omega
      · simp [hc, hx, hy]; omega
    · simp [hc, hx]; omega
  · simp [hc]; omega

theorem index_eq {l : SampleLayout} {c x y : Nat} (h : l.Inside c x y) :
    l.index c x y = if l.pos c x y < 2 ^ 64 then some (l.pos c x y) else none := by
  unfold index; rw [if_pos (inBounds_iff.2 h), indexIgnoringBounds_eq]

theorem inBoundsIndex_eq (l : SampleLayout) (c x y : Nat) (h : l.pos c x y < 2 ^ 64) :
    l.inBoundsIndex c x y = .ok (l.pos c x y) := by
  unfold pos at h
  unfold inBoundsIndex pos
  rw [mulC_ok (by omega), ok_bind, mulC_ok (by omega), ok_bind, addC_ok (by omega), ok_bind,
    mulC_ok (by omega), ok_bind, addC_ok (by omega)]
  congr 1; omega

theorem pos_mono {l : SampleLayout} {c x y c' x' y' : Nat} (hc : c ≤ c') (hx : x ≤ x') (hy : y ≤ y') :
    l.pos c x y ≤ l.pos c' x' y' := by
  unfold pos
  have := Nat.mul_le_mul_right l.channelStride hc
  have := Nat.mul_le_mul_right l.widthStride hx
  have := Nat.mul_le_mul_right l.heightStride hy
  omega

end SampleLayout
open SampleLayout

/-! ## C22 -/

/-- `min_length` is one more than the position of the last sample (0 for an image without samples), or
`None` when that does not fit `usize`. -/
theorem C22_min_length (l : SampleLayout) : l.minLength =
    if l.channels = 0 ∨ l.width = 0 ∨ l.height = 0 then some 0
    else if l.pos (l.channels - 1) (l.width - 1) (l.height - 1) + 1 < 2 ^ 64 then
      some (l.pos (l.channels - 1) (l.width - 1) (l.height - 1) + 1)
    else none := by
  unfold minLength
  by_cases h : l.channels = 0 ∨ l.width = 0 ∨ l.height = 0
  · rw [if_pos h, if_pos (by omega)]
  · rw [if_neg h, if_neg (by omega), index_eq ⟨by omega, by omega, by omega⟩]
    by_cases h1 : l.pos (l.channels - 1) (l.width - 1) (l.height - 1) < 2 ^ 64
    · rw [if_pos h1]; rfl
    · rw [if_neg h1, if_neg (by omega)]; rfl

/-- When the layout fits a buffer, every sample of the image lies inside the buffer, `index` and
`in_bounds_index` compute its position without overflow; coordinates outside give `None`. -/
theorem C22_fits (l : SampleLayout) (len : Nat) (hf : l.fits len = true) (c x y : Nat) :
    (l.Inside c x y → l.pos c x y < len ∧ l.pos c x y < 2 ^ 64 ∧
      l.index c x y = some (l.pos c x y) ∧ l.inBoundsIndex c x y = .ok (l.pos c x y)) ∧
    (¬ l.Inside c x y → l.index c x y = none) := by
  constructor
  · intro hi
    unfold fits at hf
    rw [C22_min_length, if_neg (by unfold Inside at hi; omega)] at hf
    have hm := pos_mono (l := l) (Nat.le_sub_one_of_lt hi.1) (Nat.le_sub_one_of_lt hi.2.1)
      (Nat.le_sub_one_of_lt hi.2.2)
    split at hf
    · rename_i m heq
      split at heq
      · cases heq
        have := of_decide_eq_true hf
        refine ⟨by omega, by omega, ?_, inBoundsIndex_eq l c x y (by omega)⟩
        rw [index_eq hi, if_pos (by omega)]
      · cases heq
    · cases hf
  · intro hi
    unfold index
    rw [if_neg (by rw [inBounds_iff]; exact hi)]

/-- `min_length` is the least length that fits: a layout fits exactly the lengths from `min_length` on, and
the last element is really used. -/
theorem C22_min_length_least (l : SampleLayout) (n : Nat) (h : l.minLength = some n) :
    (∀ len, l.fits len = true ↔ n ≤ len) ∧
    (n = 0 ∨ ∃ c x y, l.Inside c x y ∧ l.index c x y = some (n - 1)) := by
  refine ⟨fun len => by simp [fits, h], ?_⟩
  rw [C22_min_length] at h
  split at h
  · cases h; exact .inl rfl
  · split at h
    · cases h
      refine .inr ⟨l.channels - 1, l.width - 1, l.height - 1, ⟨by omega, by omega, by omega⟩, ?_⟩
      rw [index_eq ⟨by omega, by omega, by omega⟩, if_pos (by omega)]
      congr 1
    · cases h

/-- `None` is returned exactly when the image has a sample and its last position is `usize::MAX` or more. -/
theorem C22_none_iff (l : SampleLayout) : l.minLength = none ↔
    ∃ c x y, l.Inside c x y ∧ 2 ^ 64 ≤ l.pos c x y + 1 := by
  rw [C22_min_length]
  constructor
  · intro h
    split at h
    · cases h
    · split at h
      · cases h
      · exact ⟨l.channels - 1, l.width - 1, l.height - 1, ⟨by omega, by omega, by omega⟩, by omega⟩
  · rintro ⟨c, x, y, hi, h⟩
    have hm := pos_mono (l := l) (Nat.le_sub_one_of_lt hi.1) (Nat.le_sub_one_of_lt hi.2.1)
      (Nat.le_sub_one_of_lt hi.2.2)
    unfold Inside at hi
    rw [if_neg (by omega), if_neg (by omega)]

example : (⟨3, 1, 4, 3, 2, 16⟩ : SampleLayout).fits 28 = true ∧
    (⟨3, 1, 4, 3, 2, 16⟩ : SampleLayout).fits 27 = false := by decide

/-! ## C23 -/

namespace SampleLayout

/-- A dimension with several positions but stride 0: all positions are the same element. -/
def ZeroStride (l : SampleLayout) : Prop :=
  (l.channelStride = 0 ∧ 2 ≤ l.channels) ∨ (l.widthStride = 0 ∧ 2 ≤ l.width) ∨
  (l.heightStride = 0 ∧ 2 ≤ l.height)

/-- Different samples of the image have different positions. -/
def Unaliased (l : SampleLayout) : Prop :=
  ∀ c x y c' x' y', l.Inside c x y → l.Inside c' x' y' → l.pos c x y = l.pos c' x' y' →
    c = c' ∧ x = x' ∧ y = y'

/-- The three dimensions, in the order of `(stride, extent)`. -/
theorem increasingStrideDims_ok (l : SampleLayout) :
    let C : Dim := ⟨l.channelStride, l.channels⟩
    let W : Dim := ⟨l.widthStride, l.width⟩
    let H : Dim := ⟨l.heightStride, l.height⟩
    ∃ a b c, l.increasingStrideDims = .ok (a, b, c) ∧ a.le b = true ∧ b.le c = true ∧
      ((a = C ∧ b = W ∧ c = H) ∨ (a = C ∧ b = H ∧ c = W) ∨ (a = W ∧ b = C ∧ c = H) ∨
       (a = W ∧ b = H ∧ c = C) ∨ (a = H ∧ b = C ∧ c = W) ∨ (a = H ∧ b = W ∧ c = C)) := by
  intro C W H
  have tot : ∀ {a b : Dim}, ¬ a.le b = true → b.le a = true := by
    intro a b h; simp only [Dim.le, decide_eq_true_eq] at h ⊢; omega
  have str : ∀ {a b : Dim}, a.le b = true → a.stride ≤ b.stride := by
    intro a b h; simp only [Dim.le, decide_eq_true_eq] at h; omega
  have fin : ∀ a b c : Dim, Dim.insert C (Dim.insert W (Dim.insert H [])) = [a, b, c] →
      a.le b = true → b.le c = true → l.increasingStrideDims = .ok (a, b, c) := by
    intro a b c h0 h1 h2
    have := str h1; have := str h2
    unfold increasingStrideDims
    rw [show Dim.insert ⟨l.channelStride, l.channels⟩ (Dim.insert ⟨l.widthStride, l.width⟩
      (Dim.insert ⟨l.heightStride, l.height⟩ [])) = [a, b, c] from h0]
    simp [*]
  by_cases h1 : W.le H = true
  · by_cases h2 : C.le W = true
    · exact ⟨C, W, H, fin _ _ _ (by simp [Dim.insert, h1, h2]) h2 h1, h2, h1, by simp⟩
    · by_cases h3 : C.le H = true
      · exact ⟨W, C, H, fin _ _ _ (by simp [Dim.insert, h1, h2, h3]) (tot h2) h3,
          tot h2, h3, by simp⟩
      · exact ⟨W, H, C, fin _ _ _ (by simp [Dim.insert, h1, h2, h3]) h1 (tot h3),
          h1, tot h3, by simp⟩
  · by_cases h2 : C.le H = true
    · exact ⟨C, H, W, fin _ _ _ (by simp [Dim.insert, h1, h2]) h2 (tot h1), h2, tot h1,
        by simp⟩
    · by_cases h3 : C.le W = true
      · exact ⟨H, C, W, fin _ _ _ (by simp [Dim.insert, h1, h2, h3]) (tot h2) h3,
          tot h2, h3, by simp⟩
      · exact ⟨H, W, C, fin _ _ _ (by simp [Dim.insert, h1, h2, h3]) (tot h1) (tot h3),
          tot h1, tot h3, by simp⟩

theorem hasAliasedSamples_eq {l : SampleLayout} {a b c : Dim} (h : l.increasingStrideDims = .ok (a, b, c)) :
    ∃ r, l.hasAliasedSamples = .ok r ∧ (r = false ↔
      a.stride * a.extent < 2 ^ 64 ∧ b.stride * b.extent < 2 ^ 64 ∧ c.stride * c.extent < 2 ^ 64 ∧
      a.stride * a.extent ≤ b.stride ∧ b.stride * b.extent ≤ c.stride) := by
  unfold hasAliasedSamples
  rw [h]
  simp only [ok_bind, Dim.checkedLen, checkedMul]
  by_cases h1 : a.stride * a.extent < 2 ^ 64
  · by_cases h2 : b.stride * b.extent < 2 ^ 64
    · by_cases h3 : c.stride * c.extent < 2 ^ 64
      · refine ⟨_, by simp only [h1, h2, h3, if_true]; rfl, ?_⟩
        simp [Nat.not_lt]; omega
      · exact ⟨true, by simp only [h1, h2, h3, if_true, if_false], by simp; omega⟩
    · exact ⟨true, by simp only [h1, h2, if_true, if_false], by simp; omega⟩
  · exact ⟨true, by simp only [h1, if_false], by simp; omega⟩

theorem mul_lt_step {s e u v : Nat} (hv : v < e) (huv : u < v) : u * s + s ≤ v * s ∧ v * s + s ≤ s * e := by
  have h1 := Nat.mul_le_mul_right s (Nat.succ_le_of_lt huv)
  have h2 := Nat.mul_le_mul_right s (Nat.succ_le_of_lt hv)
  rw [Nat.succ_mul] at h1 h2
  rw [Nat.mul_comm s e]
  exact ⟨h1, h2⟩

theorem le_step {s e u : Nat} (hu : u < e) : u * s + s ≤ s * e := by
  have h2 := Nat.mul_le_mul_right s (Nat.succ_le_of_lt hu)
  rw [Nat.succ_mul] at h2
  rw [Nat.mul_comm s e]; exact h2

/-- Mixed-radix numbers are unique. -/
theorem digits_unique {a b c : Dim} (ha : a.stride = 0 → a.extent ≤ 1) (hb : b.stride = 0 → b.extent ≤ 1)
    (hc : c.stride = 0 → c.extent ≤ 1) (h1 : a.stride * a.extent ≤ b.stride)
    (h2 : b.stride * b.extent ≤ c.stride) {u0 u1 u2 v0 v1 v2 : Nat}
    (k0 : u0 < a.extent) (k1 : u1 < b.extent) (k2 : u2 < c.extent)
    (l0 : v0 < a.extent) (l1 : v1 < b.extent) (l2 : v2 < c.extent)
    (h : u0 * a.stride + u1 * b.stride + u2 * c.stride = v0 * a.stride + v1 * b.stride + v2 * c.stride) :
    u0 = v0 ∧ u1 = v1 ∧ u2 = v2 := by
  have bu0 := le_step (s := a.stride) k0
  have bv0 := le_step (s := a.stride) l0
  have bu1 := le_step (s := b.stride) k1
  have bv1 := le_step (s := b.stride) l1
  -- stride zero pins the coordinate
  have z0 : a.stride = 0 → u0 = v0 := fun h => by have := ha h; omega
  have z1 : b.stride = 0 → u1 = v1 := fun h => by have := hb h; omega
  have z2 : c.stride = 0 → u2 = v2 := fun h => by have := hc h; omega
  have e2 : u2 = v2 := by
    by_cases hc0 : c.stride = 0
    · exact z2 hc0
    by_cases ha0 : a.stride = 0
    · rw [ha0] at h; simp only [Nat.mul_zero, Nat.zero_add] at h
      by_cases hb0 : b.stride = 0
      · rw [hb0] at h; simp only [Nat.mul_zero, Nat.zero_add] at h
        exact Nat.eq_of_mul_eq_mul_right (by omega) h
      rcases Nat.lt_trichotomy u2 v2 with hlt | he | hgt
      · have := (mul_lt_step (s := c.stride) l2 hlt).1; omega
      · exact he
      · have := (mul_lt_step (s := c.stride) k2 hgt).1; omega
    · rcases Nat.lt_trichotomy u2 v2 with hlt | he | hgt
      · have := (mul_lt_step (s := c.stride) l2 hlt).1; omega
      · exact he
      · have := (mul_lt_step (s := c.stride) k2 hgt).1; omega
  subst e2
  have h' : u0 * a.stride + u1 * b.stride = v0 * a.stride + v1 * b.stride := by omega
  have e1 : u1 = v1 := by
    by_cases hb0 : b.stride = 0
    · exact z1 hb0
    by_cases ha0 : a.stride = 0
    · rw [ha0] at h'; simp only [Nat.mul_zero, Nat.zero_add] at h'
      exact Nat.eq_of_mul_eq_mul_right (by omega) h'
    rcases Nat.lt_trichotomy u1 v1 with hlt | he | hgt
    · have := (mul_lt_step (s := b.stride) l1 hlt).1; omega
    · exact he
    · have := (mul_lt_step (s := b.stride) k1 hgt).1; omega
  subst e1
  refine ⟨?_, rfl, rfl⟩
  by_cases ha0 : a.stride = 0
  · exact z0 ha0
  · exact Nat.eq_of_mul_eq_mul_right (Nat.pos_of_ne_zero ha0) (by omega)

end SampleLayout

/-- `has_aliased_samples` never panics (its internal assertion holds). -/
theorem C23_total (l : SampleLayout) : ∃ r, l.hasAliasedSamples = .ok r := by
  obtain ⟨a, b, c, h, -⟩ := l.increasingStrideDims_ok
  obtain ⟨r, hr, -⟩ := hasAliasedSamples_eq h
  exact ⟨r, hr⟩

/-- A layout reported as unaliased, without a dimension of stride 0 and extent at least 2, has pairwise
distinct positions. (Without the condition on zero strides the claim is false: `C23_zero_stride_false`.) -/
theorem C23_unaliased_partial (l : SampleLayout) (hz : ¬ l.ZeroStride)
    (h : l.hasAliasedSamples = .ok false) : l.Unaliased := by
  obtain ⟨a, b, c, hd, -, -, hperm⟩ := l.increasingStrideDims_ok
  obtain ⟨r, hr, hiff⟩ := hasAliasedSamples_eq hd
  rw [h] at hr; cases hr
  obtain ⟨-, -, -, g1, g2⟩ := hiff.1 rfl
  unfold ZeroStride at hz
  intro ch x y ch' x' y' hi hi' hp
  unfold Inside at hi hi'
  unfold pos at hp
  rcases hperm with ⟨rfl, rfl, rfl⟩ | ⟨rfl, rfl, rfl⟩ | ⟨rfl, rfl, rfl⟩ | ⟨rfl, rfl, rfl⟩ | ⟨rfl, rfl, rfl⟩ |
    ⟨rfl, rfl, rfl⟩
  · have := digits_unique (u0 := ch) (u1 := x) (u2 := y) (v0 := ch') (v1 := x') (v2 := y')
      (fun _ => by dsimp only at *; omega) (fun _ => by dsimp only at *; omega)
      (fun _ => by dsimp only at *; omega) g1 g2 (by dsimp only; omega) (by dsimp only; omega)
      (by dsimp only; omega) (by dsimp only; omega) (by dsimp only; omega) (by dsimp only; omega)
      (by dsimp only; omega)
    omega
  · have := digits_unique (u0 := ch) (u1 := y) (u2 := x) (v0 := ch') (v1 := y') (v2 := x')
      (fun _ => by dsimp only at *; omega) (fun _ => by dsimp only at *; omega)
      (fun _ => by dsimp only at *; omega) g1 g2 (by dsimp only; omega) (by dsimp only; omega)
      (by dsimp only; omega) (by dsimp only; omega) (by dsimp only; omega) (by dsimp only; omega)
      (by dsimp only; omega)
    omega
  · have := digits_unique (u0 := x) (u1 := ch) (u2 := y) (v0 := x') (v1 := ch') (v2 := y')
      (fun _ => by dsimp only at *; omega) (fun _ => by dsimp only at *; omega)
      (fun _ => by dsimp only at *; omega) g1 g2 (by dsimp only; omega) (by dsimp only; omega)
      (by dsimp only; omega) (by dsimp only; omega) (by dsimp only; omega) (by dsimp only; omega)
      (by dsimp only; omega)
    omega
  · have := digits_unique (u0 := x) (u1 := y) (u2 := ch) (v0 := x') (v1 := y') (v2 := ch')
      (fun _ => by dsimp only at *; omega) (fun _ => by dsimp only at *; omega)
      (fun _ => by dsimp only at *; omega) g1 g2 (by dsimp only; omega) (by dsimp only; omega)
      (by dsimp only; omega) (by dsimp only; omega) (by dsimp only; omega) (by dsimp only; omega)
      (by dsimp only; omega)
    omega
  · have := digits_unique (u0 := y) (u1 := ch) (u2 := x) (v0 := y') (v1 := ch') (v2 := x')
      (fun _ => by dsimp only at *; omega) (fun _ => by dsimp only at *; omega)
      (fun _ => by dsimp only at *; omega) g1 g2 (by dsimp only; omega) (by dsimp only; omega)
      (by dsimp only; omega) (by dsimp only; omega) (by dsimp only; omega) (by dsimp only; omega)
      (by dsimp only; omega)
    omega
  · have := digits_unique (u0 := y) (u1 := x) (u2 := ch) (v0 := y') (v1 := x') (v2 := ch')
      (fun _ => by dsimp only at *; omega) (fun _ => by dsimp only at *; omega)
      (fun _ => by dsimp only at *; omega) g1 g2 (by dsimp only; omega) (by dsimp only; omega)
      (by dsimp only; omega) (by dsimp only; omega) (by dsimp only; omega) (by dsimp only; omega)
      (by dsimp only; omega)
    omega

/-- The documented meaning of `has_aliased_samples` fails for zero strides: here pixels (0,0) and (1,0) of a
2 × 1 grey image are the same element, yet the layout is reported as not aliased. -/
theorem C23_zero_stride_false : ∃ l : SampleLayout, l.Typed ∧ l.hasAliasedSamples = .ok false ∧
    ¬ l.Unaliased :=
  ⟨⟨1, 1, 2, 0, 1, 2⟩, ⟨by decide, by decide, by decide, by decide, by decide, by decide⟩, by rfl,
    fun h => by have := (h 0 0 0 0 1 0 ⟨by decide, by decide, by decide⟩ ⟨by decide, by decide, by decide⟩ rfl).2.1; omega⟩

example : ¬ (⟨3, 1, 4, 3, 2, 16⟩ : SampleLayout).ZeroStride ∧
    (⟨3, 1, 4, 3, 2, 16⟩ : SampleLayout).hasAliasedSamples = .ok false :=
  ⟨by unfold ZeroStride; decide, by rfl⟩

/-! ## C24 -/

namespace SampleLayout

/-- The conditions of the five normal forms, read off the documentation (src/flat.rs:1058-1089), for a
layout whose dimensions in increasing order of strides are `a`, `b`, `c`. -/
def Conditions (l : SampleLayout) (a b c : Dim) (f : NormalForm) : Prop :=
  l.hasAliasedSamples = .ok false ∧
  (f.ge .PixelPacked = true → l.channelStride = 1) ∧
  (f.ge .ImagePacked = true → a.stride = 1 ∧ a.stride * a.extent = b.stride ∧ b.stride * b.extent = c.stride) ∧
  (f.ge .RowMajorPacked = true → l.widthStride = l.channels ∧ l.width * l.widthStride = l.heightStride) ∧
  (f.ge .ColumnMajorPacked = true → l.heightStride = l.channels ∧ l.height * l.heightStride = l.widthStride)

theorem isNormal_iff {l : SampleLayout} {a b c : Dim} (h : l.increasingStrideDims = .ok (a, b, c))
    (f : NormalForm) : ∃ r, l.isNormal f = .ok r ∧ (r = true ↔ l.Conditions a b c f) := by
  obtain ⟨a', b', c', hd, -, -, hperm⟩ := l.increasingStrideDims_ok
  rw [h] at hd; cases hd
  obtain ⟨al, hal, hiff⟩ := hasAliasedSamples_eq h
  unfold Conditions
  cases al
  case true =>
    refine ⟨false, by simp [isNormal, hal], ?_⟩
    rw [hal]; simp
  obtain ⟨p1, p2, p3, -, -⟩ := hiff.1 rfl
  have pw : l.width * l.widthStride < 2 ^ 64 := by
    rw [Nat.mul_comm]
    rcases hperm with ⟨rfl, rfl, rfl⟩ | ⟨rfl, rfl, rfl⟩ | ⟨rfl, rfl, rfl⟩ | ⟨rfl, rfl, rfl⟩ |
      ⟨rfl, rfl, rfl⟩ | ⟨rfl, rfl, rfl⟩ <;> assumption
  have ph : l.height * l.heightStride < 2 ^ 64 := by
    rw [Nat.mul_comm]
    rcases hperm with ⟨rfl, rfl, rfl⟩ | ⟨rfl, rfl, rfl⟩ | ⟨rfl, rfl, rfl⟩ | ⟨rfl, rfl, rfl⟩ |
      ⟨rfl, rfl, rfl⟩ | ⟨rfl, rfl, rfl⟩ <;> assumption
  unfold isNormal
  rw [hal]
  simp only [ok_bind, Bool.false_eq_true, if_false, h, Dim.len, mulC_ok p1, mulC_ok p2, mulC_ok pw, mulC_ok ph,
    ne_eq, @eq_comm Nat 1]
  cases f
  case Unaliased =>
    exact ⟨true, by simp [NormalForm.ge], by simp [NormalForm.ge]⟩
  case PixelPacked =>
    by_cases c1 : l.channelStride = 1
    case neg => exact ⟨false, by simp [NormalForm.ge, c1], by simp [NormalForm.ge, c1]⟩
    exact ⟨true, by simp [NormalForm.ge, c1], by simp [NormalForm.ge, c1]⟩
  case ImagePacked =>
    by_cases c2 : a.stride = 1
    case neg => exact ⟨false, by simp [NormalForm.ge, c2], by simp [NormalForm.ge, c2]⟩
    by_cases c3 : a.extent = b.stride
    case neg => exact ⟨false, by simp [NormalForm.ge, c2, c3], by simp [NormalForm.ge, c2, c3]⟩
    by_cases c4 : b.stride * b.extent = c.stride
    case neg => exact ⟨false, by simp [NormalForm.ge, c2, c3, c4], by simp [NormalForm.ge, c2, c3, c4]⟩
    exact ⟨true, by simp [NormalForm.ge, c2, c3, c4], by simp [NormalForm.ge, c2, c3, c4]⟩
  case RowMajorPacked =>
    by_cases c1 : l.channelStride = 1
    case neg => exact ⟨false, by simp [NormalForm.ge, c1], by simp [NormalForm.ge, c1]⟩
    by_cases c2 : a.stride = 1
    case neg => exact ⟨false, by simp [NormalForm.ge, c1, c2], by simp [NormalForm.ge, c1, c2]⟩
    by_cases c3 : a.extent = b.stride
    case neg => exact ⟨false, by simp [NormalForm.ge, c1, c2, c3], by simp [NormalForm.ge, c1, c2, c3]⟩
    by_cases c4 : b.stride * b.extent = c.stride
    case neg => exact ⟨false, by simp [NormalForm.ge, c1, c2, c3, c4], by simp [NormalForm.ge, c1, c2, c3, c4]⟩
    by_cases c5 : l.widthStride = l.channels
    case neg => exact ⟨false, by simp [NormalForm.ge, c1, c2, c3, c4, c5], by simp [NormalForm.ge, c1, c2, c3, c4, c5]⟩
    by_cases c6 : l.width * l.channels = l.heightStride
    case neg => exact ⟨false, by simp [NormalForm.ge, c1, c2, c3, c4, c5, c6], by simp [NormalForm.ge, c1, c2, c3, c4, c5, c6]⟩
    exact ⟨true, by simp [NormalForm.ge, c1, c2, c3, c4, c5, c6], by simp [NormalForm.ge, c1, c2, c3, c4, c5, c6]⟩
  case ColumnMajorPacked =>
    by_cases c1 : l.channelStride = 1
    case neg => exact ⟨false, by simp [NormalForm.ge, c1], by simp [NormalForm.ge, c1]⟩
    by_cases c2 : a.stride = 1
    case neg => exact ⟨false, by simp [NormalForm.ge, c1, c2], by simp [NormalForm.ge, c1, c2]⟩
    by_cases c3 : a.extent = b.stride
    case neg => exact ⟨false, by simp [NormalForm.ge, c1, c2, c3], by simp [NormalForm.ge, c1, c2, c3]⟩
    by_cases c4 : b.stride * b.extent = c.stride
    case neg => exact ⟨false, by simp [NormalForm.ge, c1, c2, c3, c4], by simp [NormalForm.ge, c1, c2, c3, c4]⟩
    by_cases c7 : l.heightStride = l.channels
    case neg => exact ⟨false, by simp [NormalForm.ge, c1, c2, c3, c4, c7], by simp [NormalForm.ge, c1, c2, c3, c4, c7]⟩
    by_cases c8 : l.height * l.channels = l.widthStride
    case neg => exact ⟨false, by simp [NormalForm.ge, c1, c2, c3, c4, c7, c8], by simp [NormalForm.ge, c1, c2, c3, c4, c7, c8]⟩
    exact ⟨true, by simp [NormalForm.ge, c1, c2, c3, c4, c7, c8], by simp [NormalForm.ge, c1, c2, c3, c4, c7, c8]⟩

end SampleLayout

/-- `is_normal` never panics. -/
theorem C24_total (l : SampleLayout) (f : NormalForm) : ∃ r, l.isNormal f = .ok r := by
  obtain ⟨a, b, c, h, -⟩ := l.increasingStrideDims_ok
  obtain ⟨r, hr, -⟩ := isNormal_iff h f
  exact ⟨r, hr⟩

/-- A layout normal for a form is normal for every weaker form. -/
theorem C24_downward (l : SampleLayout) (f g : NormalForm) (hfg : f.ge g = true)
    (h : l.isNormal f = .ok true) : l.isNormal g = .ok true := by
  obtain ⟨a, b, c, hd, -⟩ := l.increasingStrideDims_ok
  obtain ⟨r, hr, hiff⟩ := isNormal_iff hd f
  obtain ⟨s, hs, hiff'⟩ := isNormal_iff hd g
  rw [h] at hr; cases hr
  rw [hs]; congr 1
  apply hiff'.2
  obtain ⟨h1, h2, h3, h4, h5⟩ := hiff.1 rfl
  have tr : ∀ k : NormalForm, g.ge k = true → f.ge k = true := by
    revert hfg; cases f <;> cases g <;> intro hfg <;> first | (exact absurd hfg (by decide)) | (intro k; cases k <;> decide)
  exact ⟨h1, fun k => h2 (tr _ k), fun k => h3 (tr _ k), fun k => h4 (tr _ k), fun k => h5 (tr _ k)⟩

/-- Being in normal form `Unaliased` is the same as not being reported aliased. -/
theorem C24_unaliased_iff (l : SampleLayout) :
    l.isNormal .Unaliased = .ok true ↔ l.hasAliasedSamples = .ok false := by
  obtain ⟨a, b, c, hd, -⟩ := l.increasingStrideDims_ok
  obtain ⟨r, hr, hiff⟩ := isNormal_iff hd .Unaliased
  rw [hr]
  constructor
  · intro h; cases h; exact (hiff.1 rfl).1
  · intro h; rw [hiff.2 ⟨h, nofun, nofun, nofun, nofun⟩]

theorem mul_eq_one {a b : Nat} (h : a * b = 1) : a = 1 ∧ b = 1 :=
  ⟨Nat.eq_one_of_mul_eq_one_right h, Nat.eq_one_of_mul_eq_one_left h⟩

theorem sorted_dims {l : SampleLayout} {a b c : Dim}
    (hp : (a = ⟨l.channelStride, l.channels⟩ ∧ b = ⟨l.widthStride, l.width⟩ ∧ c = ⟨l.heightStride, l.height⟩) ∨
      (a = ⟨l.channelStride, l.channels⟩ ∧ b = ⟨l.heightStride, l.height⟩ ∧ c = ⟨l.widthStride, l.width⟩))
    (h1 : a.le b = true) (h2 : b.le c = true) : l.increasingStrideDims = .ok (a, b, c) := by
  obtain ⟨a', b', c', h, k1, k2, hperm⟩ := l.increasingStrideDims_ok
  rw [h]
  simp only [Dim.le, decide_eq_true_eq] at h1 h2 k1 k2
  rcases hp with ⟨rfl, rfl, rfl⟩ | ⟨rfl, rfl, rfl⟩ <;>
  rcases hperm with ⟨rfl, rfl, rfl⟩ | ⟨rfl, rfl, rfl⟩ | ⟨rfl, rfl, rfl⟩ | ⟨rfl, rfl, rfl⟩ |
      ⟨rfl, rfl, rfl⟩ | ⟨rfl, rfl, rfl⟩ <;>
  simp only [Except.ok.injEq, Prod.mk.injEq, Dim.mk.injEq, true_and, and_true] at h1 h2 k1 k2 ⊢ <;> omega

theorem C24_row_major_layout (c w h : Nat) (hc : c < 256) (hw : w < 2 ^ 32) :
    SampleLayout.rowMajorPacked c w h = .ok ⟨c, 1, w, c, h, c * w⟩ := by
  have : c * w < 2 ^ 64 := by
    have := Nat.mul_le_mul (Nat.le_of_lt hc) (Nat.le_of_lt hw); omega
  simp [SampleLayout.rowMajorPacked, checkedMul, this, unwrapR]

/-- Samples of a row-major packed layout are in the order of rows, then pixels, then channels. -/
theorem C24_row_major_pos (c w h k x y : Nat) :
    (⟨c, 1, w, c, h, c * w⟩ : SampleLayout).pos k x y = (y * w + x) * c + k := by
  simp only [pos, Nat.add_mul, Nat.mul_one]
  rw [show y * (c * w) = y * w * c by rw [Nat.mul_comm c w, Nat.mul_assoc]]
  omega

/-- Exactly which row-major packed layouts are reported as `RowMajorPacked`. The documentation says all. -/
theorem C24_row_major_partial (c w h : Nat) (hc8 : c < 256) (hw32 : w < 2 ^ 32) :
    (⟨c, 1, w, c, h, c * w⟩ : SampleLayout).isNormal .RowMajorPacked = .ok true ↔
      1 ≤ c ∧ 1 ≤ w ∧ (w = 1 → 1 ≤ h) ∧ c * w * h < 2 ^ 64 := by
  constructor
  · intro hn
    obtain ⟨d0, d1, d2, hd, k1, k2, hperm⟩ := (⟨c, 1, w, c, h, c * w⟩ : SampleLayout).increasingStrideDims_ok
    obtain ⟨r, hr, hiff⟩ := isNormal_iff hd .RowMajorPacked
    rw [hn] at hr; cases hr
    obtain ⟨h1, -, h3, -, -⟩ := hiff.1 rfl
    obtain ⟨e1, e2, e3⟩ := h3 rfl
    obtain ⟨al, hal, hiff'⟩ := hasAliasedSamples_eq hd
    rw [h1] at hal; cases hal
    obtain ⟨p1, p2, p3, -, -⟩ := hiff'.1 rfl
    simp only [Dim.le, decide_eq_true_eq] at k1 k2
    have hcw : c * w = 1 → c = 1 ∧ w = 1 := fun h => mul_eq_one h
    have hwh : w * h = 1 → w = 1 ∧ h = 1 := fun h => mul_eq_one h
    rcases hperm with ⟨rfl, rfl, rfl⟩ | ⟨rfl, rfl, rfl⟩ | ⟨rfl, rfl, rfl⟩ | ⟨rfl, rfl, rfl⟩ |
      ⟨rfl, rfl, rfl⟩ | ⟨rfl, rfl, rfl⟩ <;> dsimp only at k1 k2 e1 e2 e3 p1 p2 p3
    · refine ⟨by omega, ?_, ?_, p3⟩
      · rcases Nat.eq_zero_or_pos w with rfl | h
        · simp at k2; omega
        · exact h
      · rintro rfl; simp at k2; exact k2
    · have hc : 1 ≤ c := by
        rcases Nat.eq_zero_or_pos c with rfl | h
        · simp at k1
        · exact h
      have hw : w = 1 := by
        have : c * w = c * 1 := by omega
        exact Nat.eq_of_mul_eq_mul_left hc this
      subst hw
      simp only [Nat.mul_one] at *
      have hh : h = 1 := by
        have : c * h = c * 1 := by omega
        exact Nat.eq_of_mul_eq_mul_left hc this
      subst hh; simp at *; omega
    · subst e1; simp only [Nat.one_mul] at *; subst e2; simp only [Nat.one_mul] at *; omega
    · subst e1; simp only [Nat.one_mul] at *; obtain ⟨rfl, rfl⟩ := hwh e3; omega
    · obtain ⟨rfl, rfl⟩ := hcw e1; simp only [Nat.one_mul] at *; omega
    · obtain ⟨rfl, rfl⟩ := hcw e1; simp only [Nat.one_mul] at *; omega
  · rintro ⟨hc, hw, hwh, hl⟩
    have hd : (⟨c, 1, w, c, h, c * w⟩ : SampleLayout).increasingStrideDims =
        .ok (⟨1, c⟩, ⟨c, w⟩, ⟨c * w, h⟩) := by
      refine sorted_dims (.inl ⟨rfl, rfl, rfl⟩) ?_ ?_
      · simp only [Dim.le, decide_eq_true_eq]; omega
      · simp only [Dim.le, decide_eq_true_eq]
        rcases Nat.lt_or_ge 1 w with h1 | h1
        · have := Nat.mul_lt_mul_of_pos_left h1 hc; omega
        · obtain rfl : w = 1 := by omega
          have := hwh rfl; omega
    obtain ⟨r, hr, hiff⟩ := isNormal_iff hd .RowMajorPacked
    obtain ⟨al, hal, hiff'⟩ := hasAliasedSamples_eq hd
    rw [hr, hiff.2 ?_]
    have : c * w < 2 ^ 64 ∧ c < 2 ^ 64 := by
      have := Nat.mul_le_mul (Nat.le_of_lt hc8) (Nat.le_of_lt hw32); omega
    refine ⟨?_, fun _ => rfl, fun _ => ⟨rfl, by simp, by simp⟩, fun _ => ⟨rfl, by simp [Nat.mul_comm]⟩, nofun⟩
    rw [hal, hiff'.2 ⟨by simp; omega, this.1, hl, by simp, by simp⟩]

/-- Exactly which column-major packed layouts are reported as `ColumnMajorPacked`. -/
theorem C24_column_major_partial (c w h : Nat) (hc8 : c < 256) (hh32 : h < 2 ^ 32) :
    (⟨c, 1, w, c * h, h, c⟩ : SampleLayout).isNormal .ColumnMajorPacked = .ok true ↔
      1 ≤ c ∧ 1 ≤ h ∧ (h = 1 → 1 ≤ w) ∧ c * h * w < 2 ^ 64 := by
  constructor
  · intro hn
    obtain ⟨d0, d1, d2, hd, k1, k2, hperm⟩ := (⟨c, 1, w, c * h, h, c⟩ : SampleLayout).increasingStrideDims_ok
    obtain ⟨r, hr, hiff⟩ := isNormal_iff hd .ColumnMajorPacked
    rw [hn] at hr; cases hr
    obtain ⟨h1, -, h3, -, -⟩ := hiff.1 rfl
    obtain ⟨e1, e2, e3⟩ := h3 rfl
    obtain ⟨al, hal, hiff'⟩ := hasAliasedSamples_eq hd
    rw [h1] at hal; cases hal
    obtain ⟨p1, p2, p3, -, -⟩ := hiff'.1 rfl
    simp only [Dim.le, decide_eq_true_eq] at k1 k2
    have hch : c * h = 1 → c = 1 ∧ h = 1 := fun h => mul_eq_one h
    have hhw : h * w = 1 → h = 1 ∧ w = 1 := fun h => mul_eq_one h
    rcases hperm with ⟨rfl, rfl, rfl⟩ | ⟨rfl, rfl, rfl⟩ | ⟨rfl, rfl, rfl⟩ | ⟨rfl, rfl, rfl⟩ |
      ⟨rfl, rfl, rfl⟩ | ⟨rfl, rfl, rfl⟩ <;> dsimp only at k1 k2 e1 e2 e3 p1 p2 p3
    · have hc : 1 ≤ c := by
        rcases Nat.eq_zero_or_pos c with rfl | h
        · simp at k1
        · exact h
      have hw : h = 1 := by
        have : c * h = c * 1 := by omega
        exact Nat.eq_of_mul_eq_mul_left hc this
      subst hw
      simp only [Nat.mul_one] at *
      have hh : w = 1 := by
        have : c * w = c * 1 := by omega
        exact Nat.eq_of_mul_eq_mul_left hc this
      subst hh; simp at *; omega
    · refine ⟨by omega, ?_, ?_, p3⟩
      · rcases Nat.eq_zero_or_pos h with rfl | h
        · simp at k2; omega
        · exact h
      · rintro rfl; simp at k2; exact k2
    · obtain ⟨rfl, rfl⟩ := hch e1; simp only [Nat.one_mul] at *; omega
    · obtain ⟨rfl, rfl⟩ := hch e1; simp only [Nat.one_mul] at *; omega
    · subst e1; simp only [Nat.one_mul] at *; subst e2; simp only [Nat.one_mul] at *; omega
    · subst e1; simp only [Nat.one_mul] at *; obtain ⟨rfl, rfl⟩ := hhw e3; omega
  · rintro ⟨hc, hw, hwh, hl⟩
    have hd : (⟨c, 1, w, c * h, h, c⟩ : SampleLayout).increasingStrideDims =
        .ok (⟨1, c⟩, ⟨c, h⟩, ⟨c * h, w⟩) := by
      refine sorted_dims (.inr ⟨rfl, rfl, rfl⟩) ?_ ?_
      · simp only [Dim.le, decide_eq_true_eq]; omega
      · simp only [Dim.le, decide_eq_true_eq]
        rcases Nat.lt_or_ge 1 h with h1 | h1
        · have := Nat.mul_lt_mul_of_pos_left h1 hc; omega
        · obtain rfl : h = 1 := by omega
          have := hwh rfl; omega
    obtain ⟨r, hr, hiff⟩ := isNormal_iff hd .ColumnMajorPacked
    obtain ⟨al, hal, hiff'⟩ := hasAliasedSamples_eq hd
    rw [hr, hiff.2 ?_]
    have : c * h < 2 ^ 64 ∧ c < 2 ^ 64 := by
      have := Nat.mul_le_mul (Nat.le_of_lt hc8) (Nat.le_of_lt hh32); omega
    refine ⟨?_, fun _ => rfl, fun _ => ⟨rfl, by simp, by simp⟩, nofun, fun _ => ⟨rfl, by simp [Nat.mul_comm]⟩⟩
    rw [hal, hiff'.2 ⟨by simp; omega, this.1, hl, by simp, by simp⟩]

theorem C24_column_major_layout (c w h : Nat) (hc : c < 256) (hh : h < 2 ^ 32) :
    SampleLayout.columnMajorPacked c w h = .ok ⟨c, 1, w, c * h, h, c⟩ := by
  have : c * h < 2 ^ 64 := by
    have := Nat.mul_le_mul (Nat.le_of_lt hc) (Nat.le_of_lt hh); omega
  simp [SampleLayout.columnMajorPacked, checkedMul, this, unwrapR]

/-- Samples of a column-major packed layout are in the order of columns, then pixels, then channels. -/
theorem C24_column_major_pos (c w h k x y : Nat) :
    (⟨c, 1, w, c * h, h, c⟩ : SampleLayout).pos k x y = (x * h + y) * c + k := by
  simp only [pos, Nat.add_mul, Nat.mul_one]
  rw [show x * (c * h) = x * h * c by rw [Nat.mul_comm c h, Nat.mul_assoc]]
  omega

/-- The documentation of `row_major_packed` promises the normal form for every size ("will surely be"); it
fails for a 0 × 1 grey image (as for every image that the condition of `C24_row_major_partial` excludes),
and likewise for columns. -/
theorem C24_packed_false :
    (∃ l, SampleLayout.rowMajorPacked 1 0 1 = .ok l ∧ l.isNormal .RowMajorPacked = .ok false) ∧
    (∃ l, SampleLayout.columnMajorPacked 1 1 0 = .ok l ∧ l.isNormal .ColumnMajorPacked = .ok false) :=
  ⟨⟨_, rfl, rfl⟩, ⟨_, rfl, rfl⟩⟩

example : (⟨3, 1, 4, 3, 2, 12⟩ : SampleLayout).isNormal .RowMajorPacked = .ok true := by rfl
example : (⟨3, 1, 4, 3, 2, 16⟩ : SampleLayout).isNormal .PixelPacked = .ok true ∧
    (⟨3, 1, 4, 3, 2, 16⟩ : SampleLayout).isNormal .ImagePacked = .ok false := ⟨by rfl, by rfl⟩

/-! ## C25 -/

section
variable {α : Type} {ch : Nat}

/-- What a flat view relies on (and `as_view` checks): the channel count of the pixel type and a layout
that fits the buffer. -/
structure FlatOk (ch : Nat) (f : FlatSamples α) : Prop where
  typed : f.layout.Typed
  chans : f.layout.channels = ch
  pos : 0 < ch
  len64 : f.samples.length < 2 ^ 64
  fits : f.layout.fits f.samples.length = true

/-- `p` is the pixel at `(x, y)`: its channels are the samples at the strided positions. -/
def IsPixelAt (f : FlatSamples α) (x y : Nat) (p : Pix α ch) : Prop :=
  ∀ c : Fin ch, f.samples[f.layout.pos c x y]? = some (p c)

theorem pos_add (l : SampleLayout) (c x y : Nat) : l.pos 0 x y + c * l.channelStride = l.pos c x y := by
  unfold pos; omega

theorem flatGetPixel_eq {f : FlatSamples α} (hf : FlatOk ch f) {x y : Nat} (hx : x < f.layout.width)
    (hy : y < f.layout.height) (p : Pix α ch) : flatGetPixel ch f x y = .ok p ↔ IsPixelAt f x y p := by
  have h0 : f.layout.Inside 0 x y := ⟨by rw [hf.chans]; exact hf.pos, hx, hy⟩
  obtain ⟨b1, b2, -, b4⟩ := (C22_fits f.layout _ hf.fits 0 x y).1 h0
  have key : ∃ ys, ((List.range ch).mapM fun c => do
      let o ← mulC 64 c f.layout.channelStride
      let index ← addC 64 (f.layout.pos 0 x y) o
      unwrapR f.samples[index]?) = .ok ys ∧ ys.length = (List.range ch).length ∧
      ∀ i (h1 : i < (List.range ch).length) (h2 : i < ys.length), (do
        let o ← mulC 64 (List.range ch)[i] f.layout.channelStride
        let index ← addC 64 (f.layout.pos 0 x y) o
        unwrapR f.samples[index]?) = .ok ys[i] := by
    apply mapM_ok
    intro c hc
    simp only [List.mem_range] at hc
    obtain ⟨d1, d2, -, -⟩ := (C22_fits f.layout _ hf.fits c x y).1 ⟨by rw [hf.chans]; exact hc, hx, hy⟩
    have := pos_add f.layout c x y
    rw [mulC_ok (by omega), ok_bind, addC_ok (by omega), ok_bind, this, List.getElem?_eq_getElem d1]
    exact ⟨_, rfl⟩
  obtain ⟨ys, k1, k2, k3⟩ := key
  simp only [List.length_range] at k2
  unfold flatGetPixel
  rw [if_neg (by simp [inBounds_iff.2 h0]), b4]
  simp only [ok_bind, k1]
  rw [fromSlice_eq_ok]
  have elem : ∀ i (hi : i < ch), f.samples[f.layout.pos i x y]? = some (ys[i]'(by omega)) := by
    intro i hi
    have hk := k3 i (by simpa using hi) (by omega)
    simp only [List.getElem_range] at hk
    obtain ⟨d1, d2, -, -⟩ := (C22_fits f.layout _ hf.fits i x y).1 ⟨by rw [hf.chans]; exact hi, hx, hy⟩
    have := pos_add f.layout i x y
    rw [mulC_ok (by omega), ok_bind, addC_ok (by omega), ok_bind, this] at hk
    rw [List.getElem?_eq_getElem d1] at hk ⊢
    simp only [unwrapR, Except.ok.injEq] at hk
    rw [hk]
  constructor
  · rintro ⟨-, h⟩ c
    have := h c
    rw [List.getElem?_eq_getElem (by omega : c.val < ys.length)] at this
    rw [elem c c.isLt, this]
  · intro h
    refine ⟨k2, fun c => ?_⟩
    rw [List.getElem?_eq_getElem (by omega : c.val < ys.length), ← elem c c.isLt, h c]

/-- `as_view` succeeds exactly when the channel counts agree and the layout fits the buffer. -/
theorem C25_as_view (ch : Nat) (f : FlatSamples α) (v : FlatView α ch) :
    f.asView ch = .ok v ↔ f.layout.channels = ch ∧ f.layout.fits f.samples.length = true ∧ v.inner = f := by
  obtain ⟨g⟩ := v
  unfold FlatSamples.asView
  by_cases h1 : f.layout.channels = ch
  · rw [if_neg (by simpa using h1)]
    by_cases h2 : f.layout.fits f.samples.length = true
    · simp only [h2, Bool.not_true, Bool.false_eq_true, if_false, Except.ok.injEq, FlatView.mk.injEq, h1, true_and]
      exact eq_comm
    · simp [h2]
  · simp [h1]

/-- For every buffer a view can be made of, `get_pixel` inside the image reads inside the buffer and returns
the samples at the strided positions. -/
theorem C25_get_pixel (f : FlatSamples α) (hf : FlatOk ch f) (x y : Nat) (hx : x < f.layout.width)
    (hy : y < f.layout.height) : (∀ c, c < ch → f.layout.pos c x y < f.samples.length) ∧
      ∃ p : Pix α ch, flatGetPixel ch f x y = .ok p ∧ IsPixelAt f x y p := by
  have hin : ∀ c, c < ch → f.layout.pos c x y < f.samples.length := fun c hc =>
    ((C22_fits f.layout _ hf.fits c x y).1 ⟨by rw [hf.chans]; exact hc, hx, hy⟩).1
  refine ⟨hin, ?_⟩
  let p : Pix α ch := fun c => f.samples[f.layout.pos c x y]'(hin c c.isLt)
  have hp : IsPixelAt f x y p := fun c => List.getElem?_eq_getElem (hin c c.isLt)
  exact ⟨p, (flatGetPixel_eq hf hx hy p).2 hp, hp⟩

/-- Outside the image `get_pixel` panics instead of reading. -/
theorem C25_get_pixel_outside (f : FlatSamples α) (x y : Nat)
    (h : ¬ (x < f.layout.width ∧ y < f.layout.height)) : flatGetPixel ch f x y = .error .panic := by
  unfold flatGetPixel
  have : f.layout.inBounds 0 x y = false := by
    rw [← Bool.not_eq_true, inBounds_iff]; exact fun hh => h hh.2
  rw [this]; rfl

theorem shrink_fits {l : SampleLayout} {n : Nat} (hf : l.fits n = true) (c w h : Nat) :
    (l.shrinkTo c w h).fits n = true := by
  unfold fits
  rw [C22_min_length]
  by_cases h0 : (l.shrinkTo c w h).channels = 0 ∨ (l.shrinkTo c w h).width = 0 ∨ (l.shrinkTo c w h).height = 0
  · rw [if_pos h0]; simp
  · rw [if_neg h0]
    have hin : l.Inside ((l.shrinkTo c w h).channels - 1) ((l.shrinkTo c w h).width - 1)
        ((l.shrinkTo c w h).height - 1) := by
      unfold Inside; unfold SampleLayout.shrinkTo at *; dsimp only at *; omega
    have hf' := hf
    obtain ⟨d1, d2, -, -⟩ := (C22_fits l n hf _ _ _).1 hin
    have e : (l.shrinkTo c w h).pos ((l.shrinkTo c w h).channels - 1) ((l.shrinkTo c w h).width - 1)
        ((l.shrinkTo c w h).height - 1) = l.pos ((l.shrinkTo c w h).channels - 1) ((l.shrinkTo c w h).width - 1)
        ((l.shrinkTo c w h).height - 1) := rfl
    rw [e]
    unfold fits at hf'
    rw [C22_min_length, if_neg (by unfold Inside at hin; omega)] at hf'
    have hm := pos_mono (l := l) (Nat.le_sub_one_of_lt hin.1) (Nat.le_sub_one_of_lt hin.2.1)
      (Nat.le_sub_one_of_lt hin.2.2)
    split at hf'
    · rename_i m heq
      split at heq
      · rw [if_pos (by omega)]; simp; omega
      · cases heq
    · cases hf'

/-- `shrink_to` keeps everything a view relies on, has the smaller of the old and requested extents and keeps
every pixel. -/
theorem C25_shrink_to (v : FlatView α ch) (hv : FlatOk ch v.inner) (w h : Nat) :
    FlatOk ch (v.shrinkTo w h).inner ∧
    dims (v.shrinkTo w h) = (min (widthOf v) w, min (heightOf v) h) ∧
    ∀ x y, x < min (widthOf v) w → y < min (heightOf v) h → getPixel (v.shrinkTo w h) x y = getPixel v x y := by
  have ht := hv.typed
  have hok : FlatOk ch (v.shrinkTo w h).inner := by
    refine ⟨⟨?_, ?_, ?_, ht.cs, ht.ws, ht.hs⟩, ?_, hv.pos, hv.len64, shrink_fits hv.fits _ _ _⟩
    · have := ht.c8; simp only [FlatView.shrinkTo, SampleLayout.shrinkTo]; omega
    · have := ht.w32; simp only [FlatView.shrinkTo, SampleLayout.shrinkTo]; omega
    · have := ht.h32; simp only [FlatView.shrinkTo, SampleLayout.shrinkTo]; omega
    · have := hv.chans; simp only [FlatView.shrinkTo, SampleLayout.shrinkTo]; omega
  refine ⟨hok, rfl, fun x y hx hy => ?_⟩
  have hx' : x < v.inner.layout.width := Nat.lt_of_lt_of_le hx (Nat.min_le_left _ _)
  have hy' : y < v.inner.layout.height := Nat.lt_of_lt_of_le hy (Nat.min_le_left _ _)
  obtain ⟨-, p, hp, hat⟩ := C25_get_pixel v.inner hv x y hx' hy'
  have : flatGetPixel ch (v.shrinkTo w h).inner x y = .ok p := (flatGetPixel_eq hok hx hy p).2 hat
  show flatGetPixel ch (v.shrinkTo w h).inner x y = flatGetPixel ch v.inner x y
  rw [this, hp]

/-- A `View` keeps the contract of `GenericImageView`. -/
instance : LawfulView (FlatView α ch) (Pix α ch) where
  WF v := FlatOk ch v.inner
  width_lt h := h.typed.w32
  height_lt h := h.typed.h32
  get_ok {v x y} h hx hy := by
    obtain ⟨-, p, hp, -⟩ := C25_get_pixel v.inner h x y hx hy
    exact ⟨p, hp⟩

/-- What `as_view_mut` checks. -/
structure FlatMutOk (ch : Nat) (f : FlatSamples α) : Prop extends FlatOk ch f where
  normal : f.layout.isNormal .PixelPacked = .ok true

theorem FlatMutOk.stride {f : FlatSamples α} (h : FlatMutOk ch f) : f.layout.channelStride = 1 := by
  obtain ⟨a, b, c, hd, -⟩ := f.layout.increasingStrideDims_ok
  obtain ⟨r, hr, hiff⟩ := isNormal_iff hd .PixelPacked
  rw [h.normal] at hr; cases hr
  exact (hiff.1 rfl).2.1 rfl

theorem FlatMutOk.unaliased {f : FlatSamples α} (h : FlatMutOk ch f) :
    f.layout.hasAliasedSamples = .ok false := by
  obtain ⟨a, b, c, hd, -⟩ := f.layout.increasingStrideDims_ok
  obtain ⟨r, hr, hiff⟩ := isNormal_iff hd .PixelPacked
  rw [h.normal] at hr; cases hr
  exact (hiff.1 rfl).1

/-- `as_view_mut` never panics and succeeds exactly for pixel-packed layouts of the right channel count that
fit the buffer. -/
theorem C25_as_view_mut (ch : Nat) (f : FlatSamples α) :
    (∃ r, f.asViewMut ch = .ok r) ∧ ∀ v : FlatViewMut α ch, f.asViewMut ch = .ok (.ok v) ↔
      f.layout.isNormal .PixelPacked = .ok true ∧ f.layout.channels = ch ∧
      f.layout.fits f.samples.length = true ∧ v.inner = f := by
  obtain ⟨r, hr⟩ := C24_total f.layout .PixelPacked
  unfold FlatSamples.asViewMut
  rw [hr]
  simp only [ok_bind, Except.ok.injEq]
  cases r
  · exact ⟨⟨_, rfl⟩, fun v => by simp⟩
  · by_cases h1 : f.layout.channels = ch
    · by_cases h2 : f.layout.fits f.samples.length = true
      · refine ⟨?_, fun v => ?_⟩
        · simp [h1, h2]
        · obtain ⟨g⟩ := v
          simp only [h1, h2, Bool.not_true, Bool.false_eq_true, if_false, ne_eq, not_true_eq_false, pure_eq_ok,
            Except.ok.injEq, FlatViewMut.mk.injEq, true_and]
          exact eq_comm
      · simp [h1, h2]
    · simp [h1]

/-- `put_pixel` inside the image writes exactly the channels of the pixel, inside the buffer, and nothing
else: the sample at every other index of the buffer is what it was. -/
theorem C25_put_pixel (v : FlatViewMut α ch) (hv : FlatMutOk ch v.inner) (x y : Nat) (p : Pix α ch)
    (hx : x < v.inner.layout.width) (hy : y < v.inner.layout.height) :
    ∃ v', v.putPixel x y p = .ok v' ∧ v'.inner.layout = v.inner.layout ∧
      v'.inner.samples.length = v.inner.samples.length ∧ FlatMutOk ch v'.inner ∧ IsPixelAt v'.inner x y p ∧
      ∀ i, (∀ c, c < ch → i ≠ v.inner.layout.pos c x y) → v'.inner.samples[i]? = v.inner.samples[i]? := by
  have h0 : v.inner.layout.Inside 0 x y := ⟨by rw [hv.chans]; exact hv.pos, hx, hy⟩
  have hp0 := hv.pos
  obtain ⟨b1, b2, -, b4⟩ := (C22_fits v.inner.layout _ hv.fits 0 x y).1 h0
  have hpos : ∀ c, v.inner.layout.pos c x y = v.inner.layout.pos 0 x y + c := by
    intro c; have := pos_add v.inner.layout c x y; rw [hv.stride] at this; omega
  obtain ⟨d1, d2, -, -⟩ := (C22_fits v.inner.layout _ hv.fits (ch - 1) x y).1
    ⟨by rw [hv.chans]; omega, hx, hy⟩
  rw [hpos] at d1 d2
  have hl := hv.len64
  have hlen : v.inner.layout.pos 0 x y + p.toList.length ≤ v.inner.samples.length := by
    rw [Pix.length_toList]; omega
  have hs : sliceR v.inner.samples (v.inner.layout.pos 0 x y) (v.inner.layout.pos 0 x y + ch) = _ :=
    sliceR_ok (by omega) (by omega)
  have hput : v.putPixel x y p = .ok ⟨⟨overwrite v.inner.samples (v.inner.layout.pos 0 x y) p.toList, v.inner.layout⟩⟩ := by
    unfold FlatViewMut.putPixel
    rw [if_neg (by simp [inBounds_iff.2 h0]), b4]
    simp only [ok_bind]
    rw [addC_ok (by omega), ok_bind, hs, ok_bind]
    unfold fromSlice
    rw [dif_pos (by simp; omega), ok_bind]
  have hlen' : (overwrite v.inner.samples (v.inner.layout.pos 0 x y) p.toList).length = v.inner.samples.length :=
    length_overwrite hlen
  refine ⟨_, hput, rfl, hlen', ⟨⟨hv.typed, hv.chans, hv.pos, ?_, ?_⟩, hv.normal⟩, ?_, ?_⟩
  · show _ < _; rw [hlen']; exact hv.len64
  · show v.inner.layout.fits _ = true; rw [hlen']; exact hv.fits
  · intro c
    show (overwrite _ _ _)[v.inner.layout.pos c x y]? = _
    rw [getElem?_overwrite hlen, hpos, if_neg (by omega), if_pos (by rw [Pix.length_toList]; omega)]
    simp [Pix.toList]
  · intro i hi
    show (overwrite _ _ _)[i]? = _
    rw [getElem?_overwrite hlen]
    by_cases h1 : i < v.inner.layout.pos 0 x y
    · rw [if_pos h1]
    · rw [if_neg h1, if_neg]
      rw [Pix.length_toList]
      intro h2
      exact hi (i - v.inner.layout.pos 0 x y) (by omega) (by rw [hpos]; omega)

/-- Outside the image `put_pixel` panics instead of writing. -/
theorem C25_put_pixel_outside (v : FlatViewMut α ch) (x y : Nat) (p : Pix α ch)
    (h : ¬ (x < v.inner.layout.width ∧ y < v.inner.layout.height)) : v.putPixel x y p = .error .panic := by
  unfold FlatViewMut.putPixel
  have : v.inner.layout.inBounds 0 x y = false := by
    rw [← Bool.not_eq_true, inBounds_iff]; exact fun hh => h hh.2
  rw [this]; rfl

/-- Without zero strides the other pixels of the image keep their values: a mutable view keeps the contract of
`GenericImage`. -/
instance : LawfulImage (FlatViewMut α ch) (Pix α ch) where
  WF v := FlatMutOk ch v.inner ∧ ¬ v.inner.layout.ZeroStride
  width_lt h := h.1.typed.w32
  height_lt h := h.1.typed.h32
  get_ok {v x y} h hx hy := by
    obtain ⟨-, p, hp, -⟩ := C25_get_pixel v.inner h.1.toFlatOk x y hx hy
    exact ⟨p, hp⟩
  put_ok {v x y} p h hx hy := by
    obtain ⟨v', h1, h2, h3, h4, h5, h6⟩ := C25_put_pixel v h.1 x y p hx hy
    have hd : dims v' = dims v := by
      show (v'.inner.layout.width, v'.inner.layout.height) = _; rw [h2]; rfl
    refine ⟨v', h1, ⟨h4, by rw [h2]; exact h.2⟩, hd, ?_, ?_⟩
    · exact (flatGetPixel_eq h4.toFlatOk (by rw [h2]; exact hx) (by rw [h2]; exact hy) p).2 h5
    · intro x' y' hx' hy' hne
      obtain ⟨-, q, hq, hqat⟩ := C25_get_pixel v.inner h.1.toFlatOk x' y' hx' hy'
      have hun := C23_unaliased_partial _ h.2 h.1.unaliased
      have : flatGetPixel ch v'.inner x' y' = .ok q := by
        refine (flatGetPixel_eq h4.toFlatOk (by rw [h2]; exact hx') (by rw [h2]; exact hy') q).2 fun c => ?_
        rw [h2, h6, hqat c]
        intro c' hc' e
        obtain ⟨-, e1, e2⟩ := hun c x' y' c' x y ⟨by rw [h.1.chans]; exact c.isLt, hx', hy'⟩
          ⟨by rw [h.1.chans]; exact hc', hx, hy⟩ e
        exact hne ⟨e1, e2⟩
      show flatGetPixel ch v'.inner x' y' = flatGetPixel ch v.inner x' y'
      rw [this, hq]

/-- Array laws of `put_pixel`/`get_pixel` through a mutable view, for layouts without zero strides. -/
theorem C25_put_get (v : FlatViewMut α ch) (hv : FlatMutOk ch v.inner) (hz : ¬ v.inner.layout.ZeroStride)
    (x y : Nat) (p : Pix α ch) (hx : x < v.inner.layout.width) (hy : y < v.inner.layout.height) :
    ∃ v', v.putPixel x y p = .ok v' ∧ FlatMutOk ch v'.inner ∧ getPixel v' x y = .ok p ∧
      ∀ x' y', x' < v.inner.layout.width → y' < v.inner.layout.height → ¬ (x' = x ∧ y' = y) →
        getPixel v' x' y' = getPixel v x' y' := by
  obtain ⟨v', h1, h2, h3, h4, h5⟩ := LawfulImage.put_ok (i := v) p
    (show FlatMutOk ch v.inner ∧ ¬ v.inner.layout.ZeroStride from ⟨hv, hz⟩) hx hy
  exact ⟨v', h1, h2.1, h4, h5⟩

/-- With a zero stride `as_view_mut` still succeeds and a write to one pixel changes another one. -/
theorem C25_zero_stride_false : ∃ (f : FlatSamples Nat) (v v' : FlatViewMut Nat 1) (p : Pix Nat 1),
    f.asViewMut 1 = .ok (.ok v) ∧ v.putPixel 0 0 p = .ok v' ∧ getPixel v 1 0 ≠ getPixel v' 1 0 := by
  refine ⟨⟨[7, 8], ⟨1, 1, 2, 0, 1, 2⟩⟩, ⟨⟨[7, 8], ⟨1, 1, 2, 0, 1, 2⟩⟩⟩, ⟨⟨[5, 8], ⟨1, 1, 2, 0, 1, 2⟩⟩⟩,
    fun _ => 5, by rfl, by rfl, ?_⟩
  have e1 : getPixel (⟨⟨[7, 8], ⟨1, 1, 2, 0, 1, 2⟩⟩⟩ : FlatViewMut Nat 1) 1 0 = .ok fun _ => 7 :=
    (flatGetPixel_eq (ch := 1) ⟨⟨by decide, by decide, by decide, by decide, by decide, by decide⟩, rfl, by decide, by decide, by rfl⟩
      (by decide) (by decide) _).2 (fun c => by have : c = 0 := by omega
                                                subst this; rfl)
  have e2 : getPixel (⟨⟨[5, 8], ⟨1, 1, 2, 0, 1, 2⟩⟩⟩ : FlatViewMut Nat 1) 1 0 = .ok fun _ => 5 :=
    (flatGetPixel_eq (ch := 1) ⟨⟨by decide, by decide, by decide, by decide, by decide, by decide⟩, rfl, by decide, by decide, by rfl⟩
      (by decide) (by decide) _).2 (fun c => by have : c = 0 := by omega
                                                subst this; rfl)
  rw [e1, e2]
  intro h
  have := congrFun (Except.ok.inj h) 0
  omega

example : FlatMutOk 3 (⟨List.range 30, ⟨3, 1, 4, 3, 2, 16⟩⟩ : FlatSamples Nat) ∧
    ¬ (⟨3, 1, 4, 3, 2, 16⟩ : SampleLayout).ZeroStride :=
  ⟨⟨⟨⟨by decide, by decide, by decide, by decide, by decide, by decide⟩, rfl, by decide, by decide, by rfl⟩, by rfl⟩,
    by unfold ZeroStride; decide⟩

/-! ## C26 -/

/-- A row-major packed layout needs at least `c*w*h` samples when it has any. -/
theorem rowMajor_fits {c w h n : Nat} (hc : 1 ≤ c) (hw : 1 ≤ w) (hlt : c * w * h < 2 ^ 64) :
    (⟨c, 1, w, c, h, c * w⟩ : SampleLayout).fits n = true ↔ c * w * h ≤ n := by
  unfold fits
  rw [C22_min_length]
  by_cases hh : h = 0
  · subst hh; simp
  · rw [if_neg (by dsimp only; omega), C24_row_major_pos]
    dsimp only
    have e : ((h - 1) * w + (w - 1)) * c + (c - 1) + 1 = c * w * h := by
      obtain ⟨h', rfl⟩ : ∃ h', h = h' + 1 := ⟨h - 1, by omega⟩
      obtain ⟨w', rfl⟩ : ∃ w', w = w' + 1 := ⟨w - 1, by omega⟩
      obtain ⟨c', rfl⟩ : ∃ c', c = c' + 1 := ⟨c - 1, by omega⟩
      simp only [Nat.add_sub_cancel]
      simp only [Nat.add_mul, Nat.mul_add, Nat.one_mul, Nat.mul_one]
      have : h' * w' * c' = c' * w' * h' := by rw [Nat.mul_comm, Nat.mul_comm h' w', Nat.mul_assoc]
      have := Nat.mul_comm h' w'
      have := Nat.mul_comm c' h'
      have := Nat.mul_comm c' w'
      omega
    rw [e, if_pos hlt]; simp

/-- A layout reported as row-major packed is the row-major packed layout of its size. -/
theorem normal_row_major {l : SampleLayout} (h : l.isNormal .RowMajorPacked = .ok true) :
    l = ⟨l.channels, 1, l.width, l.channels, l.height, l.channels * l.width⟩ := by
  obtain ⟨a, b, c, hd, -⟩ := l.increasingStrideDims_ok
  obtain ⟨r, hr, hiff⟩ := isNormal_iff hd .RowMajorPacked
  rw [h] at hr; cases hr
  obtain ⟨-, h1, -, h2, -⟩ := hiff.1 rfl
  have e1 := h1 rfl
  obtain ⟨e2, e3⟩ := h2 rfl
  obtain ⟨c, cs, w, ws, hh, hs⟩ := l
  dsimp only at *
  subst e1 e2 e3
  simp only [Nat.mul_comm]

/-- `try_into_buffer` never panics (its `unwrap_or_else(panic)` is unreachable); when it succeeds the buffer has
the dimensions of the layout, the same samples, and satisfies the size invariant; it succeeds exactly for
row-major packed layouts of the right channel count that fit the buffer. -/
theorem C26_try_into_buffer (ch : Nat) (f : FlatSamples α) (ht : f.layout.Typed) :
    (∃ r, f.tryIntoBuffer ch = .ok r) ∧
    ∀ b : ImageBuffer α ch, f.tryIntoBuffer ch = .ok (.ok b) ↔
      f.layout.isNormal .RowMajorPacked = .ok true ∧ f.layout.channels = ch ∧
      f.layout.fits f.samples.length = true ∧ b = ⟨f.layout.width, f.layout.height, f.samples⟩ := by
  obtain ⟨r, hr⟩ := C24_total f.layout .RowMajorPacked
  unfold FlatSamples.tryIntoBuffer
  rw [hr]
  simp only [ok_bind, Except.ok.injEq]
  cases r
  · exact ⟨⟨_, rfl⟩, fun v => by simp⟩
  · by_cases h1 : f.layout.channels = ch
    · by_cases h2 : f.layout.fits f.samples.length = true
      · have hL := normal_row_major hr
        have hr' := hr
        rw [hL] at hr'
        obtain ⟨k1, k2, k3, k4⟩ := (C24_row_major_partial _ _ _ ht.c8 ht.w32).1 hr'
        have h2' := h2
        rw [hL, rowMajor_fits k1 k2 k4] at h2'
        have hfr : ImageBuffer.fromRaw ch f.layout.width f.layout.height f.samples =
            some ⟨f.layout.width, f.layout.height, f.samples⟩ := by
          unfold ImageBuffer.fromRaw
          have e : f.layout.width * f.layout.height * ch = f.layout.channels * f.layout.width * f.layout.height := by
            rw [Nat.mul_comm, h1, Nat.mul_assoc]
          rw [if_pos ((ImageBuffer.checkImageFits_iff (by have := ht.c8; omega) ht.w32).2 (by rw [e]; exact ⟨k4, h2'⟩))]
        rw [hfr]
        refine ⟨⟨.ok ⟨f.layout.width, f.layout.height, f.samples⟩, by simp [h1, h2, unwrapR]⟩, fun v => ?_⟩
        simp only [h1, h2, Bool.not_true, Bool.false_eq_true, if_false, ne_eq, not_true_eq_false, pure_eq_ok,
            Except.ok.injEq, true_and, unwrapR, ok_bind]
        exact eq_comm
      · simp [h1, h2]
    · simp [h1]

/-- `into_flat_samples` never panics, and `try_into_buffer` of the result gives the same buffer back exactly
when the image has a pixel row or more: for every buffer of width at least 1 (and, for width 1, height at
least 1). For the excluded empty images an error is returned (`C26_round_trip_false`). -/
theorem C26_round_trip_partial (b : ImageBuffer α ch) (hb : b.Inv) (hch : ch < 256) (h0 : 1 ≤ ch) :
    ∃ f, b.intoFlatSamples = .ok f ∧
      (f.tryIntoBuffer ch = .ok (.ok b) ↔ 1 ≤ b.width ∧ (b.width = 1 → 1 ≤ b.height)) := by
  refine ⟨⟨b.data, ⟨ch, 1, b.width, ch, b.height, ch * b.width⟩⟩, ?_, ?_⟩
  · unfold ImageBuffer.intoFlatSamples
    rw [C24_row_major_layout ch b.width b.height hch hb.w32]; rfl
  · have hlen := hb.fits
    have h64 := hb.len64
    have e : b.width * b.height * ch = ch * b.width * b.height := by
      rw [Nat.mul_comm, Nat.mul_assoc]
    have hcw : ch * b.width < 2 ^ 64 := by
      have := Nat.mul_le_mul (Nat.le_of_lt hch) (Nat.le_of_lt hb.w32); omega
    rw [(C26_try_into_buffer ch ⟨b.data, ⟨ch, 1, b.width, ch, b.height, ch * b.width⟩⟩
      ⟨hch, hb.w32, hb.h32, by dsimp only; omega, by dsimp only; omega, hcw⟩).2]
    dsimp only
    rw [C24_row_major_partial ch b.width b.height hch hb.w32]
    constructor
    · rintro ⟨⟨-, k1, k2, -⟩, -⟩; exact ⟨k1, k2⟩
    · rintro ⟨k1, k2⟩
      refine ⟨⟨h0, k1, k2, by omega⟩, rfl, (rowMajor_fits h0 k1 (by omega)).2 (by omega), rfl⟩

/-- An empty image does not survive the round trip: the 0 × 1 grey image is refused as not row-major packed. -/
theorem C26_round_trip_false : ∃ (b : ImageBuffer Nat 1) (f : FlatSamples Nat), b.Inv ∧
    b.intoFlatSamples = .ok f ∧ f.tryIntoBuffer 1 = .ok (.error (.NormalFormRequired .RowMajorPacked)) :=
  ⟨⟨0, 1, []⟩, ⟨[], ⟨1, 1, 0, 1, 1, 0⟩⟩, ⟨by decide, by decide, by decide, by decide⟩, by rfl, by rfl⟩

/-- `get_sample` of a buffer's flat samples is the channel of `get_pixel`, and `None` outside. -/
theorem C26_get_sample (b : ImageBuffer α ch) (hb : b.Inv) (hch : ch < 256) (f : FlatSamples α)
    (hf : b.intoFlatSamples = .ok f) (c x y : Nat) :
    (∀ (hc : c < ch) (p : Pix α ch), b.getPixel x y = .ok p → f.getSample c x y = some (p ⟨c, hc⟩) ∧
      f.indexCXY c x y = .ok (p ⟨c, hc⟩)) ∧
    (¬ (c < ch ∧ x < b.width ∧ y < b.height) → f.getSample c x y = none ∧ f.indexCXY c x y = .error .panic) := by
  unfold ImageBuffer.intoFlatSamples at hf
  rw [C24_row_major_layout ch b.width b.height hch hb.w32] at hf
  cases hf
  unfold FlatSamples.getSample FlatSamples.indexCXY
  dsimp only
  constructor
  · intro hc p hp
    have hxy : x < b.width ∧ y < b.height := by
      false_or_by_contra
      rename_i hn
      rw [ImageBuffer.getPixel_oob (by omega)] at hp
      cases hp
    have hat := (ImageBuffer.getPixel_eq_ok hb hxy.1 hxy.2 p).1 hp ⟨c, hc⟩
    have hlt : (y * b.width + x) * ch + c < b.data.length := by
      rcases Nat.lt_or_ge ((y * b.width + x) * ch + c) b.data.length with h | h
      · exact h
      · rw [List.getElem?_eq_none h] at hat; cases hat
    have h64 := hb.len64
    rw [index_eq ⟨hc, hxy.1, hxy.2⟩, C24_row_major_pos, if_pos (by omega)]
    simp only [Option.bind_some, unwrapR, ok_bind]
    dsimp only at hat
    rw [hat]; exact ⟨rfl, rfl⟩
  · intro hn
    have : (⟨ch, 1, b.width, ch, b.height, ch * b.width⟩ : SampleLayout).index c x y = none := by
      unfold index
      rw [if_neg (by rw [inBounds_iff]; exact hn)]
    rw [this]; exact ⟨rfl, rfl⟩

/-- Foreign buffers: `get_sample` through a fitting layout is the sample at the strided position. -/
theorem C26_get_sample_flat (f : FlatSamples α) (hfit : f.layout.fits f.samples.length = true) (c x y : Nat) :
    (f.layout.Inside c x y → ∃ v, f.getSample c x y = some v ∧ f.samples[f.layout.pos c x y]? = some v) ∧
    (¬ f.layout.Inside c x y → f.getSample c x y = none) := by
  unfold FlatSamples.getSample
  obtain ⟨g1, g2⟩ := C22_fits f.layout _ hfit c x y
  constructor
  · intro hi
    obtain ⟨d1, -, d3, -⟩ := g1 hi
    rw [d3]
    exact ⟨f.samples[f.layout.pos c x y], List.getElem?_eq_getElem d1, List.getElem?_eq_getElem d1⟩
  · intro hi; rw [g2 hi]; rfl

/-- `with_monocolor` repeats one pixel: a view of it returns the pixel at every coordinate. -/
theorem C25_with_monocolor (p : Pix α ch) (w h : Nat) (hc : 0 < ch) (hc8 : ch < 256) (hw : w < 2 ^ 32)
    (hh : h < 2 ^ 32) : FlatOk ch (FlatSamples.withMonocolor p w h) ∧
    ∀ x y, x < w → y < h → flatGetPixel ch (FlatSamples.withMonocolor p w h) x y = .ok p := by
  have hok : FlatOk ch (FlatSamples.withMonocolor p w h) := by
    refine ⟨⟨hc8, hw, hh, by simp [FlatSamples.withMonocolor], by simp [FlatSamples.withMonocolor],
      by simp [FlatSamples.withMonocolor]⟩, rfl, hc, by simp [FlatSamples.withMonocolor, Pix.length_toList]; omega, ?_⟩
    unfold fits
    rw [C22_min_length]
    simp only [FlatSamples.withMonocolor, pos, Nat.mul_zero, Nat.mul_one, Nat.add_zero, Pix.length_toList]
    by_cases hz : ch = 0 ∨ w = 0 ∨ h = 0
    · rw [if_pos hz]; simp
    · rw [if_neg hz, if_pos (by omega)]; simp; omega
  refine ⟨hok, fun x y hx hy => (flatGetPixel_eq hok hx hy p).2 fun c => ?_⟩
  simp [FlatSamples.withMonocolor, pos, Pix.toList]

example : ∃ f, (⟨2, 2, List.range 12⟩ : ImageBuffer Nat 3).intoFlatSamples = .ok f ∧
    f.tryIntoBuffer 3 = .ok (.ok ⟨2, 2, List.range 12⟩) := ⟨_, rfl, by rfl⟩
end

end Verif
