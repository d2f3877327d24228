import Verif.Props.SampleNearest

/-!
# C83: `interpolate_nearest` and `sample_nearest`
-/

namespace Verif
open GenericImageView GenericImage LawfulView LawfulImage

/-- A float is a number between `0` and `n - 1`. -/
def Inside (n : Nat) (x : Fl) : Prop := ∃ q : ℚ, x = .fin q ∧ 0 ≤ q ∧ q ≤ n - 1

theorem inRange_iff {n : Nat} (h0 : 0 < n) (hn : n ≤ 2 ^ 24) (x : Fl) :
    inRangeF (.fin 0) (Fl.ofNat f32 (n - 1)) x = true ↔ Inside n x := by
  rw [ofNat32 (show n - 1 ≤ 2 ^ 24 by omega)]
  have e : ((n - 1 : ℕ) : ℚ) = n - 1 := by
    rw [Nat.cast_sub (by omega)]; simp
  rw [e]
  unfold Inside
  cases x with
  | nan => simp [inRangeF, Fl.le]
  | inf s => cases s <;> simp [inRangeF, Fl.le]
  | fin q => simp [inRangeF, Fl.le]

/-- The nearest index. -/
theorem round_index {n : Nat} (h0 : 0 < n) (hn : n ≤ 2 ^ 24) {q : ℚ} (hq0 : 0 ≤ q) (hq : q ≤ n - 1) :
    ∃ i, (Fl.fin q).round.toUSat 32 = i ∧ i < n ∧ |(i : ℚ) - q| ≤ 1 / 2 := by
  have h1 := roundHalfAway_nonneg hq0
  have h2 := roundHalfAway_error hq0
  have h3 : roundHalfAway q ≤ (n : ℤ) - 1 := by
    have := roundHalfAway_mono hq0 hq
    have e : roundHalfAway ((n : ℚ) - 1) = (n : ℤ) - 1 := by
      refine roundHalfAway_near (by omega) ?_
      push_cast
      simp
    omega
  refine ⟨(roundHalfAway q).toNat, ?_, by omega, ?_⟩
  · show min ⌊((roundHalfAway q : ℤ) : ℚ)⌋.toNat (2 ^ 32 - 1) = _
    rw [Int.floor_intCast]
    omega
  · have : (((roundHalfAway q).toNat : ℕ) : ℚ) = ((roundHalfAway q : ℤ) : ℚ) := by
      exact_mod_cast Int.toNat_of_nonneg h1
    rw [this]; exact h2

/-- C83: inside the picture `interpolate_nearest` gives the pixel at the nearest position. -/
theorem C83_interpolate {I P : Type} [GenericImageView I P] [LawfulView I P] (img : I) (wf : WF img)
    (hw : widthOf img ≤ 2 ^ 24) (hh : heightOf img ≤ 2 ^ 24) (x y : ℚ) (hx0 : 0 ≤ x) (hx : x ≤ widthOf img - 1)
    (hy0 : 0 ≤ y) (hy : y ≤ heightOf img - 1) :
    ∃ i j p, i < widthOf img ∧ j < heightOf img ∧ |(i : ℚ) - x| ≤ 1 / 2 ∧ |(j : ℚ) - y| ≤ 1 / 2 ∧
      getPixel img i j = .ok p ∧ interpolateNearest img (.fin x) (.fin y) = .ok (some p) := by
  have hw0 : 0 < widthOf img := by
    have : (0 : ℚ) < widthOf img := by linarith
    exact_mod_cast this
  have hh0 : 0 < heightOf img := by
    have : (0 : ℚ) < heightOf img := by linarith
    exact_mod_cast this
  obtain ⟨i, e1, i1, i2⟩ := round_index hw0 hw hx0 hx
  obtain ⟨j, e2, j1, j2⟩ := round_index hh0 hh hy0 hy
  obtain ⟨p, hp⟩ := get_ok wf i1 j1
  refine ⟨i, j, p, i1, j1, i2, j2, hp, ?_⟩
  unfold interpolateNearest
  simp only [(inRange_iff hw0 hw _).2 ⟨x, rfl, hx0, hx⟩, (inRange_iff hh0 hh _).2 ⟨y, rfl, hy0, hy⟩, e1, e2, hp]
  rw [if_neg (by omega)]
  simp

/-- C83: elsewhere, for infinities and for NaN it gives nothing. -/
theorem C83_interpolate_none {I P : Type} [GenericImageView I P] (img : I)
    (hw : widthOf img ≤ 2 ^ 24) (hh : heightOf img ≤ 2 ^ 24) (x y : Fl)
    (h : ¬ (Inside (widthOf img) x ∧ Inside (heightOf img) y)) : interpolateNearest img x y = .ok none := by
  unfold interpolateNearest
  by_cases h0 : widthOf img = 0 ∨ heightOf img = 0
  · simp only [if_pos h0]
  simp only [if_neg h0]
  by_cases hx : Inside (widthOf img) x
  · have hy : ¬ Inside (heightOf img) y := fun hy => h ⟨hx, hy⟩
    rw [← inRange_iff (by omega) hh] at hy
    simp [(inRange_iff (by omega) hw x).2 hx, hy]
  · rw [← inRange_iff (by omega) hw] at hx
    simp [hx]

/-- The sampling position of `sample_nearest` and `sample_bilinear`. -/
theorem sample_pos {n : Nat} (h0 : 0 < n) (hn : n ≤ 2 ^ 24) {u : ℚ} (hu0 : 0 ≤ u) (hu : u ≤ 1) :
    ∃ t a : ℚ, ((((Fl.ofNat f32 n).mul f32 (.fin u)).sub f32 (.fin (1 / 2))).fmax (.fin 0)).fmin (Fl.ofNat f32 (n - 1)) = .fin t ∧
      t = min (max a 0) (n - 1) ∧ |a - (n * u - 1 / 2)| ≤ n / 2 ^ 22 := by
  rw [ofNat32 (show n - 1 ≤ 2 ^ 24 by omega), ofNat32 hn]
  have e : ((n - 1 : ℕ) : ℚ) = n - 1 := by
    rw [Nat.cast_sub (by omega)]; simp
  have h1 : (1 : ℚ) ≤ n := by exact_mod_cast h0
  have h2 : (n : ℚ) ≤ 2 ^ 24 := by exact_mod_cast hn
  have h3 : (n : ℚ) * u ≤ n * 1 := by gcongr
  have h4 : 0 ≤ (n : ℚ) * u := by positivity
  have r1 := rnd_err32 ((n : ℚ) * u)
  rw [abs_of_nonneg h4, abs_le] at r1
  set z := f32.rnd ((n : ℚ) * u)
  have hz0 : |z - 1 / 2| ≤ n + 1 := by
    rw [abs_le]; constructor <;> linarith [r1.1, r1.2]
  have r2 := rnd_err32 (z - 1 / 2)
  rw [abs_le] at r2
  rw [e, fl_mul, ofRat32 (by rw [abs_of_nonneg h4]; linarith [show (2 : ℚ) ^ 24 ≤ 2 ^ 127 by norm_num]), fl_sub,
    ofRat32 (by linarith [show (2 : ℚ) ^ 24 + 1 ≤ 2 ^ 127 by norm_num])]
  refine ⟨_, f32.rnd (z - 1 / 2), ?_, rfl, ?_⟩
  · set a := f32.rnd (z - 1 / 2)
    have h5 : (Fl.fin a).fmax (.fin 0) = .fin (max a 0) := by
      show (if (Fl.fin a).lt (.fin 0) then _ else _) = _
      by_cases ha : a < 0
      · rw [if_pos (by simp [Fl.lt, ha]), max_eq_right ha.le]
      · rw [if_neg (by simp [Fl.lt]; linarith), max_eq_left (by linarith)]
    rw [h5]
    show (if (Fl.fin ((n : ℚ) - 1)).lt (.fin (max a 0)) then _ else _) = _
    by_cases ha : (n : ℚ) - 1 < max a 0
    · rw [if_pos (by simp only [Fl.lt, decide_eq_true_eq]; exact ha), min_eq_right ha.le]
    · rw [if_neg (by simp only [Fl.lt, decide_eq_true_eq]; exact ha), min_eq_left (by linarith)]
  · rw [abs_le]
    constructor <;> linarith [r1.1, r1.2, r2.1, r2.2]

/-- C83: `sample_nearest` gives the pixel whose square contains the point, up to rounding of the point's position. -/
theorem C83_sample {I P : Type} [GenericImageView I P] [LawfulView I P] (img : I) (wf : WF img)
    (hw0 : 0 < widthOf img) (hh0 : 0 < heightOf img)
    (hw : widthOf img ≤ 2 ^ 24) (hh : heightOf img ≤ 2 ^ 24) (u v : ℚ) (hu0 : 0 ≤ u) (hu : u ≤ 1) (hv0 : 0 ≤ v) (hv : v ≤ 1) :
    ∃ i j p, i < widthOf img ∧ j < heightOf img ∧
      i - widthOf img / 2 ^ 22 ≤ widthOf img * u ∧ widthOf img * u ≤ i + 1 + widthOf img / 2 ^ 22 ∧
      j - heightOf img / 2 ^ 22 ≤ heightOf img * v ∧ heightOf img * v ≤ j + 1 + heightOf img / 2 ^ 22 ∧
      getPixel img i j = .ok p ∧ sampleNearest img (.fin u) (.fin v) = .ok (some p) := by
  have axis : ∀ (n : Nat) (u t a : ℚ) (i : Nat), 0 < n → 0 ≤ u → u ≤ 1 → t = min (max a 0) (n - 1) →
      |a - (n * u - 1 / 2)| ≤ n / 2 ^ 22 → i < n → |(i : ℚ) - t| ≤ 1 / 2 →
      (i : ℚ) - n / 2 ^ 22 ≤ n * u ∧ n * u ≤ i + 1 + n / 2 ^ 22 := by
    intro n u t a i hn hu0 hu ht ha hi hit
    have h1 : (1 : ℚ) ≤ n := by exact_mod_cast hn
    have h2 : (n : ℚ) * u ≤ n * 1 := by gcongr
    have h3 : 0 ≤ (n : ℚ) * u := by positivity
    have hi0 : (0 : ℚ) ≤ i := by positivity
    have hi1 : (i : ℚ) + 1 ≤ n := by exact_mod_cast hi
    have hf : (0 : ℚ) ≤ n / 2 ^ 22 := by positivity
    rw [abs_le] at ha hit
    rcases le_total a 0 with h | h
    · rw [max_eq_right h, min_eq_left (by linarith)] at ht
      subst ht
      have hi2 : (i : ℚ) < 1 := by linarith
      have : i < 1 := by exact_mod_cast hi2
      obtain rfl : i = 0 := by omega
      simp at *
      constructor <;> linarith
    · rw [max_eq_left h] at ht
      rcases le_total a ((n : ℚ) - 1) with h' | h'
      · rw [min_eq_left h'] at ht
        constructor <;> linarith
      · rw [min_eq_right h'] at ht
        have hi2 : (n : ℚ) - 1 < i + 1 := by linarith
        have : n < i + 2 := by
          have : (n : ℚ) < i + 2 := by linarith
          exact_mod_cast this
        obtain rfl : n = i + 1 := by omega
        push_cast at *
        constructor <;> linarith
  obtain ⟨t, a, e1, t1, t2⟩ := sample_pos hw0 hw hu0 hu
  obtain ⟨t', a', e2, t3, t4⟩ := sample_pos hh0 hh hv0 hv
  have hw1 : (1 : ℚ) ≤ widthOf img := by exact_mod_cast hw0
  have hh1 : (1 : ℚ) ≤ heightOf img := by exact_mod_cast hh0
  obtain ⟨i, j, p, i1, j1, i2, j2, hp, hI⟩ := C83_interpolate img wf hw hh t t'
    (by rw [t1]; exact le_min (le_max_right _ _) (by linarith)) (by rw [t1]; exact min_le_right _ _)
    (by rw [t3]; exact le_min (le_max_right _ _) (by linarith)) (by rw [t3]; exact min_le_right _ _)
  obtain ⟨a1, a2⟩ := axis _ u t a i hw0 hu0 hu t1 t2 i1 i2
  obtain ⟨b1, b2⟩ := axis _ v t' a' j hh0 hv0 hv t3 t4 j1 j2
  refine ⟨i, j, p, i1, j1, a1, a2, b1, b2, hp, ?_⟩
  unfold sampleNearest
  rw [if_neg (by simp [inRangeF, Fl.le, hu0, hu, hv0, hv])]
  simp only [satSub, e1, e2, hI]

/-- C83: `sample_nearest` gives nothing for an empty picture and for coordinates outside `0..1`, infinite or NaN. -/
theorem C83_sample_none {I P : Type} [GenericImageView I P] (img : I) (u v : Fl)
    (h : widthOf img = 0 ∨ heightOf img = 0 ∨
      ¬ ((∃ q : ℚ, u = .fin q ∧ 0 ≤ q ∧ q ≤ 1) ∧ ∃ q : ℚ, v = .fin q ∧ 0 ≤ q ∧ q ≤ 1)) :
    sampleNearest img u v = .ok none := by
  have key : ∀ x : Fl, inRangeF (.fin 0) (.fin 1) x = true ↔ ∃ q : ℚ, x = .fin q ∧ 0 ≤ q ∧ q ≤ 1 := by
    intro x
    cases x with
    | nan => simp [inRangeF, Fl.le]
    | inf s => cases s <;> simp [inRangeF, Fl.le]
    | fin q => simp [inRangeF, Fl.le]
  unfold sampleNearest
  by_cases hr : (inRangeF (.fin 0) (.fin 1) u && inRangeF (.fin 0) (.fin 1) v) = true
  · rw [Bool.and_eq_true, key, key] at hr
    have h0 : widthOf img = 0 ∨ heightOf img = 0 := by
      rcases h with h | h | h
      · exact Or.inl h
      · exact Or.inr h
      · exact absurd hr h
    rw [if_neg (by rw [Bool.not_eq_true', (key u).2 hr.1, (key v).2 hr.2]; simp)]
    unfold interpolateNearest
    simp only [if_pos h0]
  · rw [if_pos (by rw [Bool.not_eq_true']; exact Bool.eq_false_iff.2 hr)]

/-- A very wide picture. -/
def wide : ImageBuffer Nat 1 := ⟨2 ^ 24 + 4, 1, List.replicate (2 ^ 24 + 4) 7⟩

theorem wide_wf : WF wide := by
  have hl : wide.data.length = 2 ^ 24 + 4 := List.length_replicate
  exact ⟨by decide, by decide, by rw [hl]; decide, by rw [hl]; decide⟩

/-- That a point outside the picture gives nothing is false of pictures wider than `2^24`: the width is rounded up, and a
point just beyond the last column makes `interpolate_nearest` panic. -/
theorem C83_outside_false : ¬ Inside (widthOf wide) (.fin (2 ^ 24 + 4)) ∧
    interpolateNearest wide (.fin (2 ^ 24 + 4)) (.fin 0) = panicR := by
  constructor
  · rintro ⟨q, h, -, h2⟩
    obtain rfl := Fl.fin.inj h
    rw [show widthOf wide = 2 ^ 24 + 4 from rfl] at h2
    norm_num at h2
  · have h1 : inRangeF (.fin 0) (Fl.ofNat f32 (widthOf wide - 1)) (.fin (2 ^ 24 + 4)) = true := by
      rw [show widthOf wide = 2 ^ 24 + 4 from rfl]; decide +kernel
    have h2 : inRangeF (.fin 0) (Fl.ofNat f32 (heightOf wide - 1)) (.fin 0) = true := by
      rw [show heightOf wide = 1 from rfl]; decide +kernel
    have h3 : (Fl.fin (2 ^ 24 + 4)).round.toUSat 32 = 2 ^ 24 + 4 := by decide +kernel
    have h4 : getPixel wide (2 ^ 24 + 4) ((Fl.fin 0).round.toUSat 32) = panicR := by
      show ImageBuffer.getPixel _ _ _ = _
      unfold ImageBuffer.getPixel ImageBuffer.pixelIndices
      rw [if_pos (Or.inl (by decide))]
      rfl
    unfold interpolateNearest
    simp only [h1, h2, h3, h4]
    rw [if_neg (by rw [show widthOf wide = 2 ^ 24 + 4 from rfl, show heightOf wide = 1 from rfl]; decide)]
    rfl

example : interpolateNearest grey22 (.fin (3 / 4)) (.fin (1 / 4)) = .ok (some fun _ => 20) := by decide +kernel
example : sampleNearest grey22 (.fin 1) (.fin 0) = .ok (some fun _ => 20) := by decide +kernel
example : ∃ (i j : ℕ) (p : Pix Nat 1), i < 2 ∧ j < 2 ∧ |(i : ℚ) - 3 / 4| ≤ 1 / 2 ∧ |(j : ℚ) - 1 / 4| ≤ 1 / 2 ∧
    getPixel grey22 i j = .ok p ∧ interpolateNearest grey22 (.fin (3 / 4)) (.fin (1 / 4)) = .ok (some p) :=
  C83_interpolate grey22 grey22_wf (by decide) (by decide) (3 / 4) (1 / 4) (by norm_num)
    (by rw [show widthOf grey22 = 2 from rfl]; norm_num) (by norm_num) (by rw [show heightOf grey22 = 2 from rfl]; norm_num)
example : ¬ (Inside (widthOf grey22) (.fin (3 / 2)) ∧ Inside (heightOf grey22) .nan) := by
  rintro ⟨-, q, h, -⟩
  cases h

end Verif
