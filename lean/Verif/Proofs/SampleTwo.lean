import Verif.Proofs.SampleMean
import Verif.Proofs.SampleWindow
import Verif.Props.SampleNearest

/-!
# Two passes with kernel values of either sign
-/

namespace Verif

variable {ch : Nat}

/-- The taps for one output index: `n` kernel values `a`, starting at input index `left`; `K` bounds the cancellation
between them. -/
structure Taps (f : Filter) (len newLen o left n : Nat) (a : Nat → ℚ) (K : ℚ) : Prop where
  eq : sampleTaps f len newLen o = (left, normalise ((List.range n).map fun k => .fin (a k)))
  span : left + n ≤ len
  one_le : 1 ≤ K
  few : n * K ≤ 2 ^ 13
  cancel : sumR n (fun i => |a i|) ≤ K * sumR n a
  lo : 1 / 2 ^ 60 ≤ sumR n a
  hi : sumR n a ≤ 2 ^ 60

theorem Taps.pos {f : Filter} {len newLen o left n : Nat} {a : Nat → ℚ} {K : ℚ} (h : Taps f len newLen o left n a K) :
    0 < sumR n a := lt_of_lt_of_le (by norm_num) h.lo

/-- One pass. -/
theorem Taps.dot {f : Filter} {len newLen o left n : Nat} {a : Nat → ℚ} {K : ℚ} (h : Taps f len newLen o left n a K)
    {M : ℚ} (hM : 1 ≤ M) (hM' : M ≤ 2 ^ 60) {v : Nat → Fl} {V : Nat → ℚ} (hv : ∀ i, i < n → v i = .fin (V i))
    (hV : ∀ i, i < n → |V i| ≤ M) :
    ∃ t, dotF (sampleTaps f len newLen o).2 v = .fin t ∧ |t - meanR n a V| ≤ 5 * (n + 1) * K ^ 2 * M / 2 ^ 24 := by
  rw [h.eq]
  obtain ⟨t, e1, e2⟩ := mean_near h.one_le h.few hM hM' h.cancel h.lo h.hi hV (ws := normalise ((List.range n).map fun k => .fin (a k))) rfl
  refine ⟨t, ?_, e2⟩
  rw [← e1]
  rw [dotF_eq, dotF_eq]
  congr 1
  refine List.map_congr_left fun i hi => ?_
  have : i < n := by simpa [normalise] using hi
  rw [hv i this]

/-- Bounding a mean of small values. -/
theorem Taps.mean_diff {f : Filter} {len newLen o left n : Nat} {a : Nat → ℚ} {K : ℚ} (h : Taps f len newLen o left n a K)
    {u v : Nat → ℚ} {e : ℚ} (he : 0 ≤ e) (hd : ∀ i, i < n → |u i - v i| ≤ e) : |meanR n a u - meanR n a v| ≤ K * e := by
  have : meanR n a u - meanR n a v = meanR n a fun i => u i - v i := by
    unfold meanR
    rw [← sub_div, ← sumR_sub]
    congr 2
    funext i; ring
  rw [this]
  exact meanR_abs h.pos h.cancel hd he

/-- The mean that the two passes approximate. -/
def mean2 (nx ny : Nat) (ax ay : Nat → ℚ) (V : Nat → Nat → ℚ) : ℚ := meanR nx ax fun i => meanR ny ay fun j => V i j

/-- Both passes, for samples of any type with the values `V`. -/
theorem two_pass_gen {α : Type} {S : Samp α} {M : ℚ} (hM1 : 1 ≤ M) (hM2 : M ≤ 2 ^ 40) {f : Filter} {w nw h nh x y lx ly nx ny : Nat} {ax ay : Nat → ℚ} {K : ℚ}
    (tx : Taps f w nw x lx nx ax K) (ty : Taps f h nh y ly ny ay K) {pix : Nat → Nat → Pix α ch} {c : Fin 4} {V : Nat → Nat → ℚ}
    (hp : ∀ x y, x < w → y < h → S.toF32 (channels4 S (pix x y) c) = .fin (V x y)) (hV : ∀ x y, x < w → y < h → |V x y| ≤ M) :
    ∃ t, rowF f w nw (colF S f h nh pix) x y c = .fin t ∧
      |t - mean2 nx ny ax ay fun i j => V (lx + i) (ly + j)| ≤
        6 * K ^ 3 * M * (nx + ny + 2) / 2 ^ 24 := by
  have hK := tx.one_le
  have hyK := ty.few
  have hxK := tx.few
  have hny0 : (0 : ℚ) ≤ ny := by positivity
  have hnx0 : (0 : ℚ) ≤ nx := by positivity
  have hny1 : 1 ≤ (ny : ℚ) := by
    have := ty.pos
    rcases Nat.eq_zero_or_pos ny with rfl | h
    · simp [sumR] at this
    · exact_mod_cast h
  have hKb : K ≤ 2 ^ 13 := by
    have : 1 * K ≤ ny * K := by gcongr
    linarith
  -- the columns
  have hcol : ∀ i, i < nx → ∃ u, colF S f h nh pix (lx + i) y c = .fin u ∧
      |u - meanR ny ay (fun j => V (lx + i) (ly + j))| ≤
        5 * (ny + 1) * K ^ 2 * M / 2 ^ 24 := by
    intro i hi
    have hs := tx.span
    have hs' := ty.span
    unfold colF
    refine ty.dot hM1 (hM2.trans (by norm_num)) ?_ ?_
    · intro j hj
      rw [ty.eq]
      exact hp (lx + i) (ly + j) (by omega) (by omega)
    · exact fun j hj => hV (lx + i) (ly + j) (by omega) (by omega)
  choose! u hu1 hu2 using hcol
  set e1 := 5 * (ny + 1) * K ^ 2 * M / 2 ^ 24 with he1
  have he10 : 0 ≤ e1 := by rw [he1]; positivity
  have he1' : e1 ≤ K * M / 200 := by
    rw [he1]
    have h1 : (ny + 1 : ℚ) * K ≤ 2 ^ 14 := by
      have : (ny + 1 : ℚ) * K ≤ (ny + ny) * K := by gcongr
      linarith [show (2 : ℚ) ^ 14 = 2 * 2 ^ 13 by norm_num]
    calc 5 * (ny + 1) * K ^ 2 * M / 2 ^ 24 = ((ny + 1) * K) * (5 * (K * M) / 2 ^ 24) := by ring
      _ ≤ 2 ^ 14 * (5 * (K * M) / 2 ^ 24) := by gcongr
      _ = K * M * (2 ^ 14 * 5 / 2 ^ 24) := by ring
      _ ≤ K * M * (1 / 200) := mul_le_mul_of_nonneg_left (by norm_num) (by positivity)
      _ = _ := by ring
  have hub : ∀ i, i < nx → |u i| ≤ K * M * (201 / 200) := by
    intro i hi
    have hs := tx.span
    have hs' := ty.span
    have h1 := hu2 i hi
    have h2 : |meanR ny ay (fun j => V (lx + i) (ly + j))| ≤ K * M := by
      refine meanR_abs ty.pos ty.cancel ?_ (by linarith)
      exact fun j hj => hV (lx + i) (ly + j) (by omega) (by omega)
    have h3 := abs_add_le (u i - meanR ny ay (fun j => V (lx + i) (ly + j)))
      (meanR ny ay (fun j => V (lx + i) (ly + j)))
    rw [sub_add_cancel] at h3
    linarith
  have hKM : 1 ≤ K * M := by nlinarith
  obtain ⟨t, et, te⟩ := tx.dot (M := K * M * (201 / 200)) (by linarith) (by
      calc K * M * (201 / 200) ≤ 2 ^ 13 * 2 ^ 40 * (201 / 200) := by gcongr
        _ ≤ 2 ^ 60 := by norm_num) (v := fun i => colF S f h nh pix ((sampleTaps f w nw x).1 + i) y c) (V := u) (by
      intro i hi
      rw [tx.eq]; exact hu1 i hi) hub
  refine ⟨t, et, ?_⟩
  have hd := tx.mean_diff he10 hu2
  unfold mean2
  have e : t - meanR nx ax (fun i => meanR ny ay fun j => V (lx + i) (ly + j)) =
    (t - meanR nx ax u) + (meanR nx ax u - meanR nx ax (fun i => meanR ny ay fun j => V (lx + i) (ly + j))) := by ring
  rw [e]
  refine (abs_add_le _ _).trans ?_
  have hZ : (0 : ℚ) ≤ K ^ 3 * M := by positivity
  have f1 : 5 * (nx + 1) * K ^ 2 * (K * M * (201 / 200)) / 2 ^ 24 = K ^ 3 * M * (nx + 1) * (5 * (201 / 200) / 2 ^ 24) := by ring
  have f2 : K * e1 = K ^ 3 * M * (ny + 1) * (5 / 2 ^ 24) := by rw [he1]; ring
  have f3 : K ^ 3 * M * (nx + 1) * (5 * (201 / 200) / 2 ^ 24) ≤ K ^ 3 * M * (nx + 1) * (6 / 2 ^ 24) :=
    mul_le_mul_of_nonneg_left (by norm_num) (by positivity)
  have f4 : K ^ 3 * M * (ny + 1) * (5 / 2 ^ 24) ≤ K ^ 3 * M * (ny + 1) * (6 / 2 ^ 24) :=
    mul_le_mul_of_nonneg_left (by norm_num) (by positivity)
  linarith [show 6 * K ^ 3 * M * (nx + ny + 2) / 2 ^ 24 = K ^ 3 * M * (nx + 1) * (6 / 2 ^ 24) + K ^ 3 * M * (ny + 1) * (6 / 2 ^ 24) by ring]

/-- Both passes. -/
theorem two_pass {T : Prim} (hT : T.bits ≤ 16) {f : Filter} {w nw h nh x y lx ly nx ny : Nat} {ax ay : Nat → ℚ} {K : ℚ}
    (tx : Taps f w nw x lx nx ax K) (ty : Taps f h nh y ly ny ay K) {pix : Nat → Nat → Pix Nat ch}
    (hp : ∀ x y, x < w → y < h → ∀ c, pix x y c ≤ T.max) (c : Fin 4) :
    ∃ t, rowF f w nw (colF (Samp.uint T) f h nh pix) x y c = .fin t ∧
      |t - mean2 nx ny ax ay fun i j => (channels4 (Samp.uint T) (pix (lx + i) (ly + j)) c : ℕ)| ≤
        6 * K ^ 3 * T.max * (nx + ny + 2) / 2 ^ 24 := by
  have hpow : 2 ^ T.bits ≤ 2 ^ 16 := Nat.pow_le_pow_right (by norm_num) hT
  have hmax : T.max = 2 ^ T.bits - 1 := rfl
  have hbits : 1 ≤ T.bits := by cases T <;> simp [Prim.bits]
  have hpos : 2 ^ 1 ≤ 2 ^ T.bits := Nat.pow_le_pow_right (by norm_num) hbits
  have hM1 : (1 : ℚ) ≤ T.max := by exact_mod_cast (by omega : 1 ≤ T.max)
  have hM2 : (T.max : ℚ) ≤ 2 ^ 40 := by exact_mod_cast (by omega : T.max ≤ 2 ^ 40)
  refine two_pass_gen hM1 hM2 tx ty (V := fun i j => ((channels4 (Samp.uint T) (pix i j) c : ℕ) : ℚ)) ?_ ?_
  · intro i j hi hj
    have hle := channels4_le (hp i j hi hj) c
    exact ofNat32 (by omega)
  · intro i j hi hj
    have hle := channels4_le (hp i j hi hj) c
    rw [abs_of_nonneg (by positivity)]
    exact_mod_cast hle

/-- Rounding the result: every finite value is clamped to the range and rounded to the nearest integer. -/
theorem nearestSample_fin {T : Prim} (hT : T.bits ≤ 16) (t : ℚ) :
    ∃ g : Nat, nearestSample (Samp.uint T) (.fin t) = .ok g ∧ g ≤ T.max ∧ |(g : ℚ) - max 0 (min t T.max)| ≤ 1 / 2 := by
  have hpow : 2 ^ T.bits ≤ 2 ^ 16 := Nat.pow_le_pow_right (by norm_num) hT
  have hmax : T.max = 2 ^ T.bits - 1 := rfl
  have hpos : 0 < 2 ^ T.bits := by positivity
  have e1 : (Samp.uint T).toF32 (Samp.uint T).min = .fin 0 := by
    show Fl.ofNat f32 0 = _
    rw [ofNat32 (by norm_num)]; norm_num
  have e2 : (Samp.uint T).toF32 (Samp.uint T).max = .fin T.max := by
    show Fl.ofNat f32 T.max = _
    exact ofNat32 (by omega)
  have hm0 : (0 : ℚ) ≤ T.max := by positivity
  have hc : clampF (.fin t) (.fin 0) (.fin T.max) = .fin (max 0 (min t T.max)) := by
    unfold clampF Fl.lt
    by_cases h1 : t < 0
    · rw [min_eq_left (by linarith), max_eq_left h1.le]; simp [h1]
    · by_cases h2 : (T.max : ℚ) < t
      · rw [min_eq_right h2.le, max_eq_right hm0]; simp [h1, h2]
      · rw [min_eq_left (not_lt.1 h2), max_eq_right (not_lt.1 h1)]; simp [h1, h2]
  set z := max 0 (min t (T.max : ℚ)) with hz
  have hz0 : 0 ≤ z := le_max_left _ _
  have hz1 : z ≤ T.max := max_le hm0 (min_le_right _ _)
  have hr1 : |((roundHalfAway z : ℤ) : ℚ) - z| ≤ 1 / 2 := by
    unfold roundHalfAway
    rw [if_pos hz0, abs_le]
    have := Int.floor_le (z + 1 / 2)
    have := Int.lt_floor_add_one (z + 1 / 2)
    constructor <;> linarith
  have hr1' := abs_le.1 hr1
  have hr0 : 0 ≤ roundHalfAway z := by
    have : (-1 : ℚ) < roundHalfAway z := by linarith
    have : (-1 : ℤ) < roundHalfAway z := by exact_mod_cast this
    omega
  have hr2 : roundHalfAway z ≤ T.max := by
    have : (roundHalfAway z : ℚ) < (T.max : ℚ) + 1 := by linarith
    have : roundHalfAway z < (T.max : ℤ) + 1 := by exact_mod_cast this
    omega
  refine ⟨(roundHalfAway z).toNat, ?_, by omega, ?_⟩
  · unfold nearestSample
    rw [e1, e2, hc]
    show unwrapR (Fl.castU T.bits (Fl.fin ((roundHalfAway z : ℤ) : ℚ))) = _
    unfold Fl.castU
    have h1 : (-1 : ℚ) < ((roundHalfAway z : ℤ) : ℚ) ∧ ((roundHalfAway z : ℤ) : ℚ) < 2 ^ T.bits := by
      constructor
      · linarith
      · have h3 : roundHalfAway z < (2 ^ T.bits : ℕ) := by omega
        exact_mod_cast h3
    simp only [if_pos h1]
    simp [unwrapR]
  · have : (((roundHalfAway z).toNat : ℕ) : ℚ) = ((roundHalfAway z : ℤ) : ℚ) := by
      have : (((roundHalfAway z).toNat : ℕ) : ℤ) = roundHalfAway z := Int.toNat_of_nonneg hr0
      exact_mod_cast this
    rw [this]; exact hr1

end Verif
