import Verif.Proofs.SamplePos

/-!
# Which input indices a filter looks at
-/

namespace Verif

/-- Kernel values divided by their sum. -/
def normalise (a : List Fl) : List Fl := a.map fun w => w.div f32 (a.foldl (Fl.add f32) (.fin 0))

theorem scale_le {len newLen : Nat} (h0 : 0 < len) (h0' : 0 < newLen) : scale len newLen ≤ len := by
  have hl : (1 : ℚ) ≤ len := by exact_mod_cast h0
  have hn : (1 : ℚ) ≤ newLen := by exact_mod_cast h0'
  exact max_le hl (div_le_self (by linarith) hn)

theorem window (f : Filter) {s : ℚ} (hs : f.support = .fin s) (hs0 : 0 ≤ s) {len newLen o : Nat} (h0 : 0 < len)
    (h : len ≤ 2 ^ 17) (ho : o < newLen) (hsl : (1 + s) * len ≤ 2 ^ 19) {σ' x' y' : ℚ}
    (P : Positions len newLen o σ' x' y') :
    ∃ left n, left + n ≤ len ∧ 0 < n ∧
      sampleTaps f len newLen o = (left, normalise ((List.range n).map fun k =>
        f.kernel (((Fl.ofNat f32 (left + k)).sub f32 (.fin y')).div f32 (.fin σ')))) ∧
      (∀ i, left ≤ i → i < left + n →
        |(i : ℚ) + 1 / 2 - centre len newLen o| ≤ s * scale len newLen + 5 / 8) ∧
      ∀ i, i < len → |(i : ℚ) + 1 / 2 - centre len newLen o| ≤ s * scale len newLen + 1 / 4 → left ≤ i ∧ i < left + n := by
  have hsc := scale_ge_one len newLen
  have hscl := scale_le h0 (show 0 < newLen by omega)
  have hX0 := centre_pos h0 ho
  have hXl := centre_lt h0 ho
  have hl1 : (1 : ℚ) ≤ len := by exact_mod_cast h0
  have hl' : (len : ℚ) ≤ 2 ^ 17 := by exact_mod_cast h
  have hse := abs_le.1 P.scale_err
  have hxe := abs_le.1 P.input_err
  have hs1 := P.one_le
  set X := centre len newLen o
  set σ := scale len newLen
  have hsσl : s * σ ≤ s * len := by gcongr
  have hsl2 : s * len ≤ 2 ^ 19 := by linarith [show (1 + s) * len = len + s * len by ring]
  have hsum : len + s * len ≤ 2 ^ 19 := by linarith [show (1 + s) * len = len + s * len by ring]
  have hsσ0 : 0 ≤ s * σ := by positivity
  -- the support
  have hsσ' : |s * σ' - s * σ| ≤ s * σ / 2 ^ 24 := by
    rw [← mul_sub, abs_mul, abs_of_nonneg hs0, mul_div_assoc]
    exact mul_le_mul_of_nonneg_left P.scale_err hs0
  have hsσ'' := abs_le.1 hsσ'
  have hsq0 : 0 ≤ s * σ' := by positivity
  have hsb : s * σ' ≤ s * σ * (1 + 1 / 2 ^ 24) := by linarith [show s * σ * (1 + 1 / 2 ^ 24) = s * σ + s * σ / 2 ^ 24 by ring]
  have hr := rnd_err_le (q := s * σ') (B := s * σ * (1 + 1 / 2 ^ 24)) (by rwa [abs_of_nonneg hsq0])
  have hr' := abs_le.1 hr
  set S := f32.rnd (s * σ') with hS
  have eS : f.support.mul f32 (.fin σ') = .fin S := by
    rw [hs, fl_mul, ofRat32]
    rw [abs_of_nonneg hsq0]
    refine hsb.trans (le_trans (b := (2 : ℚ) ^ 20) ?_ (by norm_num))
    have : s * σ * (1 + 1 / 2 ^ 24) ≤ s * σ * 2 := mul_le_mul_of_nonneg_left (by norm_num) hsσ0
    linarith [show (2 : ℚ) ^ 20 = 2 * 2 ^ 19 by norm_num]
  have hSe : |S - s * σ| ≤ s * σ * (21 / 10 / 2 ^ 24) + 1 / 2 ^ 100 := by
    have e : s * σ / 2 ^ 24 + s * σ * (1 + 1 / 2 ^ 24) / 2 ^ 24 ≤ s * σ * (21 / 10 / 2 ^ 24) := by
      rw [show s * σ / 2 ^ 24 + s * σ * (1 + 1 / 2 ^ 24) / 2 ^ 24 = s * σ * (1 / 2 ^ 24 + (1 + 1 / 2 ^ 24) / 2 ^ 24) by ring]
      exact mul_le_mul_of_nonneg_left (by norm_num) hsσ0
    rw [abs_le]
    constructor <;> linarith
  have hSe' := abs_le.1 hSe
  -- the edges
  have hXe : X * (201 / 100 / 2 ^ 24) ≤ len * (201 / 100 / 2 ^ 24) := by gcongr
  have hSe2 : s * σ * (21 / 10 / 2 ^ 24) ≤ s * len * (21 / 10 / 2 ^ 24) := by gcongr
  have hErr : len * (201 / 100 / 2 ^ 24) + s * len * (21 / 10 / 2 ^ 24) ≤ (1 : ℚ) / 15 := by
    have : len * (201 / 100 / 2 ^ 24) ≤ (len : ℚ) * (21 / 10 / 2 ^ 24) :=
      mul_le_mul_of_nonneg_left (by norm_num) (by linarith)
    have : (len + s * len) * (21 / 10 / 2 ^ 24) ≤ 2 ^ 19 * (21 / 10 / 2 ^ 24) := by gcongr
    linarith [show (2 : ℚ) ^ 19 * (21 / 10 / 2 ^ 24) ≤ 1 / 15 by norm_num,
      show (len + s * len) * (21 / 10 / 2 ^ 24) = len * (21 / 10 / 2 ^ 24) + s * len * (21 / 10 / 2 ^ 24) by ring]
  have edge : ∀ a : ℚ, |a| ≤ 2 ^ 19 + 1 → |f32.rnd a - a| ≤ 1 / 30 := by
    intro a ha
    refine (rnd_err_le ha).trans (by norm_num)
  have habL : |x' - S| ≤ 2 ^ 19 + 1 := by
    rw [abs_le]; constructor <;> linarith
  have habR : |x' + S| ≤ 2 ^ 19 + 1 := by
    rw [abs_le]; constructor <;> linarith
  have eL : (Fl.fin x').sub f32 (.fin S) = .fin (f32.rnd (x' - S)) := by
    rw [fl_sub, ofRat32]; exact habL.trans (by norm_num)
  have eR : (Fl.fin x').add f32 (.fin S) = .fin (f32.rnd (x' + S)) := by
    rw [fl_add, ofRat32]; exact habR.trans (by norm_num)
  have hL := abs_le.1 (edge _ habL)
  have hR := abs_le.1 (edge _ habR)
  set yl := f32.rnd (x' - S)
  set yr := f32.rnd (x' + S)
  have hyl1 : X - s * σ - 1 / 8 ≤ yl := by linarith [show (1 : ℚ) / 2 ^ 100 ≤ 1 / 60 by norm_num]
  have hyl2 : yl ≤ X - s * σ + 1 / 8 := by linarith [show (1 : ℚ) / 2 ^ 100 ≤ 1 / 60 by norm_num]
  have hyr1 : X + s * σ - 1 / 8 ≤ yr := by linarith [show (1 : ℚ) / 2 ^ 100 ≤ 1 / 60 by norm_num]
  have hyr2 : yr ≤ X + s * σ + 1 / 8 := by linarith [show (1 : ℚ) / 2 ^ 100 ≤ 1 / 60 by norm_num]
  have b1 : -2 ^ 20 ≤ ⌊yl⌋ := by
    rw [Int.le_floor]; push_cast; linarith [show (2 : ℚ) ^ 20 = 2 * 2 ^ 19 by norm_num]
  have b2 : ⌊yl⌋ ≤ 2 ^ 20 := by
    have : (⌊yl⌋ : ℚ) ≤ 2 ^ 20 := (Int.floor_le yl).trans (by linarith [show (2 : ℚ) ^ 20 = 2 * 2 ^ 19 by norm_num])
    exact_mod_cast this
  have b3 : ⌈yr⌉ ≤ 2 ^ 20 := by
    rw [Int.ceil_le]; push_cast; linarith [show (2 : ℚ) ^ 20 = 2 * 2 ^ 19 by norm_num]
  have b4 : -2 ^ 20 ≤ ⌈yr⌉ := by
    have : (-2 ^ 20 : ℚ) ≤ ⌈yr⌉ := le_trans (by linarith [show (2 : ℚ) ^ 20 = 2 * 2 ^ 19 by norm_num]) (Int.le_ceil yr)
    exact_mod_cast this
  obtain ⟨left, hleft⟩ : ∃ left : ℕ, (left : ℤ) = clampZ ⌊yl⌋ 0 ((len : ℤ) - 1) :=
    ⟨(clampZ ⌊yl⌋ 0 ((len : ℤ) - 1)).toNat, by unfold clampZ; split_ifs <;> omega⟩
  obtain ⟨right, hright⟩ : ∃ right : ℕ, (right : ℤ) = clampZ ⌈yr⌉ ((left : ℤ) + 1) len :=
    ⟨(clampZ ⌈yr⌉ ((left : ℤ) + 1) len).toNat, by unfold clampZ; split_ifs <;> omega⟩
  have hlr := clampZ_range (a := ⌊yl⌋) (lo := 0) (hi := (len : ℤ) - 1) (by omega)
  rw [← hleft] at hlr
  have hrr := clampZ_range (a := ⌈yr⌉) (lo := (left : ℤ) + 1) (hi := len) (by omega)
  rw [← hright] at hrr
  have e1 : ((((Fl.fin x').sub f32 (.fin S)).floor.toISat 64)) = ⌊yl⌋ := by
    rw [eL]; exact toISat_int rfl (by omega) (by omega)
  have e2 : ((((Fl.fin x').add f32 (.fin S)).ceil.toISat 64)) = ⌈yr⌉ := by
    rw [eR]; exact toISat_int rfl (by omega) (by omega)
  refine ⟨left, right - left, by omega, by omega, ?_, ?_, ?_⟩
  · unfold sampleTaps
    have e3 := P.sratio
    have e4 := P.input
    have e5 := P.shifted
    unfold inputF at e4 e5
    unfold ratioF at e3 e4 e5
    rw [e4] at e5
    simp only [e3, e4, e5, eS, e1, e2]
    have e6 : ((left : ℤ) % 2 ^ 32).toNat = left := by omega
    have e7 : ((right : ℤ) % 2 ^ 32).toNat = right := by omega
    rw [← hleft, e6, ← hright, e7]
    rfl
  · intro i hi1 hi2
    have hi3 : i < right := by omega
    rw [abs_le]
    have hir : (i : ℚ) + 1 ≤ len := by exact_mod_cast (by omega : i + 1 ≤ len)
    constructor
    · -- lower edge
      by_cases hc : (len : ℤ) - 1 < ⌊yl⌋
      · have : left = len - 1 := by
          have : (left : ℤ) = (len : ℤ) - 1 := by rw [hleft]; unfold clampZ; split_ifs <;> omega
          omega
        have : i = len - 1 := by omega
        have : (i : ℚ) + 1 = len := by exact_mod_cast (by omega : i + 1 = len)
        linarith
      · have : ⌊yl⌋ ≤ (i : ℤ) := by
          have : ⌊yl⌋ ≤ (left : ℤ) := by rw [hleft]; unfold clampZ; split_ifs <;> omega
          omega
        have h1 : (⌊yl⌋ : ℚ) ≤ i := by exact_mod_cast this
        have h2 := Int.lt_floor_add_one yl
        linarith
    · -- upper edge
      by_cases hc : ⌈yr⌉ < (left : ℤ) + 1
      · have hrl : right = left + 1 := by
          have : (right : ℤ) = (left : ℤ) + 1 := by rw [hright]; unfold clampZ; rw [if_pos hc]
          omega
        have hil : i = left := by omega
        by_cases hc2 : ⌊yl⌋ < 0
        · have : left = 0 := by
            have : (left : ℤ) = 0 := by rw [hleft]; unfold clampZ; rw [if_pos hc2]
            omega
          rw [hil, this]
          push_cast
          linarith
        · have : (left : ℤ) ≤ ⌊yl⌋ := by rw [hleft]; unfold clampZ; split_ifs <;> omega
          have h1 : (left : ℚ) ≤ ⌊yl⌋ := by exact_mod_cast this
          have h2 := Int.floor_le yl
          rw [hil]
          linarith
      · have : (right : ℤ) ≤ ⌈yr⌉ := by rw [hright]; unfold clampZ; split_ifs <;> omega
        have h1 : (i : ℤ) < ⌈yr⌉ := by omega
        rw [Int.lt_ceil] at h1
        push_cast at h1
        linarith
  · intro i hi ha
    rw [abs_le] at ha
    constructor
    · have h1 : ⌊yl⌋ ≤ (i : ℤ) := by
        have : ⌊yl⌋ < (i : ℤ) + 1 := by
          rw [Int.floor_lt]; push_cast; linarith
        omega
      have : (left : ℤ) ≤ i := by rw [hleft]; unfold clampZ; split_ifs <;> omega
      omega
    · have h1 : (i : ℤ) < ⌈yr⌉ := by
        rw [Int.lt_ceil]; push_cast; linarith
      have : (i : ℤ) < right := by rw [hright]; unfold clampZ; split_ifs <;> omega
      omega

end Verif
