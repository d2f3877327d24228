import Verif.Proofs.SampleTaps

/-!
# How exact the positions and filter arguments are
-/

namespace Verif

theorem rnd_err_le {q B : ℚ} (h : |q| ≤ B) : |f32.rnd q - q| ≤ B / 2 ^ 24 + 1 / 2 ^ 100 := by
  refine (rnd_err32 q).trans ?_
  gcongr

theorem scale_ge_one (len newLen : Nat) : 1 ≤ scale len newLen := le_max_left _ _

theorem centre_pos {len newLen o : Nat} (h0 : 0 < len) (ho : o < newLen) : 0 < centre len newLen o := by
  have : (0 : ℚ) < len := by exact_mod_cast h0
  have : (0 : ℚ) < newLen := by exact_mod_cast (by omega : 0 < newLen)
  unfold centre; positivity

theorem centre_lt {len newLen o : Nat} (h0 : 0 < len) (ho : o < newLen) : centre len newLen o < len := by
  have h1 : (0 : ℚ) < len := by exact_mod_cast h0
  have hn : (0 : ℚ) < newLen := by exact_mod_cast (by omega : 0 < newLen)
  have hoq : (o : ℚ) + 1 / 2 < newLen := by
    have : (o : ℚ) + 1 ≤ newLen := by exact_mod_cast ho
    linarith
  unfold centre
  calc ((o : ℚ) + 1 / 2) * (len / newLen) < newLen * (len / newLen) := by gcongr
    _ = len := by field_simp

/-- The centre, in units of the stretch, is at most the smaller length. -/
theorem centre_div_scale {len newLen o : Nat} (h0 : 0 < len) (ho : o < newLen) :
    centre len newLen o / scale len newLen ≤ (min len newLen : ℕ) := by
  have h1 : (0 : ℚ) < len := by exact_mod_cast h0
  have hn : (0 : ℚ) < newLen := by exact_mod_cast (by omega : 0 < newLen)
  have hs := scale_ge_one len newLen
  have hc := centre_pos h0 ho
  rw [div_le_iff₀ (by linarith)]
  rcases le_total len newLen with h | h
  · rw [min_eq_left h]
    have := centre_lt h0 ho
    nlinarith
  · rw [min_eq_right h]
    have h2 : (len : ℚ) / newLen ≤ scale len newLen := le_max_right _ _
    have hoq : (o : ℚ) + 1 / 2 ≤ newLen := by
      have : (o : ℚ) + 1 ≤ newLen := by exact_mod_cast ho
      linarith
    unfold centre
    gcongr

/-- What the float positions are, for axes of at most `2^17`. -/
structure Positions (len newLen o : Nat) (σ' x' y' : ℚ) : Prop where
  sratio : (if (ratioF len newLen).lt (.fin 1) then Fl.fin 1 else ratioF len newLen) = .fin σ'
  input : inputF len newLen o = .fin x'
  shifted : (inputF len newLen o).sub f32 (.fin (1 / 2)) = .fin y'
  one_le : 1 ≤ σ'
  scale_err : |σ' - scale len newLen| ≤ scale len newLen / 2 ^ 24
  input_err : |x' - centre len newLen o| ≤ centre len newLen o * (201 / 100 / 2 ^ 24)
  shifted_err : |y' - (centre len newLen o - 1 / 2)| ≤ (centre len newLen o * (31 / 10) + 6 / 10) / 2 ^ 24

theorem positions {len newLen o : Nat} (h0 : 0 < len) (h : len ≤ 2 ^ 17) (ho : o < newLen) (h' : newLen ≤ 2 ^ 17) :
    ∃ σ' x' y', Positions len newLen o σ' x' y' := by
  have hl : (1 : ℚ) ≤ len := by exact_mod_cast h0
  have hn : (1 : ℚ) ≤ newLen := by exact_mod_cast (by omega : 1 ≤ newLen)
  have hl' : (len : ℚ) ≤ 2 ^ 17 := by exact_mod_cast h
  have hn' : (newLen : ℚ) ≤ 2 ^ 17 := by exact_mod_cast h'
  have hoq : (o : ℚ) + 1 ≤ newLen := by exact_mod_cast ho
  have ho0 : (0 : ℚ) ≤ o := by positivity
  set q : ℚ := (len : ℚ) / newLen with hq
  have hq0 : 0 < q := by rw [hq]; positivity
  have hqlo : 1 / 2 ^ 17 ≤ q := by
    rw [hq, div_le_div_iff₀ (by norm_num) (by linarith)]; nlinarith
  have hqhi : q ≤ 2 ^ 17 := by
    rw [hq, div_le_iff₀ (by linarith)]; nlinarith
  set r := f32.rnd q with hr
  have er : ratioF len newLen = .fin r := by
    unfold ratioF
    rw [ofNat32 (by omega), ofNat32 (by omega), fl_div _ (by linarith), ofRat32]
    rw [abs_of_pos hq0]; exact hqhi.trans (by norm_num)
  have hre : |r - q| ≤ q / 2 ^ 24 :=
    rnd_near (F := f32) (Or.inl rfl) (Or.inr (le_trans (by norm_num) hqlo))
  have hre' := abs_le.1 hre
  have hr1 : q ≤ 1 → r ≤ 1 := by
    intro h1
    have := f32.rnd_mono' (by decide) h1
    rwa [show (1 : ℚ) = ((1 : ℕ) : ℚ) by norm_num, rnd_nat32 (by norm_num)] at this
  have hr2 : 1 ≤ q → 1 ≤ r := by
    intro h1
    have := f32.rnd_mono' (by decide) h1
    rwa [show (1 : ℚ) = ((1 : ℕ) : ℚ) by norm_num, rnd_nat32 (by norm_num)] at this
  have hc : centre len newLen o = (o + 1 / 2) * q := rfl
  set X := centre len newLen o with hX
  have hX0 : 0 < X := centre_pos h0 ho
  have hXl : X < len := centre_lt h0 ho
  have hXlo : 1 / 2 ^ 18 ≤ X := by
    rw [hc]
    calc (1 : ℚ) / 2 ^ 18 = 1 / 2 * (1 / 2 ^ 17) := by norm_num
      _ ≤ (o + 1 / 2) * q := by gcongr; linarith
  -- the position
  have hpr : |((o : ℚ) + 1 / 2) * r - X| ≤ X / 2 ^ 24 := by
    rw [hc, ← mul_sub, abs_mul, abs_of_pos (by linarith), mul_div_assoc]
    gcongr
  have hpr' := abs_le.1 hpr
  have hpos : 0 < ((o : ℚ) + 1 / 2) * r := by
    have : X / 2 ^ 24 ≤ X / 2 := by gcongr; norm_num
    linarith
  set x := f32.rnd (((o : ℚ) + 1 / 2) * r) with hx
  have ex : inputF len newLen o = .fin x := by
    unfold inputF
    rw [er, ofNat32 (by omega), fl_add, ofRat32, rnd_half (by omega), fl_mul, ofRat32]
    · rw [abs_of_pos hpos]
      have : X / 2 ^ 24 ≤ X := div_le_self hX0.le (by norm_num)
      refine le_trans (b := (2 : ℚ) ^ 18) (by linarith [show (2 : ℚ) ^ 18 = 2 * 2 ^ 17 by norm_num]) (by norm_num)
    · rw [abs_of_pos (by linarith)]
      exact le_trans (b := (2 : ℚ) ^ 17) (by linarith) (by norm_num)
  have hxe : |x - X| ≤ X * (201 / 100 / 2 ^ 24) := by
    have h1 := rnd_near (F := f32) (Or.inl rfl) (q := ((o : ℚ) + 1 / 2) * r) (Or.inr (by
      have : X / 2 ^ 24 ≤ X / 2 := by gcongr; norm_num
      linarith [show (1 : ℚ) / 2 ^ 100 ≤ 1 / 2 ^ 18 / 2 by norm_num]))
    rw [show f32.p = 24 from rfl, ← hx] at h1
    have h1' := abs_le.1 h1
    have h2 : ((o : ℚ) + 1 / 2) * r / 2 ^ 24 ≤ (X + X / 2 ^ 24) / 2 ^ 24 := by gcongr; linarith
    have h3 : X / 2 ^ 24 + (X + X / 2 ^ 24) / 2 ^ 24 ≤ X * (201 / 100 / 2 ^ 24) := by
      rw [show X / 2 ^ 24 + (X + X / 2 ^ 24) / 2 ^ 24 = X * (1 / 2 ^ 24 + (1 + 1 / 2 ^ 24) / 2 ^ 24) by ring]
      exact mul_le_mul_of_nonneg_left (by norm_num) hX0.le
    rw [abs_le]
    constructor <;> linarith
  have hxe' := abs_le.1 hxe
  have hXx : X * (201 / 100 / 2 ^ 24) ≤ X / 1000 := by
    rw [show X / 1000 = X * (1 / 1000) by ring]
    exact mul_le_mul_of_nonneg_left (by norm_num) hX0.le
  -- the shifted position
  have hab : |x - 1 / 2| ≤ X * (1001 / 1000) + 1 / 2 := by
    rw [abs_le]
    constructor <;> linarith
  have hye := rnd_err_le hab
  set y := f32.rnd (x - 1 / 2) with hy
  refine ⟨if r < 1 then 1 else r, x, y, ?_, ex, ?_, ?_, ?_, hxe, ?_⟩
  · rw [er]
    unfold Fl.lt
    by_cases h : r < 1 <;> simp [h]
  · rw [ex, fl_sub, ofRat32]
    refine hab.trans ?_
    exact le_trans (b := (2 : ℚ) ^ 18) (by linarith [show (2 : ℚ) ^ 18 = 2 * 2 ^ 17 by norm_num]) (by norm_num)
  · split_ifs with h
    · exact le_rfl
    · exact not_lt.1 h
  · have hsc : scale len newLen = max 1 q := rfl
    rw [hsc]
    rcases le_total q 1 with hq1 | hq1
    · rw [max_eq_left hq1]
      have : (if r < 1 then (1 : ℚ) else r) = 1 := by
        split_ifs with h
        · rfl
        · exact le_antisymm (hr1 hq1) (not_lt.1 h)
      rw [this]; norm_num
    · rw [max_eq_right hq1, if_neg (not_lt.2 (hr2 hq1))]
      exact hre
  · have hye' := abs_le.1 hye
    have e1 : (X * (1001 / 1000) + 1 / 2) / 2 ^ 24 + X * (201 / 100 / 2 ^ 24) + 1 / 2 ^ 100 ≤
        (X * (31 / 10) + 6 / 10) / 2 ^ 24 := by
      have : X * ((1001 / 1000) / 2 ^ 24 + 201 / 100 / 2 ^ 24) ≤ X * (31 / 10 / 2 ^ 24) :=
        mul_le_mul_of_nonneg_left (by norm_num) hX0.le
      linarith [show (X * (1001 / 1000) + 1 / 2) / 2 ^ 24 + X * (201 / 100 / 2 ^ 24) =
        X * ((1001 / 1000) / 2 ^ 24 + 201 / 100 / 2 ^ 24) + 1 / 2 / 2 ^ 24 by ring,
        show (X * (31 / 10) + 6 / 10) / 2 ^ 24 = X * (31 / 10 / 2 ^ 24) + 6 / 10 / 2 ^ 24 by ring,
        show (1 : ℚ) / 2 / 2 ^ 24 + 1 / 2 ^ 100 ≤ 6 / 10 / 2 ^ 24 by norm_num]
    rw [abs_le]
    constructor <;> linarith

/-- The argument at which the filter is evaluated for input index `i`. -/
theorem argument {len newLen o i : Nat} (h0 : 0 < len) (h : len ≤ 2 ^ 17) (ho : o < newLen) (hi : i < len)
    {S : ℚ} (hS : 1 ≤ S) (hS' : S ≤ 2 ^ 17) (hx : |offset len newLen o i| ≤ S) {σ' x' y' : ℚ} (P : Positions len newLen o σ' x' y') :
    ∃ t, ((Fl.ofNat f32 i).sub f32 (.fin y')).div f32 (.fin σ') = .fin t ∧
      |t - offset len newLen o i| ≤ ((min len newLen : ℕ) + S) / 2 ^ 22 := by
  have hs := scale_ge_one len newLen
  have hX0 := centre_pos h0 ho
  have hXl := centre_lt h0 ho
  have hXm := centre_div_scale h0 ho
  have hl' : (len : ℚ) ≤ 2 ^ 17 := by exact_mod_cast h
  have hse := P.scale_err
  have hye := P.shifted_err
  have hs1 := P.one_le
  have hil : (i : ℚ) ≤ 2 ^ 17 := by exact_mod_cast (by omega : i ≤ 2 ^ 17)
  have hi0 : (0 : ℚ) ≤ i := by positivity
  set m : ℚ := ((min len newLen : ℕ) : ℚ) with hm
  have hm1 : 1 ≤ m := by rw [hm]; exact_mod_cast (by omega : 1 ≤ min len newLen)
  unfold offset at hx ⊢
  set X := centre len newLen o
  set σ := scale len newLen with hσ
  have hσ0 : 0 < σ := by linarith
  have hσ'0 : 0 < σ' := by linarith
  set D := (i : ℚ) + 1 / 2 - X with hD
  set E1 := (X * (31 / 10) + 6 / 10) / 2 ^ 24 with hE1
  have hE1' : E1 ≤ 1 / 8 := by
    rw [hE1, div_le_iff₀ (by norm_num)]
    linarith [show (1 : ℚ) / 8 * 2 ^ 24 = 16 * 2 ^ 17 by norm_num]
  have hE0 : 0 < E1 := by rw [hE1]; positivity
  have hye' := abs_le.1 hye
  have hDσ : |D| ≤ S * σ := by
    rw [abs_div, abs_of_pos hσ0, div_le_iff₀ hσ0] at hx; exact hx
  -- the difference
  have hiy : |(i : ℚ) - y'| ≤ |D| + E1 := by
    have : (i : ℚ) - y' = D + ((X - 1 / 2) - y') := by rw [hD]; ring
    rw [this]
    refine (abs_add_le _ _).trans ?_
    have : |X - 1 / 2 - y'| ≤ E1 := by rw [abs_sub_comm]; exact hye
    linarith
  have hDb : |D| ≤ 2 ^ 17 + 1 := by
    rw [abs_le]; constructor <;> linarith
  have hd := rnd_err_le hiy
  set d := f32.rnd ((i : ℚ) - y') with hd'
  have hdD : |d - D| ≤ E1 + (|D| + E1) / 2 ^ 24 + 1 / 2 ^ 100 := by
    have : d - D = (d - (i - y')) + ((X - 1 / 2) - y') := by rw [hD]; ring
    rw [this]
    refine (abs_add_le _ _).trans ?_
    have : |X - 1 / 2 - y'| ≤ E1 := by rw [abs_sub_comm]; exact hye
    linarith
  have hdb : |d| ≤ 2 ^ 18 := by
    have : d = (d - D) + D := by ring
    rw [this]
    refine (abs_add_le _ _).trans ?_
    have : (|D| + E1) / 2 ^ 24 ≤ (2 ^ 17 + 2) / 2 ^ 24 := div_le_div_of_nonneg_right (by linarith) (by norm_num)
    linarith [show (2 : ℚ) ^ 17 + 1 + 1 / 8 + (2 ^ 17 + 2) / 2 ^ 24 + 1 / 2 ^ 100 ≤ 2 ^ 18 by norm_num]
  -- the quotient
  have hq : |d / σ' - D / σ| ≤ (|d - D| + |D| / 2 ^ 24) / σ' := by
    have e : d / σ' - D / σ = ((d - D) + D / σ * (σ - σ')) / σ' := by field_simp; ring
    rw [e, abs_div, abs_of_pos hσ'0]
    refine div_le_div_of_nonneg_right ((abs_add_le _ _).trans ?_) hσ'0.le
    rw [abs_mul, abs_div, abs_of_pos hσ0, abs_sub_comm σ]
    have : |D| / σ * |σ' - σ| ≤ |D| / σ * (σ / 2 ^ 24) := by gcongr
    have e2 : |D| / σ * (σ / 2 ^ 24) = |D| / 2 ^ 24 := by field_simp
    linarith
  have hinv : 1 / σ' ≤ 1 / σ * (1 + 2 / 2 ^ 24) := by
    have hse' := abs_le.1 hse
    rw [show 1 / σ * (1 + 2 / 2 ^ 24) = (1 + 2 / 2 ^ 24) / σ by ring, div_le_div_iff₀ hσ'0 hσ0]
    have h1 : σ * (1 - 1 / 2 ^ 24) ≤ σ' := by linarith [show σ * (1 - 1 / 2 ^ 24) = σ - σ / 2 ^ 24 by ring]
    have h2 : 1 * σ ≤ (1 + 2 / 2 ^ 24) * (σ * (1 - 1 / 2 ^ 24)) := by
      have : σ * 1 ≤ σ * ((1 + 2 / 2 ^ 24) * (1 - 1 / 2 ^ 24)) := mul_le_mul_of_nonneg_left (by norm_num) hσ0.le
      linarith
    refine h2.trans ?_
    exact mul_le_mul_of_nonneg_left h1 (by norm_num)
  have hE1m : E1 / σ ≤ (m * (37 / 10)) / 2 ^ 24 := by
    rw [hE1]
    have e : (X * (31 / 10) + 6 / 10) / 2 ^ 24 / σ = (X / σ * (31 / 10) + 6 / 10 / σ) / 2 ^ 24 := by field_simp
    rw [e]
    have : 6 / 10 / σ ≤ 6 / 10 := div_le_self (by norm_num) hs
    gcongr
    have : X / σ * (31 / 10) ≤ m * (31 / 10) := by gcongr
    linarith
  have hDx : |D| / σ ≤ S := by rw [div_le_iff₀ hσ0]; exact hDσ
  have hq2 : |d / σ' - D / σ| ≤ (m * (38 / 10) + 201 / 100 * S + 1 / 100) / 2 ^ 24 := by
    refine hq.trans ?_
    have h1 : |d - D| + |D| / 2 ^ 24 ≤ E1 * (1 + 1 / 2 ^ 24) + |D| * (2 / 2 ^ 24) + 1 / 2 ^ 100 := by
      linarith [show E1 + (|D| + E1) / 2 ^ 24 + 1 / 2 ^ 100 + |D| / 2 ^ 24 = E1 * (1 + 1 / 2 ^ 24) + |D| * (2 / 2 ^ 24) + 1 / 2 ^ 100 by ring]
    have h2 : (|d - D| + |D| / 2 ^ 24) / σ' ≤ (E1 * (1 + 1 / 2 ^ 24) + |D| * (2 / 2 ^ 24) + 1 / 2 ^ 100) * (1 / σ * (1 + 2 / 2 ^ 24)) := by
      rw [div_eq_mul_one_div]
      have := abs_nonneg D
      have := abs_nonneg (d - D)
      gcongr
    refine h2.trans ?_
    have e : (E1 * (1 + 1 / 2 ^ 24) + |D| * (2 / 2 ^ 24) + 1 / 2 ^ 100) * (1 / σ * (1 + 2 / 2 ^ 24)) =
      (E1 / σ) * ((1 + 1 / 2 ^ 24) * (1 + 2 / 2 ^ 24)) + |D| / σ * (2 / 2 ^ 24 * (1 + 2 / 2 ^ 24)) +
        1 / σ * (1 / 2 ^ 100 * (1 + 2 / 2 ^ 24)) := by ring
    rw [e]
    have a1 : (E1 / σ) * ((1 + 1 / 2 ^ 24) * (1 + 2 / 2 ^ 24)) ≤ (m * (37 / 10)) / 2 ^ 24 * (1 + 1 / 1000) := by
      gcongr ?_ * ?_
      norm_num
    have a2 : |D| / σ * (2 / 2 ^ 24 * (1 + 2 / 2 ^ 24)) ≤ S * (2 / 2 ^ 24 * (1 + 2 / 2 ^ 24)) := by gcongr
    have a3 : 1 / σ * (1 / 2 ^ 100 * (1 + 2 / 2 ^ 24)) ≤ 1 * (1 / 2 ^ 100 * (1 + 2 / 2 ^ 24)) := by
      gcongr
      rw [div_le_one hσ0]; exact hs
    have a4 : m / 2 ^ 24 * (37 / 10 * (1 + 1 / 1000)) ≤ m / 2 ^ 24 * (38 / 10) :=
      mul_le_mul_of_nonneg_left (by norm_num) (by positivity)
    linarith [show m * (37 / 10) / 2 ^ 24 * (1 + 1 / 1000) = m / 2 ^ 24 * (37 / 10 * (1 + 1 / 1000)) by ring,
      show (m * (38 / 10) + 201 / 100 * S + 1 / 100) / 2 ^ 24 = m / 2 ^ 24 * (38 / 10) + S * (201 / 100 / 2 ^ 24) + 1 / 100 / 2 ^ 24 by ring,
      show S * (2 / 2 ^ 24 * (1 + 2 / 2 ^ 24)) ≤ S * (201 / 100 / 2 ^ 24) from
        mul_le_mul_of_nonneg_left (by norm_num) (by linarith),
      show 1 * (1 / 2 ^ 100 * (1 + 2 / 2 ^ 24)) ≤ (1 : ℚ) / 100 / 2 ^ 24 by norm_num]
  have hmb : m ≤ 2 ^ 17 := by rw [hm]; exact_mod_cast (by omega : min len newLen ≤ 2 ^ 17)
  have hη : (m * (38 / 10) + 201 / 100 * S + 1 / 100) / 2 ^ 24 ≤ 1 := by
    rw [div_le_one (by norm_num)]
    linarith [show (2 : ℚ) ^ 24 = 128 * 2 ^ 17 by norm_num]
  have hqb : |d / σ'| ≤ S + 1 := by
    have : d / σ' = (d / σ' - D / σ) + D / σ := by ring
    rw [this]
    refine (abs_add_le _ _).trans ?_
    linarith
  have hfin := rnd_err_le hqb
  refine ⟨f32.rnd (d / σ'), ?_, ?_⟩
  · rw [ofNat32 (by omega), fl_sub, ofRat32, fl_div _ hσ'0.ne', ofRat32]
    · exact le_trans (b := (2 : ℚ) ^ 18) (by linarith [show (2 : ℚ) ^ 18 = 2 * 2 ^ 17 by norm_num]) (by norm_num)
    · refine hiy.trans ?_
      exact le_trans (b := (2 : ℚ) ^ 18) (by linarith [show (2 : ℚ) ^ 17 + 1 + 1 / 8 ≤ 2 ^ 18 by norm_num]) (by norm_num)
  · have : f32.rnd (d / σ') - D / σ = (f32.rnd (d / σ') - d / σ') + (d / σ' - D / σ) := by ring
    rw [this]
    refine (abs_add_le _ _).trans ?_
    have : (m * (38 / 10) + 201 / 100 * S + 1 / 100) / 2 ^ 24 + ((S + 1) / 2 ^ 24 + 1 / 2 ^ 100) ≤ (m + S) / 2 ^ 22 := by
      rw [show (m + S) / 2 ^ 22 = (m * 4 + S * 4) / 2 ^ 24 by ring,
        show (m * (38 / 10) + 201 / 100 * S + 1 / 100) / 2 ^ 24 + ((S + 1) / 2 ^ 24 + 1 / 2 ^ 100) =
          (m * (38 / 10) + 201 / 100 * S + 1 / 100 + (S + 1) + 1 / 2 ^ 76) / 2 ^ 24 by ring]
      refine div_le_div_of_nonneg_right ?_ (by norm_num)
      linarith [show (1 : ℚ) / 2 ^ 76 ≤ 1 / 100 by norm_num]
    linarith

end Verif
