import Verif.Proofs.Blend

/-!
# Conversion between float and integer samples (C51)
-/

namespace Verif

/-! ## Specification -/

/-- The order of floats that are not NaN. -/
def Fl.Le : Fl → Fl → Prop
  | .nan, _ => False
  | _, .nan => False
  | .inf true, _ => True
  | _, .inf false => True
  | .fin a, .fin b => a ≤ b
  | .fin _, .inf true => False
  | .inf false, .fin _ => False
  | .inf false, .inf true => False

/-- The value of a float cut off to `0..1`; NaN counts as 1 (the documented choice). -/
def Fl.unitClamped : Fl → ℚ
  | .nan => 1
  | .inf neg => if neg then 0 else 1
  | .fin q => max 0 (min q 1)

/-! ## Auxiliary -/

theorem clamped_eq (f : Fl) : (if !f.lt (.fin 1) then Fl.fin 1 else f.fmax (.fin 0)) = .fin f.unitClamped := by
  cases f with
  | nan => simp [Fl.lt, Fl.unitClamped]
  | inf s => cases s <;> simp [Fl.lt, Fl.unitClamped, Fl.fmax]
  | fin q =>
    simp only [Fl.lt, Fl.unitClamped]
    by_cases h : q < 1
    · simp only [h, decide_true, Bool.not_true, Bool.false_eq_true, if_false, Fl.fmax, Fl.lt]
      by_cases h0 : q < 0
      · simp only [h0, decide_true, if_true]
        rw [min_eq_left h.le, max_eq_left h0.le]
      · simp only [h0, decide_false, Bool.false_eq_true, if_false]
        rw [min_eq_left h.le, max_eq_right (not_lt.1 h0)]
    · simp only [h, decide_false, Bool.not_false, if_true]
      rw [min_eq_right (not_lt.1 h), max_eq_right (by norm_num)]

theorem unitClamped_bounds (f : Fl) : 0 ≤ f.unitClamped ∧ f.unitClamped ≤ 1 := by
  cases f with
  | nan => simp [Fl.unitClamped]
  | inf s => cases s <;> simp [Fl.unitClamped]
  | fin q => simp [Fl.unitClamped]

theorem unitClamped_mono {f g : Fl} (h : Fl.Le f g) : f.unitClamped ≤ g.unitClamped := by
  cases f with
  | nan => exact absurd h (by cases g <;> simp [Fl.Le])
  | inf s =>
    cases s
    · cases g with
      | nan => exact absurd h (by simp [Fl.Le])
      | inf t => cases t <;> simp_all [Fl.Le, Fl.unitClamped]
      | fin q => exact absurd h (by simp [Fl.Le])
    · exact (unitClamped_bounds g).1
  | fin a =>
    cases g with
    | nan => exact absurd h (by simp [Fl.Le])
    | inf t =>
      cases t
      · exact (unitClamped_bounds (.fin a)).2
      · exact absurd h (by simp [Fl.Le])
    | fin b =>
      have : a ≤ b := h
      simp only [Fl.unitClamped]
      gcongr

/-- What the conversion to an integer computes. -/
theorem uintOfF32_eq {T : Prim} (hT : T.Small) (f : Fl) :
    uintOfF32 T f = .ok (roundHalfAway (f32.rnd (f.unitClamped * T.max))).toNat ∧
      roundHalfAway (f32.rnd (f.unitClamped * T.max)) ≤ T.max := by
  obtain ⟨h0, h1⟩ := unitClamped_bounds f
  have hm := hT.max_lt
  have hm0 : (0 : ℚ) < T.max := by exact_mod_cast hT.max_pos
  have hle : f.unitClamped * T.max ≤ T.max := by
    have := mul_le_mul_of_nonneg_right h1 hm0.le
    linarith
  have hge : 0 ≤ f.unitClamped * T.max := by positivity
  have hr := rnd_le_nat wide32 hge (hm.trans (by decide)) hle
  have hr0 := f32.rnd_nonneg hge
  have hb : roundHalfAway (f32.rnd (f.unitClamped * T.max)) ≤ T.max := by
    have := roundHalfAway_mono hr0 hr
    rwa [roundHalfAway_near (q := (T.max : ℚ)) (n := T.max) (by positivity) (by simp)] at this
  refine ⟨?_, hb⟩
  unfold uintOfF32 normalizeFloat
  rw [clamped_eq, maxF32_small hT]
  simp only [Fl.mul]
  rw [ofRat_fin wide32 hge (hm.trans (by decide)) hle]
  simp only [Fl.round]
  rw [castU_ok (by exact_mod_cast roundHalfAway_nonneg hr0) (by
    have : roundHalfAway (f32.rnd (f.unitClamped * T.max)) < (T.max : ℤ) + 1 := by omega
    exact_mod_cast this), Int.floor_intCast]
  rfl

/-- What the conversion from an integer computes. -/
theorem f32OfUint_eq {T : Prim} (hT : T.Small) {x : ℕ} (hx : x ≤ T.max) :
    ∃ v : ℚ, f32OfUint T x = .fin v ∧ 0 ≤ v ∧ v ≤ 1 ∧ |v - x / T.max| ≤ x / T.max / 2 ^ 24 := by
  obtain ⟨v, ev, nv, v1, tv, -⟩ := unit_ok hT hx
  refine ⟨v, ?_, tv.nonneg, v1, ?_⟩
  · unfold f32OfUint
    unfold unitF32 at ev
    rw [ev]
    have h0 : ¬ v < 0 := not_lt.2 tv.nonneg
    have h1 : ¬ 1 < v := not_lt.2 v1
    simp [Fl.clamp, Fl.lt, h0, h1]
  · unfold Near at nv
    linarith

/-! ## C51 -/

/-- `u8 -> f32 -> u8` and `u16 -> f32 -> u16` are the identity. -/
theorem C51_round_trip (T : Prim) (hT : T = .u8 ∨ T = .u16) (x : Nat) (hx : x ≤ T.max) :
    uintOfF32 T (f32OfUint T x) = .ok x := by
  have hm := Prim.Small.max_lt hT
  have hm0 : (0 : ℚ) < T.max := by exact_mod_cast Prim.Small.max_pos hT
  have hmq : (T.max : ℚ) ≤ 2 ^ 16 := by exact_mod_cast hm.le
  obtain ⟨v, ev, v0, v1, hv⟩ := f32OfUint_eq hT hx
  rw [ev, (uintOfF32_eq hT _).1]
  have hc : (Fl.fin v).unitClamped = v := by
    simp only [Fl.unitClamped]
    rw [min_eq_left v1, max_eq_right v0]
  rw [hc]
  have hxm : (x : ℚ) / T.max * T.max = x := by field_simp
  have hx1 : (x : ℚ) ≤ 2 ^ 16 := le_trans (by exact_mod_cast hx) hmq
  rw [abs_le] at hv
  have a1 : (x : ℚ) - x / 2 ^ 24 ≤ v * T.max := by
    have := mul_le_mul_of_nonneg_right hv.1 hm0.le
    have e : (x : ℚ) / T.max / 2 ^ 24 * T.max = x / 2 ^ 24 := by rw [div_mul_eq_mul_div, hxm]
    linarith
  have a2 : v * T.max ≤ (x : ℚ) + x / 2 ^ 24 := by
    have := mul_le_mul_of_nonneg_right hv.2 hm0.le
    have e : (x : ℚ) / T.max / 2 ^ 24 * T.max = x / 2 ^ 24 := by rw [div_mul_eq_mul_div, hxm]
    linarith
  have ht : Tame (v * T.max) := by
    rcases Nat.eq_zero_or_pos x with rfl | hp
    · left
      push_cast at a1 a2
      linarith
    · right
      have : (1 : ℚ) ≤ x := by exact_mod_cast hp
      have : (1 : ℚ) / 2 ^ 100 ≤ 1 / 2 := by norm_num
      linarith
  have hr := rnd_near (F := f32) (Or.inl rfl) ht
  rw [show (f32.p) = 24 from rfl, abs_le] at hr
  have hnear : roundHalfAway (f32.rnd (v * T.max)) = (x : ℤ) := by
    apply roundHalfAway_near (by positivity)
    push_cast
    rw [abs_lt]
    have b1 : (x : ℚ) / 2 ^ 24 ≤ 2 ^ 16 / 2 ^ 24 := by gcongr
    have b2 : v * T.max / 2 ^ 24 ≤ (2 ^ 16 + 1) / 2 ^ 24 := by
      gcongr
      have : (2 : ℚ) ^ 16 / 2 ^ 24 ≤ 1 := by norm_num
      linarith
    have b3 : ((2 : ℚ) ^ 16 + 1) / 2 ^ 24 < 1 / 4 := by norm_num
    have b4 : (2 : ℚ) ^ 16 / 2 ^ 24 < 1 / 4 := by norm_num
    constructor <;> linarith
  rw [hnear]
  rfl

/-- Conversion of any float, including NaN and infinities, succeeds and lands in range. -/
theorem C51_total (T : Prim) (hT : T = .u8 ∨ T = .u16) (f : Fl) : ∃ n, uintOfF32 T f = .ok n ∧ n ≤ T.max := by
  obtain ⟨h1, h2⟩ := uintOfF32_eq hT f
  exact ⟨_, h1, by omega⟩

/-- NaN becomes `MAX`, the infinities the two ends, everything below 0 becomes 0 and everything from 1 on `MAX`. -/
theorem C51_special (T : Prim) (hT : T = .u8 ∨ T = .u16) :
    uintOfF32 T .nan = .ok T.max ∧ uintOfF32 T (.inf false) = .ok T.max ∧ uintOfF32 T (.inf true) = .ok 0 ∧
    (∀ q : ℚ, q ≤ 0 → uintOfF32 T (.fin q) = .ok 0) ∧ (∀ q : ℚ, 1 ≤ q → uintOfF32 T (.fin q) = .ok T.max) := by
  have hm := Prim.Small.max_lt hT
  have one : ∀ f : Fl, f.unitClamped = 1 → uintOfF32 T f = .ok T.max := by
    intro f hf
    rw [(uintOfF32_eq hT f).1, hf, one_mul, f32.rnd_nat (hm.trans (by decide)) (by decide),
      roundHalfAway_near (n := T.max) (by positivity) (by simp)]
    rfl
  have zero : ∀ f : Fl, f.unitClamped = 0 → uintOfF32 T f = .ok 0 := by
    intro f hf
    rw [(uintOfF32_eq hT f).1, hf, zero_mul, f32.rnd_zero, roundHalfAway_near (n := 0) le_rfl (by simp)]
    rfl
  refine ⟨one _ rfl, one _ (by simp [Fl.unitClamped]), zero _ (by simp [Fl.unitClamped]), fun q hq => zero _ ?_,
    fun q hq => one _ ?_⟩
  · simp only [Fl.unitClamped]
    rw [min_eq_left (by linarith), max_eq_left hq]
  · simp only [Fl.unitClamped]
    rw [min_eq_right hq, max_eq_right (by norm_num)]

/-- The conversion is monotone. -/
theorem C51_monotone (T : Prim) (hT : T = .u8 ∨ T = .u16) (f g : Fl) (h : Fl.Le f g) :
    ∃ m n, uintOfF32 T f = .ok m ∧ uintOfF32 T g = .ok n ∧ m ≤ n := by
  have hm0 : (0 : ℚ) < T.max := by exact_mod_cast Prim.Small.max_pos hT
  have h0 := (unitClamped_bounds f).1
  refine ⟨_, _, (uintOfF32_eq hT f).1, (uintOfF32_eq hT g).1, ?_⟩
  have h1 : f.unitClamped * T.max ≤ g.unitClamped * T.max := by
    have := unitClamped_mono h
    gcongr
  have h2 := roundHalfAway_mono (f32.rnd_nonneg (by positivity)) (f32.rnd_mono wide32.p (by positivity) h1)
  omega

/-- The result is the nearest integer to `clamp(f) * MAX`, up to the rounding of one product (`1/2 + 2^-7`). -/
theorem C51_nearest (T : Prim) (hT : T = .u8 ∨ T = .u16) (f : Fl) :
    ∃ n : ℕ, uintOfF32 T f = .ok n ∧ |(n : ℚ) - f.unitClamped * T.max| ≤ 1 / 2 + 1 / 2 ^ 7 := by
  obtain ⟨h0, h1⟩ := unitClamped_bounds f
  have hm0 : (0 : ℚ) < T.max := by exact_mod_cast Prim.Small.max_pos hT
  have hm1 : (1 : ℚ) ≤ T.max := by exact_mod_cast Prim.Small.max_pos hT
  have hmq : (T.max : ℚ) ≤ 2 ^ 16 := by exact_mod_cast (Prim.Small.max_lt hT).le
  refine ⟨_, (uintOfF32_eq hT f).1, ?_⟩
  have hge : 0 ≤ f.unitClamped * T.max := by positivity
  have hr := rnd_near_abs (F := f32) (Or.inl rfl) hge
  rw [show (f32.p) = 24 from rfl] at hr
  have he := roundHalfAway_error (f32.rnd_nonneg hge)
  have hn := roundHalfAway_nonneg (f32.rnd_nonneg hge)
  have hc : (((roundHalfAway (f32.rnd (f.unitClamped * T.max))).toNat : ℕ) : ℚ) =
      roundHalfAway (f32.rnd (f.unitClamped * T.max)) := by
    have := Int.toNat_of_nonneg hn
    exact_mod_cast this
  rw [hc]
  have hle : f.unitClamped * T.max ≤ 2 ^ 16 := by
    have := mul_le_mul_of_nonneg_right h1 hm0.le
    linarith
  have hb : f.unitClamped * T.max / 2 ^ 24 ≤ 2 ^ 16 / 2 ^ 24 := by gcongr
  rw [abs_le] at *
  have : (2 : ℚ) ^ 16 / 2 ^ 24 + 1 / 2 ^ 100 ≤ 1 / 2 ^ 7 := by norm_num
  constructor <;> linarith

/-- Conversion to float yields a value in `0..1` that is `x / MAX` correctly rounded (relative error `2^-24`). -/
theorem C51_to_float (T : Prim) (hT : T = .u8 ∨ T = .u16) (x : Nat) (hx : x ≤ T.max) :
    ∃ v : ℚ, f32OfUint T x = .fin v ∧ 0 ≤ v ∧ v ≤ 1 ∧ |v - x / T.max| ≤ x / T.max / 2 ^ 24 :=
  f32OfUint_eq hT hx

/-- 128/255 as a float converts back to 128; 0.5 converts to 128. -/
example : f32OfUint .u8 128 = .fin (8421505 / 16777216) ∧ uintOfF32 .u8 (.fin (8421505 / 16777216)) = .ok 128 ∧
    uintOfF32 .u8 (.fin (1 / 2)) = .ok 128 := by decide +kernel
example : Fl.Le (.fin (-3)) (.fin (1 / 2)) := by norm_num [Fl.Le]

end Verif
