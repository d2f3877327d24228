import Mathlib.Data.Int.Log
import Mathlib.Data.Rat.Floor
import Mathlib.Algebra.Order.Field.Basic
import Mathlib.Algebra.Order.Archimedean.Basic
import Mathlib.Tactic.Linarith
import Mathlib.Tactic.Positivity
import Mathlib.Tactic.FieldSimp
import Mathlib.Tactic.Ring

/-!
# IEEE 754 binary floating point

A finite float is the rational number that it denotes; the sign of zero is not represented (a division by zero is a
division by `+0`, which is what the modelled code divides by). Every operation rounds the exact result to nearest, ties
to even, with the format's precision, least exponent and overflow threshold.
-/

namespace Verif

/-- A binary format: precision in bits, exponent of the least positive (subnormal) number, and the `e` for which `2^e`
is the least power of two that is not finite. -/
structure Fmt where
  p : ℕ
  emin : ℤ
  emax : ℤ

/-- IEEE 754 binary32 (`f32`) -/
def f32 : Fmt := ⟨24, -149, 128⟩
/-- IEEE 754 binary64 (`f64`) -/
def f64 : Fmt := ⟨53, -1074, 1024⟩

/-- A float. -/
inductive Fl
  | nan
  | inf (neg : Bool)
  | fin (q : ℚ)
  deriving DecidableEq

/-- Round to the nearest integer, ties to even. -/
def rne (q : ℚ) : ℤ :=
  if q - ⌊q⌋ < 1 / 2 then ⌊q⌋ else if 1 / 2 < q - ⌊q⌋ then ⌊q⌋ + 1 else if ⌊q⌋ % 2 = 0 then ⌊q⌋ else ⌊q⌋ + 1

/-- Round to the nearest integer, ties away from zero (`f32::round`, `f64::round` on finite values). -/
def roundHalfAway (q : ℚ) : ℤ := if 0 ≤ q then ⌊q + 1 / 2⌋ else -⌊-q + 1 / 2⌋

namespace Fmt

/-- The exponent of the unit in the last place of numbers of the magnitude of `q`. -/
def unit (F : Fmt) (q : ℚ) : ℤ := max (Int.log 2 |q| - (F.p - 1)) F.emin

/-- Rounding to nearest, ties to even, with unbounded exponent range upwards. -/
def rnd (F : Fmt) (q : ℚ) : ℚ := rne (q / 2 ^ F.unit q) * 2 ^ F.unit q

/-- The float that results from the exact value `q`. -/
def ofRat (F : Fmt) (q : ℚ) : Fl := if |F.rnd q| < 2 ^ F.emax then .fin (F.rnd q) else .inf (decide (q < 0))

end Fmt

namespace Fl

/-- Whether the sign bit is set (zero counts as positive). -/
def isNeg : Fl → Bool
  | nan => false
  | inf s => s
  | fin q => decide (q < 0)

/-- Addition. -/
def add (F : Fmt) : Fl → Fl → Fl
  | nan, _ => nan
  | _, nan => nan
  | inf s, inf t => if s = t then inf s else nan
  | inf s, fin _ => inf s
  | fin _, inf t => inf t
  | fin a, fin b => F.ofRat (a + b)

/-- Negation. -/
def neg : Fl → Fl
  | nan => nan
  | inf s => inf !s
  | fin q => fin (-q)

/-- Subtraction. -/
def sub (F : Fmt) (a b : Fl) : Fl := add F a b.neg

/-- Multiplication. -/
def mul (F : Fmt) : Fl → Fl → Fl
  | nan, _ => nan
  | _, nan => nan
  | inf s, inf t => inf (s != t)
  | inf s, fin q => if q = 0 then nan else inf (s != decide (q < 0))
  | fin q, inf s => if q = 0 then nan else inf (s != decide (q < 0))
  | fin a, fin b => F.ofRat (a * b)

/-- Division; a zero divisor is `+0`. -/
def div (F : Fmt) : Fl → Fl → Fl
  | nan, _ => nan
  | _, nan => nan
  | inf _, inf _ => nan
  | inf s, fin q => inf (s != decide (q < 0))
  | fin _, inf _ => fin 0
  | fin a, fin b => if b = 0 then (if a = 0 then nan else inf (decide (a < 0))) else F.ofRat (a / b)

/-- `a < b`; false when either is NaN. -/
def lt : Fl → Fl → Bool
  | nan, _ => false
  | _, nan => false
  | inf s, inf t => s && !t
  | inf s, fin _ => s
  | fin _, inf t => !t
  | fin a, fin b => decide (a < b)

/-- `a.max(b)`: the other operand when one is NaN. -/
def fmax (a b : Fl) : Fl :=
  match a, b with
  | nan, b => b
  | a, nan => a
  | a, b => if a.lt b then b else a

/-- `a.min(b)`: the other operand when one is NaN. -/
def fmin (a b : Fl) : Fl :=
  match a, b with
  | nan, b => b
  | a, nan => a
  | a, b => if b.lt a then b else a

/-- `a.clamp(lo, hi)`: NaN stays NaN. -/
def clamp (a lo hi : Fl) : Fl :=
  let a := if a.lt lo then lo else a
  if hi.lt a then hi else a

/-- `a.round()`: halfway cases away from zero. -/
def round : Fl → Fl
  | fin q => fin (roundHalfAway q)
  | a => a

/-- `a as uN`: truncation, saturating, NaN to 0. -/
def toUSat (bits : ℕ) : Fl → ℕ
  | nan => 0
  | inf s => if s then 0 else 2 ^ bits - 1
  | fin q => min ⌊q⌋.toNat (2 ^ bits - 1)

/-- `NumCast::from(a)` to `uN` (num-traits): truncation if the truncated value is in range, otherwise `None`. -/
def castU (bits : ℕ) : Fl → Option ℕ
  | fin q => if -1 < q ∧ q < 2 ^ bits then some ⌊q⌋.toNat else none
  | _ => none

/-- `n as f32` / `n as f64` for an unsigned integer: rounds to nearest. -/
def ofNat (F : Fmt) (n : ℕ) : Fl := F.ofRat n

/-- `a <= b`; false when either is NaN. -/
def le : Fl → Fl → Bool
  | nan, _ => false
  | _, nan => false
  | inf s, inf t => s || !t
  | inf s, fin _ => s
  | fin _, inf t => !t
  | fin a, fin b => decide (a ≤ b)

/-- `a.abs()` -/
def abs : Fl → Fl
  | nan => nan
  | inf _ => inf false
  | fin q => fin |q|

/-- `a.floor()` -/
def floor : Fl → Fl
  | fin q => fin ⌊q⌋
  | a => a

/-- `a.ceil()` -/
def ceil : Fl → Fl
  | fin q => fin ⌈q⌉
  | a => a

/-- `a.fract()`, that is `a - a.trunc()`, which is exact. -/
def fract : Fl → Fl
  | fin q => fin (if 0 ≤ q then q - ⌊q⌋ else q - ⌈q⌉)
  | _ => nan

/-- `a as iN`: truncation, saturating, NaN to 0. -/
def toISat (bits : ℕ) : Fl → ℤ
  | nan => 0
  | inf s => if s then -2 ^ (bits - 1) else 2 ^ (bits - 1) - 1
  | fin q => max (-2 ^ (bits - 1)) (min (if 0 ≤ q then ⌊q⌋ else ⌈q⌉) (2 ^ (bits - 1) - 1))

end Fl

/-! ## Integer rounding -/

theorem rne_error (q : ℚ) : |(rne q : ℚ) - q| ≤ 1 / 2 := by
  have h1 := Int.floor_le q
  have h2 := Int.lt_floor_add_one q
  unfold rne
  rw [abs_le]
  split_ifs <;> push_cast <;> constructor <;> linarith

theorem rne_int (n : ℤ) : rne (n : ℚ) = n := by
  unfold rne
  simp

theorem rne_mono {q r : ℚ} (h : q ≤ r) : rne q ≤ rne r := by
  have hf := Int.floor_le_floor h
  have h1 := Int.floor_le q
  have h2 := Int.lt_floor_add_one q
  have h3 := Int.floor_le r
  have h4 := Int.lt_floor_add_one r
  rcases eq_or_lt_of_le hf with he | hlt
  · unfold rne
    rw [← he]
    have : q - ⌊q⌋ ≤ r - ⌊q⌋ := by linarith
    split_ifs <;> first | omega | (exfalso; linarith)
  · have a1 : rne q ≤ ⌊q⌋ + 1 := by unfold rne; split_ifs <;> omega
    have a2 : ⌊r⌋ ≤ rne r := by unfold rne; split_ifs <;> omega
    omega

theorem rne_nonneg {q : ℚ} (h : 0 ≤ q) : 0 ≤ rne q := by
  have := rne_mono h
  rwa [show (0 : ℚ) = ((0 : ℤ) : ℚ) by norm_num, rne_int] at this

theorem rne_le_int {q : ℚ} {n : ℤ} (h : q ≤ n) : rne q ≤ n := by
  have := rne_mono h; rwa [rne_int] at this

theorem int_le_rne {q : ℚ} {n : ℤ} (h : (n : ℚ) ≤ q) : n ≤ rne q := by
  have := rne_mono h; rwa [rne_int] at this

theorem roundHalfAway_eq {q : ℚ} (h : 0 ≤ q) : roundHalfAway q = ⌊q + 1 / 2⌋ := if_pos h

/-- A value less than half away from an integer rounds to it. -/
theorem roundHalfAway_near {q : ℚ} {n : ℤ} (h0 : 0 ≤ n) (h : |q - n| < 1 / 2) : roundHalfAway q = n := by
  rw [abs_lt] at h
  unfold roundHalfAway
  split_ifs with hq
  · rw [Int.floor_eq_iff]; constructor <;> linarith
  · have hn : (0 : ℚ) ≤ n := by exact_mod_cast h0
    have : (n : ℚ) < 1 := by linarith
    have hn0 : n = 0 := by
      have : n < 1 := by exact_mod_cast this
      omega
    subst hn0
    have : ⌊-q + 1 / 2⌋ = 0 := by
      rw [Int.floor_eq_iff]; constructor <;> push_cast at * <;> linarith
    rw [this]; rfl

theorem roundHalfAway_mono {q r : ℚ} (h0 : 0 ≤ q) (h : q ≤ r) : roundHalfAway q ≤ roundHalfAway r := by
  rw [roundHalfAway_eq h0, roundHalfAway_eq (h0.trans h)]
  exact Int.floor_le_floor (by linarith)

theorem roundHalfAway_nonneg {q : ℚ} (h0 : 0 ≤ q) : 0 ≤ roundHalfAway q := by
  rw [roundHalfAway_eq h0]; exact Int.floor_nonneg.2 (by linarith)

theorem roundHalfAway_error {q : ℚ} (h0 : 0 ≤ q) : |(roundHalfAway q : ℚ) - q| ≤ 1 / 2 := by
  rw [roundHalfAway_eq h0, abs_le]
  have h1 := Int.floor_le (q + 1 / 2)
  have h2 := Int.lt_floor_add_one (q + 1 / 2)
  constructor <;> linarith

/-! ## Rounding to a format -/

namespace Fmt
variable (F : Fmt)

theorem two_zpow_pos (e : ℤ) : (0 : ℚ) < 2 ^ e := zpow_pos (by norm_num) e

theorem rnd_error (q : ℚ) : |F.rnd q - q| ≤ 2 ^ F.unit q / 2 := by
  have hu := two_zpow_pos (F.unit q)
  have h := rne_error (q / 2 ^ F.unit q)
  have : F.rnd q - q = ((rne (q / 2 ^ F.unit q) : ℚ) - q / 2 ^ F.unit q) * 2 ^ F.unit q := by
    unfold rnd; rw [sub_mul, div_mul_cancel₀ _ hu.ne']
  rw [this, abs_mul, abs_of_pos hu]
  calc _ ≤ 1 / 2 * (2 : ℚ) ^ F.unit q := by gcongr
    _ = _ := by ring

@[simp] theorem rnd_zero : F.rnd 0 = 0 := by
  have : rne 0 = 0 := by simpa using rne_int 0
  simp [rnd, this]

theorem rnd_nonneg {q : ℚ} (h : 0 ≤ q) : 0 ≤ F.rnd q := by
  have hu := two_zpow_pos (F.unit q)
  have : (0 : ℚ) ≤ rne (q / 2 ^ F.unit q) := by exact_mod_cast rne_nonneg (div_nonneg h hu.le)
  exact mul_nonneg this hu.le

/-- The relative error for values that are not subnormal. -/
theorem rnd_rel {q : ℚ} (h : (2 : ℚ) ^ (F.emin + (F.p - 1)) ≤ |q|) : |F.rnd q - q| ≤ |q| / 2 ^ F.p := by
  have hq : 0 < |q| := lt_of_lt_of_le (two_zpow_pos _) h
  have hlog := (Int.zpow_le_iff_le_log (b := 2) (by norm_num) hq).1 (by push_cast; exact h)
  have hu : F.unit q = Int.log 2 |q| - (F.p - 1) := by unfold unit; exact max_eq_left (by omega)
  have hle := Int.zpow_log_le_self (b := 2) (by norm_num) hq
  refine (F.rnd_error q).trans ?_
  rw [hu, show Int.log 2 |q| - ((F.p : ℤ) - 1) = Int.log 2 |q| + 1 - F.p by ring,
    zpow_sub₀ (by norm_num), zpow_add₀ (by norm_num), zpow_natCast]
  push_cast at hle
  have : (2 : ℚ) ^ Int.log 2 |q| * 2 ^ (1 : ℤ) / 2 ^ F.p / 2 = 2 ^ Int.log 2 |q| / 2 ^ F.p := by
    rw [zpow_one]; field_simp
  rw [this]
  gcongr

/-- Numbers with at most `p` significant bits are represented exactly. -/
theorem rnd_exact {m e : ℤ} (hm : |m| < 2 ^ F.p) (he : F.emin ≤ e) : F.rnd (m * 2 ^ e) = m * 2 ^ e := by
  rcases eq_or_ne m 0 with rfl | hm0
  · simp
  have hpos : 0 < |(m : ℚ) * 2 ^ e| := by
    rw [abs_pos]; exact mul_ne_zero (by exact_mod_cast hm0) (two_zpow_pos e).ne'
  have hlt : |(m : ℚ) * 2 ^ e| < ((2 : ℕ) : ℚ) ^ ((F.p : ℤ) + e) := by
    rw [abs_mul, abs_of_pos (two_zpow_pos e)]
    push_cast
    rw [zpow_add₀ (by norm_num), zpow_natCast]
    have : |(m : ℚ)| < 2 ^ F.p := by rw [← Int.cast_abs]; exact_mod_cast hm
    have := two_zpow_pos e
    gcongr
  have hlog := (Int.lt_zpow_iff_log_lt (b := 2) (by norm_num) hpos).1 hlt
  have hu : F.unit ((m : ℚ) * 2 ^ e) ≤ e := by unfold unit; exact max_le (by omega) he
  obtain ⟨k, hk⟩ : ∃ k : ℕ, e = F.unit ((m : ℚ) * 2 ^ e) + k := ⟨(e - F.unit ((m : ℚ) * 2 ^ e)).toNat, by omega⟩
  have hdiv : (m : ℚ) * 2 ^ e / 2 ^ F.unit ((m : ℚ) * 2 ^ e) = ((m * 2 ^ k : ℤ) : ℚ) := by
    generalize F.unit ((m : ℚ) * 2 ^ e) = u at *
    subst hk
    rw [zpow_add₀ (by norm_num), zpow_natCast]
    have := (two_zpow_pos u).ne'
    push_cast
    field_simp
  unfold rnd
  rw [hdiv, rne_int, ← hdiv, div_mul_cancel₀ _ (two_zpow_pos _).ne']

theorem rnd_int {n : ℤ} (hn : |n| < 2 ^ F.p) (he : F.emin ≤ 0) : F.rnd n = n := by
  simpa using F.rnd_exact (e := 0) hn he

theorem rnd_nat {n : ℕ} (hn : n < 2 ^ F.p) (he : F.emin ≤ 0) : F.rnd n = n := by
  have := F.rnd_int (n := (n : ℤ)) (by rw [abs_of_nonneg (by positivity)]; exact_mod_cast hn) he
  exact_mod_cast this

theorem unit_mono {q r : ℚ} (hq : 0 < q) (h : q ≤ r) : F.unit q ≤ F.unit r := by
  unfold unit
  rw [abs_of_pos hq, abs_of_pos (hq.trans_le h)]
  have := Int.log_mono_right (b := 2) hq h
  omega

/-- Rounding is monotone (on non-negative values). -/
theorem rnd_mono (hp : 0 < F.p) {q r : ℚ} (hq : 0 ≤ q) (h : q ≤ r) : F.rnd q ≤ F.rnd r := by
  rcases eq_or_lt_of_le hq with rfl | hq
  · rw [rnd_zero]; exact F.rnd_nonneg h
  have hr : 0 < r := hq.trans_le h
  rcases eq_or_lt_of_le (F.unit_mono hq h) with he | hlt
  · unfold rnd
    rw [← he]
    have hu := two_zpow_pos (F.unit q)
    have : (rne (q / 2 ^ F.unit q) : ℚ) ≤ rne (r / 2 ^ F.unit q) := by
      exact_mod_cast rne_mono (by gcongr)
    gcongr
  · -- a power of two separates them
    have hur : F.unit r = Int.log 2 |r| - (F.p - 1) := by
      unfold unit at hlt ⊢
      omega
    have hlq : Int.log 2 |q| - (F.p - 1) ≤ F.unit q := le_max_left _ _
    have h1 : q < (2 : ℚ) ^ (F.unit q + F.p) := by
      have := Int.lt_zpow_succ_log_self (b := 2) (by norm_num) |q|
      rw [abs_of_pos hq] at this hlq
      push_cast at this
      exact this.trans_le (zpow_le_zpow_right₀ (by norm_num) (by omega))
    have h2 : (2 : ℚ) ^ (F.unit r + (F.p - 1)) ≤ r := by
      have := Int.zpow_log_le_self (b := 2) (by norm_num) hr
      rw [abs_of_pos hr] at hur
      push_cast at this
      rwa [show F.unit r + ((F.p : ℤ) - 1) = Int.log 2 r by omega]
    have a1 : F.rnd q ≤ (2 : ℚ) ^ (F.unit q + F.p) := by
      have hu := two_zpow_pos (F.unit q)
      have : rne (q / 2 ^ F.unit q) ≤ (2 : ℤ) ^ F.p := by
        apply rne_le_int
        rw [div_le_iff₀ hu]
        push_cast
        rw [zpow_add₀ (by norm_num), zpow_natCast] at h1
        linarith
      have : (rne (q / 2 ^ F.unit q) : ℚ) ≤ 2 ^ F.p := by exact_mod_cast this
      unfold rnd
      rw [zpow_add₀ (by norm_num), zpow_natCast, mul_comm ((2 : ℚ) ^ F.unit q)]
      gcongr
    have a2 : (2 : ℚ) ^ (F.unit r + (F.p - 1)) ≤ F.rnd r := by
      have hu := two_zpow_pos (F.unit r)
      have hz : ((2 : ℤ) ^ (F.p - 1) : ℤ) ≤ rne (r / 2 ^ F.unit r) := by
        apply int_le_rne
        rw [le_div_iff₀ hu]
        push_cast
        rw [show F.unit r + ((F.p : ℤ) - 1) = F.unit r + ((F.p - 1 : ℕ) : ℤ) by omega, zpow_add₀ (by norm_num),
          zpow_natCast] at h2
        linarith
      have hz' : (2 : ℚ) ^ (F.p - 1) ≤ rne (r / 2 ^ F.unit r) := by exact_mod_cast hz
      unfold rnd
      rw [show F.unit r + ((F.p : ℤ) - 1) = F.unit r + ((F.p - 1 : ℕ) : ℤ) by omega, zpow_add₀ (by norm_num),
          zpow_natCast, mul_comm ((2 : ℚ) ^ F.unit r)]
      gcongr
    calc F.rnd q ≤ 2 ^ (F.unit q + F.p) := a1
      _ ≤ 2 ^ (F.unit r + ((F.p : ℤ) - 1)) := zpow_le_zpow_right₀ (by norm_num) (by omega)
      _ ≤ F.rnd r := a2

end Fmt
end Verif
