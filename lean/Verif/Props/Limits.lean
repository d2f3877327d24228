import Verif.Model.Limits

/-!
# Decoder limits (C27)
-/

namespace Verif
namespace Limits

/-- A sequence of requests a decoder makes against its limits. -/
inductive Op
  | reserve (n : Nat)
  | reserveBuffer (w h : Nat) (c : ColorType)
  | free (n : Nat)

/-- Perform a request: the limits afterwards and whether it was granted. -/
def step (l : Limits) : Op → Limits × Bool
  | .reserve n => match l.reserve n with
    | .ok l' => (l', true)
    | .error _ => (l, false)
  | .reserveBuffer w h c => match l.reserveBuffer w h c with
    | .ok l' => (l', true)
    | .error _ => (l, false)
  | .free n => (l.free n, true)

/-- Number of bytes a request asks for. -/
def Op.size : Op → Nat
  | .reserve n => n
  | .reserveBuffer w h c => min (w * h * c.bytesPerPixel) (2 ^ 64 - 1)
  | .free n => n

/-- Number of bytes reserved and not yet freed, after one more request with the given outcome. -/
def liveAfter (live : Nat) (o : Op) (granted : Bool) : Nat :=
  match o with
  | .free n => live - n
  | _ => if granted then live + o.size else live

/-- All histories of requests: `History l0 l live ok` - starting from limits `l0`, having performed some
requests, never freeing more than is reserved, with `live` bytes reserved in total now. -/
inductive History (l0 : Limits) : Limits → Nat → Prop
  | start : History l0 l0 0
  | next {l : Limits} {live : Nat} (o : Op) : History l0 l live → (∀ n, o = .free n → n ≤ live) →
      History l0 (l.step o).1 (liveAfter live o (l.step o).2)

end Limits
open Limits

/-- `reserve(n)`: fails (memory limit) exactly when `n` exceeds the remaining budget; otherwise lowers the
budget by exactly `n` and changes nothing else. It never panics. -/
theorem C27_reserve (l : Limits) (n : Nat) :
    (∀ m, l.maxAlloc = some m → m < n → l.reserve n = .error (.err .limitsMemory)) ∧
    (∀ m, l.maxAlloc = some m → n ≤ m → l.reserve n = .ok { l with maxAlloc := some (m - n) }) ∧
    (l.maxAlloc = none → l.reserve n = .ok l) := by
  refine ⟨fun m h hn => ?_, fun m h hn => ?_, fun h => ?_⟩
  · simp [Limits.reserve, h, hn, errR]
  · have : ¬ m < n := by omega
    simp [Limits.reserve, h, this, subC, hn]
  · simp [Limits.reserve, h]

/-- `free(n)` raises the budget by `n`, saturating at `u64::MAX`. -/
theorem C27_free (l : Limits) (n : Nat) :
    l.free n = { l with maxAlloc := l.maxAlloc.map fun m => min (m + n) (2 ^ 64 - 1) } := by
  obtain ⟨w, h, a⟩ := l
  cases a <;> rfl

/-- `check_dimensions` rejects exactly the images wider or higher than the limits. -/
theorem C27_check_dimensions (l : Limits) (w h : Nat) :
    l.checkDimensions w h =
      if (∃ m, l.maxImageWidth = some m ∧ m < w) ∨ (∃ m, l.maxImageHeight = some m ∧ m < h)
      then .error (.err .limitsDimension) else .ok () := by
  obtain ⟨lw, lh, la⟩ := l
  unfold Limits.checkDimensions
  cases lw with
  | none =>
    cases lh with
    | none => simp
    | some b => by_cases hb : b < h <;> simp [hb, errR]
  | some a =>
    cases lh with
    | none => by_cases ha : a < w <;> simp [ha, errR]
    | some b => by_cases ha : a < w <;> by_cases hb : b < h <;> simp [ha, hb, errR]

theorem satMul_size (w h b : Nat) (hb : 0 < b) :
    satMul 64 (satMul 64 w h) b = min (w * h * b) (2 ^ 64 - 1) := by
  unfold satMul
  rcases Nat.le_total (w * h) (2 ^ 64 - 1) with h1 | h1
  · rw [Nat.min_eq_left h1]
  · rw [Nat.min_eq_right h1]
    have h2 : (2 ^ 64 - 1) * 1 ≤ (2 ^ 64 - 1) * b := Nat.mul_le_mul_left _ hb
    have h3 : w * h * 1 ≤ w * h * b := Nat.mul_le_mul_left _ hb
    omega

/-- `reserve_buffer`: rejects an image exceeding the dimension limits, otherwise reserves the number of bytes
of the image (saturated at `u64::MAX`). -/
theorem C27_reserve_buffer (l : Limits) (w h : Nat) (c : ColorType) :
    l.reserveBuffer w h c =
      if (∃ m, l.maxImageWidth = some m ∧ m < w) ∨ (∃ m, l.maxImageHeight = some m ∧ m < h)
      then .error (.err .limitsDimension)
      else l.reserve (min (w * h * c.bytesPerPixel) (2 ^ 64 - 1)) := by
  unfold Limits.reserveBuffer
  rw [C27_check_dimensions, satMul_size w h _ (by cases c <;> decide)]
  split <;> rfl

theorem reserve_keeps {l l' : Limits} {n : Nat} (h : l.reserve n = .ok l') :
    l'.maxImageWidth = l.maxImageWidth ∧ l'.maxImageHeight = l.maxImageHeight ∧
    (∀ m, l.maxAlloc = some m → n ≤ m ∧ l'.maxAlloc = some (m - n)) ∧ (l.maxAlloc = none → l'.maxAlloc = none) := by
  obtain ⟨a, b, c⟩ := l
  cases c with
  | none => cases h; exact ⟨rfl, rfl, fun m h => (by cases h), fun _ => rfl⟩
  | some m =>
    by_cases hn : n ≤ m
    · rw [(C27_reserve _ n).2.1 m rfl hn] at h
      cases h
      refine ⟨rfl, rfl, fun k hk => ?_, fun h => (by cases h)⟩
      cases hk; exact ⟨hn, rfl⟩
    · rw [(C27_reserve _ n).1 m rfl (by omega)] at h; cases h

/-- One request against a limited budget. -/
theorem step_some {l : Limits} {m : Nat} (hm : l.maxAlloc = some m) (o : Op) :
    (l.step o).1.maxImageWidth = l.maxImageWidth ∧ (l.step o).1.maxImageHeight = l.maxImageHeight ∧
    (l.step o).1.maxAlloc = some (match o with
      | .free n => min (m + n) (2 ^ 64 - 1)
      | _ => if (l.step o).2 then m - o.size else m) ∧
    ((∀ n, o ≠ .free n) → (l.step o).2 = true → o.size ≤ m) := by
  cases o with
  | reserve n =>
    unfold Limits.step
    cases h : l.reserve n with
    | error e => simp only [h]; exact ⟨trivial, trivial, by simpa using hm, by simp⟩
    | ok l' =>
      obtain ⟨a, b, c, d⟩ := reserve_keeps h
      simp only [h]; exact ⟨a, b, (c m hm).2, fun _ _ => (c m hm).1⟩
  | reserveBuffer w h c =>
    unfold Limits.step
    cases hr : l.reserveBuffer w h c with
    | error e => simp only [hr]; exact ⟨trivial, trivial, by simpa using hm, by simp⟩
    | ok l' =>
      simp only [hr]
      rw [C27_reserve_buffer] at hr
      split at hr
      · cases hr
      · obtain ⟨a, b, c', d⟩ := reserve_keeps hr
        exact ⟨a, b, (c' m hm).2, fun _ _ => (c' m hm).1⟩
  | free n =>
    simp [Limits.step, C27_free, hm]

/-- Accounting over any history of reservations and releases: the bytes reserved at any time plus the remaining
budget are the initial budget, so the total reserved never exceeds it; the dimension limits never change. -/
theorem C27_accounting (l0 l : Limits) (live m : Nat) (hm : l0.maxAlloc = some m) (h64 : m < 2 ^ 64)
    (h : History l0 l live) : live ≤ m ∧ l.maxAlloc = some (m - live) ∧
      l.maxImageWidth = l0.maxImageWidth ∧ l.maxImageHeight = l0.maxImageHeight := by
  induction h with
  | start => exact ⟨Nat.zero_le _, by simpa using hm, rfl, rfl⟩
  | @next l live o hist hfree ih =>
    obtain ⟨h1, h2, h3, h4⟩ := ih
    obtain ⟨s1, s2, s3, s4⟩ := step_some h2 o
    refine ⟨?_, ?_, by rw [s1, h3], by rw [s2, h4]⟩
    · cases o with
      | free n => simp only [liveAfter]; omega
      | reserve n =>
        simp only [liveAfter]
        split
        · rename_i hg; have := s4 (fun _ => nofun) hg; omega
        · exact h1
      | reserveBuffer w hh c =>
        simp only [liveAfter]
        split
        · rename_i hg; have := s4 (fun _ => nofun) hg; omega
        · exact h1
    · rw [s3]; congr 1
      cases o with
      | free n =>
        have := hfree n rfl
        simp only [liveAfter]; omega
      | reserve n =>
        simp only [liveAfter]
        split
        · omega
        · rfl
      | reserveBuffer w hh c =>
        simp only [liveAfter]
        split
        · omega
        · rfl

/-- With no limit set nothing is ever rejected, at any point of any history. -/
theorem C27_no_limits (l0 l : Limits) (live : Nat) (h0 : l0 = Limits.noLimits) (h : History l0 l live) :
    l = Limits.noLimits ∧ ∀ o, (l.step o).2 = true := by
  have hl : l = Limits.noLimits := by
    induction h with
    | start => exact h0
    | next o hist hfree ih => subst ih; cases o <;> rfl
  subst hl
  exact ⟨rfl, fun o => by cases o <;> rfl⟩

/-- A reservation that is refused changes nothing. -/
theorem C27_refused_unchanged (l : Limits) (o : Op) (h : (l.step o).2 = false) : (l.step o).1 = l := by
  cases o with
  | reserve n =>
    unfold Limits.step at *
    cases hr : l.reserve n with
    | ok l' => simp only [hr] at h; cases h
    | error e => simp only [hr]
  | reserveBuffer w hh c =>
    unfold Limits.step at *
    cases hr : l.reserveBuffer w hh c with
    | ok l' => simp only [hr] at h; cases h
    | error e => simp only [hr]
  | free n => cases h

-- a history: reserve 10, fail to reserve a 10 × 10 RGB image, free 4
example : History ⟨none, none, some 100⟩ ⟨none, none, some 94⟩ 6 :=
  .next (.free 4) (.next (.reserveBuffer 10 10 .Rgb8) (.next (.reserve 10) .start (fun _ => nofun)) (fun _ => nofun))
    (fun n h => by cases h; decide)
example : (⟨none, none, some 90⟩ : Limits).step (.reserveBuffer 10 10 .Rgb8) = (⟨none, none, some 90⟩, false) := by rfl

end Verif
