import Verif.Model.JpegEntropy
import Verif.Spec.Jpeg

/-! # Lemmas on bits written by the JPEG encoder -/

namespace Verif
namespace Jpeg

open JpegSpec

@[simp] theorem length_natBits (n v : Nat) : (natBits n v).length = n := by
  induction n with
  | zero => rfl
  | succ n ih => simp [natBits, ih]

theorem natBits_append (a b v : Nat) : natBits (a + b) v = natBits a (v >>> b) ++ natBits b v := by
  induction a with
  | zero => simp [natBits]
  | succ a ih =>
    rw [show a + 1 + b = (a + b) + 1 by omega]
    simp only [natBits, ih, List.cons_append, Nat.testBit_shiftRight]
    rw [Nat.add_comm b a]

theorem natBits_congr {n v w : Nat} (h : ∀ i, i < n → v.testBit i = w.testBit i) : natBits n v = natBits n w := by
  induction n with
  | zero => rfl
  | succ n ih => simp only [natBits]; rw [h n (by omega), ih (fun i hi => h i (by omega))]

theorem natBits_mod (n v : Nat) : natBits n (v % 2 ^ n) = natBits n v :=
  natBits_congr fun i hi => by rw [Nat.testBit_mod_two_pow]; simp [hi]

theorem bitsVal_append (a b : List Bool) : bitsVal (a ++ b) = bitsVal a * 2 ^ b.length + bitsVal b := by
  unfold bitsVal
  rw [List.foldl_append]
  generalize List.foldl _ 0 a = x
  have : ∀ (b : List Bool) (x y : Nat), List.foldl (fun a (b : Bool) => 2 * a + b.toNat) (x + y) b =
      x * 2 ^ b.length + List.foldl (fun a (b : Bool) => 2 * a + b.toNat) y b := by
    intro b
    induction b with
    | nil => intro x y; simp
    | cons c b ih =>
      intro x y
      simp only [List.foldl_cons, List.length_cons]
      rw [show 2 * (x + y) + c.toNat = 2 * x + (2 * y + c.toNat) by omega, ih, Nat.pow_succ]
      rw [show 2 * x * 2 ^ b.length = x * (2 ^ b.length * 2) by rw [Nat.mul_comm 2 x, Nat.mul_assoc, Nat.mul_comm 2]]
  simpa using this b x 0

theorem bitsVal_natBits (n v : Nat) : bitsVal (natBits n v) = v % 2 ^ n := by
  induction n generalizing v with
  | zero => simp [natBits, bitsVal, Nat.mod_one]
  | succ n ih =>
    rw [Nat.add_comm, natBits_append, bitsVal_append, ih, length_natBits]
    have h1 : bitsVal (natBits 1 (v >>> n)) = v / 2 ^ n % 2 := by
      simp only [natBits, bitsVal, List.foldl_cons, List.foldl_nil, Nat.shiftRight_eq_div_pow, Nat.testBit_zero]
      rcases Nat.mod_two_eq_zero_or_one (v / 2 ^ n) with h | h <;> simp [h]
    rw [h1, Nat.add_comm 1 n, Nat.pow_succ, Nat.mod_mul (a := 2 ^ n)]
    rw [Nat.mul_comm]
    omega

theorem receive_natBits (n v : Nat) (rest : List Bool) (h : v < 2 ^ n) :
    receive n (natBits n v ++ rest) = some (v, rest) := by
  unfold receive
  rw [if_pos (by simp), List.take_append_of_le_length (by simp), List.drop_append_of_le_length (by simp)]
  have h1 : (natBits n v).take n = natBits n v := by rw [List.take_of_length_le (by simp)]
  have h2 : (natBits n v).drop n = [] := by rw [List.drop_of_length_le (by simp)]
  rw [h1, h2, bitsVal_natBits, Nat.mod_eq_of_lt h, List.nil_append]

theorem byteBits_append (a b : List UInt8) : byteBits (a ++ b) = byteBits a ++ byteBits b := by
  simp [byteBits]

theorem length_byteBits (a : List UInt8) : (byteBits a).length = 8 * a.length := by
  induction a with
  | nil => rfl
  | cons x a ih =>
    rw [show x :: a = [x] ++ a from rfl, byteBits_append, List.length_append, ih]
    simp [byteBits]; omega

/-- Byte stuffing. -/
def stuff (bytes : List UInt8) : List UInt8 := bytes.flatMap fun b => if b = 0xFF then [0xFF, 0] else [b]

theorem stuff_append (a b : List UInt8) : stuff (a ++ b) = stuff a ++ stuff b := by simp [stuff]

theorem stuff_cons (b : UInt8) (l : List UInt8) : stuff (b :: l) = (if b = 0xFF then [0xFF, 0] else [b]) ++ stuff l := rfl

theorem unstuff_stuff (bytes : List UInt8) (m : UInt8) (rest : List UInt8) (hm : m ≠ 0) :
    unstuff (stuff bytes ++ 0xFF :: m :: rest) = (bytes, 0xFF :: m :: rest) := by
  induction bytes with
  | nil => simp [stuff, unstuff, hm]
  | cons b l ih =>
    rw [stuff_cons]
    by_cases hb : b = 0xFF
    · rw [if_pos hb]
      simp only [List.cons_append, List.nil_append, unstuff, if_true, ih, hb]
    · rw [if_neg hb]
      have hne : ∃ c t, stuff l ++ 0xFF :: m :: rest = c :: t := by
        cases hs : stuff l with
        | nil => exact ⟨_, _, rfl⟩
        | cons c t => exact ⟨c, t ++ _, rfl⟩
      obtain ⟨c, t, ht⟩ := hne
      simp only [List.cons_append, List.nil_append]
      rw [ht] at ih ⊢
      simp only [unstuff, if_neg hb, ih]

/-- The writer has written the bytes `pre` and then the bits `bs`, of which less than eight may still be pending. -/
structure Wrote (pre : List UInt8) (s : BitWriter) (bs : List Bool) : Prop where
  h : ∃ bytes pend, s.w = pre ++ stuff bytes ∧ s.nbits < 8 ∧ pend < 2 ^ s.nbits ∧ s.accumulator = pend * 2 ^ (32 - s.nbits) ∧
    bs = byteBits bytes ++ natBits s.nbits pend

theorem wrote_start (s : BitWriter) (hn : s.nbits = 0) (ha : s.accumulator = 0) : Wrote s.w s [] :=
  ⟨[], 0, by simp [stuff], by omega, by rw [hn]; decide, by simp [ha], by rw [hn]; rfl⟩

theorem flush_wrote (pre : List UInt8) (bs : List Bool) (s : BitWriter) (bytes : List UInt8) (pend : Nat)
    (hw : s.w = pre ++ stuff bytes) (hn : s.nbits ≤ 32) (hp : pend < 2 ^ s.nbits) (ha : s.accumulator = pend * 2 ^ (32 - s.nbits))
    (hb : bs = byteBits bytes ++ natBits s.nbits pend) : Wrote pre s.flush bs := by
  induction hk : s.nbits using Nat.strongRecOn generalizing s bytes pend with
  | ind k ih =>
    subst hk
    rw [BitWriter.flush]
    by_cases h8 : 8 ≤ s.nbits
    · rw [if_pos h8]
      obtain ⟨m, hm⟩ : ∃ m, s.nbits = 8 + m := ⟨s.nbits - 8, by omega⟩
      have hbyte : s.accumulator >>> 24 = pend >>> m := by
        rw [ha, Nat.shiftRight_eq_div_pow, Nat.shiftRight_eq_div_pow, hm]
        rw [show 2 ^ 24 = 2 ^ m * 2 ^ (32 - (8 + m)) by rw [← Nat.pow_add]; congr 1; omega]
        rw [Nat.mul_div_mul_right _ _ (Nat.two_pow_pos _)]
      have hlt : pend >>> m < 256 := by
        rw [Nat.shiftRight_eq_div_pow, Nat.div_lt_iff_lt_mul (Nat.two_pow_pos _)]
        rw [hm, Nat.pow_add] at hp
        exact hp
      have hacc : (s.accumulator <<< 8) % 2 ^ 32 = (pend % 2 ^ m) * 2 ^ (32 - m) := by
        rw [ha, Nat.shiftLeft_eq, hm, Nat.mul_assoc, ← Nat.pow_add, show 32 - (8 + m) + 8 = 32 - m by omega]
        have h32 : 2 ^ 32 = 2 ^ m * 2 ^ (32 - m) := by rw [← Nat.pow_add, show m + (32 - m) = 32 by omega]
        rw [h32, Nat.mul_mod_mul_right]
      have hstuff : (if s.accumulator >>> 24 = 0xFF then s.w ++ [UInt8.ofNat (s.accumulator >>> 24)] ++ [0x00] else
          s.w ++ [UInt8.ofNat (s.accumulator >>> 24)]) = pre ++ stuff (bytes ++ [UInt8.ofNat (pend >>> m)]) := by
        rw [hbyte, hw, stuff_append]
        by_cases hff : pend >>> m = 0xFF
        · simp [hff, stuff]
        · have : UInt8.ofNat (pend >>> m) ≠ 0xFF := by
            intro hc
            have := congrArg UInt8.toNat hc
            simp at this
            omega
          simp [hff, stuff, this]
      refine ih (s.nbits - 8) (by omega) ⟨_, _, _⟩ (bytes ++ [UInt8.ofNat (pend >>> m)]) (pend % 2 ^ m) hstuff (by dsimp only; omega) ?_ ?_ ?_ rfl
      · dsimp only; rw [hm, Nat.add_sub_cancel_left]; exact Nat.mod_lt _ (Nat.two_pow_pos _)
      · dsimp only; rw [hacc, hm, Nat.add_sub_cancel_left]
      · dsimp only
        rw [hb, byteBits_append, hm, Nat.add_sub_cancel_left, natBits_append, natBits_mod, List.append_assoc]
        simp only [byteBits, List.flatMap_cons, List.flatMap_nil, List.append_nil, UInt8.toNat_ofNat']
        rw [Nat.mod_eq_of_lt (by omega)]
    · rw [if_neg h8]
      exact ⟨⟨bytes, pend, hw, by omega, hp, ha, hb⟩⟩

/-- Writing bits appends them. -/
theorem writeBits_wrote {pre : List UInt8} {bs : List Bool} {s : BitWriter} (h : Wrote pre s bs) {v n : Nat} (hn : n ≤ 24)
    (hv : v < 2 ^ n) : ∃ s', s.writeBits v n = .ok s' ∧ Wrote pre s' (bs ++ natBits n v) := by
  unfold BitWriter.writeBits
  by_cases h0 : n = 0
  · subst h0; exact ⟨s, by simp, by simpa [natBits] using h⟩
  · rw [if_neg h0]
    obtain ⟨bytes, pend, hw, hlt, hp, ha, hb⟩ := h.h
    rw [addC_ok (by omega), ok_bind, subC_ok (by omega), ok_bind]
    refine ⟨_, rfl, ?_⟩
    have hsh : (v <<< (32 - (s.nbits + n))) % 2 ^ 32 = v * 2 ^ (32 - (s.nbits + n)) := by
      rw [Nat.shiftLeft_eq, Nat.mod_eq_of_lt]
      calc v * 2 ^ (32 - (s.nbits + n)) < 2 ^ n * 2 ^ (32 - (s.nbits + n)) := Nat.mul_lt_mul_of_pos_right hv (Nat.two_pow_pos _)
        _ = 2 ^ (32 - s.nbits) := by rw [← Nat.pow_add]; congr 1; omega
        _ ≤ 2 ^ 32 := Nat.pow_le_pow_right (by decide) (by omega)
    have hlt2 : v * 2 ^ (32 - (s.nbits + n)) < 2 ^ (32 - s.nbits) := by
      calc v * 2 ^ (32 - (s.nbits + n)) < 2 ^ n * 2 ^ (32 - (s.nbits + n)) := Nat.mul_lt_mul_of_pos_right hv (Nat.two_pow_pos _)
        _ = 2 ^ (32 - s.nbits) := by rw [← Nat.pow_add]; congr 1; omega
    have hor : s.accumulator ||| (v <<< (32 - (s.nbits + n))) % 2 ^ 32 = (pend * 2 ^ n + v) * 2 ^ (32 - (s.nbits + n)) := by
      rw [hsh, ha, Nat.mul_comm pend, ← Nat.two_pow_add_eq_or_of_lt hlt2, Nat.add_mul, Nat.mul_assoc, ← Nat.pow_add,
        show n + (32 - (s.nbits + n)) = 32 - s.nbits by omega, Nat.mul_comm pend]
    refine flush_wrote pre _ _ bytes (pend * 2 ^ n + v) hw (by dsimp only; omega) ?_ (by dsimp only; exact hor) ?_
    · dsimp only
      rw [Nat.pow_add]
      calc pend * 2 ^ n + v < pend * 2 ^ n + 2 ^ n := by omega
        _ = (pend + 1) * 2 ^ n := by rw [Nat.add_mul, Nat.one_mul]
        _ ≤ 2 ^ s.nbits * 2 ^ n := Nat.mul_le_mul_right _ hp
    · dsimp only
      rw [hb, natBits_append, List.append_assoc]
      have h1 : (pend * 2 ^ n + v) >>> n = pend := by
        rw [Nat.shiftRight_eq_div_pow, Nat.add_comm, Nat.add_mul_div_right _ _ (Nat.two_pow_pos _), Nat.div_eq_of_lt hv, Nat.zero_add]
      have h2 : natBits n (pend * 2 ^ n + v) = natBits n v := by
        rw [← natBits_mod, Nat.add_comm, Nat.add_mul_mod_self_right, natBits_mod]
      rw [h1, h2]

end Jpeg
end Verif
