import Verif.Base.Rust

/-!
# Bytes

Files and byte slices are `List UInt8`. A reader is the list of the bytes that remain to be read.
-/

namespace Verif

/-- Value of bytes in big-endian order. -/
def beNat : List UInt8 → Nat
  | [] => 0
  | b :: bs => b.toNat * 256 ^ bs.length + beNat bs

/-- Value of bytes in little-endian order. -/
def leNat : List UInt8 → Nat
  | [] => 0
  | b :: bs => b.toNat + 256 * leNat bs

/-- The `n` bytes of `v`, little-endian (`to_le_bytes`). -/
def leBytes : Nat → Nat → List UInt8
  | 0, _ => []
  | n + 1, v => UInt8.ofNat v :: leBytes n (v / 256)

/-- The `n` bytes of `v`, big-endian (`to_be_bytes`). -/
def beBytes (n v : Nat) : List UInt8 := (leBytes n v).reverse

/-- `read_exact` of `n` bytes: an `io` error when fewer remain. -/
def readExact (n : Nat) (s : List UInt8) : R (List UInt8 × List UInt8) :=
  if n ≤ s.length then .ok (s.take n, s.drop n) else errR .io

/-- `read_u8` -/
def readU8 (s : List UInt8) : R (Nat × List UInt8) :=
  match s with
  | b :: s => .ok (b.toNat, s)
  | [] => errR .io

/-- `read_u16::<LittleEndian>` / `read_u32::<LittleEndian>` (`n` bytes). -/
def readLE (n : Nat) (s : List UInt8) : R (Nat × List UInt8) := do
  let (b, s) ← readExact n s
  .ok (leNat b, s)

/-- `read_u16::<BigEndian>` / `read_u32::<BigEndian>` (`n` bytes). -/
def readBE (n : Nat) (s : List UInt8) : R (Nat × List UInt8) := do
  let (b, s) ← readExact n s
  .ok (beNat b, s)

@[simp] theorem length_leBytes (n v : Nat) : (leBytes n v).length = n := by
  induction n generalizing v with
  | zero => rfl
  | succ n ih => simp [leBytes, ih]

@[simp] theorem length_beBytes (n v : Nat) : (beBytes n v).length = n := by simp [beBytes]

theorem leNat_lt (l : List UInt8) : leNat l < 256 ^ l.length := by
  induction l with
  | nil => simp [leNat]
  | cons b l ih =>
    have := b.toNat_lt
    simp only [leNat, List.length_cons, Nat.pow_succ]
    omega

theorem leNat_leBytes (n v : Nat) : leNat (leBytes n v) = v % 256 ^ n := by
  induction n generalizing v with
  | zero => simp [leBytes, leNat, Nat.mod_one]
  | succ n ih =>
    simp only [leBytes, leNat, ih, UInt8.toNat_ofNat']
    have h : v % 256 ^ (n + 1) = v % 256 + 256 * (v / 256 % 256 ^ n) := by
      rw [show 256 ^ (n + 1) = 256 * 256 ^ n by rw [Nat.pow_succ, Nat.mul_comm], Nat.mod_mul]
    rw [h]

theorem beNat_append (a : List UInt8) (b : UInt8) : beNat (a ++ [b]) = 256 * beNat a + b.toNat := by
  induction a with
  | nil => simp [beNat]
  | cons x a ih =>
    simp only [List.cons_append, beNat, ih, List.length_append, List.length_singleton, Nat.pow_succ,
      Nat.mul_add]
    rw [Nat.add_assoc, Nat.mul_comm (256 ^ a.length) 256, ← Nat.mul_assoc, ← Nat.mul_assoc,
      Nat.mul_comm x.toNat 256]

theorem beNat_reverse (l : List UInt8) : beNat l.reverse = leNat l := by
  induction l with
  | nil => rfl
  | cons b l ih => rw [List.reverse_cons, beNat_append, ih, leNat]; omega

theorem beNat_beBytes (n v : Nat) : beNat (beBytes n v) = v % 256 ^ n := by
  rw [beBytes, beNat_reverse, leNat_leBytes]

theorem beNat_lt (l : List UInt8) : beNat l < 256 ^ l.length := by
  have := leNat_lt l.reverse
  rw [← beNat_reverse, List.reverse_reverse, List.length_reverse] at this
  exact this

theorem readExact_append (a s : List UInt8) : readExact a.length (a ++ s) = .ok (a, s) := by
  simp [readExact]

theorem readExact_append' {n : Nat} {a : List UInt8} (h : a.length = n) (s : List UInt8) :
    readExact n (a ++ s) = .ok (a, s) := h ▸ readExact_append a s

theorem readLE_append (n v : Nat) (h : v < 256 ^ n) (s : List UInt8) :
    readLE n (leBytes n v ++ s) = .ok (v, s) := by
  unfold readLE
  rw [readExact_append' (length_leBytes n v)]
  simp only [ok_bind]
  rw [leNat_leBytes, Nat.mod_eq_of_lt h]

theorem readBE_append (n v : Nat) (h : v < 256 ^ n) (s : List UInt8) :
    readBE n (beBytes n v ++ s) = .ok (v, s) := by
  unfold readBE
  rw [readExact_append' (length_beBytes n v)]
  simp only [ok_bind]
  rw [beNat_beBytes, Nat.mod_eq_of_lt h]

theorem readExact_short {n : Nat} {s : List UInt8} (h : s.length < n) : readExact n s = errR .io := by
  unfold readExact; rw [if_neg (by omega)]

end Verif
