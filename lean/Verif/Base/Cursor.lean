import Verif.Base.Bytes

/-!
# Seekable readers

`std::io::Cursor<&[u8]>` (and any well-behaved `Read + Seek`): the contents and a position, which may lie
beyond the end.
-/

namespace Verif

/-- A reader over `bytes` at `pos`. -/
structure Cursor where
  bytes : List UInt8
  pos : Nat
  deriving DecidableEq

namespace Cursor

/-- The bytes that remain. -/
def rest (c : Cursor) : List UInt8 := c.bytes.drop c.pos

/-- `Read::read_exact` of `n` bytes. -/
def readExact (c : Cursor) (n : Nat) : R (List UInt8 × Cursor) :=
  if n ≤ c.bytes.length - c.pos then .ok ((c.bytes.drop c.pos).take n, { c with pos := c.pos + n }) else errR .io

/-- `Seek::seek(SeekFrom::Current(d))`: an error when the new position is negative or does not fit 64 bits. -/
def seekCurrent (c : Cursor) (d : Int) : R (Nat × Cursor) :=
  if 0 ≤ (c.pos : Int) + d ∧ (c.pos : Int) + d < 2 ^ 64 then
    .ok (((c.pos : Int) + d).toNat, { c with pos := ((c.pos : Int) + d).toNat })
  else errR .io

/-- `Seek::seek(SeekFrom::Start(p))`. -/
def seekStart (c : Cursor) (p : Nat) : R (Nat × Cursor) := .ok (p, { c with pos := p })

theorem readExact_ok {c : Cursor} {n : Nat} (h : c.pos + n ≤ c.bytes.length) :
    c.readExact n = .ok ((c.bytes.drop c.pos).take n, { c with pos := c.pos + n }) := by
  unfold readExact; rw [if_pos (by omega)]

theorem readExact_err {c : Cursor} {n : Nat} (h : c.bytes.length - c.pos < n) : c.readExact n = errR .io := by
  unfold readExact; rw [if_neg (by omega)]

theorem seekCurrent_ok {c : Cursor} {d : Int} {p : Nat} (h : (c.pos : Int) + d = p) (hp : p < 2 ^ 64) :
    c.seekCurrent d = .ok (p, { c with pos := p }) := by
  unfold seekCurrent
  rw [h, if_pos (by omega), Int.toNat_natCast]

end Cursor
end Verif
