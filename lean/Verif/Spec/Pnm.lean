import Verif.Model.Color
import Mathlib.Algebra.Order.Ring.Rat
import Mathlib.Algebra.Order.Group.Abs

/-!
# PNM files (P1 to P6): what the bytes say

Written from the descriptions of the formats (pbm(5), pgm(5), ppm(5)); nothing is taken from the model but the type of colour
types.
-/

namespace Verif
namespace PnmSpec

/-- White space: tab, line feed, vertical tab, form feed, carriage return, blank. -/
def Space (b : UInt8) : Prop := b = 9 ∨ b = 10 ∨ b = 11 ∨ b = 12 ∨ b = 13 ∨ b = 32
instance (b : UInt8) : Decidable (Space b) := inferInstanceAs (Decidable (_ ∨ _))

/-- No end of line occurs. -/
def OneLine (t : List UInt8) : Prop := ∀ b ∈ t, b ≠ 10 ∧ b ≠ 13

/-- `Reads cs s rest`: without the comments (from `#` through the end of the line), `s` begins with the characters `cs`;
`rest` is what follows the last of them. -/
inductive Reads : List UInt8 → List UInt8 → List UInt8 → Prop
  | done {s : List UInt8} : Reads [] s s
  | char {c : UInt8} {cs s rest : List UInt8} : c ≠ 35 → Reads cs s rest → Reads (c :: cs) (c :: s) rest
  | comment {t : List UInt8} {e c : UInt8} {cs s rest : List UInt8} : OneLine t → (e = 10 ∨ e = 13) → Reads (c :: cs) s rest →
      Reads (c :: cs) (35 :: (t ++ e :: s)) rest

/-- Nothing but comments; the last one may lack its end. -/
inductive Comments : List UInt8 → Prop
  | none : Comments []
  | last {t : List UInt8} : OneLine t → Comments (35 :: t)
  | more {t : List UInt8} {e : UInt8} {s : List UInt8} : OneLine t → (e = 10 ∨ e = 13) → Comments s → Comments (35 :: (t ++ e :: s))

/-- `Word s word rest`: `s` begins with white space, the word `word`, and one character of white space, behind which `rest`
follows; or the word ends with the file. -/
def Word (s word rest : List UInt8) : Prop :=
  word ≠ [] ∧ (∀ b ∈ word, ¬ Space b ∧ b < 128) ∧ ∃ gap : List UInt8, (∀ b ∈ gap, Space b) ∧
    ((∃ c, Space c ∧ Reads (gap ++ word ++ [c]) s rest) ∨ (∃ t, Reads (gap ++ word) s t ∧ Comments t ∧ rest = []))

/-- At least one digit, and nothing else. -/
def Digits (ds : List UInt8) : Prop := ds ≠ [] ∧ ∀ d ∈ ds, 48 ≤ d.toNat ∧ d.toNat ≤ 57

/-- The number that decimal digits denote. -/
def value (ds : List UInt8) : Nat := ds.foldl (fun n d => n * 10 + (d.toNat - 48)) 0

/-- A number below `2 ^ 32`, perhaps with a plus sign. -/
def Numeral (word : List UInt8) (v : Nat) : Prop := ∃ ds, Digits ds ∧ (word = ds ∨ word = 43 :: ds) ∧ v = value ds ∧ v < 2 ^ 32

/-- The next word is the number `v`. -/
def Entry (s : List UInt8) (v : Nat) (rest : List UInt8) : Prop := ∃ word, Word s word rest ∧ Numeral word v

/-- What a header says: whether the raster is text; whether the samples are bits with 1 for black; the number of samples
per pixel; the dimensions and the maximal sample. -/
structure Info where
  plain : Bool
  bilevel : Bool
  channels : Nat
  width : Nat
  height : Nat
  maxval : Nat

/-- The second character of the file. -/
def digit (plain bilevel : Bool) (channels : Nat) : UInt8 :=
  (if plain then 48 else 51) + if bilevel then 1 else if channels = 1 then 2 else 3

/-- `Opens file i rest`: `file` begins with a header that says `i`, and the raster `rest` follows. -/
def Opens (file : List UInt8) (i : Info) (rest : List UInt8) : Prop :=
  ∃ s s1 s2, file = 80 :: digit i.plain i.bilevel i.channels :: s ∧ Entry s i.width s1 ∧ Entry s1 i.height s2 ∧
    if i.bilevel then i.channels = 1 ∧ i.maxval = 1 ∧ rest = s2
    else (i.channels = 1 ∨ i.channels = 3) ∧ Entry s2 i.maxval rest ∧ 1 ≤ i.maxval ∧ i.maxval ≤ 65535

/-- Bit `i` of a byte, from the most significant. -/
def bit (b : UInt8) (i : Nat) : Nat := b.toNat / 2 ^ (7 - i) % 2

/-- `PlainBits n s raw`: `s` begins with the `n` bits `raw`, the characters 0 and 1, with or without white space. -/
inductive PlainBits : Nat → List UInt8 → List Nat → Prop
  | done {s : List UInt8} : PlainBits 0 s []
  | space {n : Nat} {c : UInt8} {s : List UInt8} {raw : List Nat} : Space c → PlainBits n s raw → PlainBits n (c :: s) raw
  | zero {n : Nat} {s : List UInt8} {raw : List Nat} : PlainBits n s raw → PlainBits (n + 1) (48 :: s) (0 :: raw)
  | one {n : Nat} {s : List UInt8} {raw : List Nat} : PlainBits n s raw → PlainBits (n + 1) (49 :: s) (1 :: raw)

/-- `PlainNumbers lenient lim n s raw`: `s` begins with the `n` numbers `raw`, of at most `lim`, separated by white space.
With `lenient`, numbers that are missing at the end of the file are 0. -/
inductive PlainNumbers (lenient : Bool) (lim : Nat) : Nat → List UInt8 → List Nat → Prop
  | done {s : List UInt8} : PlainNumbers lenient lim 0 s []
  | number {n : Nat} {gap ds s : List UInt8} {raw : List Nat} : (∀ b ∈ gap, Space b) → Digits ds → value ds ≤ lim →
      (s = [] ∨ ∃ c t, s = c :: t ∧ Space c) → PlainNumbers lenient lim n s raw →
      PlainNumbers lenient lim (n + 1) (gap ++ ds ++ s) (value ds :: raw)
  | missing {n : Nat} {gap : List UInt8} : lenient = true → (∀ b ∈ gap, Space b) → PlainNumbers lenient lim n gap (List.replicate n 0)

/-- `Raster lenient i data raw`: `data` begins with the samples `raw` of the image, row by row. Rows of bits are padded to
whole bytes; samples above 255 have two bytes, the more significant first. -/
def Raster (lenient : Bool) (i : Info) (data : List UInt8) (raw : List Nat) : Prop :=
  raw.length = i.width * i.height * i.channels ∧
  if i.plain then
    if i.bilevel then PlainBits (i.width * i.height) data raw
    else PlainNumbers lenient (if i.maxval ≤ 255 then 255 else 65535) (i.width * i.height * i.channels) data raw
  else if i.bilevel then
    i.height * ((i.width + 7) / 8) ≤ data.length ∧ ∀ x y, x < i.width → y < i.height →
      ∃ b, data[y * ((i.width + 7) / 8) + x / 8]? = some b ∧ raw[y * i.width + x]? = some (bit b (x % 8))
  else if i.maxval ≤ 255 then
    raw.length ≤ data.length ∧ ∀ k, k < raw.length → ∃ b, data[k]? = some b ∧ raw[k]? = some b.toNat
  else
    2 * raw.length ≤ data.length ∧ ∀ k, k < raw.length →
      ∃ a b, data[2 * k]? = some a ∧ data[2 * k + 1]? = some b ∧ raw[k]? = some (a.toNat * 256 + b.toNat)

/-- The number of bytes of a raster that is not text. -/
def size (i : Info) : Nat :=
  if i.bilevel then i.height * ((i.width + 7) / 8) else i.width * i.height * i.channels * if i.maxval ≤ 255 then 1 else 2

/-- Scaling from `0..m` to `0..T`: zero stays, the maximum and all above become `T`, the order is kept, and the result is within
0.51 of the exact value. -/
structure Scales (T m : Nat) (f : Nat → Nat) : Prop where
  zero : f 0 = 0
  top : ∀ v, m ≤ v → f v = T
  mono : ∀ v w, v ≤ w → f v ≤ f w
  near : ∀ v, v ≤ m → |(f v : ℚ) - v * T / m| ≤ 51 / 100

/-- How a sample is shown: bits as white (255) for 0 and black for 1, other samples scaled to the full range of 8 or 16
bits. -/
def Shown (i : Info) (f : Nat → Nat) : Prop :=
  if i.bilevel then f 0 = 255 ∧ f 1 = 0 else Scales (if i.maxval ≤ 255 then 255 else 65535) i.maxval f

/-- The colour type of the image. -/
def colour (i : Info) : ColorType :=
  if i.channels = 1 then (if i.maxval ≤ 255 then .L8 else .L16) else (if i.maxval ≤ 255 then .Rgb8 else .Rgb16)

/-- The bytes of a sample in memory, on a machine that is little-endian or not. -/
def store (le : Bool) (i : Info) (v : Nat) : List UInt8 :=
  if i.maxval ≤ 255 then [UInt8.ofNat v]
  else if le then [UInt8.ofNat (v % 256), UInt8.ofNat (v / 256)] else [UInt8.ofNat (v / 256), UInt8.ofNat (v % 256)]

end PnmSpec
end Verif
