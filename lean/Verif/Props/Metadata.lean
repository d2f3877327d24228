import Verif.Model.Metadata

/-!
# Exif orientation (C15)
-/

namespace Verif
namespace Orientation

/-- The value of the `n` bytes of `chunk` at `pos`, in the byte order of the chunk. -/
def field (be : Bool) (chunk : List UInt8) (pos n : Nat) : Nat :=
  if be then beNat ((chunk.drop pos).take n) else leNat ((chunk.drop pos).take n)

/-- An orientation entry: tag 0x112 (orientation), type 3 (short), one value. -/
def IsOrientationEntry (be : Bool) (chunk : List UInt8) (pos : Nat) : Prop :=
  field be chunk pos 2 = 0x112 ∧ field be chunk (pos + 2) 2 = 3 ∧ field be chunk (pos + 4) 4 = 1

/-- The chunk starts with the TIFF magic of the byte order: `II 42 0` or `MM 0 42`. -/
def HasMagic (be : Bool) (chunk : List UInt8) : Prop :=
  chunk.take 4 = if be then [0x4d, 0x4d, 0, 42] else [0x49, 0x49, 42, 0]

/-- What an Exif chunk says: `o` is the valid value of the first orientation entry of the first IFD. -/
def ChunkSays (chunk : List UInt8) (o : Orientation) : Prop :=
  ∃ be ifd i, HasMagic be chunk ∧ 8 ≤ chunk.length ∧ ifd = field be chunk 4 4 ∧
    i < field be chunk ifd 2 ∧ ifd + 2 + 12 * i + 12 ≤ chunk.length ∧
    IsOrientationEntry be chunk (ifd + 2 + 12 * i) ∧
    (∀ j, j < i → ¬ IsOrientationEntry be chunk (ifd + 2 + 12 * j)) ∧
    o.toExif = field be chunk (ifd + 2 + 12 * i + 8) 2

theorem C15_from_to (o : Orientation) : fromExif o.toExif = some o := by cases o <;> rfl

theorem C15_from_iff (n : Nat) (o : Orientation) : fromExif n = some o ↔ o.toExif = n := by
  constructor
  · intro h
    unfold fromExif at h
    split at h <;> cases h <;> rfl
  · rintro rfl; exact C15_from_to o

theorem C15_from_range (n : Nat) : (fromExif n).isSome ↔ 1 ≤ n ∧ n ≤ 8 := by
  constructor
  · intro h
    unfold fromExif at h
    split at h <;> first | omega | simp at h
  · rintro ⟨h1, h2⟩
    have : n = 1 ∨ n = 2 ∨ n = 3 ∨ n = 4 ∨ n = 5 ∨ n = 6 ∨ n = 7 ∨ n = 8 := by omega
    rcases this with rfl | rfl | rfl | rfl | rfl | rfl | rfl | rfl <;> rfl

theorem readAt_eq {be : Bool} {chunk : List UInt8} {pos n : Nat} (h : pos + n ≤ chunk.length) :
    readAt be chunk pos n = some (field be chunk pos n) := by
  simp [readAt, h, field]

theorem readAt_none {be : Bool} {chunk : List UInt8} {pos n : Nat} (h : ¬ pos + n ≤ chunk.length) :
    readAt be chunk pos n = none := by
  simp only [readAt]; rw [if_neg h]

theorem toExif_le (o : Orientation) : o.toExif ≤ 8 := by cases o <;> decide

theorem fromExif_min (v : Nat) (o : Orientation) : fromExif (min v 255) = some o ↔ o.toExif = v := by
  rw [C15_from_iff]
  have := toExif_le o
  omega

theorem exifEntries_iff (be : Bool) (chunk : List UInt8) (o : Orientation) (left : Nat) : ∀ pos,
    exifEntries be chunk left pos = some o ↔
      ∃ i, i < left ∧ pos + 12 * i + 12 ≤ chunk.length ∧ IsOrientationEntry be chunk (pos + 12 * i) ∧
        (∀ j, j < i → ¬ IsOrientationEntry be chunk (pos + 12 * j)) ∧
        o.toExif = field be chunk (pos + 12 * i + 8) 2 := by
  induction left with
  | zero => intro pos; simp [exifEntries]
  | succ left ih =>
    intro pos
    by_cases hl : pos + 12 ≤ chunk.length
    · simp only [exifEntries]
      rw [readAt_eq (by omega), readAt_eq (by omega), readAt_eq (by omega), readAt_eq (by omega),
        readAt_eq (by omega)]
      simp only [Option.bind_eq_bind, Option.bind_some]
      by_cases hm : IsOrientationEntry be chunk pos
      · have hm' := hm
        unfold IsOrientationEntry at hm'
        rw [if_pos hm', fromExif_min]
        constructor
        · intro h
          exact ⟨0, by omega, by omega, by simpa using hm, fun j hj => by omega, by simpa using h⟩
        · rintro ⟨i, -, -, -, h4, h5⟩
          rcases Nat.eq_zero_or_pos i with rfl | hi
          · simpa using h5
          · exact absurd (by simpa using hm) (h4 0 hi)
      · have hm' := hm
        unfold IsOrientationEntry at hm'
        rw [if_neg hm', ih]
        constructor
        · rintro ⟨i, h1, h2, h3, h4, h5⟩
          refine ⟨i + 1, by omega, by omega, ?_, ?_, ?_⟩
          · rw [show pos + 12 * (i + 1) = pos + 12 + 12 * i by omega]; exact h3
          · intro j hj
            rcases j with _ | j
            · simpa using hm
            · rw [show pos + 12 * (j + 1) = pos + 12 + 12 * j by omega]; exact h4 j (by omega)
          · rw [show pos + 12 * (i + 1) = pos + 12 + 12 * i by omega]; exact h5
        · rintro ⟨i, h1, h2, h3, h4, h5⟩
          rcases i with _ | i
          · exact absurd (by simpa using h3) hm
          · rw [show pos + 12 * (i + 1) = pos + 12 + 12 * i by omega] at h3 h5
            refine ⟨i, by omega, by omega, h3, ?_, h5⟩
            intro j hj
            have := h4 (j + 1) (by omega)
            rw [show pos + 12 * (j + 1) = pos + 12 + 12 * j by omega] at this
            exact this
    · constructor
      · intro h
        exfalso
        simp only [exifEntries, Option.bind_eq_bind] at h
        rw [readAt_none (pos := pos + 10) (by omega)] at h
        simp only [Option.bind_none, Option.bind_fun_none] at h
        cases h
      · rintro ⟨i, h1, h2, -⟩
        omega

/-- Parsing an Exif chunk is a total function that returns `o` exactly when the chunk says `o`, in either
byte order; all other chunks give `None`. -/
theorem C15_chunk (chunk : List UInt8) (o : Orientation) :
    fromExifChunk chunk = some o ↔ ChunkSays chunk o := by
  have ifd : ∀ be, HasMagic be chunk →
      ((do
        let ifdOffset ← readAt be chunk 4 4
        let entries ← readAt be chunk ifdOffset 2
        exifEntries be chunk entries (ifdOffset + 2)) = some o ↔
      ∃ ifd i, 8 ≤ chunk.length ∧ ifd = field be chunk 4 4 ∧
        i < field be chunk ifd 2 ∧ ifd + 2 + 12 * i + 12 ≤ chunk.length ∧
        IsOrientationEntry be chunk (ifd + 2 + 12 * i) ∧
        (∀ j, j < i → ¬ IsOrientationEntry be chunk (ifd + 2 + 12 * j)) ∧
        o.toExif = field be chunk (ifd + 2 + 12 * i + 8) 2) := by
    intro be hm
    by_cases h8 : 8 ≤ chunk.length
    · rw [readAt_eq (by omega)]
      simp only [Option.bind_eq_bind, Option.bind_some]
      by_cases h2 : field be chunk 4 4 + 2 ≤ chunk.length
      · rw [readAt_eq h2]
        simp only [Option.bind_some]
        rw [exifEntries_iff]
        constructor
        · rintro ⟨i, g1, g2, g3, g4, g5⟩
          exact ⟨_, i, h8, rfl, g1, g2, g3, g4, g5⟩
        · rintro ⟨_, i, -, rfl, g1, g2, g3, g4, g5⟩
          exact ⟨i, g1, g2, g3, g4, g5⟩
      · rw [readAt_none h2]
        simp only [Option.bind_none]
        constructor
        · intro h; cases h
        · rintro ⟨_, i, -, rfl, g1, g2, -⟩; omega
    · rw [readAt_none (by omega)]
      constructor
      · intro h; cases h
      · rintro ⟨_, i, g, -⟩; omega
  have split : ChunkSays chunk o ↔ ∃ be, HasMagic be chunk ∧ ∃ ifd i, 8 ≤ chunk.length ∧
        ifd = field be chunk 4 4 ∧
        i < field be chunk ifd 2 ∧ ifd + 2 + 12 * i + 12 ≤ chunk.length ∧
        IsOrientationEntry be chunk (ifd + 2 + 12 * i) ∧
        (∀ j, j < i → ¬ IsOrientationEntry be chunk (ifd + 2 + 12 * j)) ∧
        o.toExif = field be chunk (ifd + 2 + 12 * i + 8) 2 := by
    constructor
    · rintro ⟨be, ifd, i, h⟩; exact ⟨be, h.1, ifd, i, h.2⟩
    · rintro ⟨be, h, ifd, i, h'⟩; exact ⟨be, ifd, i, h, h'⟩
  rw [split]
  unfold fromExifChunk
  split
  · rename_i h4
    constructor
    · intro h; cases h
    · rintro ⟨_, _, _, _, h, -⟩; omega
  · dsimp only
    split
    · rename_i hle
      rw [ifd false (by simpa [HasMagic] using hle)]
      constructor
      · intro h; exact ⟨false, by simpa [HasMagic] using hle, h⟩
      · rintro ⟨be, hm, h⟩
        cases be
        · exact h
        · simp only [HasMagic, hle] at hm; exact absurd hm (by decide)
    · rename_i hle
      split
      · rename_i hbe
        rw [ifd true (by simpa [HasMagic] using hbe)]
        constructor
        · intro h; exact ⟨true, by simpa [HasMagic] using hbe, h⟩
        · rintro ⟨be, hm, h⟩
          cases be
          · simp only [HasMagic, hbe] at hm; exact absurd hm (by decide)
          · exact h
      · rename_i hbe
        constructor
        · intro h; cases h
        · rintro ⟨be, hm, h⟩
          cases be
          · exact absurd (by simpa [HasMagic] using hm) hle
          · exact absurd (by simpa [HasMagic] using hm) hbe

-- a big-endian chunk whose second entry is the orientation, and a truncated one
example : fromExifChunk [0x4d, 0x4d, 0, 42, 0, 0, 0, 8, 0, 2,
    1, 0, 0, 3, 0, 0, 0, 1, 0, 9, 0, 0,
    1, 0x12, 0, 3, 0, 0, 0, 1, 0, 6, 0, 0] = some .Rotate90 := by decide +kernel
example : fromExifChunk [0x49, 0x49, 42, 0, 8, 0, 0, 0, 1, 0,
    0x12, 1, 3, 0, 1, 0, 0, 0, 8, 0, 0] = none := by decide +kernel

end Orientation
end Verif
