import Verif.Proofs.BmpPixels

/-!
# BMP: what the header readers accept
-/

namespace Verif
namespace Bmp

open BmpSpec (num)

theorem ok_inj {α : Type} {a b : α} : (Except.ok a : R α) = .ok b ↔ b = a := by
  constructor
  · intro h; cases h; rfl
  · intro h; rw [h]

theorem bind_readU {α : Type} {n : Nat} (hn : 0 < n) {f : List UInt8} {p : Nat} {k : Nat × Cursor → R α} {r : α} :
    (readU n ⟨f, p⟩ >>= k) = .ok r ↔ p + n ≤ f.length ∧ k (num f p n, ⟨f, p + n⟩) = .ok r := by
  unfold readU
  by_cases h : p + n ≤ f.length
  · rw [Cursor.readExact_ok (by exact h), ok_bind]
    exact ⟨fun e => ⟨h, e⟩, fun e => e.2⟩
  · have : Cursor.readExact ⟨f, p⟩ n = errR .io := by unfold Cursor.readExact; rw [if_neg (by dsimp only; omega)]
    rw [this]
    constructor
    · intro e; cases e
    · rintro ⟨h', -⟩; exact absurd h' h

theorem readU_iff {n : Nat} (hn : 0 < n) {f : List UInt8} {p : Nat} {r : Nat × Cursor} :
    readU n ⟨f, p⟩ = .ok r ↔ p + n ≤ f.length ∧ r = (num f p n, ⟨f, p + n⟩) := by
  have := bind_readU hn (f := f) (p := p) (k := fun x => .ok x) (r := r)
  have e : (readU n ⟨f, p⟩ >>= fun x => Except.ok x) = readU n ⟨f, p⟩ := by cases readU n ⟨f, p⟩ <;> rfl
  rw [e, ok_inj] at this
  exact this

theorem ite_err {α : Type} {c : Prop} [Decidable c] {e : Err} {x : R α} {a : α} : (if c then errR e else x) = .ok a ↔ ¬ c ∧ x = .ok a := by
  split
  · rename_i h
    constructor
    · intro h'; cases h'
    · rintro ⟨h', -⟩; exact absurd h h'
  · rename_i h
    exact ⟨fun h' => ⟨h, h'⟩, fun h' => h'.2⟩

theorem errR_ne {α : Type} {e : Err} {a : α} : (errR e : R α) = .ok a ↔ False := by
  constructor
  · intro h; cases h
  · exact False.elim

theorem bind_check {α : Type} {w h : Int} {n : Nat} (hw : w ≤ 65535) (hh : h < 2 ^ 31) (hn : n ≤ 4) {k : Unit → R α} {r : α} :
    (checkForOverflow w h n >>= k) = .ok r ↔ (0 < w ∧ 0 < h) ∧ k () = .ok r := by
  unfold checkForOverflow checkedMul
  by_cases h0 : w ≤ 0 ∨ h ≤ 0
  · rw [if_pos h0]
    constructor
    · intro e; cases e
    · rintro ⟨e, -⟩; omega
  · rw [if_neg h0]
    have h1 : n * w.toNat ≤ 4 * 65535 := Nat.mul_le_mul hn (by omega)
    have h2 : n * w.toNat * h.toNat ≤ 4 * 65535 * 2 ^ 31 := Nat.mul_le_mul h1 (by omega)
    rw [if_pos (by omega)]
    dsimp only [Option.bind]
    rw [if_pos (by omega)]
    dsimp only
    rw [ok_bind]
    exact ⟨fun e => ⟨by omega, e⟩, fun e => e.2⟩

theorem num_lt (f : List UInt8) (p n : Nat) : num f p n < 256 ^ n := by
  unfold num
  refine Nat.lt_of_lt_of_le (leNat_lt ((f.drop p).take n)) (Nat.pow_le_pow_right (by decide) ?_)
  rw [List.length_take]; omega

theorem fileHeader_iff {f : List UInt8} {r : Nat × Cursor} :
    readFileHeader ⟨f, 0⟩ = .ok r ↔ 14 ≤ f.length ∧ f.take 2 = [66, 77] ∧ r = (num f 10 4, ⟨f, 14⟩) := by
  unfold readFileHeader
  by_cases h : 2 ≤ f.length
  · rw [Cursor.readExact_ok (by dsimp only; omega), ok_bind]
    dsimp only
    simp only [ite_err, bind_readU (show 0 < 4 by decide), readU_iff (show 0 < 4 by decide), List.drop_zero, ne_eq, Classical.not_not, Nat.reduceAdd, Nat.zero_add]
    constructor
    · rintro ⟨h1, h2, h3, h4, rfl⟩
      exact ⟨h4, h1, rfl⟩
    · rintro ⟨h1, h2, rfl⟩
      exact ⟨h2, by omega, by omega, by omega, rfl⟩
  · have : Cursor.readExact ⟨f, 0⟩ 2 = errR .io := by unfold Cursor.readExact; rw [if_neg (by dsimp only; omega)]
    rw [this]
    constructor
    · intro e; cases e
    · rintro ⟨h', -⟩; omega

/-- What the short header says. -/
theorem coreHeader_iff {f : List UInt8} {r : Info × Cursor} : readCoreHeader false ⟨f, 18⟩ = .ok r ↔
    26 ≤ f.length ∧ 0 < num f 18 2 ∧ 0 < num f 20 2 ∧ num f 22 2 = 1 ∧
      (num f 24 2 = 1 ∨ num f 24 2 = 4 ∨ num f 24 2 = 8 ∨ num f 24 2 = 24) ∧
      r = (⟨num f 18 2, num f 20 2, false, num f 24 2, if num f 24 2 = 24 then .RGB24 else .Palette, 0⟩, ⟨f, 26⟩) := by
  have b1 := num_lt f 18 2
  have b2 := num_lt f 20 2
  unfold readCoreHeader
  simp only [bind_readU (show 0 < 2 by decide), Nat.reduceAdd]
  rw [bind_check (by omega) (by omega) (by decide)]
  simp only [ite_err, bind_readU (show 0 < 2 by decide), Classical.not_not, Nat.reduceAdd]
  by_cases h : num f 24 2 = 24
  · rw [if_neg (by omega), if_pos h, if_pos h, ok_bind, ok_inj]
    constructor
    · rintro ⟨h1, h2, h3, h4, h5, h6, h7⟩
      exact ⟨h6, by omega, by omega, h5, by omega, h7⟩
    · rintro ⟨h1, h2, h3, h4, h5, h6⟩
      exact ⟨by omega, by omega, by omega, by omega, h4, by omega, h6⟩
  · rw [if_neg h]
    split
    · rw [ok_bind, ok_inj]
      constructor
      · rintro ⟨h1, h2, h3, h4, h5, h6, h7⟩
        exact ⟨h6, by omega, by omega, h5, by omega, h7⟩
      · rintro ⟨h1, h2, h3, h4, h5, h6⟩
        exact ⟨by omega, by omega, by omega, by omega, h4, by omega, h6⟩
    · constructor
      · rintro ⟨h1, h2, h3, h4, h5, h6, h7⟩
        cases h7
      · rintro ⟨h1, h2, h3, h4, h5, h6⟩
        omega

/-- The image types of the long header. -/
theorem imageType_iff {comp bc : Nat} {ty : ImageType} : imageTypeOf false comp bc = .ok ty ↔
    (comp = 0 ∧ (((bc = 1 ∨ bc = 2 ∨ bc = 4 ∨ bc = 8) ∧ ty = .Palette) ∨ (bc = 16 ∧ ty = .RGB16) ∨ (bc = 24 ∧ ty = .RGB24) ∨
      (bc = 32 ∧ ty = .RGB32))) ∨ (comp = 1 ∧ bc = 8 ∧ ty = .RLE8) ∨ (comp = 2 ∧ bc = 4 ∧ ty = .RLE4) ∨
    (comp = 3 ∧ ((bc = 16 ∧ ty = .Bitfields16) ∨ (bc = 32 ∧ ty = .Bitfields32))) := by
  unfold imageTypeOf
  repeat' split
  all_goals simp only [ok_inj, errR_ne]
  all_goals grind

/-- What the long header says. -/
theorem infoHeader_iff {f : List UInt8} {r : Info × Cursor} : readInfoHeader false ⟨f, 18⟩ = .ok r ↔
    54 ≤ f.length ∧ 0 < num f 18 4 ∧ num f 18 4 ≤ 65535 ∧ 0 < num f 22 4 ∧ (num f 22 4 ≤ 65535 ∨ 2 ^ 31 < num f 22 4) ∧ num f 26 2 = 1 ∧
      (2 ^ 31 < num f 22 4 → num f 30 4 = 0 ∨ num f 30 4 = 3) ∧
      ∃ ty, imageTypeOf false (num f 30 4) (num f 28 2) = .ok ty ∧
      r = (⟨num f 18 4, if num f 22 4 < 2 ^ 31 then num f 22 4 else 2 ^ 32 - num f 22 4, decide (2 ^ 31 ≤ num f 22 4), num f 28 2, ty, num f 46 4⟩,
        ⟨f, 54⟩) := by
  have b1 := num_lt f 18 4
  have b2 := num_lt f 22 4
  unfold readInfoHeader
  simp only [ite_err, bind_readU (show 0 < 4 by decide), Nat.reduceAdd]
  have t1 : ∀ v, toI32 v = if v < 2 ^ 31 then (v : Int) else v - 2 ^ 32 := fun v => rfl
  by_cases hw : num f 18 4 ≤ 65535 ∧ (num f 22 4 ≤ 65535 ∨ 2 ^ 31 < num f 22 4)
  · have hwi : toI32 (num f 18 4) = num f 18 4 := by rw [t1, if_pos (by omega)]
    have hhi : (toI32 (num f 22 4)).natAbs = if num f 22 4 < 2 ^ 31 then num f 22 4 else 2 ^ 32 - num f 22 4 := by
      rw [t1]; split <;> omega
    have htd : decide (toI32 (num f 22 4) < 0) = decide (2 ^ 31 ≤ num f 22 4) := by
      rw [t1, decide_eq_decide]; split <;> omega
    have k2 : ¬ (toI32 (num f 18 4) > 0xFFFF ∨ toI32 (num f 22 4) > 0xFFFF) := by rw [hwi, t1]; split <;> omega
    have k3 : toI32 (num f 22 4) ≠ -2 ^ 31 := by rw [t1]; split <;> omega
    have hb : (if num f 22 4 < 2 ^ 31 then num f 22 4 else 2 ^ 32 - num f 22 4) < 2 ^ 31 := by split <;> omega
    have hp : 0 < (if num f 22 4 < 2 ^ 31 then num f 22 4 else 2 ^ 32 - num f 22 4) ↔ 0 < num f 22 4 := by split <;> omega
    rw [hhi, htd, hwi, bind_check (by omega) (by omega) (by decide)]
    simp only [ite_err, bind_readU (show 0 < 4 by decide), bind_readU (show 0 < 2 by decide), Nat.reduceAdd]
    constructor
    · rintro ⟨h1, h2, k1, -, -, ⟨c1, c2⟩, h3, h4, h5, h6, h7, h8⟩
      rw [bind_eq_ok] at h8
      obtain ⟨ty, hty, h9⟩ := h8
      simp only [bind_readU (show 0 < 4 by decide), Nat.reduceAdd, ok_inj] at h9
      obtain ⟨a1, a2, a3, a4, a5, a6⟩ := h9
      refine ⟨a5, by omega, hw.1, hp.1 (by omega), hw.2, Classical.not_not.1 h4, ?_, ty, hty, a6⟩
      intro hlt
      false_or_by_contra
      exact h7 ⟨decide_eq_true (by omega), by omega, by omega⟩
    · rintro ⟨h1, h2, h3, h4, h5, h6, h7, ty, hty, rfl⟩
      refine ⟨by omega, by omega, by omega, by rw [← hwi]; exact k2, k3, ⟨by omega, by have := hp.2 h4; omega⟩, by omega, by omega, by omega, by omega, ?_, ?_⟩
      · rw [decide_eq_true_iff]; omega
      · rw [hty, ok_bind]
        simp only [bind_readU (show 0 < 4 by decide), Nat.reduceAdd]
        exact ⟨by omega, by omega, by omega, by omega, by omega, rfl⟩
  · constructor
    · rintro ⟨h1, h2, k1, k2, k3, -⟩
      exfalso
      rw [t1] at k1 k2 k3
      rw [t1] at k2
      apply hw
      split at k1
      all_goals (split at k2 <;> split at k3 <;> omega)
    · rintro ⟨h1, h2, h3, h4, h5, h6, -⟩
      exact absurd ⟨h3, h5⟩ hw

/-! ## Palette and masks -/

/-- Entry `i` of a palette of `n` entries of `bpc` bytes at `p`. -/
def entryOf (f : List UInt8) (p bpc n i : Nat) : Rgb :=
  if i < n then (BmpSpec.byteAt f (p + bpc * i + 2), BmpSpec.byteAt f (p + bpc * i + 1), BmpSpec.byteAt f (p + bpc * i)) else (0, 0, 0)

theorem mapM_range {β : Type} {g : Nat → R β} {e : Nat → β} (n : Nat) (h : ∀ i, i < n → g i = .ok (e i)) :
    (List.range n).mapM g = .ok ((List.range n).map e) := by
  obtain ⟨l, hl, -⟩ := mapM_ok (l := List.range n) (f := g) (P := fun _ => True) (fun i hi => ⟨_, h i (by simpa using hi), trivial⟩)
  suffices H : ∀ (l : List Nat), (∀ i ∈ l, g i = .ok (e i)) → l.mapM g = .ok (l.map e) from H _ (fun i hi => h i (by simpa using hi))
  intro l
  induction l with
  | nil => intro _; rfl
  | cons a l ih =>
    intro H
    rw [List.mapM_cons, H a (by simp), ok_bind, ih (fun i hi => H i (by simp [hi])), ok_bind]
    rfl

theorem palette_iff {ht : HeaderType} {cu bc : Nat} (hbc : bc ≤ 8) {f : List UInt8} {p n : Nat} (hn : n = if cu = 0 then 2 ^ bc else cu)
    {r : List Rgb × Cursor} : readPalette ht cu bc ⟨f, p⟩ = .ok r ↔
      n ≤ 2 ^ bc ∧ p + n * bytesPerColor ht ≤ f.length ∧
      r = ((List.range 256).map (entryOf f p (bytesPerColor ht) n), ⟨f, p + n * bytesPerColor ht⟩) := by
  have h256 : 2 ^ bc ≤ 256 := Nat.pow_le_pow_right (n := 2) (by decide) hbc
  have hb : 3 ≤ bytesPerColor ht ∧ bytesPerColor ht ≤ 4 := by cases ht <;> simp [bytesPerColor]
  have hpos := Nat.two_pow_pos bc
  unfold readPalette paletteSize
  generalize bytesPerColor ht = k at hb ⊢
  by_cases hle : n ≤ 2 ^ bc
  · have e1 : (if cu = 0 then (Except.ok (2 ^ bc) : R Nat) else if cu > 2 ^ bc then errR .decoding else Except.ok cu) = .ok n := by
      rw [hn]
      rw [hn] at hle
      split
      · rfl
      · rename_i h0
        rw [if_neg h0] at hle
        rw [if_neg (by omega)]
    rw [e1, ok_bind]
    have hm : n * k ≤ 256 * k := Nat.mul_le_mul_right k (by omega)
    dsimp only
    rw [Nat.min_eq_left hm]
    by_cases hl : p + n * k ≤ f.length
    · rw [Cursor.readExact_ok (by exact hl), ok_bind]
      dsimp only
      rw [if_neg (by omega), ok_bind]
      have hblen : ((f.drop p).take (n * k)).length = n * k := by rw [List.length_take, List.length_drop]; omega
      rw [mapM_range (e := entryOf f p k n) 256, ok_bind, ok_inj]
      · exact ⟨fun h => ⟨hle, hl, h⟩, fun h => h.2.2⟩
      · intro i hi
        have hik : k * i + k ≤ 256 * k := by
          have := Nat.mul_le_mul_right k (show i + 1 ≤ 256 by omega)
          rw [Nat.add_mul, Nat.one_mul, Nat.mul_comm i k] at this
          exact this
        have get : ∀ j, j < 3 → unwrapR ((f.drop p).take (n * k) ++ List.replicate (256 * k - ((f.drop p).take (n * k)).length) 0)[k * i + j]? =
            .ok (if i < n then BmpSpec.byteAt f (p + k * i + j) else 0) := by
          intro j hj
          by_cases hin : i < n
          · have hik2 : k * i + k ≤ n * k := by
              have := Nat.mul_le_mul_right k (show i + 1 ≤ n by omega)
              rw [Nat.add_mul, Nat.one_mul, Nat.mul_comm i k] at this
              exact this
            rw [if_pos hin, List.getElem?_append_left (by rw [hblen]; omega), List.getElem?_take_of_lt (by omega), List.getElem?_drop]
            unfold BmpSpec.byteAt
            rw [← Nat.add_assoc, List.getElem?_eq_getElem (by omega), List.getD_eq_getElem?_getD, List.getElem?_eq_getElem (by omega)]
            rfl
          · have hik2 : n * k ≤ k * i := by rw [Nat.mul_comm k i]; exact Nat.mul_le_mul_right k (by omega)
            rw [if_neg hin, List.getElem?_append_right (by rw [hblen]; omega), List.getElem?_replicate, if_pos (by omega)]
            rfl
        have g0 := get 0 (by decide)
        have g1 := get 1 (by decide)
        have g2 := get 2 (by decide)
        rw [Nat.add_zero, Nat.add_zero] at g0
        rw [g0, g1, g2]
        unfold entryOf
        split <;> rfl
    · have : Cursor.readExact ⟨f, p⟩ (n * k) = errR .io := by
        unfold Cursor.readExact
        have : 0 < n := by rw [hn]; split <;> omega
        have : 0 < n * k := Nat.mul_pos this (by omega)
        rw [if_neg (by dsimp only; omega)]
      rw [this]
      constructor
      · intro h; cases h
      · rintro ⟨-, h, -⟩; exact absurd h hl
  · have e1 : (if cu = 0 then (Except.ok (2 ^ bc) : R Nat) else if cu > 2 ^ bc then errR .decoding else Except.ok cu) = errR .decoding := by
      rw [hn] at hle
      split
      · rename_i h0; rw [if_pos h0] at hle; omega
      · rename_i h0
        rw [if_neg h0] at hle
        rw [if_pos (by omega)]
    rw [e1]
    constructor
    · intro h; cases h
    · rintro ⟨h, -⟩; exact absurd h hle

theorem onesMask_eq : onesMask = BmpSpec.ones := rfl

/-- A mask and its bit field. -/
theorem mask_field {m k : Nat} (h : m < 2 ^ 32) (hk : k ≤ 32) : (∃ f, Bitfield.fromMask m k = .ok f) ↔ BmpSpec.MaskOk k m := by
  rw [C63_masks m k h hk]
  unfold BmpSpec.MaskOk
  constructor
  · rintro (rfl | ⟨s, l, h1, h2, h3⟩)
    · exact ⟨0, 0, by omega, rfl⟩
    · exact ⟨s, l, h2, h3⟩
  · rintro ⟨s, l, h1, h2⟩
    cases l with
    | zero => left; rw [h2]; simp [BmpSpec.ones]
    | succ l => exact .inr ⟨s, l + 1, by omega, h1, h2⟩

theorem field_sample {m k : Nat} (h0 : m ≠ 0) (h : m < 2 ^ 32) (hk : k ≤ 32) {f : Bitfield} (hf : Bitfield.fromMask m k = .ok f) (v : Nat) :
    BmpSpec.Sample m v (sampleOf f v) := by
  rcases (C63_masks m k h hk).1 ⟨f, hf⟩ with h1 | ⟨s, l, hl, hsl, rfl⟩
  · exact absurd h1 h0
  · obtain ⟨f', h1, h2⟩ := C63_read s l k hl hsl hk
    rw [h1] at hf
    cases hf
    obtain ⟨b, hb, h3, h4⟩ := h2 v
    rw [sampleOf_ok hb]
    rw [masked_eq] at h3 h4
    exact ⟨s, l, hl, rfl, h3, h4⟩

/-- The masks of a bit-field image. -/
theorem bitfields_iff {r g b a k : Nat} (hr : r < 2 ^ 32) (hg : g < 2 ^ 32) (hb : b < 2 ^ 32) (ha : a < 2 ^ 32) (hk : k ≤ 32) :
    (∃ f, Bitfields.fromMask r g b a k = .ok f) ↔
      (r ≠ 0 ∧ g ≠ 0 ∧ b ≠ 0) ∧ BmpSpec.MaskOk k r ∧ BmpSpec.MaskOk k g ∧ BmpSpec.MaskOk k b ∧ BmpSpec.MaskOk k a := by
  rw [← mask_field hr hk, ← mask_field hg hk, ← mask_field hb hk, ← mask_field ha hk]
  have len : ∀ {m : Nat}, m < 2 ^ 32 → ∀ {f}, Bitfield.fromMask m k = .ok f → (f.len = 0 ↔ m = 0) := by
    intro m hm f hf
    have := (fromMask_total m k hm).of_ok hf
    constructor
    · intro h
      false_or_by_contra
      rename_i hne
      have := (this.1 hne).1
      omega
    · exact this.2
  unfold Bitfields.fromMask
  constructor
  · rintro ⟨f, h⟩
    rw [bind_eq_ok] at h
    obtain ⟨fr, e1, h⟩ := h
    rw [bind_eq_ok] at h
    obtain ⟨fg, e2, h⟩ := h
    rw [bind_eq_ok] at h
    obtain ⟨fb, e3, h⟩ := h
    rw [bind_eq_ok] at h
    obtain ⟨fa, e4, h⟩ := h
    rw [ite_err] at h
    rw [len hr e1, len hg e2, len hb e3] at h
    exact ⟨by omega, ⟨fr, e1⟩, ⟨fg, e2⟩, ⟨fb, e3⟩, ⟨fa, e4⟩⟩
  · rintro ⟨h, ⟨fr, e1⟩, ⟨fg, e2⟩, ⟨fb, e3⟩, ⟨fa, e4⟩⟩
    rw [e1, ok_bind, e2, ok_bind, e3, ok_bind, e4, ok_bind, if_neg (by rw [len hr e1, len hg e2, len hb e3]; omega)]
    exact ⟨_, rfl⟩

theorem bitfields_samples {r g b a k : Nat} (hr : r < 2 ^ 32) (hg : g < 2 ^ 32) (hb : b < 2 ^ 32) (ha : a < 2 ^ 32) (hk : k ≤ 32) {f : Bitfields}
    (hf : Bitfields.fromMask r g b a k = .ok f) (v : Nat) :
    (BmpSpec.Sample r v (sampleOf f.r v) ∧ BmpSpec.Sample g v (sampleOf f.g v) ∧ BmpSpec.Sample b v (sampleOf f.b v)) ∧
      (a = 0 → f.a.len = 0) ∧ (a ≠ 0 → f.a.len ≠ 0 ∧ BmpSpec.Sample a v (sampleOf f.a v)) := by
  obtain ⟨⟨n1, n2, n3⟩, -⟩ := (bitfields_iff hr hg hb ha hk).1 ⟨f, hf⟩
  unfold Bitfields.fromMask at hf
  rw [bind_eq_ok] at hf
  obtain ⟨fr, e1, hf⟩ := hf
  rw [bind_eq_ok] at hf
  obtain ⟨fg, e2, hf⟩ := hf
  rw [bind_eq_ok] at hf
  obtain ⟨fb, e3, hf⟩ := hf
  rw [bind_eq_ok] at hf
  obtain ⟨fa, e4, hf⟩ := hf
  rw [ite_err] at hf
  cases hf.2
  have t := (fromMask_total a k ha).of_ok e4
  refine ⟨⟨field_sample n1 hr hk e1 v, field_sample n2 hg hk e2 v, field_sample n3 hb hk e3 v⟩, t.2, fun h => ⟨?_, field_sample h ha hk e4 v⟩⟩
  have := (t.1 h).1
  dsimp only
  omega

end Bmp
end Verif
