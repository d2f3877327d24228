import Verif.Proofs.Bmp

/-!
# BMP: the decoder on arbitrary bytes (C62), bit fields (C63), indexed colour (C64)
-/

namespace Verif
namespace Bmp

theorem totalBytes_eq {d : Decoder} (hd : d.Good) :
    totalBytes d.width d.height d.colorType.bytesPerPixel = d.width * d.height * d.channels := by
  obtain ⟨-, hc, e⟩ := channels_eq hd.indexed
  rw [e]
  unfold totalBytes satMul
  have h1 : d.width * d.height ≤ 65535 * 2 ^ 31 := Nat.mul_le_mul hd.width.2 (Nat.le_of_lt hd.height)
  have h2 : d.width * d.height * d.channels ≤ 65535 * 2 ^ 31 * 4 := Nat.mul_le_mul h1 (by omega)
  rw [Nat.min_eq_left]
  omega

theorem readImage_total {d : Decoder} (hd : d.Good) {buf : List UInt8}
    (hb : buf.length = totalBytes d.width d.height d.colorType.bytesPerPixel) :
    OkOr AnyE (fun r => r.length = d.width * d.height * d.channels) (d.readImage buf) := by
  unfold Decoder.readImage
  rw [decide_eq_true hb, assertR_true, ok_bind]
  have hb' := hb.trans (totalBytes_eq hd)
  exact (readImageData_total hd hb').mono fun r hr => hr.trans hb'

/-- **C62**: for every sequence of bytes, decoding it as BMP does not panic: it ends with an error or with an image of
1 to 65535 columns and at least one row whose buffer holds exactly `width * height` pixels of three or four bytes. -/
theorem C62_decode_total (file : List UInt8) :
    decode file ≠ panicR ∧ ∀ w h c buf, decode file = .ok (w, h, c, buf) →
      1 ≤ w ∧ w ≤ 65535 ∧ 1 ≤ h ∧ h < 2 ^ 31 ∧ (c = .Rgb8 ∨ c = .Rgba8) ∧ buf.length = w * h * c.bytesPerPixel := by
  have H : OkOr AnyE (fun r => 1 ≤ r.1 ∧ r.1 ≤ 65535 ∧ 1 ≤ r.2.1 ∧ r.2.1 < 2 ^ 31 ∧ (r.2.2.1 = .Rgb8 ∨ r.2.2.1 = .Rgba8) ∧
      r.2.2.2.length = r.1 * r.2.1 * r.2.2.1.bytesPerPixel) (decode file) := by
    unfold decode Decoder.new
    refine (readMetadata_total false false ⟨file, 0⟩).bind fun d ⟨hd, h1, _⟩ => ?_
    refine (readImage_total hd (buf := List.replicate _ 0) (List.length_replicate ..)).bind fun b hb => ?_
    obtain ⟨-, -, e⟩ := channels_eq hd.indexed
    refine ⟨hd.width.1, hd.width.2, h1, hd.height, ?_, by dsimp only; rw [e]; exact hb⟩
    unfold Decoder.colorType
    rw [hd.indexed]
    cases d.addAlpha <;> simp
  exact ⟨H.ne_panic, fun w h c buf he => H.of_ok he⟩

/-- **C62** for the other two constructors: without a file header, and in the form used inside ICO files, for any contents
and position of the reader. -/
theorem C62_other_entry_points (file : List UInt8) (c : Cursor) :
    (Decoder.newWithoutFileHeader file ≠ panicR ∧ ∀ d, Decoder.newWithoutFileHeader file = .ok d → ∀ buf : List UInt8,
      buf.length = totalBytes d.width d.height d.colorType.bytesPerPixel →
      d.readImage buf ≠ panicR ∧ ∀ out, d.readImage buf = .ok out → out.length = buf.length) ∧
    (Decoder.newWithIcoFormat c ≠ panicR ∧ ∀ d, Decoder.newWithIcoFormat c = .ok d →
      d.colorType = .Rgba8 ∧ ∀ buf : List UInt8,
      buf.length = totalBytes d.width d.height d.colorType.bytesPerPixel →
      d.readImage buf ≠ panicR ∧ ∀ out, d.readImage buf = .ok out → out.length = buf.length) := by
  have img : ∀ {d : Decoder}, d.Good → ∀ buf : List UInt8,
      buf.length = totalBytes d.width d.height d.colorType.bytesPerPixel →
      d.readImage buf ≠ panicR ∧ ∀ out, d.readImage buf = .ok out → out.length = buf.length := by
    intro d hd buf hb
    have H := readImage_total hd hb
    refine ⟨H.ne_panic, fun out ho => ?_⟩
    have := H.of_ok ho
    rw [this, hb, totalBytes_eq hd]
  have m1 := readMetadata_total true false ⟨file, 0⟩
  have m2 : OkOr AnyE (fun d : Decoder => d.Good ∧ d.colorType = .Rgba8) (Decoder.newWithIcoFormat c) := by
    unfold Decoder.newWithIcoFormat
    refine (readMetadata_total true true c).bind fun d ⟨hd, _, _, he, _⟩ => ?_
    have ha : d.addAlpha = true := he rfl
    refine ⟨⟨hd.width, ?_, hd.indexed, hd.bits, hd.palette, hd.rgba, hd.bottomUp, hd.fields⟩, ?_⟩
    · have := hd.height
      show d.height / 2 < _
      omega
    · show (if d.indexedColor then _ else if d.addAlpha then _ else _) = _
      rw [hd.indexed, ha]; rfl
  exact ⟨⟨m1.ne_panic, fun d hd => img (m1.of_ok hd).1⟩, m2.ne_panic, fun d hd => ⟨(m2.of_ok hd).2, img (m2.of_ok hd).1⟩⟩

/-! ## Bit fields (C63) -/

/-- The mask with `len` ones from bit `shift` on. -/
def onesMask (shift len : Nat) : Nat := (2 ^ len - 1) * 2 ^ shift

theorem testBit_onesMask (s l i : Nat) : (onesMask s l).testBit i = decide (s ≤ i ∧ i < s + l) := by
  unfold onesMask
  rw [Nat.testBit_mul_two_pow, Nat.testBit_two_pow_sub_one, ← Bool.decide_and]
  apply decide_eq_decide.2
  omega

theorem tz_unique {m i : Nat} (hi : i < 32) (hb : m.testBit i = true) (hl : ∀ j, j < i → m.testBit j = false) :
    trailingZeros m = i := by
  unfold trailingZeros
  have : (List.range 32).find? (fun i => m.testBit i) = some i := by
    rw [List.find?_range_eq_some]
    exact ⟨hb, by simpa using hi, fun j hj => by simp [hl j hj]⟩
  rw [this]; rfl

theorem tz_none {m : Nat} (hl : ∀ j, j < 32 → m.testBit j = false) : trailingZeros m = 32 := by
  unfold trailingZeros
  have : (List.range 32).find? (fun i => m.testBit i) = none := by
    rw [List.find?_range_eq_none]
    exact fun j hj => by simp [hl j hj]
  rw [this]; rfl

theorem tz_spec (m : Nat) : (∀ j, j < trailingZeros m → m.testBit j = false) ∧
    (trailingZeros m < 32 → m.testBit (trailingZeros m) = true) := by
  unfold trailingZeros
  cases h : (List.range 32).find? fun i => m.testBit i with
  | none =>
    rw [List.find?_range_eq_none] at h
    exact ⟨fun j hj => by simpa using h j (by simpa using hj), fun h => absurd h (by simp)⟩
  | some i =>
    rw [List.find?_range_eq_some] at h
    exact ⟨fun j hj => by simpa using h.2.2 j (by simpa using hj), fun _ => h.1⟩

theorem count_between (s l : Nat) : ∀ n, ((List.range n).filter fun i => decide (s ≤ i ∧ i < s + l)).length =
    min n (s + l) - min n s := by
  intro n
  induction n with
  | zero => simp
  | succ n ih =>
    rw [List.range_succ, List.filter_append, List.length_append, ih]
    by_cases h : s ≤ n ∧ n < s + l
    · rw [List.filter_cons_of_pos (by simpa using h)]; simp; omega
    · rw [List.filter_cons_of_neg (by simpa using h)]; simp; omega

theorem countOnes_onesMask {s l : Nat} (h : s + l ≤ 32) : countOnes (onesMask s l) = l := by
  unfold countOnes
  rw [List.filter_congr (fun i _ => testBit_onesMask s l i), count_between]
  omega

theorem testBit_compl {q i : Nat} (hq : q < 2 ^ 32) : (2 ^ 32 - 1 - q).testBit i = (decide (i < 32) && !q.testBit i) := by
  rw [show 2 ^ 32 - 1 - q = 2 ^ 32 - (q + 1) by omega, Nat.testBit_two_pow_sub_succ hq]

/-- What the shift and the length computed by `from_mask` mean. -/
theorem mask_iff {m : Nat} (h0 : m ≠ 0) (h : m < 2 ^ 32) :
    trailingZeros (2 ^ 32 - 1 - m / 2 ^ trailingZeros m) = countOnes m ↔
      m = onesMask (trailingZeros m) (trailingZeros (2 ^ 32 - 1 - m / 2 ^ trailingZeros m)) := by
  have hs : trailingZeros m < 32 := by
    obtain ⟨i, hi, hb⟩ := testBit_exists h0 h
    false_or_by_contra
    have := (tz_spec m).1 i (by omega)
    rw [hb] at this; cases this
  obtain ⟨z1, z2⟩ := tz_spec m
  generalize trailingZeros m = s at *
  have hq : m / 2 ^ s < 2 ^ 32 := Nat.lt_of_le_of_lt (Nat.div_le_self _ _) h
  obtain ⟨l1, l2⟩ := tz_spec (2 ^ 32 - 1 - m / 2 ^ s)
  have hl32 := trailingZeros_le (2 ^ 32 - 1 - m / 2 ^ s)
  generalize trailingZeros (2 ^ 32 - 1 - m / 2 ^ s) = l at *
  have ones : ∀ j, j < l → m.testBit (j + s) = true := by
    intro j hj
    have := l1 j hj
    rw [testBit_compl hq, Nat.testBit_div_two_pow] at this
    simpa [show j < 32 by omega, Nat.add_comm] using this
  have hsl : s + l ≤ 32 := by
    false_or_by_contra
    have h1 := ones (32 - s) (by omega)
    rw [show 32 - s + s = 32 by omega, Nat.testBit_lt_two_pow h] at h1
    cases h1
  constructor
  · intro hc
    have hsub : ((List.range 32).filter fun i => decide (s ≤ i ∧ i < s + l)).Sublist
        ((List.range 32).filter fun i => m.testBit i) := by
      apply List.monotone_filter_right
      intro i hi
      simp only [decide_eq_true_eq] at hi
      have := ones (i - s) (by omega)
      rwa [show i - s + s = i by omega] at this
    have heq := hsub.eq_of_length (by rw [count_between]; unfold countOnes at hc; rw [← hc]; omega)
    apply Nat.eq_of_testBit_eq
    intro i
    rw [testBit_onesMask]
    by_cases hi : i < 32
    · have h1 : i ∈ (List.range 32).filter (fun i => m.testBit i) ↔ m.testBit i = true := by simp [hi]
      rw [← heq] at h1
      rw [Bool.eq_iff_iff, ← h1]
      simp [hi]
    · rw [Nat.testBit_lt_two_pow (Nat.lt_of_lt_of_le h (Nat.pow_le_pow_right (by omega) (by omega)))]
      simp; omega
  · intro hm
    rw [hm, countOnes_onesMask hsl]

theorem tz_onesMask {s l : Nat} (hl : 1 ≤ l) (h : s + l ≤ 32) : trailingZeros (onesMask s l) = s :=
  tz_unique (by omega) (by rw [testBit_onesMask]; simp; omega) fun j hj => by rw [testBit_onesMask]; simp; omega

theorem tz_ones_of_onesMask {s l : Nat} (h : s + l ≤ 32) : trailingZeros (2 ^ 32 - 1 - onesMask s l / 2 ^ s) = l := by
  have e : onesMask s l / 2 ^ s = onesMask 0 l := by
    unfold onesMask
    rw [Nat.mul_div_cancel _ (Nat.two_pow_pos s), Nat.pow_zero, Nat.mul_one]
  have hq : onesMask 0 l < 2 ^ 32 := by
    unfold onesMask
    have : 2 ^ l ≤ 2 ^ 32 := Nat.pow_le_pow_right (by omega) (by omega)
    have := Nat.two_pow_pos l
    omega
  rw [e]
  have key : ∀ i, i < 32 → (2 ^ 32 - 1 - onesMask 0 l).testBit i = decide (l ≤ i) := by
    intro i hi
    rw [testBit_compl hq, testBit_onesMask]
    simp only [hi, decide_true, Bool.true_and, Nat.zero_le, true_and, Nat.zero_add]
    rw [← decide_not]; apply decide_eq_decide.2; omega
  by_cases h32 : l < 32
  · exact tz_unique h32 (by rw [key l h32]; simp) fun j hj => by rw [key j (by omega)]; simp; omega
  · rw [tz_none fun j hj => by rw [key j hj]; simp; omega]; omega

theorem onesMask_lt {s l : Nat} (h : s + l ≤ 32) : onesMask s l < 2 ^ 32 := by
  unfold onesMask
  have h1 : (2 ^ l - 1) * 2 ^ s < 2 ^ l * 2 ^ s :=
    Nat.mul_lt_mul_of_pos_right (by have := Nat.two_pow_pos l; omega) (Nat.two_pow_pos s)
  rw [← Nat.pow_add] at h1
  exact Nat.lt_of_lt_of_le h1 (Nat.pow_le_pow_right (by omega) (by omega))

theorem onesMask_ne {s l : Nat} (hl : 1 ≤ l) : onesMask s l ≠ 0 := by
  unfold onesMask
  have : 2 ^ 1 ≤ 2 ^ l := Nat.pow_le_pow_right (by omega) hl
  have := Nat.mul_pos (show 0 < 2 ^ l - 1 by omega) (Nat.two_pow_pos s)
  omega

theorem fromMask_onesMask {s l k : Nat} (hl : 1 ≤ l) (h : s + l ≤ k) (hk : k ≤ 32) :
    Bitfield.fromMask (onesMask s l) k = .ok (if l > 8 then ⟨s + (l - 8), 8⟩ else ⟨s, l⟩) := by
  unfold Bitfield.fromMask
  rw [if_neg (onesMask_ne hl)]
  dsimp only
  rw [tz_onesMask hl (by omega), tz_ones_of_onesMask (by omega), countOnes_onesMask (by omega), if_neg (by omega),
    if_neg (by omega)]
  split <;> rfl

/-- **C63**: a mask of a bit-field image is accepted exactly when it is zero or one contiguous run of ones that lies within
the pixel; any other mask is an error. -/
theorem C63_masks (mask k : Nat) (h : mask < 2 ^ 32) (hk : k ≤ 32) :
    (∃ f, Bitfield.fromMask mask k = .ok f) ↔ mask = 0 ∨ ∃ s l, 1 ≤ l ∧ s + l ≤ k ∧ mask = onesMask s l := by
  constructor
  · rintro ⟨f, hf⟩
    by_cases h0 : mask = 0
    · exact .inl h0
    · right
      have key := (mask_iff h0 h).1
      have ho := countOnes_pos h0 h
      unfold Bitfield.fromMask at hf
      rw [if_neg h0] at hf
      dsimp only at hf
      split at hf
      · cases hf
      · rename_i hc
        have hc' := Classical.not_not.1 hc
        split at hf
        · cases hf
        · exact ⟨_, _, by omega, by omega, key hc'⟩
  · rintro (rfl | ⟨s, l, hl, hsl, rfl⟩)
    · exact ⟨_, rfl⟩
    · exact ⟨_, fromMask_onesMask hl hsl hk⟩

/-- The bits of `data` under a contiguous mask, moved down. -/
theorem masked_eq (data s l : Nat) : (data &&& onesMask s l) / 2 ^ s = data / 2 ^ s % 2 ^ l := by
  apply Nat.eq_of_testBit_eq
  intro i
  rw [Nat.testBit_div_two_pow, Nat.testBit_and, testBit_onesMask, Nat.testBit_mod_two_pow, Nat.testBit_div_two_pow]
  by_cases h : i < l <;> simp [h] <;> omega

/-- `b` is `255 * v / max` rounded to a nearest integer. -/
def Nearest255 (b v max : Nat) : Prop := 2 * b * max ≤ 2 * (255 * v) + max ∧ 2 * (255 * v) ≤ 2 * b * max + max

instance (b v max : Nat) : Decidable (Nearest255 b v max) := inferInstanceAs (Decidable (_ ∧ _))

/-- **C63**: the sample read under an accepted mask of `l` bits is the masked value `v` scaled from `0..2^l - 1` to `0..255`
with rounding to nearest when `l ≤ 8`, and the eight most significant bits of `v` when `l > 8`. -/
theorem C63_read (s l k : Nat) (hl : 1 ≤ l) (hsl : s + l ≤ k) (hk : k ≤ 32) :
    ∃ f, Bitfield.fromMask (onesMask s l) k = .ok f ∧ ∀ data, ∃ b, f.read data = .ok b ∧
      (l ≤ 8 → Nearest255 b.toNat ((data &&& onesMask s l) / 2 ^ s) (2 ^ l - 1)) ∧
      (8 < l → b.toNat = (data &&& onesMask s l) / 2 ^ s / 2 ^ (l - 8)) := by
  refine ⟨_, fromMask_onesMask hl hsl hk, fun data => ?_⟩
  rw [masked_eq]
  by_cases h8 : 8 < l
  · rw [if_pos h8]
    refine ⟨_, rfl, fun h => absurd h8 (by omega), fun _ => ?_⟩
    rw [UInt8.toNat_ofNat', Nat.pow_add, ← Nat.div_div_eq_div_mul]
    generalize data / 2 ^ s = v
    rw [show 256 = 2 ^ 8 from rfl, Nat.mod_mod]
    obtain ⟨t, rfl⟩ : ∃ t, l = 8 + t := ⟨l - 8, by omega⟩
    rw [Nat.add_sub_cancel_left, Nat.pow_add, Nat.mul_comm (2 ^ 8), Nat.mod_mul_right_div_self]
  · rw [if_neg h8]
    generalize hv : data / 2 ^ s = v
    have tab : ∀ (t : List UInt8) (n : Nat), (hn : 0 < n) → t.length = n → (∀ i, i < n → ∀ b, t[i]? = some b → Nearest255 b.toNat i (n - 1)) →
        ∃ b, unwrapR t[v % n]? = .ok b ∧ Nearest255 b.toNat (v % n) (n - 1) := by
      intro t n hn ht H
      have hlt : v % n < t.length := by rw [ht]; exact Nat.mod_lt _ hn
      have e := List.getElem?_eq_getElem hlt
      exact ⟨_, by rw [e]; rfl, H _ (Nat.mod_lt _ hn) _ e⟩
    have fin : (∃ b, Bitfield.read ⟨s, l⟩ data = .ok b ∧ Nearest255 b.toNat (v % 2 ^ l) (2 ^ l - 1)) →
        ∃ b, Bitfield.read ⟨s, l⟩ data = .ok b ∧ (l ≤ 8 → Nearest255 b.toNat (v % 2 ^ l) (2 ^ l - 1)) ∧
          (8 < l → b.toNat = v % 2 ^ l / 2 ^ (l - 8)) :=
      fun ⟨b, h1, h2⟩ => ⟨b, h1, fun _ => h2, fun h => absurd h h8⟩
    apply fin
    unfold Bitfield.read
    dsimp only
    rw [hv]
    rcases (show l = 1 ∨ l = 2 ∨ l = 3 ∨ l = 4 ∨ l = 5 ∨ l = 6 ∨ l = 7 ∨ l = 8 by omega) with
      rfl | rfl | rfl | rfl | rfl | rfl | rfl | rfl
    · refine ⟨_, rfl, ?_⟩
      have : ∀ x, x < 2 → Nearest255 (UInt8.ofNat (x * 0xff)).toNat x 1 := by decide
      exact this _ (Nat.mod_lt _ (by decide))
    · refine ⟨_, rfl, ?_⟩
      have : ∀ x, x < 4 → Nearest255 (UInt8.ofNat (x * 0x55)).toNat x 3 := by decide
      exact this _ (Nat.mod_lt _ (by decide))
    · exact tab table3 8 (by decide) rfl (by decide +kernel)
    · exact tab table4 16 (by decide) rfl (by decide +kernel)
    · exact tab table5 32 (by decide) rfl (by decide +kernel)
    · exact tab table6 64 (by decide) rfl (by decide +kernel)
    · refine ⟨_, rfl, ?_⟩
      have : ∀ x, x < 128 → Nearest255 (UInt8.ofNat (x * 2 ||| x / 64)).toNat x 127 := by decide +kernel
      exact this _ (Nat.mod_lt _ (by decide))
    · refine ⟨_, rfl, ?_⟩
      have : ∀ x, x < 256 → Nearest255 (UInt8.ofNat x).toNat x 255 := by decide +kernel
      exact this _ (Nat.mod_lt _ (by decide))

example : onesMask 5 6 = 0x7e0 ∧ onesMask 0 32 = 2 ^ 32 - 1 ∧ onesMask 20 10 = 0x3ff00000 := by decide
example : (do let f ← Bitfield.fromMask 0x7e0 16; f.read 0x1234) = .ok 69 := by decide +kernel
example : Bitfield.fromMask 0x7e8 16 = errR .decoding := by decide +kernel

end Bmp
end Verif
