import Verif.Props.Dds
import Verif.Props.Utils
import Mathlib.Data.Nat.Bitwise

/-!
# DDS files (C71, C54)
-/

namespace Verif

namespace Dds

theorem flagsValid_iff {f : Nat} (hf : f < 2 ^ 32) :
    FlagsValid f ↔ f &&& (requiredFlags ||| (2 ^ 32 - 1 - validFlags)) = requiredFlags := by
  have hbig : ∀ i, 32 ≤ i → f.testBit i = false := fun i hi =>
    Nat.testBit_lt_two_pow (Nat.lt_of_lt_of_le hf (Nat.pow_le_pow_right (by decide) hi))
  have hM : requiredFlags ||| (2 ^ 32 - 1 - validFlags) = 0xFF75FFF7 := by decide
  have hR : requiredFlags = 0x1007 := by decide
  rw [hM, hR]
  constructor
  · rintro ⟨h1, h2⟩
    apply Nat.eq_of_testBit_eq
    intro i
    rw [Nat.testBit_and]
    rcases Nat.lt_or_ge i 32 with hi | hi
    · have hc : i = 0 ∨ i = 1 ∨ i = 2 ∨ i = 12 ∨ i = 3 ∨ i = 17 ∨ i = 19 ∨ i = 23 ∨ (f.testBit i = false) := by
        cases hb : f.testBit i with
        | false => simp
        | true => rcases h2 i hb with h | h | h | h | h | h | h | h <;> simp [h]
      rcases hc with h | h | h | h | h | h | h | h | h
      · rw [h1 i (by omega), h]; decide
      · rw [h1 i (by omega), h]; decide
      · rw [h1 i (by omega), h]; decide
      · rw [h1 i (by omega), h]; decide
      · rw [h]; cases f.testBit _ <;> decide
      · rw [h]; cases f.testBit _ <;> decide
      · rw [h]; cases f.testBit _ <;> decide
      · rw [h]; cases f.testBit _ <;> decide
      · have h4 : ¬ (i = 0 ∨ i = 1 ∨ i = 2 ∨ i = 12) := fun hh => by rw [h1 i hh] at h; cases h
        rw [h, Bool.false_and]
        symm
        interval_cases i <;> first | rfl | (exact absurd (by decide) h4)
    · rw [hbig i hi, Bool.false_and]
      symm
      exact Nat.testBit_lt_two_pow (Nat.lt_of_lt_of_le (by decide : 0x1007 < 2 ^ 32) (Nat.pow_le_pow_right (by decide) hi))
  · intro h
    have hb : ∀ i, (f.testBit i && Nat.testBit 0xFF75FFF7 i) = Nat.testBit 0x1007 i := by
      intro i; rw [← Nat.testBit_and, h]
    constructor
    · rintro i (rfl | rfl | rfl | rfl)
      · have := hb 0; revert this; cases f.testBit 0 <;> decide
      · have := hb 1; revert this; cases f.testBit 1 <;> decide
      · have := hb 2; revert this; cases f.testBit 2 <;> decide
      · have := hb 12; revert this; cases f.testBit 12 <;> decide
    · intro i hi
      rcases Nat.lt_or_ge i 32 with h32 | h32
      · have := hb i
        rw [hi, Bool.true_and] at this
        interval_cases i <;> first | decide | (exact absurd this (by decide))
      · rw [hbig i h32] at hi; cases hi

theorem readLE_drop {n k : Nat} {file : List UInt8} (h : k + n ≤ file.length) :
    readLE n (file.drop k) = .ok (leNat ((file.drop k).take n), file.drop (k + n)) := by
  unfold readLE readExact
  rw [if_pos (by rw [List.length_drop]; omega), List.drop_drop]; rfl

theorem readExact_drop {n k : Nat} {file : List UInt8} (h : k + n ≤ file.length) :
    readExact n (file.drop k) = .ok ((file.drop k).take n, file.drop (k + n)) := by
  unfold readExact
  rw [if_pos (by rw [List.length_drop]; omega), List.drop_drop]

theorem readExact_ok {n k : Nat} {file : List UInt8} {r : List UInt8 × List UInt8} (hk : k ≤ file.length)
    (h : readExact n (file.drop k) = .ok r) : k + n ≤ file.length ∧ r = ((file.drop k).take n, file.drop (k + n)) := by
  have hle : k + n ≤ file.length := by
    unfold readExact at h
    split at h
    · rename_i hh; rw [List.length_drop] at hh; omega
    · cases h
  rw [readExact_drop hle] at h
  cases h; exact ⟨hle, rfl⟩

theorem readLE_ok {n k : Nat} {file : List UInt8} {r : Nat × List UInt8} (hk : k ≤ file.length)
    (h : readLE n (file.drop k) = .ok r) : k + n ≤ file.length ∧ r = (leNat ((file.drop k).take n), file.drop (k + n)) := by
  have hle : k + n ≤ file.length := by
    unfold readLE at h
    obtain ⟨a, h, -⟩ := bind_eq_ok.1 h
    exact (readExact_ok hk h).1
  rw [readLE_drop hle] at h
  cases h; exact ⟨hle, rfl⟩

theorem u32At_lt (file : List UInt8) (i : Nat) : u32At file i < 2 ^ 32 := by
  have := leNat_lt ((file.drop i).take 4)
  refine Nat.lt_of_lt_of_le this ?_
  have : ((file.drop i).take 4).length ≤ 4 := by simp
  calc 256 ^ _ ≤ 256 ^ 4 := Nat.pow_le_pow_right (by decide) this
    _ = 2 ^ 32 := by decide

theorem readPixelFormat_iff {file : List UInt8} (hk : 76 ≤ file.length) {f : Nat} {t r : List UInt8} :
    readPixelFormat (file.drop 76) = .ok (f, t, r) ↔ 108 ≤ file.length ∧ u32At file 76 = 32 ∧
      u32At file 80 = f ∧ tagAt file 84 = t ∧ file.drop 108 = r := by
  constructor
  · intro h
    unfold readPixelFormat at h
    obtain ⟨r76, g76, h⟩ := bind_eq_ok.1 h
    obtain ⟨l76, rfl⟩ := readLE_ok (by omega) g76
    dsimp only [Nat.reduceAdd, Nat.reduceMul] at h
    split at h
    · cases h
    rename_i c1
    obtain ⟨r80, g80, h⟩ := bind_eq_ok.1 h
    obtain ⟨l80, rfl⟩ := readLE_ok (by omega) g80
    dsimp only [Nat.reduceAdd, Nat.reduceMul] at h
    obtain ⟨r84, g84, h⟩ := bind_eq_ok.1 h
    obtain ⟨l84, rfl⟩ := readExact_ok (by omega) g84
    dsimp only [Nat.reduceAdd, Nat.reduceMul] at h
    obtain ⟨r88, g88, h⟩ := bind_eq_ok.1 h
    obtain ⟨l88, rfl⟩ := readLE_ok (by omega) g88
    dsimp only [Nat.reduceAdd, Nat.reduceMul] at h
    obtain ⟨r92, g92, h⟩ := bind_eq_ok.1 h
    obtain ⟨l92, rfl⟩ := readLE_ok (by omega) g92
    dsimp only [Nat.reduceAdd, Nat.reduceMul] at h
    obtain ⟨r96, g96, h⟩ := bind_eq_ok.1 h
    obtain ⟨l96, rfl⟩ := readLE_ok (by omega) g96
    dsimp only [Nat.reduceAdd, Nat.reduceMul] at h
    obtain ⟨r100, g100, h⟩ := bind_eq_ok.1 h
    obtain ⟨l100, rfl⟩ := readLE_ok (by omega) g100
    dsimp only [Nat.reduceAdd, Nat.reduceMul] at h
    obtain ⟨r104, g104, h⟩ := bind_eq_ok.1 h
    obtain ⟨l104, rfl⟩ := readLE_ok (by omega) g104
    dsimp only [Nat.reduceAdd, Nat.reduceMul] at h
    cases h
    exact ⟨by omega, Classical.not_not.1 c1, rfl, rfl, rfl⟩
  · rintro ⟨h1, h2, rfl, rfl, rfl⟩
    unfold readPixelFormat
    unfold u32At at h2
    rw [readLE_drop (by omega), ok_bind]
    dsimp only [Nat.reduceAdd, Nat.reduceMul]
    rw [if_neg (by rw [h2]; simp)]
    rw [readLE_drop (by omega), ok_bind]
    dsimp only [Nat.reduceAdd, Nat.reduceMul]
    rw [readExact_drop (by omega), ok_bind]
    dsimp only [Nat.reduceAdd, Nat.reduceMul]
    rw [readLE_drop (by omega), ok_bind]
    dsimp only [Nat.reduceAdd, Nat.reduceMul]
    rw [readLE_drop (by omega), ok_bind]
    dsimp only [Nat.reduceAdd, Nat.reduceMul]
    rw [readLE_drop (by omega), ok_bind]
    dsimp only [Nat.reduceAdd, Nat.reduceMul]
    rw [readLE_drop (by omega), ok_bind]
    dsimp only [Nat.reduceAdd, Nat.reduceMul]
    rw [readLE_drop (by omega), ok_bind]
    rfl

/-- What the header tells. -/
theorem readHeader_iff {file : List UInt8} (hk : 4 ≤ file.length) {r : Header × List UInt8} :
    readHeader (file.drop 4) = .ok r ↔ 128 ≤ file.length ∧ u32At file 4 = 124 ∧ FlagsValid (u32At file 8) ∧ u32At file 76 = 32 ∧
      r = (⟨u32At file 12, u32At file 16, u32At file 80, tagAt file 84⟩, file.drop 128) := by
  constructor
  · intro h
    unfold readHeader at h
    obtain ⟨r4, g4, h⟩ := bind_eq_ok.1 h
    obtain ⟨l4, rfl⟩ := readLE_ok (by omega) g4
    dsimp only [Nat.reduceAdd, Nat.reduceMul] at h
    split at h
    · cases h
    rename_i c1
    obtain ⟨r8, g8, h⟩ := bind_eq_ok.1 h
    obtain ⟨l8, rfl⟩ := readLE_ok (by omega) g8
    dsimp only [Nat.reduceAdd, Nat.reduceMul] at h
    split at h
    · cases h
    rename_i c2
    obtain ⟨r12, g12, h⟩ := bind_eq_ok.1 h
    obtain ⟨l12, rfl⟩ := readLE_ok (by omega) g12
    dsimp only [Nat.reduceAdd, Nat.reduceMul] at h
    obtain ⟨r16, g16, h⟩ := bind_eq_ok.1 h
    obtain ⟨l16, rfl⟩ := readLE_ok (by omega) g16
    dsimp only [Nat.reduceAdd, Nat.reduceMul] at h
    obtain ⟨r20, g20, h⟩ := bind_eq_ok.1 h
    obtain ⟨l20, rfl⟩ := readLE_ok (by omega) g20
    dsimp only [Nat.reduceAdd, Nat.reduceMul] at h
    obtain ⟨r24, g24, h⟩ := bind_eq_ok.1 h
    obtain ⟨l24, rfl⟩ := readLE_ok (by omega) g24
    dsimp only [Nat.reduceAdd, Nat.reduceMul] at h
    obtain ⟨r28, g28, h⟩ := bind_eq_ok.1 h
    obtain ⟨l28, rfl⟩ := readLE_ok (by omega) g28
    dsimp only [Nat.reduceAdd, Nat.reduceMul] at h
    obtain ⟨r32, g32, h⟩ := bind_eq_ok.1 h
    obtain ⟨l32, rfl⟩ := readExact_ok (by omega) g32
    dsimp only [Nat.reduceAdd, Nat.reduceMul] at h
    obtain ⟨⟨pf, fc, rest⟩, hp, h⟩ := bind_eq_ok.1 h
    obtain ⟨p1, p2, p3, p4, p5⟩ := (readPixelFormat_iff (by omega)).1 hp
    subst p3 p4 p5
    dsimp only at h
    obtain ⟨r108, g108, h⟩ := bind_eq_ok.1 h
    obtain ⟨l108, rfl⟩ := readLE_ok (by omega) g108
    dsimp only [Nat.reduceAdd, Nat.reduceMul] at h
    obtain ⟨r112, g112, h⟩ := bind_eq_ok.1 h
    obtain ⟨l112, rfl⟩ := readLE_ok (by omega) g112
    dsimp only [Nat.reduceAdd, Nat.reduceMul] at h
    obtain ⟨r116, g116, h⟩ := bind_eq_ok.1 h
    obtain ⟨l116, rfl⟩ := readExact_ok (by omega) g116
    dsimp only [Nat.reduceAdd, Nat.reduceMul] at h
    cases h
    refine ⟨by omega, Classical.not_not.1 c1, (flagsValid_iff (u32At_lt _ _)).2 (Classical.not_not.1 c2), p2, rfl⟩
  · rintro ⟨h1, h2, h3, h4, rfl⟩
    unfold readHeader
    have h3' := (flagsValid_iff (u32At_lt _ _)).1 h3
    unfold u32At at h2 h3'
    rw [readLE_drop (by omega), ok_bind]
    dsimp only [Nat.reduceAdd, Nat.reduceMul]
    rw [if_neg (by rw [h2]; simp)]
    rw [readLE_drop (by omega), ok_bind]
    dsimp only [Nat.reduceAdd, Nat.reduceMul]
    rw [if_neg (fun hh => hh h3')]
    rw [readLE_drop (by omega), ok_bind]
    dsimp only [Nat.reduceAdd, Nat.reduceMul]
    rw [readLE_drop (by omega), ok_bind]
    dsimp only [Nat.reduceAdd, Nat.reduceMul]
    rw [readLE_drop (by omega), ok_bind]
    dsimp only [Nat.reduceAdd, Nat.reduceMul]
    rw [readLE_drop (by omega), ok_bind]
    dsimp only [Nat.reduceAdd, Nat.reduceMul]
    rw [readLE_drop (by omega), ok_bind]
    dsimp only [Nat.reduceAdd, Nat.reduceMul]
    rw [readExact_drop (by omega), ok_bind]
    dsimp only [Nat.reduceAdd, Nat.reduceMul]
    rw [(readPixelFormat_iff (by omega)).2 ⟨by omega, h4, rfl, rfl, rfl⟩, ok_bind]
    dsimp only
    rw [readLE_drop (by omega), ok_bind]
    dsimp only [Nat.reduceAdd, Nat.reduceMul]
    rw [readLE_drop (by omega), ok_bind]
    dsimp only [Nat.reduceAdd, Nat.reduceMul]
    rw [readExact_drop (by omega), ok_bind]
    rfl

theorem readDx10_iff {file : List UInt8} (hk : 128 ≤ file.length) {f : Nat} {r : List UInt8} :
    readDx10 (file.drop 128) = .ok (f, r) ↔ ExtraValid file ∧ u32At file 128 = f ∧ file.drop 148 = r := by
  unfold ExtraValid
  constructor
  · intro h
    unfold readDx10 at h
    obtain ⟨r128, g128, h⟩ := bind_eq_ok.1 h
    obtain ⟨l128, rfl⟩ := readLE_ok (by omega) g128
    dsimp only [Nat.reduceAdd] at h
    obtain ⟨r132, g132, h⟩ := bind_eq_ok.1 h
    obtain ⟨l132, rfl⟩ := readLE_ok (by omega) g132
    dsimp only [Nat.reduceAdd] at h
    obtain ⟨r136, g136, h⟩ := bind_eq_ok.1 h
    obtain ⟨l136, rfl⟩ := readLE_ok (by omega) g136
    dsimp only [Nat.reduceAdd] at h
    obtain ⟨r140, g140, h⟩ := bind_eq_ok.1 h
    obtain ⟨l140, rfl⟩ := readLE_ok (by omega) g140
    dsimp only [Nat.reduceAdd] at h
    obtain ⟨r144, g144, h⟩ := bind_eq_ok.1 h
    obtain ⟨l144, rfl⟩ := readLE_ok (by omega) g144
    dsimp only [Nat.reduceAdd] at h
    split at h
    · cases h
    split at h
    · cases h
    split at h
    · cases h
    split at h
    · cases h
    split at h
    · cases h
    rename_i c1 c2 c3 c4 c5
    cases h
    unfold u32At
    refine ⟨⟨by omega, by omega, by omega, by omega, ?_, by omega⟩, rfl, rfl⟩
    intro h
    by_contra hne
    exact c4 ⟨h, hne⟩
  · rintro ⟨⟨h1, h2, h3, h4, h5, h6⟩, rfl, rfl⟩
    unfold u32At at *
    unfold readDx10
    rw [readLE_drop (by omega), ok_bind]
    dsimp only [Nat.reduceAdd]
    rw [readLE_drop (by omega), ok_bind]
    dsimp only [Nat.reduceAdd]
    rw [readLE_drop (by omega), ok_bind]
    dsimp only [Nat.reduceAdd]
    rw [readLE_drop (by omega), ok_bind]
    dsimp only [Nat.reduceAdd]
    rw [readLE_drop (by omega), ok_bind]
    dsimp only [Nat.reduceAdd]
    rw [if_neg (by omega), if_neg (by omega), if_neg (by omega), if_neg (fun hh => hh.2 (h5 hh.1)), if_neg (by omega)]

theorem readVariant_iff {file : List UInt8} (hk : 128 ≤ file.length) {v : Dxt.Variant} {r : List UInt8} :
    readVariant (tagAt file 84) (file.drop 128) = .ok (v, r) ↔ ∃ off, Uses file v off ∧ file.drop off = r := by
  unfold readVariant Uses
  constructor
  · intro h
    split at h
    · rename_i c; cases h; exact ⟨128, .inl ⟨rfl, .inl ⟨c, rfl⟩⟩, rfl⟩
    split at h
    · rename_i c; cases h; exact ⟨128, .inl ⟨rfl, .inr (.inl ⟨c, rfl⟩)⟩, rfl⟩
    split at h
    · rename_i c; cases h; exact ⟨128, .inl ⟨rfl, .inr (.inr ⟨c, rfl⟩)⟩, rfl⟩
    split at h
    · rename_i c
      obtain ⟨⟨f, s⟩, hd, h⟩ := bind_eq_ok.1 h
      obtain ⟨d1, rfl, rfl⟩ := (readDx10_iff hk).1 hd
      dsimp only at h
      split at h
      · rename_i c2; cases h; exact ⟨148, .inr ⟨rfl, c, d1, .inl ⟨c2.1, c2.2, rfl⟩⟩, rfl⟩
      split at h
      · rename_i c2; cases h; exact ⟨148, .inr ⟨rfl, c, d1, .inr (.inl ⟨c2.1, c2.2, rfl⟩)⟩, rfl⟩
      split at h
      · rename_i c2; cases h; exact ⟨148, .inr ⟨rfl, c, d1, .inr (.inr ⟨c2.1, c2.2, rfl⟩)⟩, rfl⟩
      cases h
    · cases h
  · rintro ⟨off, (⟨rfl, (⟨h, rfl⟩ | ⟨h, rfl⟩ | ⟨h, rfl⟩)⟩ | ⟨rfl, h, hx, hf⟩), rfl⟩
    · rw [h]; rfl
    · rw [h]; rfl
    · rw [h]; rfl
    · rw [h, if_neg (by decide), if_neg (by decide), if_neg (by decide), if_pos rfl]
      rw [(readDx10_iff hk).2 ⟨hx, rfl, rfl⟩, ok_bind]
      dsimp only
      rcases hf with ⟨a, b, rfl⟩ | ⟨a, b, rfl⟩ | ⟨a, b, rfl⟩
      · rw [if_pos ⟨a, b⟩]
      · rw [if_neg (by omega), if_pos ⟨a, b⟩]
      · rw [if_neg (by omega), if_neg (by omega), if_pos ⟨a, b⟩]

theorem testBit2 (n : Nat) : (n &&& 4 ≠ 0) ↔ n.testBit 2 = true := by
  have := Nat.and_two_pow n 2
  rw [show (2 : Nat) ^ 2 = 4 from rfl] at this
  rw [this]
  cases n.testBit 2 <;> simp

theorem bpp_pos (v : Dxt.Variant) : 0 < v.colorType.bytesPerPixel := by cases v <;> decide

/-- When the decoder is made. -/
theorem new_iff {file : List UInt8} {d : Dxt.Decoder} :
    new file = .ok d ↔ ∃ w h v off, HeaderValid file w h v off ∧ d = ⟨file.drop off, w / 4, h / 4, v, 0⟩ := by
  constructor
  · intro h
    unfold new at h
    obtain ⟨r0, g0, h⟩ := bind_eq_ok.1 h
    obtain ⟨l0, rfl⟩ := readExact_ok (file := file) (k := 0) (by omega) g0
    dsimp only [Nat.zero_add, List.drop_zero] at h
    split at h
    · cases h
    rename_i hm
    obtain ⟨hd, g1, h⟩ := bind_eq_ok.1 h
    obtain ⟨a1, a2, a3, a4, rfl⟩ := (readHeader_iff (by omega)).1 g1
    dsimp only at h
    split at h
    · rename_i hc
      obtain ⟨⟨v, r⟩, g2, h⟩ := bind_eq_ok.1 h
      obtain ⟨off, hu, rfl⟩ := (readVariant_iff a1).1 g2
      rw [C35_check_dimension_overflow _ _ _ (u32At_lt _ _) (u32At_lt _ _) (bpp_pos v), ok_bind] at h
      split at h
      · cases h
      rename_i hfit
      unfold Dxt.Decoder.new at h
      split at h
      · cases h
      rename_i hal
      cases h
      refine ⟨_, _, v, off, ⟨a1, Classical.not_not.1 hm, a2, a3, rfl, rfl, a4, (testBit2 _).1 hc, hu, by omega, ?_⟩, rfl⟩
      simpa using hfit
    · cases h
  · rintro ⟨w, h, v, off, ⟨a1, hm, a2, a3, rfl, rfl, a4, hc, hu, hal, hfit⟩, rfl⟩
    unfold new
    have := readExact_drop (n := 4) (k := 0) (file := file) (by omega)
    rw [List.drop_zero, Nat.zero_add] at this
    rw [this, ok_bind]
    dsimp only
    rw [if_neg (fun hh => hh hm), (readHeader_iff (by omega)).2 ⟨a1, a2, a3, a4, rfl⟩, ok_bind]
    dsimp only
    rw [if_pos ((testBit2 _).2 hc), (readVariant_iff a1).2 ⟨off, hu, rfl⟩, ok_bind]
    dsimp only
    rw [C35_check_dimension_overflow _ _ _ (u32At_lt _ _) (u32At_lt _ _) (bpp_pos v), ok_bind]
    rw [decide_eq_false (by omega), if_neg (by decide)]
    unfold Dxt.Decoder.new
    rw [if_neg (by omega)]

theorem readLE_total' (n : Nat) (s : List UInt8) : OkOr Hdr.AnyErr (fun r => r.1 < 256 ^ n) (readLE n s) := by
  unfold readLE
  refine OkOr.bind ((readExact_total n s).weaken fun _ _ => trivial) fun r hr => ?_
  have := leNat_lt r.1
  rw [hr] at this
  exact this

theorem readExact_total' (n : Nat) (s : List UInt8) : OkOr Hdr.AnyErr (fun _ => True) (readExact n s) :=
  ((readExact_total n s).weaken fun _ _ => trivial).mono fun _ _ => trivial

theorem readPixelFormat_total (s : List UInt8) : OkOr Hdr.AnyErr (fun _ => True) (readPixelFormat s) := by
  unfold readPixelFormat
  have le := readLE_total' 4
  have ex := readExact_total'
  refine (le _).bind fun _ _ => Hdr.ite_total (fun _ => trivial) fun _ => ?_
  refine (le _).bind fun _ _ => (ex _ _).bind fun _ _ => (le _).bind fun _ _ => (le _).bind fun _ _ =>
    (le _).bind fun _ _ => (le _).bind fun _ _ => (le _).bind fun _ _ => trivial

theorem readHeader_total (s : List UInt8) :
    OkOr Hdr.AnyErr (fun r => r.1.width < 2 ^ 32 ∧ r.1.height < 2 ^ 32) (readHeader s) := by
  unfold readHeader
  have le := readLE_total' 4
  have ex := readExact_total'
  refine (le _).bind fun _ _ => Hdr.ite_total (fun _ => trivial) fun _ => ?_
  refine (le _).bind fun _ _ => Hdr.ite_total (fun _ => trivial) fun _ => ?_
  refine (le _).bind fun _ hh => (le _).bind fun _ hw => (le _).bind fun _ _ => (le _).bind fun _ _ =>
    (le _).bind fun _ _ => (ex _ _).bind fun _ _ => (readPixelFormat_total _).bind fun _ _ => (le _).bind fun _ _ =>
    (le _).bind fun _ _ => (ex _ _).bind fun _ _ => ?_
  exact ⟨hw, hh⟩

theorem readVariant_total (fourcc s : List UInt8) : OkOr Hdr.AnyErr (fun _ => True) (readVariant fourcc s) := by
  unfold readVariant
  have le := readLE_total' 4
  refine Hdr.ite_total (fun _ => trivial) fun _ => Hdr.ite_total (fun _ => trivial) fun _ =>
    Hdr.ite_total (fun _ => trivial) fun _ => Hdr.ite_total (fun _ => ?_) fun _ => trivial
  refine OkOr.bind (P := fun _ => True) ?_ fun _ _ => ?_
  · unfold readDx10
    refine (le _).bind fun _ _ => (le _).bind fun _ _ => (le _).bind fun _ _ => (le _).bind fun _ _ =>
      (le _).bind fun _ _ => ?_
    refine Hdr.ite_total (fun _ => trivial) fun _ => Hdr.ite_total (fun _ => trivial) fun _ =>
      Hdr.ite_total (fun _ => trivial) fun _ => Hdr.ite_total (fun _ => trivial) fun _ =>
      Hdr.ite_total (fun _ => trivial) fun _ => trivial
  · exact Hdr.ite_total (fun _ => trivial) fun _ => Hdr.ite_total (fun _ => trivial) fun _ =>
      Hdr.ite_total (fun _ => trivial) fun _ => trivial

/-- Making the decoder does not panic. -/
theorem new_total (file : List UInt8) : OkOr Hdr.AnyErr (fun _ => True) (new file) := by
  unfold new
  refine (readExact_total' _ _).bind fun _ _ => Hdr.ite_total (fun _ => trivial) fun _ => ?_
  refine (readHeader_total _).bind fun r hr => Hdr.ite_total (fun _ => ?_) fun _ => trivial
  refine (readVariant_total _ _).bind fun v _ => ?_
  dsimp only
  rw [C35_check_dimension_overflow _ _ _ hr.1 hr.2 (bpp_pos _), ok_bind]
  refine Hdr.ite_total (fun _ => trivial) fun _ => ?_
  unfold Dxt.Decoder.new
  exact Hdr.ite_total (fun _ => trivial) fun _ => trivial

/-! ### Decoding -/

/-- The pixels depend on the blocks of the image only. -/
theorem shows_append {v : Dxt.Variant} {n m : Nat} {data rest out : List UInt8} (hd : data.length = n * m * v.encodedBytes)
    (h : Dxt.Shows v n m data out) : Dxt.Shows v n m (data ++ rest) out := by
  have key : ∀ x y, x < 4 * n → y < 4 * m → ((data ++ rest).drop ((y / 4 * n + x / 4) * v.encodedBytes)).take v.encodedBytes =
      (data.drop ((y / 4 * n + x / 4) * v.encodedBytes)).take v.encodedBytes := by
    intro x y hx hy
    have := Dxt.length_blockAt (v := v) (x := x / 4) (y := y / 4) hd (by omega) (by omega)
    simp only [Dxt.blockAt, List.length_take, List.length_drop] at this
    have hp := Dxt.encodedBytes_pos v
    rw [List.drop_append_of_le_length (by omega), List.take_append_of_le_length (by rw [List.length_drop]; omega)]
  refine ⟨h.length, ?_, ?_, ?_⟩
  · intro x y c hx hy hc
    rw [key x y hx hy]; exact h.colour x y c hx hy hc
  · rintro rfl x y hx hy
    have := key x y hx hy
    rw [show Dxt.Variant.encodedBytes .DXT3 = 16 from rfl] at this
    rw [this]; exact h.alpha3 rfl x y hx hy
  · rintro rfl x y hx hy
    have := key x y hx hy
    rw [show Dxt.Variant.encodedBytes .DXT5 = 16 from rfl] at this
    rw [this]; exact h.alpha5 rfl x y hx hy

theorem decode_eq {file : List UInt8} {w h : Nat} {v : Dxt.Variant} {off : Nat} (hv : HeaderValid file w h v off) :
    decode file = (Dxt.Decoder.readImage ⟨file.drop off, w / 4, h / 4, v, 0⟩
      (List.replicate (4 * (w / 4) * (4 * (h / 4)) * v.colorType.bytesPerPixel) 0) >>= fun buf => .ok (w, h, v.colorType, buf)) := by
  unfold decode
  rw [new_iff.2 ⟨w, h, v, off, hv, rfl⟩, ok_bind]
  have := hv.aligned
  have e1 : w / 4 * 4 = w := by omega
  have e2 : h / 4 * 4 = h := by omega
  have e3 : 4 * (w / 4) = w := by omega
  have e4 : 4 * (h / 4) = h := by omega
  have hf := hv.fits
  have htot : totalBytes w h v.colorType.bytesPerPixel = w * h * v.colorType.bytesPerPixel := by
    unfold totalBytes satMul
    have : w * h ≤ w * h * v.colorType.bytesPerPixel := Nat.le_mul_of_pos_right _ (bpp_pos v)
    rw [Nat.min_eq_left (by omega)]
  simp only [Dxt.Decoder.dimensions, e1, e2, e3, e4, htot]

/-- A complete file is decoded, and gives the image it describes. -/
theorem C71_complete {file : List UInt8} {w h : Nat} {v : Dxt.Variant} {off : Nat} (hv : Valid file w h v off) :
    ∃ out, decode file = .ok (w, h, v.colorType, out) ∧ Dxt.Shows v (w / 4) (h / 4) (file.drop off) out := by
  rw [decode_eq hv.toHeaderValid]
  have hal := hv.aligned
  have hf := hv.fits
  have hc := hv.complete
  have e3 : 4 * (w / 4) = w := by omega
  have e4 : 4 * (h / 4) = h := by omega
  have hh : h < 2 ^ 32 := by rw [hv.height]; exact u32At_lt _ _
  have hlen : ((file.drop off).take (w / 4 * (h / 4) * v.encodedBytes)).length = w / 4 * (h / 4) * v.encodedBytes := by
    rw [List.length_take, List.length_drop]; omega
  obtain ⟨out, h1, h2⟩ := Dxt.readImage_shows (v := v) (n := w / 4) (m := h / 4)
    (data := (file.drop off).take (w / 4 * (h / 4) * v.encodedBytes))
    (rest := (file.drop off).drop (w / 4 * (h / 4) * v.encodedBytes))
    (buf := List.replicate (4 * (w / 4) * (4 * (h / 4)) * v.colorType.bytesPerPixel) 0) hlen
    (by
      rw [List.length_replicate, Dxt.bytesPerPixel_eq, e3, e4]
      rw [Dxt.bytesPerPixel_eq] at hf
      unfold totalBytes satMul
      have : w * h ≤ w * h * v.ch := Nat.le_mul_of_pos_right _ (Dxt.ch_pos v)
      rw [Nat.min_eq_left (by omega)])
    (by rw [← Dxt.bytesPerPixel_eq, e3, e4]; exact hf) (by omega)
  rw [List.take_append_drop] at h1
  refine ⟨out, by rw [h1]; rfl, ?_⟩
  have := shows_append (rest := (file.drop off).drop (w / 4 * (h / 4) * v.encodedBytes)) hlen h2
  rw [List.take_append_drop] at this
  exact this

/-- Headers that are right but too few blocks: an input error. -/
theorem C71_incomplete {file : List UInt8} {w h : Nat} {v : Dxt.Variant} {off : Nat} (hv : HeaderValid file w h v off)
    (hl : file.length < off + w / 4 * (h / 4) * v.encodedBytes) : decode file = errR .io := by
  rw [decode_eq hv]
  have hal := hv.aligned
  have e3 : 4 * (w / 4) = w := by omega
  have e4 : 4 * (h / 4) = h := by omega
  have hh : h < 2 ^ 32 := by rw [hv.height]; exact u32At_lt _ _
  have hoff : off ≤ file.length := by
    have := hv.present
    rcases hv.uses with ⟨rfl, -⟩ | ⟨rfl, -, hx, -⟩
    · exact this
    · exact hx.1
  rw [Dxt.C48_short (by rw [List.length_drop]; omega) (by rw [e3, e4]; exact hv.fits) (by omega)]
  rfl

/-- Whatever is decoded is a complete file and the image it describes: nothing else is accepted. -/
theorem C71_accepted {file : List UInt8} {w h : Nat} {ct : ColorType} {out : List UInt8} (hd : decode file = .ok (w, h, ct, out)) :
    ∃ v off, Valid file w h v off ∧ ct = v.colorType ∧ Dxt.Shows v (w / 4) (h / 4) (file.drop off) out := by
  have hd' := hd
  unfold decode at hd'
  obtain ⟨d, hn, -⟩ := bind_eq_ok.1 hd'
  obtain ⟨w', h', v, off, hv, -⟩ := new_iff.1 hn
  rcases Nat.lt_or_ge file.length (off + w' / 4 * (h' / 4) * v.encodedBytes) with hl | hl
  · rw [C71_incomplete hv hl] at hd; cases hd
  · obtain ⟨o, h1, h2⟩ := C71_complete ⟨hv, hl⟩
    rw [hd] at h1
    cases h1
    exact ⟨v, off, ⟨hv, hl⟩, rfl, h2⟩

/-- No file makes the decoder panic. -/
theorem C71_total (file : List UInt8) : decode file ≠ panicR := by
  intro hp
  have hn := new_total file
  cases hnew : new file with
  | ok d =>
    obtain ⟨w, h, v, off, hv, -⟩ := new_iff.1 hnew
    rcases Nat.lt_or_ge file.length (off + w / 4 * (h / 4) * v.encodedBytes) with hl | hl
    · rw [C71_incomplete hv hl] at hp; cases hp
    · obtain ⟨o, h1, -⟩ := C71_complete ⟨hv, hl⟩
      rw [h1] at hp; cases hp
  | error e =>
    unfold decode at hp
    rw [hnew] at hn hp
    cases e with
    | panic => exact hn
    | err e => cases hp

/-! ### Truncation (C54) -/

theorem readPixelFormat_trunc {s s' : List UInt8} (h : s <+: s') :
    Trunc (fun a b => a.1 = b.1 ∧ a.2.1 = b.2.1 ∧ a.2.2 <+: b.2.2) (readPixelFormat s) (readPixelFormat s') := by
  unfold readPixelFormat
  refine (readLE_trunc h).bind ?_
  rintro ⟨a, s⟩ ⟨_, t⟩ ⟨rfl, h⟩
  refine Trunc.ite (fun _ => .errR) fun _ => ?_
  refine (readLE_trunc h).bind ?_
  rintro ⟨a, s⟩ ⟨_, t⟩ ⟨rfl, h⟩
  refine (readExact_trunc h).bind ?_
  rintro ⟨b, s⟩ ⟨_, t⟩ ⟨rfl, h⟩
  refine (readLE_trunc h).bind ?_
  rintro ⟨_, s⟩ ⟨_, t⟩ ⟨-, h⟩
  refine (readLE_trunc h).bind ?_
  rintro ⟨_, s⟩ ⟨_, t⟩ ⟨-, h⟩
  refine (readLE_trunc h).bind ?_
  rintro ⟨_, s⟩ ⟨_, t⟩ ⟨-, h⟩
  refine (readLE_trunc h).bind ?_
  rintro ⟨_, s⟩ ⟨_, t⟩ ⟨-, h⟩
  refine (readLE_trunc h).bind ?_
  rintro ⟨_, s⟩ ⟨_, t⟩ ⟨-, h⟩
  exact .ok ⟨rfl, rfl, h⟩

theorem readHeader_trunc {s s' : List UInt8} (h : s <+: s') : Trunc Longer (readHeader s) (readHeader s') := by
  unfold readHeader
  refine (readLE_trunc h).bind ?_
  rintro ⟨a, s⟩ ⟨_, t⟩ ⟨rfl, h⟩
  refine Trunc.ite (fun _ => .errR) fun _ => ?_
  refine (readLE_trunc h).bind ?_
  rintro ⟨a, s⟩ ⟨_, t⟩ ⟨rfl, h⟩
  refine Trunc.ite (fun _ => .errR) fun _ => ?_
  refine (readLE_trunc h).bind ?_
  rintro ⟨_, s⟩ ⟨_, t⟩ ⟨rfl, h⟩
  refine (readLE_trunc h).bind ?_
  rintro ⟨_, s⟩ ⟨_, t⟩ ⟨rfl, h⟩
  refine (readLE_trunc h).bind ?_
  rintro ⟨_, s⟩ ⟨_, t⟩ ⟨rfl, h⟩
  refine (readLE_trunc h).bind ?_
  rintro ⟨_, s⟩ ⟨_, t⟩ ⟨rfl, h⟩
  refine (readLE_trunc h).bind ?_
  rintro ⟨_, s⟩ ⟨_, t⟩ ⟨rfl, h⟩
  refine (readExact_trunc h).bind ?_
  rintro ⟨b, s⟩ ⟨_, t⟩ ⟨rfl, h⟩
  refine (readPixelFormat_trunc h).bind ?_
  rintro ⟨a, b, s⟩ ⟨_, _, t⟩ ⟨rfl, rfl, h⟩
  refine (readLE_trunc h).bind ?_
  rintro ⟨_, s⟩ ⟨_, t⟩ ⟨rfl, h⟩
  refine (readLE_trunc h).bind ?_
  rintro ⟨_, s⟩ ⟨_, t⟩ ⟨rfl, h⟩
  refine (readExact_trunc h).bind ?_
  rintro ⟨b, s⟩ ⟨_, t⟩ ⟨rfl, h⟩
  exact .ok ⟨rfl, h⟩

theorem readVariant_trunc {fourcc s s' : List UInt8} (h : s <+: s') :
    Trunc Longer (readVariant fourcc s) (readVariant fourcc s') := by
  unfold readVariant
  refine Trunc.ite (fun _ => .ok ⟨rfl, h⟩) fun _ => Trunc.ite (fun _ => .ok ⟨rfl, h⟩) fun _ =>
    Trunc.ite (fun _ => .ok ⟨rfl, h⟩) fun _ => Trunc.ite (fun _ => ?_) fun _ => .errR
  refine Trunc.bind (Q := Longer) ?_ ?_
  · unfold readDx10
    refine (readLE_trunc h).bind ?_
    rintro ⟨_, s⟩ ⟨_, t⟩ ⟨rfl, h⟩
    refine (readLE_trunc h).bind ?_
    rintro ⟨_, s⟩ ⟨_, t⟩ ⟨rfl, h⟩
    refine (readLE_trunc h).bind ?_
    rintro ⟨_, s⟩ ⟨_, t⟩ ⟨rfl, h⟩
    refine (readLE_trunc h).bind ?_
    rintro ⟨_, s⟩ ⟨_, t⟩ ⟨rfl, h⟩
    refine (readLE_trunc h).bind ?_
    rintro ⟨_, s⟩ ⟨_, t⟩ ⟨rfl, h⟩
    exact Trunc.ite (fun _ => .errR) fun _ => Trunc.ite (fun _ => .errR) fun _ => Trunc.ite (fun _ => .errR) fun _ =>
      Trunc.ite (fun _ => .errR) fun _ => Trunc.ite (fun _ => .errR) fun _ => .ok ⟨rfl, h⟩
  · rintro ⟨_, s⟩ ⟨_, t⟩ ⟨rfl, h⟩
    exact Trunc.ite (fun _ => .ok ⟨rfl, h⟩) fun _ => Trunc.ite (fun _ => .ok ⟨rfl, h⟩) fun _ =>
      Trunc.ite (fun _ => .ok ⟨rfl, h⟩) fun _ => .errR

theorem decode_trunc {file file' : List UInt8} (h : file <+: file') : Trunc Eq (decode file) (decode file') := by
  unfold decode
  refine Trunc.bind (Q := fun a b => a.inner <+: b.inner ∧ a.widthBlocks = b.widthBlocks ∧ a.heightBlocks = b.heightBlocks ∧
    a.variant = b.variant ∧ a.row = b.row) ?_ ?_
  · unfold new
    refine (readExact_trunc h).bind ?_
    rintro ⟨b, s⟩ ⟨_, t⟩ ⟨rfl, h⟩
    refine Trunc.ite (fun _ => .errR) fun _ => ?_
    refine (readHeader_trunc h).bind ?_
    rintro ⟨b, s⟩ ⟨_, t⟩ ⟨rfl, h⟩
    refine Trunc.ite (fun _ => ?_) fun _ => .errR
    refine (readVariant_trunc h).bind ?_
    rintro ⟨v, s⟩ ⟨_, t⟩ ⟨rfl, h⟩
    refine Trunc.same fun _ => Trunc.ite (fun _ => .errR) fun _ => ?_
    unfold Dxt.Decoder.new
    exact Trunc.ite (fun _ => .errR) fun _ => .ok ⟨h, rfl, rfl, rfl, rfl⟩
  · rintro ⟨i, w, hh, v, r⟩ ⟨i', _, _, _, _⟩ ⟨hi, rfl, rfl, rfl, rfl⟩
    refine Trunc.bind (Dxt.readImage_trunc hi) ?_
    rintro a _ rfl
    exact .ok rfl

/-- A file cut short is either refused with an input error or still shows the whole image. -/
theorem C54_dds {file p : List UInt8} (hp : p <+: file) {r : Nat × Nat × ColorType × List UInt8} (h : decode file = .ok r) :
    decode p = errR .io ∨ decode p = .ok r := by
  rcases decode_trunc hp r h with h | ⟨a, ha, rfl⟩
  · exact .inl h
  · exact .inr ha

theorem valid_prefix {file p : List UInt8} (hp : p <+: file) {w h : Nat} {v : Dxt.Variant} {off : Nat} (hv : Valid file w h v off)
    (hl : off + w / 4 * (h / 4) * v.encodedBytes ≤ p.length) : Valid p w h v off := by
  have hu : ∀ i, i + 4 ≤ p.length → u32At file i = u32At p i := by
    intro i hi
    obtain ⟨t, rfl⟩ := hp
    unfold u32At
    rw [List.drop_append_of_le_length (by omega), List.take_append_of_le_length (by rw [List.length_drop]; omega)]
  have ht : ∀ i, i + 4 ≤ p.length → tagAt file i = tagAt p i := by
    intro i hi
    obtain ⟨t, rfl⟩ := hp
    unfold tagAt
    rw [List.drop_append_of_le_length (by omega), List.take_append_of_le_length (by rw [List.length_drop]; omega)]
  have hoff : 128 ≤ off ∧ (off = 148 ∨ off = 128) := by
    rcases hv.uses with ⟨rfl, -⟩ | ⟨rfl, -⟩ <;> simp
  obtain ⟨⟨a1, a2, a3, a4, a5, a6, a7, a8, a9, a10, a11⟩, a12⟩ := hv
  rw [hu _ (by omega)] at a3 a4 a5 a6 a7 a8
  have a2' : p.take 4 = [68, 68, 83, 32] := by
    obtain ⟨t, rfl⟩ := hp
    rw [← a2, List.take_append_of_le_length (by omega)]
  refine ⟨⟨by omega, a2', a3, a4, a5, a6, a7, a8, ?_, a10, a11⟩, hl⟩
  unfold Uses ExtraValid at a9 ⊢
  rw [ht _ (by omega)] at a9
  rcases a9 with a9 | ⟨rfl, a9, ⟨b0, b1, b2, b3, b4, b5⟩, c⟩
  · exact .inl a9
  · rw [hu _ (by omega)] at b1 b3 b5 c
    rw [hu _ (by omega)] at b2 b4
    rw [hu _ (by omega)] at b4
    exact .inr ⟨rfl, a9, ⟨by omega, b1, b2, b3, b4, b5⟩, c⟩

/-- Bytes after the blocks do not matter, and cutting into the blocks is an input error. -/
theorem C54_dds_exact {file p : List UInt8} (hp : p <+: file) {w h : Nat} {v : Dxt.Variant} {off : Nat} (hv : Valid file w h v off) :
    (∃ r, decode p = .ok r ∧ decode file = .ok r) ↔ off + w / 4 * (h / 4) * v.encodedBytes ≤ p.length := by
  obtain ⟨out, hf, -⟩ := C71_complete hv
  constructor
  · rintro ⟨r, h1, h2⟩
    obtain ⟨w', h', ct', out'⟩ := r
    rw [hf] at h2; cases h2
    obtain ⟨v', off', hv', -, -⟩ := C71_accepted h1
    have hc := hv'.complete
    have htag : tagAt p 84 = tagAt file 84 := by
      obtain ⟨t, rfl⟩ := hp
      have := hv'.present
      unfold tagAt
      rw [List.drop_append_of_le_length (by omega), List.take_append_of_le_length (by rw [List.length_drop]; omega)]
    have hu : ∀ i, i + 4 ≤ p.length → u32At p i = u32At file i := by
      intro i hi
      obtain ⟨t, rfl⟩ := hp
      unfold u32At
      rw [List.drop_append_of_le_length (by omega), List.take_append_of_le_length (by rw [List.length_drop]; omega)]
    have : v' = v ∧ off' = off := by
      have h1 := hv'.uses
      have h2 := hv.uses
      unfold Uses at h1 h2
      rw [htag] at h1
      rcases h1 with ⟨o1, h1⟩ | ⟨o1, h1, hx, h1'⟩
      · rcases h2 with ⟨o2, h2⟩ | ⟨o2, h2, hx, h2'⟩
        · rw [o1, o2]
          rcases h1 with ⟨a, rfl⟩ | ⟨a, rfl⟩ | ⟨a, rfl⟩ <;> rcases h2 with ⟨b, rfl⟩ | ⟨b, rfl⟩ | ⟨b, rfl⟩ <;> simp_all
        · rw [h2] at h1; simp at h1
      · have := hx.1
        rcases h2 with ⟨o2, h2⟩ | ⟨o2, h2, hx2, h2'⟩
        · rw [h1] at h2; simp at h2
        · rw [hu 128 (by omega)] at h1'
          rw [o1, o2]
          rcases h1' with ⟨a, b, rfl⟩ | ⟨a, b, rfl⟩ | ⟨a, b, rfl⟩ <;> rcases h2' with ⟨c, d, rfl⟩ | ⟨c, d, rfl⟩ | ⟨c, d, rfl⟩ <;>
            first | exact ⟨rfl, rfl⟩ | omega
    obtain ⟨rfl, rfl⟩ := this
    exact hc
  · intro hl
    obtain ⟨o, h1, -⟩ := C71_complete (valid_prefix hp hv hl)
    rcases C54_dds hp hf with h2 | h2
    · rw [h1] at h2; cases h2
    · exact ⟨_, h2, hf⟩

/-! ### A file that meets the hypotheses -/

/-- A file of 8×4 pixels: two blocks, compressed with DXT5. -/
def sample : List UInt8 :=
  [68, 68, 83, 32, 124, 0, 0, 0, 0x07, 0x10, 0x08, 0, 4, 0, 0, 0, 8, 0, 0, 0] ++ List.replicate 56 0 ++
    [32, 0, 0, 0, 4, 0, 0, 0, 68, 88, 84, 53] ++ List.replicate 40 0 ++
    [200, 100, 1, 2, 3, 4, 5, 6, 0xFF, 0xFF, 0, 0, 0, 1, 2, 3] ++ [10, 250, 0xFF, 0xFF, 0xFF, 0, 0, 0, 1, 2, 3, 4, 5, 6, 7, 8]

set_option maxRecDepth 100000 in
example : (decode sample).toOption.map (fun r => (r.1, r.2.1, r.2.2.1, r.2.2.2.length)) = some (8, 4, .Rgba8, 128) := by
  decide +kernel

set_option maxRecDepth 100000 in
example : decode (sample.take 150) = errR .io := by decide +kernel

/-- The file meets the hypothesis of `C71_complete`, `C54_dds_exact` and `C71_incomplete`. -/
theorem sample_valid : Valid sample 8 4 .DXT5 128 := by
  have h : ∃ r, decode sample = .ok r := by
    have h : (decode sample).isOk = true := by
      set_option maxRecDepth 100000 in decide +kernel
    cases hd : decode sample with
    | ok r => exact ⟨r, rfl⟩
    | error e => rw [hd] at h; cases h
  obtain ⟨⟨w, hh, ct, out⟩, h⟩ := h
  obtain ⟨v, off, hv, -, -⟩ := C71_accepted h
  have e1 : w = 8 := hv.width.trans (by set_option maxRecDepth 100000 in decide +kernel)
  have e2 : hh = 4 := hv.height.trans (by set_option maxRecDepth 100000 in decide +kernel)
  subst e1 e2
  have ht : tagAt sample 84 = [68, 88, 84, 53] := by set_option maxRecDepth 100000 in decide +kernel
  have hu := hv.uses
  unfold Uses at hu
  rw [ht] at hu
  have : v = .DXT5 ∧ off = 128 := by
    rcases hu with ⟨rfl, (⟨h, rfl⟩ | ⟨h, rfl⟩ | ⟨h, rfl⟩)⟩ | ⟨-, h, -⟩
    · simp at h
    · simp at h
    · exact ⟨rfl, rfl⟩
    · simp at h
  rw [this.1, this.2] at hv
  exact hv

end Dds

namespace Dxt

-- Non-vacuity of `C48_decode`, `C48_local`, `C48_short`: two blocks of eight bytes
example : (([1, 2, 3, 4, 5, 6, 7, 8, 9, 8, 7, 6, 5, 4, 3, 2] : List UInt8).length = 2 * 1 * Variant.encodedBytes .DXT1) ∧
    4 * 2 * (4 * 1) * (Variant.colorType .DXT1).bytesPerPixel < 2 ^ 64 := by decide

example : Decoder.readImage ⟨[1, 2, 3, 4, 5], 1, 1, .DXT1, 0⟩ (List.replicate 48 0) = errR .io := by decide +kernel

-- White and red ends: the first pixels are white, red, and the two mixtures
example : (Decoder.readImage ⟨[0xFF, 0xFF, 0, 0xF8, 0xE4, 0, 0, 0], 1, 1, .DXT1, 0⟩ (List.replicate 48 0)).map (·.take 12) =
    .ok [255, 255, 255, 255, 0, 0, 255, 170, 170, 255, 85, 85] := by decide +kernel

end Dxt
end Verif
