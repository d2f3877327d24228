import Verif.Proofs.BmpHeader
import Verif.Props.BmpTrunc
import Verif.Props.BmpTotal

/-!
# C75: the BMP decoder shows what the file says

The specification is `Verif.Spec.Bmp`.
-/

namespace Verif
namespace Bmp

open BmpSpec

theorem headerType_iff {n : Nat} {ht : HeaderType} : headerTypeOf n = .ok ht ↔
    (n = 12 ∧ ht = .Core) ∨ (n = 40 ∧ ht = .Info) ∨ (n = 52 ∧ ht = .V2) ∨ (n = 56 ∧ ht = .V3) ∨ (n = 108 ∧ ht = .V4) ∨ (n = 124 ∧ ht = .V5) := by
  unfold headerTypeOf
  repeat' split
  all_goals simp only [ok_inj, errR_ne]
  all_goals grind

/-- Which image type a compression and a number of bits give. -/
def TypeOf (comp bc : Nat) (ty : ImageType) : Prop :=
  (comp = 0 ∧ (((bc = 1 ∨ bc = 2 ∨ bc = 4 ∨ bc = 8) ∧ ty = .Palette) ∨ (bc = 16 ∧ ty = .RGB16) ∨ (bc = 24 ∧ ty = .RGB24) ∨
      (bc = 32 ∧ ty = .RGB32))) ∨ (comp = 1 ∧ bc = 8 ∧ ty = .RLE8) ∨ (comp = 2 ∧ bc = 4 ∧ ty = .RLE4) ∨
    (comp = 3 ∧ ((bc = 16 ∧ ty = .Bitfields16) ∨ (bc = 32 ∧ ty = .Bitfields32)))

/-- The conditions on the fields of the second header. -/
structure Fields (file : List UInt8) (ty : ImageType) : Prop where
  present : (if core file then 26 else 54) ≤ file.length
  width : 1 ≤ width file ∧ width file ≤ 65535
  height : 1 ≤ height file ∧ if topDown file then height file < 2 ^ 31 else height file ≤ 65535
  planes : planes file = 1
  type : TypeOf (compression file) (bits file) ty
  short : core file = true → bits file = 1 ∨ bits file = 4 ∨ bits file = 8 ∨ bits file = 24
  rle : topDown file = true → compression file = 0 ∨ compression file = 3

/-- The number of colours that the header gives. -/
def colorsUsed (file : List UInt8) : Nat := if core file then 0 else num file 46 4

theorem info_iff {file : List UInt8} {ht : HeaderType} (hht : headerTypeOf (headerSize file) = .ok ht) {r : Info × Cursor} :
    (match ht with
    | .Core => readCoreHeader false ⟨file, 18⟩
    | _ => readInfoHeader false ⟨file, 18⟩) = .ok r ↔
    ∃ ty, Fields file ty ∧
      r = (⟨width file, height file, topDown file, bits file, ty, colorsUsed file⟩, ⟨file, if core file then 26 else 54⟩) := by
  rw [headerType_iff] at hht
  have b := num_lt file 22 4
  by_cases hc : core file = true
  · have hs : headerSize file = 12 := of_decide_eq_true hc
    have : ht = .Core := by rcases hht with h | h | h | h | h | h <;> first | exact h.2 | omega
    subst this
    dsimp only
    rw [coreHeader_iff]
    have htd : topDown file = false := by unfold topDown; rw [hc]; rfl
    have hh : height file = num file 20 2 := by unfold height rawHeight; rw [htd, hc]; rfl
    have hw : width file = num file 18 2 := by unfold width; rw [hc]; rfl
    have hp : planes file = num file 22 2 := by unfold planes; rw [hc]; rfl
    have hb : bits file = num file 24 2 := by unfold bits; rw [hc]; rfl
    have hco : compression file = 0 := by unfold compression; rw [hc]; rfl
    have hcu : colorsUsed file = 0 := by unfold colorsUsed; rw [hc]; rfl
    have b1 := num_lt file 18 2
    have b2 := num_lt file 20 2
    rw [if_pos hc, hcu, htd, hh, hw, hb]
    constructor
    · rintro ⟨h1, h2, h3, h4, h5, rfl⟩
      refine ⟨_, ⟨by rw [if_pos hc]; exact h1, by omega, by rw [hh, htd, if_neg (by simp)]; omega, by omega, ?_, fun _ => by omega, fun _ => .inl hco⟩, rfl⟩
      unfold TypeOf
      rw [hb, hco]
      by_cases h : num file 24 2 = 24
      · rw [if_pos h]; left; exact ⟨rfl, .inr (.inr (.inl ⟨h, rfl⟩))⟩
      · rw [if_neg h]; left; exact ⟨rfl, .inl ⟨by omega, rfl⟩⟩
    · rintro ⟨ty, F, rfl⟩
      have h1 := F.present
      rw [if_pos hc] at h1
      have h2 := F.width
      have h3 := F.height
      have h4 := F.planes
      have h5 := F.short hc
      have h6 := F.type
      unfold TypeOf at h6
      rw [hb] at h5 h6
      rw [hco] at h6
      refine ⟨h1, by omega, by omega, by omega, h5, ?_⟩
      have : ty = if num file 24 2 = 24 then .RGB24 else .Palette := by
        split <;> grind
      rw [this]
  · have hc' : core file = false := by simpa using hc
    have hs : headerSize file ≠ 12 := of_decide_eq_false hc'
    have hne : ht ≠ .Core := by
      rcases hht with h | h | h | h | h | h
      · exact absurd h.1 hs
      all_goals rw [h.2]; decide
    have hh : height file = if num file 22 4 < 2 ^ 31 then num file 22 4 else 2 ^ 32 - num file 22 4 := by
      unfold height topDown rawHeight
      rw [hc']
      simp only [Bool.false_eq_true, if_false, Bool.not_false, Bool.true_and, decide_eq_true_iff]
      split <;> split <;> omega
    have htd : topDown file = decide (2 ^ 31 ≤ num file 22 4) := by unfold topDown rawHeight; rw [hc']; rfl
    have hw : width file = num file 18 4 := by unfold width; rw [hc']; rfl
    have hp : planes file = num file 26 2 := by unfold planes; rw [hc']; rfl
    have hb : bits file = num file 28 2 := by unfold bits; rw [hc']; rfl
    have hco : compression file = num file 30 4 := by unfold compression; rw [hc']; rfl
    have hcu : colorsUsed file = num file 46 4 := by unfold colorsUsed; rw [hc']; rfl
    suffices H : readInfoHeader false ⟨file, 18⟩ = .ok r ↔ ∃ ty, Fields file ty ∧
        r = (⟨width file, height file, topDown file, bits file, ty, colorsUsed file⟩, ⟨file, if core file then 26 else 54⟩) by
      cases ht with
      | Core => exact absurd rfl hne
      | _ => exact H
    have h54 : (if core file = true then 26 else 54) = 54 := if_neg hc
    rw [infoHeader_iff, h54, hcu, htd, hh, hw, hb]
    constructor
    · rintro ⟨h1, h2, h3, h4, h5, h6, h7, ty, hty, rfl⟩
      refine ⟨ty, ⟨by rw [hc']; exact h1, by omega, ?_, by omega, ?_, fun h => absurd h hc, ?_⟩, rfl⟩
      · rw [hh, htd]
        simp only [decide_eq_true_iff]
        constructor
        · split <;> omega
        · split <;> split <;> omega
      · rw [hco, hb]; exact imageType_iff.1 hty
      · rw [htd, hco, decide_eq_true_iff]; intro h; exact h7 (by omega)
    · rintro ⟨ty, F, rfl⟩
      have h1 := F.present
      rw [if_neg hc] at h1
      have h2 := F.width
      have h3 := F.height
      rw [hh, htd] at h3
      simp only [decide_eq_true_iff] at h3
      have h4 := F.planes
      have h5 := F.type
      rw [hco, hb] at h5
      have h6 := F.rle
      rw [htd, hco, decide_eq_true_iff] at h6
      refine ⟨h1, by omega, by omega, ?_, ?_, by omega, fun h => h6 (by omega), ty, imageType_iff.2 h5, rfl⟩
      · have := h3.1; split at this <;> omega
      · have h31 := h3.1
        have h32 := h3.2
        split at h31 <;> split at h32 <;> omega

/-- The masks that follow the header. -/
theorem bitmasks_iff {file : List UInt8} {ht : HeaderType} (hht : headerTypeOf (headerSize file) = .ok ht) (hco : core file = false) {ty : ImageType} {k : Nat}
    (hty : (ty = .Bitfields16 ∧ k = 16) ∨ (ty = .Bitfields32 ∧ k = 32)) {r : Option Bitfields × Bool × Cursor} :
    readBitmasks ht ty ⟨file, 54⟩ = .ok r ↔
      (if headerSize file < 56 then 66 else 70) ≤ file.length ∧
      ∃ f, Bitfields.fromMask (mask file 0) (mask file 1) (mask file 2) (mask file 3) k = .ok f ∧
        r = (some f, decide (mask file 3 ≠ 0), ⟨file, if headerSize file < 56 then 66 else 70⟩) := by
  rw [headerType_iff] at hht
  have hs : headerSize file ≠ 12 := of_decide_eq_false hco
  have m0 : mask file 0 = num file 54 4 := rfl
  have m1 : mask file 1 = num file 58 4 := rfl
  have m2 : mask file 2 = num file 62 4 := rfl
  have m3 : mask file 3 = if headerSize file < 56 then 0 else num file 66 4 := by
    unfold mask
    by_cases h : headerSize file < 56
    · rw [if_pos h, if_neg (by omega)]
    · rw [if_neg h, if_pos (by omega)]
  have key : ∀ (a q : Nat), a = mask file 3 → (if headerSize file < 56 then 66 else 70) = q →
      ((66 ≤ file.length ∧ q ≤ file.length) ∧ (do
        let f ← Bitfields.fromMask (num file 54 4) (num file 58 4) (num file 62 4) a k
        Except.ok (some f, decide (a ≠ 0), (⟨file, q⟩ : Cursor)) : R _) = .ok r ↔
      (if headerSize file < 56 then 66 else 70) ≤ file.length ∧
      ∃ f, Bitfields.fromMask (mask file 0) (mask file 1) (mask file 2) (mask file 3) k = .ok f ∧
        r = (some f, decide (mask file 3 ≠ 0), ⟨file, if headerSize file < 56 then 66 else 70⟩)) := by
    intro a q ha hq
    rw [hq, ha, m0, m1, m2, bind_eq_ok]
    simp only [ok_inj]
    have : 66 ≤ q := by rw [← hq]; split <;> omega
    constructor
    · rintro ⟨h1, h2⟩
      exact ⟨h1.2, h2⟩
    · rintro ⟨h1, h2⟩
      exact ⟨⟨by omega, h1⟩, h2⟩
  unfold readBitmasks
  simp only [bind_readU (show 0 < 4 by decide), Nat.reduceAdd]
  rcases hht with h | h | h | h | h | h
  · exact absurd h.1 hs
  all_goals
    obtain ⟨hsz, rfl⟩ := h
    dsimp only
  · rw [← key 0 66 (by rw [m3, if_pos (by omega)]) (by rw [if_pos (by omega)])]
    rcases hty with ⟨rfl, rfl⟩ | ⟨rfl, rfl⟩ <;> simp only [ok_bind] <;> grind
  · rw [← key 0 66 (by rw [m3, if_pos (by omega)]) (by rw [if_pos (by omega)])]
    rcases hty with ⟨rfl, rfl⟩ | ⟨rfl, rfl⟩ <;> simp only [ok_bind] <;> grind
  all_goals
    rw [← key (num file 66 4) 70 (by rw [m3, if_neg (by omega)]) (by rw [if_neg (by omega)])]
    rcases hty with ⟨rfl, rfl⟩ | ⟨rfl, rfl⟩ <;> simp only [bind_readU (show 0 < 4 by decide), Nat.reduceAdd] <;> grind

/-- What is known of the decoder after the headers of a file with uncompressed pixels. -/
structure Reads (file : List UInt8) (d : Decoder) : Prop where
  width : d.width = width file
  height : d.height = height file
  offset : d.dataOffset = dataOffset file
  topDown : d.topDown = topDown file
  bits : d.bitCount = bits file
  bytes : d.reader.bytes = file
  channels : d.channels = channels file
  plain : Plain d
  shows : ∀ v, (BmpSpec.bits file ≤ 8 → v < 256) → Shows file v (pixOf d v) ∧ (pixOf d v).length = BmpSpec.channels file

theorem fieldSamples_shows {file : List UInt8} (hc : compression file = 3) {f : Bitfields} {k : Nat} (hk : k ≤ 32)
    (hf : Bitfields.fromMask (mask file 0) (mask file 1) (mask file 2) (mask file 3) k = .ok f) (v : Nat) :
    Shows file v (fieldSamples f (channels file) v) ∧ (fieldSamples f (channels file) v).length = channels file := by
  have lt : ∀ j, mask file j < 2 ^ 32 := by
    intro j; unfold mask; split
    · exact num_lt file _ 4
    · omega
  obtain ⟨⟨h1, h2, h3⟩, h4, h5⟩ := bitfields_samples (lt 0) (lt 1) (lt 2) (lt 3) hk hf v
  unfold Shows fieldSamples
  rw [if_pos hc]
  by_cases h0 : mask file 3 = 0
  · have hch : channels file = 3 := by unfold channels hasAlpha; rw [decide_eq_false (by omega)]; rfl
    rw [hch, if_neg (by decide)]
    exact ⟨⟨_, _, _, h1, h2, h3, by rw [if_pos h0]⟩, rfl⟩
  · have hch : channels file = 4 := by unfold channels hasAlpha; rw [decide_eq_true ⟨hc, h0⟩]; rfl
    obtain ⟨h6, h7⟩ := h5 h0
    rw [hch, if_pos rfl, if_pos h6]
    exact ⟨⟨_, _, _, h1, h2, h3, by rw [if_neg h0]; exact ⟨_, h7, rfl⟩⟩, rfl⟩

theorem mask555_shows (v : Nat) : Sample (ones 10 5) v (sampleOf mask555.r v) ∧ Sample (ones 5 5) v (sampleOf mask555.g v) ∧
    Sample (ones 0 5) v (sampleOf mask555.b v) := by
  refine ⟨?_, ?_, ?_⟩
  · exact field_sample (k := 16) (f := ⟨10, 5⟩) (by decide) (by decide) (by decide) (by decide +kernel) v
  · exact field_sample (k := 16) (f := ⟨5, 5⟩) (by decide) (by decide) (by decide) (by decide +kernel) v
  · exact field_sample (k := 16) (f := ⟨0, 5⟩) (by decide) (by decide) (by decide) (by decide +kernel) v

theorem shows_palette {file : List UInt8} (hc : compression file = 0) (hb : bits file ≤ 8) {v : Nat} (hv : v < 256) :
    Shows file v (rgbBytes (lookup ((List.range 256).map (entryOf file (14 + headerSize file) (entrySize file) (colours file))) v)) ∧
    (rgbBytes (lookup ((List.range 256).map (entryOf file (14 + headerSize file) (entrySize file) (colours file))) v)).length = channels file := by
  constructor
  · unfold Shows
    rw [if_neg (by omega), if_pos hb]
    unfold lookup
    rw [List.getD_eq_getElem?_getD, List.getElem?_map, List.getElem?_range hv]
    unfold colour
    simp only [Option.map_some, Option.getD_some]
    unfold entryOf
    split
    · rfl
    · rfl
  · unfold channels hasAlpha
    rw [decide_eq_false (by omega)]; rfl

/-- `read_metadata` after the second header. -/
def metaTail (file : List UInt8) (ht : HeaderType) (ty : ImageType) : R Decoder := do
  let (fields, alpha, c) ← (match ty with
    | .Bitfields16 | .Bitfields32 => readBitmasks ht ty ⟨file, if core file then 26 else 54⟩
    | _ => .ok (none, false, ⟨file, if core file then 26 else 54⟩))
  let (_, c) ← c.seekStart (14 + headerSize file)
  let (palette, c) ← (match ty with
    | .Palette | .RLE4 | .RLE8 => do
      let (p, c) ← readPalette ht (colorsUsed file) (bits file) c
      .ok (some p, c)
    | _ => .ok (none, c))
  .ok ⟨c, ht, false, width file, height file, dataOffset file, topDown file, alpha, ty, bits file, colorsUsed file, palette, fields⟩

theorem bind_iff {α β : Type} {x : R α} {P : Prop} {v : α} (h : ∀ a, x = .ok a ↔ P ∧ a = v) {k : α → R β} {r : β} :
    (x >>= k) = .ok r ↔ P ∧ k v = .ok r := by
  rw [bind_eq_ok]
  constructor
  · rintro ⟨a, h1, h2⟩
    obtain ⟨h3, rfl⟩ := (h a).1 h1
    exact ⟨h3, h2⟩
  · rintro ⟨h1, h2⟩
    exact ⟨v, (h v).2 ⟨h1, rfl⟩, h2⟩

theorem new_cases {file : List UInt8} {d : Decoder} : Decoder.new file = .ok d ↔
    (18 ≤ file.length ∧ file.take 2 = [0x42, 0x4D]) ∧ ∃ ht, headerTypeOf (headerSize file) = .ok ht ∧ ∃ ty, Fields file ty ∧ metaTail file ht ty = .ok d := by
  unfold Decoder.new readMetadata
  rw [if_neg (by simp), bind_iff (P := 14 ≤ file.length ∧ file.take 2 = [66, 77]) (v := (num file 10 4, ⟨file, 14⟩))
    (fun a => by rw [fileHeader_iff, and_assoc])]
  dsimp only
  rw [bind_readU (by decide)]
  dsimp only [Nat.reduceAdd]
  rw [bind_eq_ok]
  have K : ∀ ht, headerTypeOf (headerSize file) = .ok ht → ∀ k : Info × Cursor → R Decoder, ((do
      let r ← (match ht with
        | .Core => readCoreHeader false ⟨file, 18⟩
        | _ => readInfoHeader false ⟨file, 18⟩)
      k r) = .ok d ↔ ∃ ty, Fields file ty ∧
        k (⟨width file, height file, topDown file, bits file, ty, colorsUsed file⟩, ⟨file, if core file then 26 else 54⟩) = .ok d) := by
    intro ht hht k
    rw [bind_eq_ok]
    constructor
    · rintro ⟨r, h1, h2⟩
      obtain ⟨ty, h3, rfl⟩ := (info_iff hht).1 h1
      exact ⟨ty, h3, h2⟩
    · rintro ⟨ty, h1, h2⟩
      exact ⟨_, (info_iff hht).2 ⟨ty, h1, rfl⟩, h2⟩
  constructor
  · rintro ⟨⟨h1, h2⟩, h3, ht, h4, h5⟩
    obtain ⟨ty, h6, h7⟩ := (K ht h4 _).1 h5
    exact ⟨⟨h3, h2⟩, ht, h4, ty, h6, h7⟩
  · rintro ⟨⟨h1, h2⟩, ht, h4, ty, h6, h7⟩
    exact ⟨⟨by omega, h2⟩, h1, ht, h4, (K ht h4 _).2 ⟨ty, h6, h7⟩⟩

theorem bytesPerColor_eq {file : List UInt8} {ht : HeaderType} (hht : headerTypeOf (headerSize file) = .ok ht) : bytesPerColor ht = entrySize file := by
  rw [headerType_iff] at hht
  unfold entrySize core
  rcases hht with h | h | h | h | h | h <;> obtain ⟨h, rfl⟩ := h <;> rw [h] <;> rfl

/-- What the tail yields for each image type. -/
theorem tail_iff {file : List UInt8} {ht : HeaderType} (hht : headerTypeOf (headerSize file) = .ok ht) {ty : ImageType} (F : Fields file ty)
    (hc : compression file = 0 ∨ compression file = 3) {d : Decoder} : metaTail file ht ty = .ok d ↔
    (bits file ≤ 8 → colours file ≤ 2 ^ bits file ∧ 14 + headerSize file + colours file * entrySize file ≤ file.length) ∧
    (compression file = 3 → (if headerSize file < 56 then 66 else 70) ≤ file.length) ∧
    ∃ bf, (if compression file = 3 then ∃ f, bf = some f ∧ Bitfields.fromMask (mask file 0) (mask file 1) (mask file 2) (mask file 3) (bits file) = .ok f
        else bf = none) ∧
      d = ⟨⟨file, if bits file ≤ 8 then 14 + headerSize file + colours file * entrySize file else 14 + headerSize file⟩, ht, false, width file,
        height file, dataOffset file, topDown file, hasAlpha file, ty, bits file, colorsUsed file,
        if bits file ≤ 8 then some ((List.range 256).map (entryOf file (14 + headerSize file) (entrySize file) (colours file))) else none, bf⟩ := by
  have T := F.type
  have hcu : (if colorsUsed file = 0 then 2 ^ bits file else colorsUsed file) = colours file := by
    unfold colorsUsed colours
    by_cases h : core file = true
    · rw [if_pos h, if_pos rfl, if_pos (.inl h)]
    · rw [if_neg h]
      by_cases h0 : num file 46 4 = 0
      · rw [if_pos h0, if_pos (.inr h0)]
      · rw [if_neg h0, if_neg (fun h' => h'.elim h h0)]
  unfold metaTail
  rcases hc with hc | hc
  · have ha : hasAlpha file = false := by unfold hasAlpha; rw [decide_eq_false (by omega)]
    have plainCase : ∀ k : R Decoder, bits file > 8 → k = .ok ⟨⟨file, 14 + headerSize file⟩, ht, false, width file,
        height file, dataOffset file, topDown file, false, ty, bits file, colorsUsed file, none, none⟩ → (k = .ok d ↔
        (bits file ≤ 8 → colours file ≤ 2 ^ bits file ∧ 14 + headerSize file + colours file * entrySize file ≤ file.length) ∧
        (compression file = 3 → (if headerSize file < 56 then 66 else 70) ≤ file.length) ∧
        ∃ bf, (if compression file = 3 then ∃ f, bf = some f ∧ Bitfields.fromMask (mask file 0) (mask file 1) (mask file 2) (mask file 3) (bits file) = .ok f
            else bf = none) ∧
          d = ⟨⟨file, if bits file ≤ 8 then 14 + headerSize file + colours file * entrySize file else 14 + headerSize file⟩, ht, false, width file,
            height file, dataOffset file, topDown file, hasAlpha file, ty, bits file, colorsUsed file,
            if bits file ≤ 8 then some ((List.range 256).map (entryOf file (14 + headerSize file) (entrySize file) (colours file))) else none, bf⟩) := by
      intro k hb hk
      rw [hk, ok_inj, ha]
      simp only [if_neg (show ¬ compression file = 3 by omega), if_neg (show ¬ bits file ≤ 8 by omega)]
      constructor
      · rintro rfl
        exact ⟨fun h => by omega, fun h => by omega, none, rfl, rfl⟩
      · rintro ⟨-, -, bf, rfl, rfl⟩
        rfl
    rcases T with ⟨-, (⟨hb, rfl⟩ | ⟨hb, rfl⟩ | ⟨hb, rfl⟩ | ⟨hb, rfl⟩)⟩ | ⟨h, -⟩ | ⟨h, -⟩ | ⟨h, -⟩
    · have hb8 : bits file ≤ 8 := by omega
      dsimp only
      rw [ok_bind]
      dsimp only [Cursor.seekStart]
      rw [ok_bind]
      dsimp only
      rw [bind_iff (P := colours file ≤ 2 ^ bits file ∧ 14 + headerSize file + colours file * entrySize file ≤ file.length)
        (v := (some ((List.range 256).map (entryOf file (14 + headerSize file) (entrySize file) (colours file))),
          ⟨file, 14 + headerSize file + colours file * entrySize file⟩)) (by
          intro a
          rw [bind_iff (P := colours file ≤ 2 ^ bits file ∧ 14 + headerSize file + colours file * entrySize file ≤ file.length)
            (v := ((List.range 256).map (entryOf file (14 + headerSize file) (entrySize file) (colours file)),
              ⟨file, 14 + headerSize file + colours file * entrySize file⟩)) (by
              intro b
              rw [palette_iff hb8 hcu.symm, bytesPerColor_eq hht, and_assoc])]
          dsimp only
          rw [ok_inj])]
      dsimp only
      rw [ok_inj, ha]
      simp only [if_pos hb8, if_neg (show ¬ compression file = 3 by omega)]
      constructor
      · rintro ⟨h1, rfl⟩
        exact ⟨fun _ => h1, fun h => by omega, none, rfl, rfl⟩
      · rintro ⟨h1, -, bf, rfl, rfl⟩
        exact ⟨h1 hb8, rfl⟩
    · exact plainCase _ (by omega) rfl
    · exact plainCase _ (by omega) rfl
    · exact plainCase _ (by omega) rfl
    all_goals omega
  · have hco : core file = false := by
      cases h : core file with
      | false => rfl
      | true => unfold compression at hc; rw [h] at hc; simp at hc
    have ha : hasAlpha file = decide (mask file 3 ≠ 0) := by
      unfold hasAlpha; rw [decide_eq_decide]; simp [hc]
    have hk : (ty = .Bitfields16 ∧ bits file = 16) ∨ (ty = .Bitfields32 ∧ bits file = 32) := by
      rcases T with ⟨h, -⟩ | ⟨h, -⟩ | ⟨h, -⟩ | ⟨-, (⟨hb, rfl⟩ | ⟨hb, rfl⟩)⟩
      · omega
      · omega
      · omega
      · exact .inl ⟨rfl, hb⟩
      · exact .inr ⟨rfl, hb⟩
    have h54 : (if core file = true then 26 else 54) = 54 := by rw [hco]; rfl
    have hm := fun r => bitmasks_iff hht hco hk (r := r)
    rw [h54, ha]
    simp only [if_pos hc]
    have main : ∀ k : Option Bitfields × Bool × Cursor → R Decoder, ((do
        let r ← readBitmasks ht ty ⟨file, 54⟩
        k r) = .ok d ↔ (if headerSize file < 56 then 66 else 70) ≤ file.length ∧
        ∃ f, Bitfields.fromMask (mask file 0) (mask file 1) (mask file 2) (mask file 3) (bits file) = .ok f ∧
          k (some f, decide (mask file 3 ≠ 0), ⟨file, if headerSize file < 56 then 66 else 70⟩) = .ok d) := by
      intro k
      rw [bind_eq_ok]
      constructor
      · rintro ⟨r, h1, h2⟩
        obtain ⟨h3, f, h4, rfl⟩ := (hm r).1 h1
        exact ⟨h3, f, h4, h2⟩
      · rintro ⟨h3, f, h4, h2⟩
        exact ⟨_, (hm _).2 ⟨h3, f, h4, rfl⟩, h2⟩
    have fin : (∃ f, Bitfields.fromMask (mask file 0) (mask file 1) (mask file 2) (mask file 3) (bits file) = .ok f ∧
          (Except.ok ⟨⟨file, 14 + headerSize file⟩, ht, false, width file, height file, dataOffset file, topDown file, decide (mask file 3 ≠ 0), ty, bits file,
            colorsUsed file, none, some f⟩ : R Decoder) = .ok d) ↔
        ∃ bf, (∃ f, bf = some f ∧ Bitfields.fromMask (mask file 0) (mask file 1) (mask file 2) (mask file 3) (bits file) = .ok f) ∧
          d = ⟨⟨file, 14 + headerSize file⟩, ht, false, width file, height file, dataOffset file, topDown file, decide (mask file 3 ≠ 0), ty, bits file,
            colorsUsed file, none, bf⟩ := by
      constructor
      · rintro ⟨f, h1, h2⟩
        exact ⟨_, ⟨f, rfl, h1⟩, ok_inj.1 h2⟩
      · rintro ⟨_, ⟨f, rfl, h1⟩, h2⟩
        exact ⟨f, h1, ok_inj.2 h2⟩
    rcases hk with ⟨rfl, hb⟩ | ⟨rfl, hb⟩
    all_goals
      dsimp only
      rw [main]
      simp only [if_neg (show ¬ bits file ≤ 8 by omega)]
      rw [← fin]
      constructor
      · rintro ⟨h1, h2⟩
        exact ⟨fun h => by omega, fun _ => h1, h2⟩
      · rintro ⟨-, h1, h2⟩
        exact ⟨h1 hc, h2⟩

/-- The headers: what is accepted, and what the decoder knows then. -/
theorem new_iff {file : List UInt8} (hc : compression file = 0 ∨ compression file = 3) :
    ((∃ d, Decoder.new file = .ok d) ↔ Header file) ∧ ∀ d, Decoder.new file = .ok d → Reads file d := by
  have lt : ∀ j, mask file j < 2 ^ 32 := by
    intro j; unfold mask; split
    · exact num_lt file _ 4
    · omega
  have h12 : core file = true → compression file = 0 := by
    intro h; unfold compression; rw [if_pos h]
  constructor
  · constructor
    · rintro ⟨d, hd⟩
      obtain ⟨⟨h1, h2⟩, ht, hht, ty, F, hd⟩ := new_cases.1 hd
      obtain ⟨h3, h4, bf, h5, -⟩ := (tail_iff hht F hc).1 hd
      have T := F.type
      unfold TypeOf at T
      refine ⟨h2, ?_, F.present, F.width, F.height, F.planes, ?_, h3, ?_⟩
      · have := headerType_iff.1 hht; omega
      · rcases hc with hc | hc
        · left
          refine ⟨hc, ?_⟩
          cases hco : core file with
          | true => have := F.short hco; omega
          | false =>
            have : bits file = 1 ∨ bits file = 2 ∨ bits file = 4 ∨ bits file = 8 ∨ bits file = 16 ∨ bits file = 24 ∨ bits file = 32 := by omega
            simp only [true_and]
            omega
        · right
          refine ⟨hc, ?_⟩
          omega
      · intro h
        rw [if_pos h] at h5
        obtain ⟨f, -, h5⟩ := h5
        obtain ⟨⟨n1, n2, n3⟩, m0, m1, m2, m3⟩ := (bitfields_iff (lt 0) (lt 1) (lt 2) (lt 3) (by omega)).1 ⟨f, h5⟩
        refine ⟨h4 h, ?_, ?_⟩
        · intro k hk
          match k, hk with
          | 0, _ => exact n1
          | 1, _ => exact n2
          | 2, _ => exact n3
        · intro k hk
          match k, hk with
          | 0, _ => exact m0
          | 1, _ => exact m1
          | 2, _ => exact m2
          | 3, _ => exact m3
    · intro H
      obtain ⟨ht, hht⟩ : ∃ ht, headerTypeOf (headerSize file) = .ok ht := by
        rcases H.size with h | h | h | h | h | h <;> rw [h] <;> exact ⟨_, rfl⟩
      have D := H.depth
      obtain ⟨ty, T⟩ : ∃ ty, TypeOf (compression file) (bits file) ty := by
        unfold TypeOf
        rcases D with ⟨c, b⟩ | ⟨c, b⟩
        · by_cases h16 : bits file = 16
          · exact ⟨.RGB16, .inl ⟨c, .inr (.inl ⟨h16, rfl⟩)⟩⟩
          · by_cases h24 : bits file = 24
            · exact ⟨.RGB24, .inl ⟨c, .inr (.inr (.inl ⟨h24, rfl⟩))⟩⟩
            · by_cases h32 : bits file = 32
              · exact ⟨.RGB32, .inl ⟨c, .inr (.inr (.inr ⟨h32, rfl⟩))⟩⟩
              · exact ⟨.Palette, .inl ⟨c, .inl ⟨by omega, rfl⟩⟩⟩
        · by_cases h16 : bits file = 16
          · exact ⟨.Bitfields16, .inr (.inr (.inr ⟨c, .inl ⟨h16, rfl⟩⟩))⟩
          · exact ⟨.Bitfields32, .inr (.inr (.inr ⟨c, .inr ⟨by omega, rfl⟩⟩))⟩
      have F : Fields file ty := ⟨H.present, H.width, H.height, H.planes, T, by
        intro h
        have := h12 h
        rw [h] at D
        simp at D
        omega, fun _ => hc⟩
      have hp := H.present
      have hbf : ∃ bf, (if compression file = 3 then ∃ f, bf = some f ∧ Bitfields.fromMask (mask file 0) (mask file 1) (mask file 2) (mask file 3) (bits file) = .ok f
        else bf = none) := by
        by_cases h3 : compression file = 3
        · simp only [if_pos h3]
          obtain ⟨-, h5, h6⟩ := H.masks h3
          obtain ⟨f, hf⟩ := (bitfields_iff (lt 0) (lt 1) (lt 2) (lt 3) (k := bits file) (by omega)).2
            ⟨⟨h5 0 (by decide), h5 1 (by decide), h5 2 (by decide)⟩, h6 0 (by decide), h6 1 (by decide), h6 2 (by decide), h6 3 (by decide)⟩
          exact ⟨_, f, rfl, hf⟩
        · simp only [if_neg h3]
          exact ⟨_, rfl⟩
      obtain ⟨bf, hbf⟩ := hbf
      refine ⟨_, new_cases.2 ⟨⟨by split at hp <;> omega, H.magic⟩, ht, hht, ty, F, (tail_iff hht F hc).2 ⟨H.palette, fun h => (H.masks h).1, bf, hbf, rfl⟩⟩⟩
  · intro d hd
    have ht := readMetadata_total false false ⟨file, 0⟩
    rw [show readMetadata false false ⟨file, 0⟩ = .ok d from hd] at ht
    obtain ⟨hg, -, -, -, -⟩ := ht
    obtain ⟨-, ht, hht, ty, F, hd⟩ := new_cases.1 hd
    obtain ⟨-, -, bf, hbf, rfl⟩ := (tail_iff hht F hc).1 hd
    have T := F.type
    have hch : numChannels false (hasAlpha file) = channels file := by
      unfold numChannels channels; cases hasAlpha file <;> rfl
    have hch3 : compression file = 0 → channels file = 3 := by
      intro h; unfold channels hasAlpha; rw [decide_eq_false (by omega)]; rfl
    refine ⟨rfl, rfl, rfl, rfl, rfl, rfl, hch, ⟨hg, ?_, ?_, ?_, ?_, ?_, ?_, ?_, ?_⟩, ?_⟩
    all_goals try dsimp only
    · unfold TypeOf at T
      refine ⟨?_, ?_, ?_⟩ <;> rintro rfl <;> simp at T <;> omega
    · rintro rfl
      unfold TypeOf at T
      simp at T
      exact ⟨T.2, hch.trans (hch3 T.1)⟩
    · rintro rfl
      unfold TypeOf at T
      simp at T
      exact ⟨T.2, hch.trans (hch3 T.1)⟩
    · rintro rfl
      unfold TypeOf at T
      simp at T
      exact ⟨T.2, hch.trans (hch3 T.1)⟩
    · rintro rfl
      unfold TypeOf at T
      simp at T
      exact hch.trans (hch3 T.1)
    · rintro rfl
      unfold TypeOf at T
      simp at T
      exact T.2
    · rintro rfl
      unfold TypeOf at T
      simp at T
      exact T.2
    · intro hty f hf
      have h3 : compression file = 3 := by
        unfold TypeOf at T
        rcases hty with rfl | rfl <;> simp at T <;> exact T.1
      rw [if_pos h3] at hbf
      obtain ⟨f', rfl, hf'⟩ := hbf
      cases hf
      have hk : bits file ≤ 32 := by unfold TypeOf at T; omega
      obtain ⟨-, a1, a2⟩ := bitfields_samples (lt 0) (lt 1) (lt 2) (lt 3) hk hf' 0
      refine hch.trans ?_
      unfold channels hasAlpha
      by_cases h0 : mask file 3 = 0
      · rw [decide_eq_false (by omega), if_neg (by simp), if_neg (by simp [a1 h0])]
      · rw [decide_eq_true ⟨h3, h0⟩, if_pos rfl, if_pos (a2 h0).1]
    · intro v hv
      unfold pixOf
      dsimp only
      rcases T with ⟨c0, (⟨hb, rfl⟩ | ⟨hb, rfl⟩ | ⟨hb, rfl⟩ | ⟨hb, rfl⟩)⟩ | ⟨h, -⟩ | ⟨h, -⟩ | ⟨c3, hb⟩
      · have h8 : bits file ≤ 8 := by omega
        dsimp only
        rw [if_pos h8]
        exact shows_palette c0 h8 (hv h8)
      · refine ⟨?_, (hch3 c0).symm⟩
        unfold Shows
        rw [if_neg (by omega), if_neg (by omega), if_pos hb]
        obtain ⟨s1, s2, s3⟩ := mask555_shows v
        exact ⟨_, _, _, s1, s2, s3, rfl⟩
      · refine ⟨?_, (hch3 c0).symm⟩
        unfold Shows
        rw [if_neg (by omega), if_neg (by omega), if_neg (by omega)]
      · refine ⟨?_, (hch3 c0).symm⟩
        unfold Shows
        rw [if_neg (by omega), if_neg (by omega), if_neg (by omega)]
      · omega
      · omega
      · rw [if_pos c3] at hbf
        obtain ⟨f, rfl, hf⟩ := hbf
        have := fieldSamples_shows c3 (by omega) hf v
        rw [← hch] at this ⊢
        rcases hb with ⟨hb, rfl⟩ | ⟨hb, rfl⟩ <;> exact this

theorem inRow_small {bits : Nat} (h : bits ≤ 8) (row : List UInt8) (x : Nat) : inRow bits row x < 256 := by
  unfold inRow
  by_cases h8 : bits < 8
  · rw [if_pos h8]
    have : 2 ^ bits ≤ 2 ^ 8 := Nat.pow_le_pow_right (by decide) h
    have := Nat.mod_lt ((row.getD (x * bits / 8) 0).toNat / 2 ^ (8 - bits - x * bits % 8)) (Nat.two_pow_pos bits)
    omega
  · rw [if_neg h8]
    have : bits = 8 := by omega
    subst this
    have := leNat_lt ((row.drop (x * (8 / 8))).take (8 / 8))
    have hl : ((row.drop (x * (8 / 8))).take (8 / 8)).length ≤ 1 := by rw [List.length_take]; omega
    exact Nat.lt_of_lt_of_le this (Nat.pow_le_pow_right (by decide) hl : 256 ^ _ ≤ 256 ^ 1)

/-- The pixel in a list of rows of pixels. -/
theorem pixel_of_rows {α : Type} {w h n : Nat} (f : Nat → Nat → List α) (hf : ∀ y x, (f y x).length = n) {x y : Nat} (hx : x < w) (hy : y < h) :
    ((((List.range h).flatMap fun y => (List.range w).flatMap (f y)).drop ((y * w + x) * n)).take n) = f y x := by
  have row : ∀ y, ((List.range w).flatMap (f y)).length = w * n := fun y => by
    rw [length_flatMap_const (n := n) _ _ (fun b _ => hf y b), List.length_range]
  have e : (y * w + x) * n = y * (w * n) + x * n := by rw [Nat.add_mul, Nat.mul_assoc]
  rw [e, ← List.drop_drop, drop_flatMap_const (n := w * n) _ _ (fun b _ => row b)]
  have d : (List.range h).drop y = y :: (List.range h).drop (y + 1) := by
    rw [List.drop_eq_getElem_cons (by simpa using hy), List.getElem_range]
  have d2 : (List.range w).drop x = x :: (List.range w).drop (x + 1) := by
    rw [List.drop_eq_getElem_cons (by simpa using hx), List.getElem_range]
  have hle : (x + 1) * n ≤ w * n := Nat.mul_le_mul_right _ hx
  rw [Nat.succ_mul] at hle
  rw [d, List.flatMap_cons, List.drop_append_of_le_length (by rw [row]; omega), drop_flatMap_const (n := n) _ _ (fun b _ => hf y b), d2,
    List.flatMap_cons, List.append_assoc, List.take_left' (hf y x)]

/-- Decoding, when the headers have been read. -/
theorem decode_of {file : List UInt8} {d : Decoder} (hd : Decoder.new file = .ok d) (D : Reads file d) (C : Complete file) :
    decode file = .ok (width file, height file, if hasAlpha file then .Rgba8 else .Rgb8,
      (List.range (height file)).flatMap fun y => (List.range (width file)).flatMap fun x => pixOf d (stored file x y)) := by
  have G := D.plain.good
  have hct := channels_eq G.indexed
  have hch : d.channels = 3 ∨ d.channels = 4 := hct.2.1
  have hw := G.width
  have hh := G.height
  have ht := totalBytes_eq G
  have hcol : d.colorType = if hasAlpha file then .Rgba8 else .Rgb8 := by
    have h1 := D.channels
    rw [hct.1] at h1
    unfold channels at h1
    unfold Decoder.colorType
    rw [G.indexed]
    revert h1
    cases d.addAlpha <;> cases hasAlpha file <;> simp
  unfold Complete at C
  unfold decode
  rw [hd, ok_bind]
  unfold Decoder.readImage
  rw [ht, decide_eq_true (List.length_replicate ..), assertR_true, ok_bind, readImageData_file D.plain rfl (by simp) (by
    rw [List.length_drop, D.bytes, D.bits, D.width, D.height, D.offset]
    unfold BmpSpec.stride at C
    omega), ok_bind, hcol, D.width, D.height]
  have : (fun y => rowPixels d.bitCount (width file) (pixOf d) (rowBytesAt d ((d.bitCount * width file + 31) / 32 * 4) y)) =
      fun y => (List.range (width file)).flatMap fun x => pixOf d (stored file x y) := by
    funext y
    unfold rowPixels rowBytesAt stored rowAt BmpSpec.stride
    rw [D.bits, D.bytes, D.offset, D.topDown, D.height, List.drop_drop]
  rw [this]

/-- **C75**: a file without compression decodes exactly if its headers are well formed and all its rows are there. -/
theorem C75_accepts (file : List UInt8) (hc : compression file = 0 ∨ compression file = 3) :
    (∃ r, decode file = .ok r) ↔ Header file ∧ Complete file := by
  constructor
  · rintro ⟨r, h⟩
    have h' := h
    unfold decode at h'
    rw [bind_eq_ok] at h'
    obtain ⟨d, hd, -⟩ := h'
    have D := (new_iff hc).2 d hd
    have := C54_bmp_rows_present hd ⟨D.plain.type.1, D.plain.type.2.1⟩ h
    rw [D.offset, D.height, D.bits, D.width] at this
    exact ⟨(new_iff hc).1.1 ⟨d, hd⟩, this⟩
  · rintro ⟨H, C⟩
    obtain ⟨d, hd⟩ := (new_iff hc).1.2 H
    exact ⟨_, decode_of hd ((new_iff hc).2 d hd) C⟩

/-- **C75**: and then the decoder reports the width, the height and the colour type of the file, and every pixel of its output has the colour that
the file gives it. -/
theorem C75_pixels (file : List UInt8) (hc : compression file = 0 ∨ compression file = 3) {w h : Nat} {ct : ColorType} {out : List UInt8}
    (hd : decode file = .ok (w, h, ct, out)) :
    w = width file ∧ h = height file ∧ (ct = if hasAlpha file then .Rgba8 else .Rgb8) ∧ out.length = w * h * channels file ∧
    ∀ x y, x < w → y < h → Pixel file x y ((out.drop ((y * w + x) * channels file)).take (channels file)) := by
  have C := ((C75_accepts file hc).1 ⟨_, hd⟩).2
  have h' := hd
  unfold decode at h'
  rw [bind_eq_ok] at h'
  obtain ⟨d, hn, -⟩ := h'
  have D := (new_iff hc).2 d hn
  rw [decode_of hn D C] at hd
  cases hd
  have S : ∀ y x, Shows file (stored file x y) (pixOf d (stored file x y)) ∧ (pixOf d (stored file x y)).length = channels file :=
    fun y x => D.shows _ (fun hb => inRow_small hb _ _)
  refine ⟨rfl, rfl, rfl, ?_, ?_⟩
  · rw [length_flatMap_const (n := width file * channels file), List.length_range, Nat.mul_left_comm, Nat.mul_assoc]
    intro y _
    rw [length_flatMap_const (n := channels file) _ _ (fun x _ => (S y x).2), List.length_range]
  · intro x y hx hy
    rw [pixel_of_rows (fun y x => pixOf d (stored file x y)) (fun y x => (S y x).2) hx hy]
    exact (S y x).1

/-! Two files: a bottom-up one with a short header and two-coloured pixels (3x2), and one with bit fields for all four channels (2x1). -/

def shortFile : List UInt8 :=
  [66, 77, 40, 0, 0, 0, 0, 0, 0, 0, 32, 0, 0, 0, 12, 0, 0, 0, 3, 0, 2, 0, 1, 0, 1, 0, 0, 0, 255, 10, 20, 30, 0b10100000, 0, 0, 0, 0b01100000, 0, 0, 0]

def fieldsFile : List UInt8 :=
  [66, 77, 78, 0, 0, 0, 0, 0, 0, 0, 70, 0, 0, 0, 56, 0, 0, 0, 2, 0, 0, 0, 255, 255, 255, 255, 1, 0, 32, 0, 3, 0, 0, 0] ++ List.replicate 20 0 ++
    [0, 0, 0, 0xFF, 0, 0, 0xFF, 0, 0, 0xFF, 0, 0, 0x0F, 0, 0, 0, 5, 6, 7, 8, 15, 0, 128, 255]

set_option maxRecDepth 100000 in
example : decode shortFile = .ok (3, 2, .Rgb8, [255, 0, 0, 30, 20, 10, 30, 20, 10, 30, 20, 10, 255, 0, 0, 30, 20, 10]) := by decide +kernel

set_option maxRecDepth 100000 in
example : decode fieldsFile = .ok (2, 1, .Rgba8, [8, 7, 6, 85, 255, 128, 0, 255]) := by decide +kernel

example : (compression shortFile = 0 ∨ compression shortFile = 3) ∧ stored shortFile 2 1 = 1 := by decide

example : compression fieldsFile = 3 ∧ mask fieldsFile 3 = 15 ∧ topDown fieldsFile = true ∧ stored fieldsFile 0 0 = 0x08070605 := by decide +kernel

end Bmp
end Verif
