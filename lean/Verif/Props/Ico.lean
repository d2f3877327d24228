import Verif.Proofs.Ico

/-!
# ICO: the entry chosen (C53), the decoder on arbitrary bytes (C72), the mask (C73), truncated files (C54)
-/

namespace Verif
namespace Ico

/-! ## The directory -/

/-- The little-endian number in the `n` bytes of `file` at `pos`. -/
def field (file : List UInt8) (pos n : Nat) : Nat := leNat ((file.drop pos).take n)

/-- Entry `i` of the directory: 16 bytes each, after a header of 6 bytes. -/
def entryAt (file : List UInt8) (i : Nat) : DirEntry where
  width := field file (6 + 16 * i) 1
  height := field file (6 + 16 * i + 1) 1
  bitsPerPixel := field file (6 + 16 * i + 6) 2
  imageLength := field file (6 + 16 * i + 8) 4
  imageOffset := field file (6 + 16 * i + 12) 4

/-- The number of entries that the header announces. -/
def entryCount (file : List UInt8) : Nat := field file 4 2

/-- The width or height that a size byte stands for. -/
def sizeByte (b : Nat) : Nat := if b = 0 then 256 else b

/-- `a` is not a better entry than `b`: fewer bits per pixel, or as many and no more pixels. -/
def NotBetter (a b : DirEntry) : Prop :=
  a.bitsPerPixel < b.bitsPerPixel ∨
    a.bitsPerPixel = b.bitsPerPixel ∧ sizeByte a.width * sizeByte a.height ≤ sizeByte b.width * sizeByte b.height

instance (a b : DirEntry) : Decidable (NotBetter a b) := inferInstanceAs (Decidable (_ ∨ _))

theorem scoreGt_false {a b : DirEntry} : scoreGt a.score b.score = false ↔ NotBetter a b := by
  unfold scoreGt NotBetter DirEntry.score DirEntry.realWidth DirEntry.realHeight sizeByte
  rw [decide_eq_false_iff_not]
  omega

theorem scoreGt_true {a b : DirEntry} : scoreGt a.score b.score = true ↔ ¬ NotBetter a b := by
  rw [← scoreGt_false]; simp

theorem NotBetter.refl (a : DirEntry) : NotBetter a a := .inr ⟨rfl, Nat.le_refl _⟩

theorem NotBetter.trans {a b c : DirEntry} (h1 : NotBetter a b) (h2 : NotBetter b c) : NotBetter a c := by
  unfold NotBetter at *; omega

theorem NotBetter.of_not {a b : DirEntry} (h1 : ¬ NotBetter a b) : NotBetter b a := by
  unfold NotBetter at *; omega

/-- The loop of `best_entry`. -/
theorem bestLoop (es : List DirEntry) : ∀ b : DirEntry,
    ∃ e, forList es (fun e (st : DirEntry × (Nat × Nat)) =>
        (Except.ok (if scoreGt e.score st.2 then (e, e.score) else st) : R _)) (b, b.score) = .ok (e, e.score) ∧
      NotBetter b e ∧ (∀ e' ∈ es, NotBetter e' e) ∧
      (e = b ∨ ∃ i, ∃ h : i < es.length, es[i] = e ∧ ¬ NotBetter e b ∧ ∀ j, ∀ hj : j < i, ¬ NotBetter e es[j]) := by
  induction es with
  | nil => intro b; exact ⟨b, rfl, .refl b, by simp, .inl rfl⟩
  | cons x es ih =>
    intro b
    rw [forList]
    by_cases hs : scoreGt x.score b.score = true
    · rw [ok_bind]
      dsimp only
      rw [if_pos hs]
      have hs := scoreGt_true.1 hs
      obtain ⟨e, h1, h2, h3, h4⟩ := ih x
      have hbe : ¬ NotBetter e b := fun hn => hs (h2.trans hn)
      refine ⟨e, h1, (NotBetter.of_not hs).trans h2, ?_, .inr ?_⟩
      · intro e' he'
        rcases List.mem_cons.1 he' with rfl | h
        · exact h2
        · exact h3 e' h
      · rcases h4 with rfl | ⟨i, hi, h5, h6, h7⟩
        · exact ⟨0, by simp, rfl, hs, fun j hj => absurd hj (by omega)⟩
        · refine ⟨i + 1, by simpa using hi, by simpa using h5, hbe, fun j hj => ?_⟩
          cases j with
          | zero => exact h6
          | succ j => exact h7 j (by omega)
    · rw [ok_bind]
      dsimp only
      rw [if_neg hs]
      have hs := scoreGt_false.1 (Bool.eq_false_iff.2 hs)
      obtain ⟨e, h1, h2, h3, h4⟩ := ih b
      refine ⟨e, h1, h2, ?_, ?_⟩
      · intro e' he'
        rcases List.mem_cons.1 he' with rfl | h
        · exact hs.trans h2
        · exact h3 e' h
      · rcases h4 with rfl | ⟨i, hi, h5, h6, h7⟩
        · exact .inl rfl
        · refine .inr ⟨i + 1, by simpa using hi, by simpa using h5, h6, fun j hj => ?_⟩
          cases j with
          | zero =>
            intro hn
            exact h6 (hn.trans hs)
          | succ j => exact h7 j (by omega)

/-- **C53**: the entry chosen is one of the entries, and no entry is better: none has more bits per pixel, and none with as many has a
larger area, where a size byte of 0 counts as 256. Among equally good entries it is the last of the directory when that one is among
them, and otherwise the first of them. An empty directory is an error. -/
theorem C53_best (entries : List DirEntry) :
    (entries = [] → bestEntry entries = errR .decoding) ∧
    (entries ≠ [] → ∃ e, bestEntry entries = .ok e ∧ e ∈ entries ∧ (∀ e' ∈ entries, NotBetter e' e) ∧
      (entries.getLast? = some e ∨
        ∃ i, ∃ h : i < entries.length, entries[i] = e ∧ (∀ j, ∀ hj : j < i, ¬ NotBetter e entries[j]) ∧
          ∀ l, entries.getLast? = some l → ¬ NotBetter e l)) := by
  constructor
  · rintro rfl; rfl
  intro hne
  obtain ⟨es, l, rfl⟩ : ∃ es l, entries = es ++ [l] := ⟨_, _, (List.dropLast_concat_getLast hne).symm⟩
  obtain ⟨e, h1, h2, h3, h4⟩ := bestLoop es l
  refine ⟨e, ?_, ?_, ?_, ?_⟩
  · unfold bestEntry
    rw [List.getLast?_append, List.getLast?_singleton]
    simp only [Option.some_or, List.dropLast_concat]
    rw [h1, ok_bind]
  · rcases h4 with rfl | ⟨i, hi, h5, -⟩
    · simp
    · rw [← h5]; simp
  · intro e' he'
    rcases List.mem_append.1 he' with h | h
    · exact h3 e' h
    · rw [List.mem_singleton.1 h]; exact h2
  · rcases h4 with rfl | ⟨i, hi, h5, h6, h7⟩
    · left; simp
    · right
      refine ⟨i, by simp; omega, by rw [List.getElem_append_left hi]; exact h5, fun j hj => ?_, ?_⟩
      · rw [List.getElem_append_left (by omega)]; exact h7 j hj
      · intro l' hl'
        simp at hl'
        subst hl'
        exact h6

example : bestEntry [⟨16, 16, 32, 1, 1⟩, ⟨0, 0, 8, 2, 2⟩, ⟨32, 32, 32, 3, 3⟩, ⟨32, 32, 32, 4, 4⟩, ⟨0, 16, 8, 5, 5⟩] =
    .ok ⟨32, 32, 32, 3, 3⟩ := by rfl

theorem readU_eq {n : Nat} {c : Cursor} {v : Nat} {c' : Cursor} (h : Bmp.readU n c = .ok (v, c')) :
    v = field c.bytes c.pos n ∧ c' = ⟨c.bytes, c.pos + n⟩ ∧ (n = 0 ∨ c.pos + n ≤ c.bytes.length) := by
  unfold Bmp.readU at h
  rw [bind_eq_ok] at h
  obtain ⟨⟨b, c1⟩, h1, h2⟩ := h
  unfold Cursor.readExact at h1
  split at h1
  · cases h1
    cases h2
    exact ⟨rfl, rfl, by omega⟩
  · cases h1

theorem readEntry_eq {c : Cursor} {e : DirEntry} {c' : Cursor} (h : readEntry c = .ok (e, c')) :
    e = ⟨field c.bytes c.pos 1, field c.bytes (c.pos + 1) 1, field c.bytes (c.pos + 6) 2, field c.bytes (c.pos + 8) 4,
      field c.bytes (c.pos + 12) 4⟩ ∧ c' = ⟨c.bytes, c.pos + 16⟩ ∧ c.pos + 16 ≤ c.bytes.length ∧
      field c.bytes (c.pos + 4) 2 ≤ 256 ∧ field c.bytes (c.pos + 6) 2 ≤ 256 := by
  obtain ⟨f, p⟩ := c
  unfold readEntry at h
  rw [bind_eq_ok] at h
  obtain ⟨⟨v1, c1⟩, h1, h⟩ := h
  obtain ⟨rfl, rfl, -⟩ := readU_eq h1
  dsimp only at h
  rw [bind_eq_ok] at h
  obtain ⟨⟨v2, c2⟩, h2, h⟩ := h
  obtain ⟨rfl, rfl, -⟩ := readU_eq h2
  dsimp only at h
  rw [bind_eq_ok] at h
  obtain ⟨⟨v3, c3⟩, h3, h⟩ := h
  obtain ⟨rfl, rfl, -⟩ := readU_eq h3
  dsimp only at h
  rw [bind_eq_ok] at h
  obtain ⟨⟨v4, c4⟩, h4, h⟩ := h
  obtain ⟨rfl, rfl, -⟩ := readU_eq h4
  dsimp only at h
  rw [bind_eq_ok] at h
  obtain ⟨⟨v5, c5⟩, h5, h⟩ := h
  obtain ⟨rfl, rfl, -⟩ := readU_eq h5
  dsimp only at h
  split at h
  · cases h
  rename_i n5
  rw [bind_eq_ok] at h
  obtain ⟨⟨v6, c6⟩, h6, h⟩ := h
  obtain ⟨rfl, rfl, -⟩ := readU_eq h6
  dsimp only at h
  split at h
  · cases h
  rename_i n6
  rw [bind_eq_ok] at h
  obtain ⟨⟨v7, c7⟩, h7, h⟩ := h
  obtain ⟨rfl, rfl, -⟩ := readU_eq h7
  dsimp only at h
  rw [bind_eq_ok] at h
  obtain ⟨⟨v8, c8⟩, h8, h⟩ := h
  obtain ⟨rfl, rfl, l8⟩ := readU_eq h8
  cases h
  dsimp only at *
  exact ⟨rfl, rfl, by omega, Nat.le_of_not_lt n5, Nat.le_of_not_lt n6⟩

theorem readEntries_eq {file : List UInt8} {es : List DirEntry} {c : Cursor} (h : readEntries ⟨file, 0⟩ = .ok (es, c)) :
    es = (List.range (entryCount file)).map (entryAt file) ∧ c = ⟨file, 6 + 16 * entryCount file⟩ ∧
      6 + 16 * entryCount file ≤ file.length := by
  unfold readEntries at h
  rw [bind_eq_ok] at h
  obtain ⟨⟨v1, c1⟩, h1, h⟩ := h
  obtain ⟨rfl, rfl, -⟩ := readU_eq h1
  dsimp only at h
  rw [bind_eq_ok] at h
  obtain ⟨⟨v2, c2⟩, h2, h⟩ := h
  obtain ⟨rfl, rfl, -⟩ := readU_eq h2
  dsimp only at h
  rw [bind_eq_ok] at h
  obtain ⟨⟨v3, c3⟩, h3, h⟩ := h
  obtain ⟨rfl, rfl, l3⟩ := readU_eq h3
  dsimp only at h l3
  have key : ∀ n es c, forRange n (fun _ (st : List DirEntry × Cursor) => do
      let (e, c) ← readEntry st.2
      Except.ok (st.1 ++ [e], c)) ([], ⟨file, 0 + 2 + 2 + 2⟩) = .ok (es, c) →
      es = (List.range n).map (entryAt file) ∧ c = ⟨file, 6 + 16 * n⟩ ∧ 6 + 16 * n ≤ file.length := by
    intro n
    induction n with
    | zero =>
      intro es c h
      rw [forRange_zero] at h
      cases h
      exact ⟨rfl, rfl, by omega⟩
    | succ n ih =>
      intro es c h
      rw [forRange_succ, bind_eq_ok] at h
      obtain ⟨⟨es0, c0⟩, h0, h⟩ := h
      obtain ⟨rfl, rfl, -⟩ := ih _ _ h0
      dsimp only at h
      rw [bind_eq_ok] at h
      obtain ⟨⟨e, c1⟩, h1, h⟩ := h
      obtain ⟨rfl, rfl, l, -⟩ := readEntry_eq h1
      cases h
      dsimp only at l ⊢
      refine ⟨?_, ?_, by omega⟩
      · rw [List.range_succ, List.map_append]; rfl
      · congr 1
  exact key _ _ _ h

/-- **C53**: the entry whose image a decoder for `file` gives is an entry of its directory, and no entry of the directory is better. -/
theorem C53_selected {P : Png} {file : List UInt8} {d : Decoder P} (h : Decoder.new P file = .ok d) :
    ∃ i, i < entryCount file ∧ d.entry = entryAt file i ∧ ∀ j, j < entryCount file → NotBetter (entryAt file j) d.entry := by
  unfold Decoder.new at h
  rw [bind_eq_ok] at h
  obtain ⟨⟨es, c⟩, h1, h⟩ := h
  obtain ⟨rfl, rfl, -⟩ := readEntries_eq h1
  dsimp only at h
  rw [bind_eq_ok] at h
  obtain ⟨e, h2, h⟩ := h
  rw [bind_eq_ok] at h
  obtain ⟨inner, h3, h⟩ := h
  cases h
  obtain ⟨b1, b2⟩ := C53_best ((List.range (entryCount file)).map (entryAt file))
  by_cases hne : (List.range (entryCount file)).map (entryAt file) = []
  · rw [b1 hne] at h2; cases h2
  · obtain ⟨e', h4, h5, h6, -⟩ := b2 hne
    rw [h4] at h2
    cases h2
    obtain ⟨i, hi, rfl⟩ := List.mem_map.1 h5
    refine ⟨i, List.mem_range.1 hi, rfl, fun j hj => ?_⟩
    exact h6 _ (List.mem_map.2 ⟨j, List.mem_range.2 hj, rfl⟩)

/-! ## The decoder on arbitrary bytes -/

/-- What this model assumes of the PNG decoder when it says that decoding does not panic. -/
structure Png.Total (P : Png) : Prop where
  new : ∀ c, P.new c ≠ panicR
  readImage : ∀ p buf, buf.length = totalBytes (P.dimensions p).1 (P.dimensions p).2 (P.colorType p).bytesPerPixel → P.readImage p buf ≠ panicR
  length : ∀ p buf out, P.readImage p buf = .ok out → out.length = buf.length

/-- What `new_with_ico_format` guarantees. -/
structure Facts (file : List UInt8) (d : Bmp.Decoder) : Prop where
  good : d.Good
  color : d.colorType = .Rgba8
  channels : d.channels = 4
  bits : Bmp.Bits d.imageType d.bitCount
  bytes : d.reader.bytes = file
  height : d.topDown = false → d.height ≤ 32767

theorem newWithIcoFormat_facts (c : Cursor) : OkOr Bmp.AnyE (Facts c.bytes) (Bmp.Decoder.newWithIcoFormat c) := by
  unfold Bmp.Decoder.newWithIcoFormat
  refine (Bmp.readMetadata_total true true c).and_ok.bind fun d ⟨⟨hd, _, hb, he, _⟩, hok⟩ => ?_
  have ha : d.addAlpha = true := he rfl
  refine ⟨⟨hd.width, ?_, hd.indexed, hd.bits, hd.palette, hd.rgba, hd.bottomUp, hd.fields⟩, ?_, ?_, ?_, hb, ?_⟩
  · have := hd.height
    show d.height / 2 < _
    omega
  · show (if d.indexedColor then _ else if d.addAlpha then _ else _) = _
    rw [hd.indexed, ha]; rfl
  · show Bmp.numChannels d.indexedColor d.addAlpha = 4
    rw [hd.indexed, ha]; rfl
  · exact Bmp.readMetadata_bits true true c d hok
  · intro ht
    have := Bmp.readMetadata_height true true c d hok ht
    show d.height / 2 ≤ _
    omega

theorem rle_consumes (r4 : Bool) (pal : List Bmp.Rgb) (ch fuel : Nat) (st : Bmp.Rle) (s : List UInt8) :
    Post (fun r => r.2.length < s.length) (Bmp.rleLoopEnd r4 pal ch fuel st s) := by
  cases fuel with
  | zero => exact .panicR
  | succ fuel =>
    rw [Bmp.rleLoopEnd]
    refine Post.bind (Q := fun r => r.2.length + 2 ≤ s.length) (fun a ha => (Bmp.readInsn_total r4 s).of_ok ha) ?_
    rintro ⟨insn, s1⟩ h1
    dsimp only at h1 ⊢
    have ih' : ∀ st, Post (fun r => r.2.length < s.length) (Bmp.rleLoopEnd r4 pal ch fuel st s1) := fun st a ha => by
      have := (Bmp.rleLoopEnd_suffix r4 pal ch fuel st s1 a ha).length_le
      omega
    cases insn with
    | endOfFile => exact .ok (by dsimp only; omega)
    | endOfRow =>
      dsimp only
      split
      · exact .ok (by dsimp only; omega)
      · exact Post.any fun _ => ih' _
    | delta dx dy => exact Post.any fun _ => ih' _
    | absolute n b =>
      refine Post.any fun r => ?_
      split
      · exact ih' _
      · exact .errR
    | run n b =>
      refine Post.any fun r => ?_
      split
      · exact ih' _
      · exact .errR

/-- The pixels read, where they end, and how large the image can be. -/
theorem readEnd_facts {file : List UInt8} {d : Bmp.Decoder} (F : Facts file d) (hh : 1 ≤ d.height) {buf : List UInt8}
    (hb : buf.length = d.width * d.height * 4) :
    OkOr Bmp.AnyE (fun r => r.1.length = d.width * d.height * 4 ∧ ∃ front, file = front ++ r.2 ∧ front.length = imageEnd d r.2 ∧
      (d.topDown = true → d.width * d.height ≤ 8 * file.length)) (Bmp.readImageDataEnd d buf) := by
  have ht := Bmp.readImageData_total F.good (buf := buf) (by rw [hb, F.channels])
  rw [Bmp.readImageDataEnd_fst] at ht
  have hsuf := Bmp.readImageDataEnd_suffix d buf
  have hrow := fun hty => Bmp.readImageDataEnd_rows F.good F.bits hty buf
  have hrle : d.imageType = .RLE4 ∨ d.imageType = .RLE8 →
      Post (fun r => r.2.length < (d.reader.bytes.drop d.dataOffset).length) (Bmp.readImageDataEnd d buf) := by
    have key : ∀ r4, Post (fun r => r.2.length < (d.reader.bytes.drop d.dataOffset).length) (Bmp.readRleEnd d r4 buf) := by
      intro r4
      unfold Bmp.readRleEnd
      refine Post.any fun pal => ?_
      intro r hr
      rw [bind_eq_ok] at hr
      obtain ⟨_, hs, hr⟩ := hr
      dsimp only at hr
      have hlen : (chunksOf (d.width * d.channels) buf).length = d.height :=
        (Bmp.rows_lengths (n := d.width * d.channels) (k := d.height)
          (by rw [F.channels]; have := F.good.width.1; omega) (by rw [hb, F.channels, Nat.mul_right_comm, Nat.mul_comm])).2
      split at hr
      · rename_i he
        have : (if d.topDown = true then chunksOf (d.width * d.channels) buf else (chunksOf (d.width * d.channels) buf).reverse).length
            = d.height := by split <;> simp [hlen]
        rw [he] at this
        simp at this
        omega
      · revert r
        refine Post.any fun it => ?_
        refine (rle_consumes _ _ _ _ _ _).bind ?_
        rintro ⟨o, s1⟩ h1
        exact .ok h1
    rintro (h | h)
    · unfold Bmp.readImageDataEnd; rw [h]; exact key true
    · unfold Bmp.readImageDataEnd; rw [h]; exact key false
  have hbc : d.imageType ≠ .RLE4 ∧ d.imageType ≠ .RLE8 → 1 ≤ d.bitCount := by
    intro hty
    obtain ⟨b1, b2, b3⟩ := F.bits
    cases hi : d.imageType with
    | Palette => have := F.good.bits hi; omega
    | RGB16 => have := b1 (.inl hi); omega
    | RGB24 => have := b2 hi; omega
    | RGB32 => have := b3 (.inl hi); omega
    | RGBA32 => have := b3 (.inr (.inl hi)); omega
    | RLE8 => exact absurd hi hty.2
    | RLE4 => exact absurd hi hty.1
    | Bitfields16 => have := b1 (.inr hi); omega
    | Bitfields32 => have := b3 (.inr (.inr hi)); omega
  cases he : Bmp.readImageDataEnd d buf with
  | error e =>
    rw [he] at ht
    cases e with
    | panic => exact ht
    | err e => trivial
  | ok r =>
    rw [he] at ht
    have ht : r.1.length = buf.length := ht
    have hs : r.2 <:+ d.reader.bytes.drop d.dataOffset := hsuf r he
    have hlt : r.2.length < (d.reader.bytes.drop d.dataOffset).length ∧ (d.topDown = true → d.width * d.height ≤ 8 * file.length) := by
      by_cases hty : d.imageType = .RLE4 ∨ d.imageType = .RLE8
      · refine ⟨hrle hty r he, fun h => ?_⟩
        rw [F.good.bottomUp hty] at h; cases h
      · have hty' : d.imageType ≠ .RLE4 ∧ d.imageType ≠ .RLE8 := ⟨fun h => hty (.inl h), fun h => hty (.inr h)⟩
        have h1 := hrow hty' r he
        have h2 := hbc hty'
        have h3 : d.width ≤ 8 * d.rowBytes := by
          unfold Bmp.Decoder.rowBytes
          have : 1 * d.width ≤ d.bitCount * d.width := Nat.mul_le_mul_right _ h2
          omega
        have h4 : d.width * d.height ≤ 8 * d.rowBytes * d.height := Nat.mul_le_mul_right _ h3
        have h5 : 1 * 1 ≤ d.width * d.height := Nat.mul_le_mul F.good.width.1 hh
        rw [Nat.mul_assoc, Nat.mul_comm d.rowBytes] at h4
        refine ⟨by omega, fun _ => ?_⟩
        rw [List.length_drop, F.bytes] at h1
        omega
    obtain ⟨front, hfront⟩ := hs
    refine ⟨by rw [ht, hb], d.reader.bytes.take d.dataOffset ++ front, ?_, ?_, hlt.2⟩
    · rw [List.append_assoc, hfront, List.take_append_drop, F.bytes]
    · unfold imageEnd
      rw [← hfront, List.length_append, List.length_append, List.length_take]
      have := hlt.1
      rw [List.length_drop] at this
      omega

/-- What the result of decoding the BMP image of an entry is. -/
def BmpResult (file : List UInt8) (e : DirEntry) (d : Bmp.Decoder) (buf out : List UInt8) : Prop :=
  ∃ px front rest, Bmp.readImageDataEnd d buf = .ok (px, rest) ∧ file = front ++ rest ∧ px.length = d.width * d.height * 4 ∧
    sizeByte e.width = min d.width 256 ∧ sizeByte e.height = min d.height 256 ∧
    (front.length + d.height * maskStride d.width ≤ e.imageOffset + e.imageLength ∧ d.height * maskStride d.width ≤ rest.length ∧
      out = masked d.width d.height (rest.take (d.height * maskStride d.width)) px ∨
    e.imageOffset + e.imageLength = front.length ∧ out = px)

theorem maskBit_take {mask : List UInt8} {stride h x y : Nat} (hx : x < 8 * stride) (hy : y < h) :
    maskBit (mask.take (h * stride)) stride x y = maskBit mask stride x y := by
  unfold maskBit
  have : y * stride + x / 8 < h * stride := by
    have : (y + 1) * stride ≤ h * stride := Nat.mul_le_mul_right _ hy
    rw [Nat.add_mul] at this
    omega
  rw [List.getD_eq_getElem?_getD, List.getD_eq_getElem?_getD, List.getElem?_take, if_pos this]

theorem matches_iff {e : DirEntry} {w h : Nat} : e.matchesDimensions w h = true ↔
    sizeByte e.width = min w 256 ∧ sizeByte e.height = min h 256 := by
  unfold DirEntry.matchesDimensions DirEntry.realWidth DirEntry.realHeight sizeByte
  rw [Bool.and_eq_true, decide_eq_true_iff, decide_eq_true_iff]

theorem sizeByte_pos (b : Nat) : 1 ≤ sizeByte b := by unfold sizeByte; split <;> omega

theorem readBmp_spec {file : List UInt8} (hf : file.length < 2 ^ 29) {e : DirEntry} {d : Bmp.Decoder} (F : Facts file d) {buf : List UInt8}
    (hb : buf.length = d.width * d.height * 4) :
    OkOr Bmp.AnyE (fun out => out.length = d.width * d.height * 4) (readBmp e d buf) ∧
      ∀ out, readBmp e d buf = .ok out ↔ BmpResult file e d buf out := by
  unfold readBmp
  by_cases hm : e.matchesDimensions d.width d.height = false
  · rw [if_pos hm]
    refine ⟨trivial, fun out => ⟨fun h => (by cases h), fun h => ?_⟩⟩
    obtain ⟨px, front, rest, h1, h2, h3, h4, h5, h6⟩ := h
    rw [matches_iff.2 ⟨h4, h5⟩] at hm
    cases hm
  have hm' := matches_iff.1 (Bool.not_eq_false _ ▸ hm : e.matchesDimensions d.width d.height = true)
  have hh : 1 ≤ d.height := by have := sizeByte_pos e.height; omega
  have hw := F.good.width
  rw [if_neg hm, if_neg (by rw [F.color]; exact fun h => h rfl)]
  have R := readEnd_facts F hh hb
  cases he : Bmp.readImageDataEnd d buf with
  | error er =>
    rw [he] at R
    refine ⟨?_, fun out => ⟨fun h => (by cases h), fun h => ?_⟩⟩
    · cases er with
      | panic => exact R
      | err e => trivial
    · obtain ⟨px, front, rest, h1, -⟩ := h
      rw [he] at h1; cases h1
  | ok r =>
    obtain ⟨px, rest⟩ := r
    rw [he] at R
    obtain ⟨hpx, front, hfile, hfr, htop⟩ := R
    dsimp only at hpx hfile hfr
    rw [ok_bind]
    dsimp only
    have hlen : front.length ≤ file.length := by rw [hfile, List.length_append]; omega
    have e1 : addC 32 d.width 31 = .ok (d.width + 31) := if_pos (by omega)
    have e2 : mulC 32 ((d.width + 31) / 32) 4 = .ok ((d.width + 31) / 32 * 4) := if_pos (by omega)
    have hms : (d.width + 31) / 32 * 4 * d.height ≤ 8192 * 2 ^ 31 := Nat.mul_le_mul (by omega) (Nat.le_of_lt F.good.height)
    have e3 : mulC 64 ((d.width + 31) / 32 * 4) d.height = .ok ((d.width + 31) / 32 * 4 * d.height) := if_pos (by omega)
    have e4 : addC 64 (imageEnd d rest) ((d.width + 31) / 32 * 4 * d.height) =
        .ok (imageEnd d rest + (d.width + 31) / 32 * 4 * d.height) := if_pos (by omega)
    rw [e1, ok_bind, e2, ok_bind, e3, ok_bind, e4, ok_bind, ← hfr, Nat.mul_comm ((d.width + 31) / 32 * 4)]
    have hwh : d.width * d.height ≤ 2 ^ 32 := by
      cases ht : d.topDown with
      | false =>
        have := Nat.mul_le_mul hw.2 (F.height ht)
        omega
      | true => have := htop ht; omega
    have hstride : d.width ≤ 8 * maskStride d.width := by unfold maskStride; omega
    have hpos : 0 < d.height * maskStride d.width := Nat.mul_pos hh (by unfold maskStride; omega)
    change OkOr _ _ (if e.imageOffset + e.imageLength ≥ front.length + d.height * maskStride d.width then _ else _) ∧ ∀ out,
      (if e.imageOffset + e.imageLength ≥ front.length + d.height * maskStride d.width then _ else _) = _ ↔ _
    have inv : ∀ out, BmpResult file e d buf out ↔
        (front.length + d.height * maskStride d.width ≤ e.imageOffset + e.imageLength ∧ d.height * maskStride d.width ≤ rest.length ∧
          out = masked d.width d.height (rest.take (d.height * maskStride d.width)) px ∨
        e.imageOffset + e.imageLength = front.length ∧ out = px) := by
      intro out
      constructor
      · rintro ⟨px', front', rest', h1, h2, h3, h4, h5, h6⟩
        rw [he] at h1
        cases h1
        rw [hfile] at h2
        cases List.append_cancel_right h2
        exact h6
      · intro h6
        exact ⟨px, front, rest, he, hfile, hpx, hm'.1, hm'.2, h6⟩
    by_cases hc : e.imageOffset + e.imageLength ≥ front.length + d.height * maskStride d.width
    · rw [if_pos hc]
      have am := applyMask_eq hwh hpx rest hstride
      have hme : cleared d.width (fun x y => maskBit rest (maskStride d.width) x (d.height - 1 - y)) px =
          masked d.width d.height (rest.take (d.height * maskStride d.width)) px := by
        unfold masked
        apply cleared_congr hpx
        intro x y hx hy
        rw [maskBit_take (by omega) (by omega)]
      change OkOr _ _ (applyMask d.width d.height (maskStride d.width) px rest >>= _) ∧ ∀ out, (applyMask d.width d.height (maskStride d.width) px rest >>= _) = _ ↔ _
      rw [am]
      by_cases hr : d.height * maskStride d.width ≤ rest.length
      · rw [if_pos hr, ok_bind]
        dsimp only
        rw [hme]
        refine ⟨?_, fun out => ?_⟩
        · show (masked _ _ _ _).length = _
          unfold masked
          rw [length_cleared, hpx]
        · rw [inv]
          constructor
          · intro h; cases h; exact .inl ⟨hc, hr, rfl⟩
          · rintro (⟨-, -, rfl⟩ | ⟨h, -⟩)
            · rfl
            · omega
      · rw [if_neg hr]
        refine ⟨trivial, fun out => ⟨fun h => (by cases h), fun h => ?_⟩⟩
        rw [inv] at h
        rcases h with ⟨-, h, -⟩ | ⟨h, -⟩ <;> omega
    · rw [if_neg hc]
      by_cases hq : e.imageOffset + e.imageLength = front.length
      · rw [if_pos hq]
        refine ⟨hpx, fun out => ?_⟩
        rw [inv]
        constructor
        · intro h; cases h; exact .inr ⟨hq, rfl⟩
        · rintro (⟨h, -, -⟩ | ⟨-, rfl⟩)
          · omega
          · rfl
      · rw [if_neg hq]
        refine ⟨trivial, fun out => ⟨fun h => (by cases h), fun h => ?_⟩⟩
        rw [inv] at h
        rcases h with ⟨h, -⟩ | ⟨h, -⟩ <;> omega

theorem readEntries_total (c : Cursor) : OkOr Bmp.AnyE (fun r => r.2.bytes = c.bytes) (readEntries c) := by
  unfold readEntries
  refine (Bmp.readU_total 2 c).bind fun ⟨_, c1⟩ ⟨_, b1⟩ => ?_
  refine (Bmp.readU_total 2 c1).bind fun ⟨_, c2⟩ ⟨_, b2⟩ => ?_
  refine (Bmp.readU_total 2 c2).bind fun ⟨n, c3⟩ ⟨_, b3⟩ => ?_
  dsimp only at b1 b2 b3 ⊢
  refine forRange_okOr (fun _ (st : List DirEntry × Cursor) => st.2.bytes = c.bytes) (by dsimp only; rw [b3, b2, b1]) ?_
  rintro i _ ⟨es, c⟩ hc
  dsimp only at hc ⊢
  refine OkOr.bind (P := fun r => r.2.bytes = c.bytes) ?_ fun ⟨e, c'⟩ h => (h.trans hc : c'.bytes = _)
  unfold readEntry
  refine (Bmp.readU_total 1 c).bind fun ⟨_, c1⟩ ⟨_, b1⟩ => ?_
  refine (Bmp.readU_total 1 c1).bind fun ⟨_, c2⟩ ⟨_, b2⟩ => ?_
  refine (Bmp.readU_total 1 c2).bind fun ⟨_, c3⟩ ⟨_, b3⟩ => ?_
  refine (Bmp.readU_total 1 c3).bind fun ⟨_, c4⟩ ⟨_, b4⟩ => ?_
  refine (Bmp.readU_total 2 c4).bind fun ⟨_, c5⟩ ⟨_, b5⟩ => ?_
  dsimp only at *
  split
  · trivial
  refine (Bmp.readU_total 2 c5).bind fun ⟨_, c6⟩ ⟨_, b6⟩ => ?_
  dsimp only at *
  split
  · trivial
  refine (Bmp.readU_total 4 c6).bind fun ⟨_, c7⟩ ⟨_, b7⟩ => ?_
  refine (Bmp.readU_total 4 c7).bind fun ⟨_, c8⟩ ⟨_, b8⟩ => ?_
  dsimp only at *
  show c8.bytes = c.bytes
  rw [b8, b7, b6, b5, b4, b3, b2, b1]

/-- What the decoder holds after `new`. -/
def Decoder.Ok {P : Png} (file : List UInt8) (d : Decoder P) : Prop := ∀ b, d.inner = .bmp b → Facts file b

theorem new_total {P : Png} (hP : P.Total) (file : List UInt8) : OkOr Bmp.AnyE (fun d => d.Ok file) (Decoder.new P file) := by
  unfold Decoder.new
  refine (readEntries_total ⟨file, 0⟩).bind fun ⟨es, c⟩ hc => ?_
  dsimp only at hc ⊢
  refine OkOr.bind (P := fun _ => True) ?_ fun e _ => ?_
  · obtain ⟨b1, b2⟩ := C53_best es
    by_cases hne : es = []
    · rw [b1 hne]; trivial
    · obtain ⟨e, he, -⟩ := b2 hne
      rw [he]; trivial
  refine OkOr.bind (P := fun (i : Inner P) => ∀ b, i = .bmp b → Facts file b) ?_ fun i hi => (fun b hb => hi b hb : Decoder.Ok file (⟨e, i⟩ : Decoder P))
  unfold DirEntry.decoder
  refine OkOr.bind (P := fun r => r.2.bytes = c.bytes) ?_ fun ⟨isPng, c1⟩ h1 => ?_
  · unfold DirEntry.isPng Cursor.seekStart
    rw [ok_bind]
    refine (Bmp.cursor_readExact_total 8 _).bind fun ⟨sig, c2⟩ ⟨_, b2⟩ => ?_
    exact b2
  dsimp only at h1 ⊢
  unfold Cursor.seekStart
  rw [ok_bind]
  dsimp only
  split
  · have := hP.new ⟨c1.bytes, e.imageOffset⟩
    cases hn : P.new ⟨c1.bytes, e.imageOffset⟩ with
    | ok p => exact fun b hb => by cases hb
    | error er => cases er with
      | err er => trivial
      | panic => exact absurd hn this
  · refine (newWithIcoFormat_facts ⟨c1.bytes, e.imageOffset⟩).bind fun d hd => ?_
    dsimp only at hd
    rw [h1, hc] at hd
    intro b hb
    cases hb
    exact hd

theorem totalBytes_bmp {file : List UInt8} {d : Bmp.Decoder} (F : Facts file d) :
    totalBytes d.width d.height d.colorType.bytesPerPixel = d.width * d.height * 4 := by
  rw [Bmp.totalBytes_eq F.good, F.channels]

theorem readImage_total {P : Png} (hP : P.Total) {file : List UInt8} (hf : file.length < 2 ^ 29) {d : Decoder P} (hd : d.Ok file) {buf : List UInt8}
    (hb : buf.length = totalBytes d.dimensions.1 d.dimensions.2 d.colorType.bytesPerPixel) :
    OkOr Bmp.AnyE (fun out => out.length = buf.length ∧ d.colorType = .Rgba8 ∧ sizeByte d.entry.width = min d.dimensions.1 256 ∧
      sizeByte d.entry.height = min d.dimensions.2 256) (d.readImage buf) := by
  unfold Decoder.readImage
  rw [decide_eq_true hb, assertR_true, ok_bind]
  obtain ⟨e, inner⟩ := d
  cases inner with
  | png p =>
    dsimp only [Decoder.dimensions, Decoder.colorType] at hb ⊢
    split
    · trivial
    split
    · trivial
    split
    · trivial
    rename_i hm hc
    have hm' := matches_iff.1 (Bool.not_eq_false _ ▸ hm : e.matchesDimensions (P.dimensions p).1 (P.dimensions p).2 = true)
    have := hP.readImage p buf hb
    cases hn : P.readImage p buf with
    | ok out => exact ⟨hP.length p buf out hn, Classical.not_not.1 hc, hm'⟩
    | error er => cases er with
      | err er => trivial
      | panic => exact absurd hn this
  | bmp b =>
    have F := hd b rfl
    dsimp only [Decoder.dimensions, Decoder.colorType] at hb ⊢
    rw [totalBytes_bmp F] at hb
    have R := readBmp_spec hf (e := e) F hb
    refine R.1.and_ok.mono fun out ⟨ho, hok⟩ => ?_
    obtain ⟨px, front, rest, h1, h2, h3, h4, h5, h6⟩ := (R.2 out).1 hok
    exact ⟨by rw [ho, hb], F.color, h4, h5⟩

/-- **C72**: for every file of fewer than 2^29 bytes, decoding it as ICO does not panic (when the PNG decoder does not): it ends with an
error or with an RGBA image whose buffer has exactly `width * height` pixels, and whose size is the one that the chosen entry of the
directory gives (256 there standing for anything from 256 on). -/
theorem C72_decode_total {P : Png} (hP : P.Total) (file : List UInt8) (hf : file.length < 2 ^ 29) :
    decode P file ≠ panicR ∧ ∀ w h c buf, decode P file = .ok (w, h, c, buf) →
      c = .Rgba8 ∧ 1 ≤ w ∧ 1 ≤ h ∧ buf.length = min (w * h * 4) (2 ^ 64 - 1) ∧
      ∃ i, i < entryCount file ∧ sizeByte (entryAt file i).width = min w 256 ∧ sizeByte (entryAt file i).height = min h 256 := by
  have H : OkOr Bmp.AnyE (fun r => r.2.2.1 = .Rgba8 ∧ 1 ≤ r.1 ∧ 1 ≤ r.2.1 ∧ r.2.2.2.length = min (r.1 * r.2.1 * 4) (2 ^ 64 - 1) ∧
      ∃ i, i < entryCount file ∧ sizeByte (entryAt file i).width = min r.1 256 ∧ sizeByte (entryAt file i).height = min r.2.1 256)
      (decode P file) := by
    unfold decode
    refine (new_total hP file).and_ok.bind fun d ⟨hd, hok⟩ => ?_
    refine (readImage_total hP hf hd (buf := List.replicate _ 0) (List.length_replicate ..)).bind fun b ⟨h1, h2, h3, h4⟩ => ?_
    obtain ⟨i, hi, he, -⟩ := C53_selected hok
    have p1 := sizeByte_pos d.entry.width
    have p2 := sizeByte_pos d.entry.height
    refine ⟨h2, by dsimp only; omega, by dsimp only; omega, ?_, i, hi, by rw [← he]; exact h3, by rw [← he]; exact h4⟩
    dsimp only
    rw [h1, List.length_replicate, h2]
    rfl
  exact ⟨H.ne_panic, fun w h c buf he => H.of_ok he⟩

theorem readImage_bmp {P : Png} (e : DirEntry) (d : Bmp.Decoder) (buf : List UInt8) :
    Decoder.readImage (P := P) ⟨e, .bmp d⟩ buf = (do
      assertR (decide (buf.length = totalBytes d.width d.height d.colorType.bytesPerPixel))
      readBmp e d buf) := rfl

theorem readImage_png {P : Png} {e : DirEntry} {p : P.State} {buf out : List UInt8} :
    Decoder.readImage (P := P) ⟨e, .png p⟩ buf = .ok out ↔
      buf.length = totalBytes (P.dimensions p).1 (P.dimensions p).2 (P.colorType p).bytesPerPixel ∧ 8 ≤ e.imageLength ∧
      e.matchesDimensions (P.dimensions p).1 (P.dimensions p).2 = true ∧ P.colorType p = .Rgba8 ∧ P.readImage p buf = .ok out := by
  unfold Decoder.readImage assertR
  change (if decide (buf.length = totalBytes (P.dimensions p).1 (P.dimensions p).2 (P.colorType p).bytesPerPixel) then Except.ok () else _) >>= _ = _ ↔ _
  by_cases h1 : buf.length = totalBytes (P.dimensions p).1 (P.dimensions p).2 (P.colorType p).bytesPerPixel
  · rw [if_pos (decide_eq_true h1), ok_bind]
    dsimp only
    by_cases h2 : e.imageLength < 8
    · rw [if_pos h2]
      exact ⟨fun h => (by cases h), fun h => absurd h.2.1 (by omega)⟩
    rw [if_neg h2]
    by_cases h3 : e.matchesDimensions (P.dimensions p).1 (P.dimensions p).2 = false
    · rw [if_pos h3]
      exact ⟨fun h => (by cases h), fun h => absurd h.2.2.1 (by rw [h3]; decide)⟩
    rw [if_neg h3]
    by_cases h4 : P.colorType p ≠ .Rgba8
    · rw [if_pos h4]
      exact ⟨fun h => (by cases h), fun h => absurd h.2.2.2.1 h4⟩
    rw [if_neg h4]
    exact ⟨fun h => ⟨h1, by omega, by simpa using h3, Classical.not_not.1 h4, h⟩, fun h => h.2.2.2.2⟩
  · rw [if_neg (by simpa using h1)]
    exact ⟨fun h => (by cases h), fun h => absurd h.1 h1⟩

/-- **C73**: decoding an entry that is a BMP image gives the pixels of the BMP image with alpha set to 0 exactly where the mask says
so, when the data of the entry reach to the end of the mask that follows the pixels, and gives the pixels of the BMP image unchanged when
the data of the entry end with the pixels; in all other cases, and when the file ends inside the mask, it is an error. -/
theorem C73_mask {P : Png} (hP : P.Total) {file : List UInt8} (hf : file.length < 2 ^ 29) {e : DirEntry} {d : Bmp.Decoder}
    (hd : Decoder.new P file = .ok ⟨e, .bmp d⟩) {buf : List UInt8} (hb : buf.length = d.width * d.height * 4) (out : List UInt8) :
    Decoder.readImage (P := P) ⟨e, .bmp d⟩ buf = .ok out ↔
    ∃ px front mask rest, d.readImage buf = .ok px ∧ Bmp.readImageDataEnd d buf = .ok (px, mask ++ rest) ∧ file = front ++ mask ++ rest ∧
      sizeByte e.width = min d.width 256 ∧ sizeByte e.height = min d.height 256 ∧
      (mask.length = d.height * maskStride d.width ∧ e.imageOffset + e.imageLength ≥ front.length + mask.length ∧
        out = masked d.width d.height mask px ∨
       mask = [] ∧ e.imageOffset + e.imageLength = front.length ∧ out = px) := by
  have F := (new_total hP file).of_ok hd d rfl
  have R := (readBmp_spec hf (e := e) F hb).2 out
  have hb' : buf.length = totalBytes d.width d.height d.colorType.bytesPerPixel := by rw [totalBytes_bmp F, hb]
  rw [readImage_bmp, decide_eq_true hb', assertR_true, ok_bind, R]
  have img : ∀ {px rest}, Bmp.readImageDataEnd d buf = .ok (px, rest) → d.readImage buf = .ok px := by
    intro px rest h
    unfold Bmp.Decoder.readImage
    rw [decide_eq_true hb', assertR_true, ok_bind, Bmp.readImageDataEnd_fst, h]
    rfl
  have hpx : ∀ {px rest}, Bmp.readImageDataEnd d buf = .ok (px, rest) → 1 ≤ d.height → px.length = d.width * d.height * 4 :=
    fun h hh => ((readEnd_facts F hh hb).of_ok h).1
  constructor
  · rintro ⟨px, front, rest, h1, h2, h3, h4, h5, h6 | h6⟩
    · refine ⟨px, front, rest.take (d.height * maskStride d.width), rest.drop (d.height * maskStride d.width), img h1, ?_, ?_, h4, h5, .inl ?_⟩
      · rw [List.take_append_drop]; exact h1
      · rw [List.append_assoc, List.take_append_drop]; exact h2
      · have hl : (rest.take (d.height * maskStride d.width)).length = d.height * maskStride d.width := by rw [List.length_take]; omega
        exact ⟨hl, by rw [hl]; exact h6.1, h6.2.2⟩
    · exact ⟨px, front, [], rest, img h1, h1, by rw [List.append_nil]; exact h2, h4, h5, .inr ⟨rfl, h6⟩⟩
  · rintro ⟨px, front, mask, rest, -, h1, h2, h4, h5, ⟨h6, h7, h8⟩ | ⟨rfl, h6, h7⟩⟩
    · have hh : 1 ≤ d.height := by have := sizeByte_pos e.height; omega
      refine ⟨px, front, mask ++ rest, h1, by rw [h2, List.append_assoc], hpx h1 hh, h4, h5, .inl ⟨by omega, by rw [List.length_append]; omega, ?_⟩⟩
      rw [← h6, List.take_left']
      · exact h8
      · rfl
    · have hh : 1 ≤ d.height := by have := sizeByte_pos e.height; omega
      exact ⟨px, front, rest, h1, by rw [h2, List.append_nil], hpx h1 hh, h4, h5, .inr ⟨h6, h7⟩⟩

/-! ## Truncated files -/

/-- What this model assumes of the PNG decoder when it compares a file with its beginning: when the beginning is enough to decode the image, the
whole file gives the same image. -/
def Png.Prefix (P : Png) : Prop := ∀ c c', CLe c c' → ∀ p, P.new c = .ok p →
  ∃ p', P.new c' = .ok p' ∧ P.dimensions p' = P.dimensions p ∧ P.colorType p' = P.colorType p ∧
    ∀ buf out, P.readImage p buf = .ok out → P.readImage p' buf = .ok out

theorem readEntry_sim {c c' : Cursor} (h : CLe c c') : Sim CLonger (readEntry c) (readEntry c') := by
  unfold readEntry
  refine (Bmp.readU_sim h).bind ?_
  rintro ⟨_, c1⟩ ⟨_, c1'⟩ ⟨rfl, h1⟩
  refine (Bmp.readU_sim h1).bind ?_
  rintro ⟨_, c2⟩ ⟨_, c2'⟩ ⟨rfl, h2⟩
  refine (Bmp.readU_sim h2).bind ?_
  rintro ⟨_, c3⟩ ⟨_, c3'⟩ ⟨rfl, h3⟩
  refine (Bmp.readU_sim h3).bind ?_
  rintro ⟨_, c4⟩ ⟨_, c4'⟩ ⟨rfl, h4⟩
  refine (Bmp.readU_sim h4).bind ?_
  rintro ⟨_, c5⟩ ⟨_, c5'⟩ ⟨rfl, h5⟩
  dsimp only
  split
  · exact .errR
  refine (Bmp.readU_sim h5).bind ?_
  rintro ⟨_, c6⟩ ⟨_, c6'⟩ ⟨rfl, h6⟩
  dsimp only
  split
  · exact .errR
  refine (Bmp.readU_sim h6).bind ?_
  rintro ⟨_, c7⟩ ⟨_, c7'⟩ ⟨rfl, h7⟩
  refine (Bmp.readU_sim h7).bind ?_
  rintro ⟨_, c8⟩ ⟨_, c8'⟩ ⟨rfl, h8⟩
  exact .ok ⟨rfl, h8⟩

theorem readEntries_sim {c c' : Cursor} (h : CLe c c') : Sim CLonger (readEntries c) (readEntries c') := by
  unfold readEntries
  refine (Bmp.readU_sim h).bind ?_
  rintro ⟨_, c1⟩ ⟨_, c1'⟩ ⟨rfl, h1⟩
  refine (Bmp.readU_sim h1).bind ?_
  rintro ⟨_, c2⟩ ⟨_, c2'⟩ ⟨rfl, h2⟩
  refine (Bmp.readU_sim h2).bind ?_
  rintro ⟨_, c3⟩ ⟨_, c3'⟩ ⟨rfl, h3⟩
  refine forRange_sim (Q := CLonger) _ _ _ ⟨rfl, h3⟩ ?_
  rintro _ ⟨es, c⟩ ⟨_, c'⟩ ⟨rfl, h⟩
  refine (readEntry_sim h).bind ?_
  rintro ⟨e, c1⟩ ⟨_, c1'⟩ ⟨rfl, h1⟩
  exact .ok ⟨rfl, h1⟩

theorem applyMask_sim {w h rb : Nat} (buf : List UInt8) {s s' : List UInt8} (hs : s <+: s') :
    Sim Longer (applyMask w h rb buf s) (applyMask w h rb buf s') := by
  unfold applyMask
  refine forRange_sim (Q := Longer) _ _ _ ⟨rfl, hs⟩ ?_
  rintro y ⟨b, s⟩ ⟨_, s'⟩ ⟨rfl, h⟩
  unfold maskRow
  refine Sim.bind (Q := fun a b => a.1 = b.1 ∧ a.2.1 = b.2.1 ∧ a.2.2 <+: b.2.2) ?_ ?_
  · refine forRange_sim (Q := fun (a b : Nat × List UInt8 × List UInt8) => a.1 = b.1 ∧ a.2.1 = b.2.1 ∧ a.2.2 <+: b.2.2) _ _ _ ⟨rfl, rfl, h⟩ ?_
    rintro _ ⟨x, b, s⟩ ⟨_, _, s'⟩ ⟨rfl, rfl, h⟩
    refine (readU8_sim h).bind ?_
    rintro ⟨v, s1⟩ ⟨_, s1'⟩ ⟨rfl, h1⟩
    exact Sim.same fun _ => .ok ⟨rfl, rfl, h1⟩
  · rintro ⟨x, b, s⟩ ⟨_, _, s'⟩ ⟨rfl, rfl, h⟩
    exact .ok ⟨rfl, h⟩

theorem readBmp_sim {e : DirEntry} {d : Bmp.Decoder} {r : Cursor} (h : CLe d.reader r) (buf : List UInt8) :
    Sim Eq (readBmp e d buf) (readBmp e { d with reader := r } buf) := by
  unfold readBmp
  change Sim Eq (if e.matchesDimensions d.width d.height = false then _ else if d.colorType ≠ .Rgba8 then _ else _)
    (if e.matchesDimensions d.width d.height = false then _ else if d.colorType ≠ .Rgba8 then _ else _)
  split
  · exact .errR
  split
  · exact .errR
  obtain ⟨t, ht⟩ := Bmp.drop_prefix h.1 d.dataOffset
  refine (Bmp.readImageDataEnd_by (r := r) (t := t) ht.symm buf).bind ?_
  rintro ⟨px, rest⟩ ⟨_, _⟩ ⟨rfl, rfl⟩
  have he : imageEnd { d with reader := r } (rest ++ t) = imageEnd d rest := by
    unfold imageEnd
    dsimp only
    rw [← ht, List.length_append, List.length_append]
    omega
  dsimp only
  rw [he]
  refine Sim.same fun _ => Sim.same fun rb => Sim.same fun _ => Sim.same fun _ => ?_
  split
  · refine (applyMask_sim px (List.prefix_append rest t)).bind ?_
    rintro ⟨b, _⟩ ⟨_, _⟩ ⟨rfl, _⟩
    exact .ok rfl
  split
  · exact .ok rfl
  · exact .errR

/-- **C54** (ICO): when the beginning of a file decodes, the whole file decodes to the same image; so a file cut short either
fails or gives the image of the whole file, never another one. -/
theorem C54_ico_prefix {P : Png} (hP : P.Prefix) {file : List UInt8} (k : Nat) {r : Nat × Nat × ColorType × List UInt8}
    (h : decode P (file.take k) = .ok r) : decode P file = .ok r := by
  have hs : Sim Eq (decode P (file.take k)) (decode P file) := by
    unfold decode Decoder.new
    have h0 : CLe ⟨file.take k, 0⟩ ⟨file, 0⟩ := ⟨List.take_prefix _ _, rfl⟩
    simp only [bind_assoc]
    refine (readEntries_sim h0).bind ?_
    rintro ⟨es, c⟩ ⟨_, c'⟩ ⟨rfl, h1⟩
    dsimp only at h1 ⊢
    refine Sim.same fun e => ?_
    unfold DirEntry.decoder
    simp only [bind_assoc]
    refine Sim.bind (Q := CLonger) ?_ ?_
    · unfold DirEntry.isPng
      refine (seekStart_sim h1).bind ?_
      rintro ⟨_, c2⟩ ⟨_, c2'⟩ ⟨rfl, h2⟩
      refine (cursorReadExact_sim h2).bind ?_
      rintro ⟨sig, c3⟩ ⟨_, c3'⟩ ⟨rfl, h3⟩
      exact .ok ⟨rfl, h3⟩
    rintro ⟨png, c2⟩ ⟨_, c2'⟩ ⟨rfl, h2⟩
    dsimp only at h2 ⊢
    refine (seekStart_sim h2).bind ?_
    rintro ⟨_, c3⟩ ⟨_, c3'⟩ ⟨rfl, h3⟩
    dsimp only at h3 ⊢
    cases png with
    | true =>
      rw [if_pos rfl, if_pos rfl]
      simp only [bind_assoc]
      intro r hr
      rw [bind_eq_ok] at hr
      obtain ⟨p, hp, hr⟩ := hr
      obtain ⟨p', e1, e2, e3, e4⟩ := hP _ _ h3 p hp
      refine ⟨r, ?_, rfl⟩
      rw [e1, ok_bind]
      rw [ok_bind, ok_bind, bind_eq_ok] at hr
      obtain ⟨b, h4, h5⟩ := hr
      rw [ok_bind, ok_bind, bind_eq_ok]
      have h4' := readImage_png.1 h4
      refine ⟨b, readImage_png.2 ?_, ?_⟩
      · rw [e2, e3]
        exact ⟨by
          rw [show (Decoder.dimensions (P := P) ⟨e, .png p'⟩) = P.dimensions p' from rfl,
            show (Decoder.colorType (P := P) ⟨e, .png p'⟩) = P.colorType p' from rfl, e2, e3]
          exact h4'.1, h4'.2.1, h4'.2.2.1, h4'.2.2.2.1, by
          rw [show (Decoder.dimensions (P := P) ⟨e, .png p'⟩) = P.dimensions p' from rfl,
            show (Decoder.colorType (P := P) ⟨e, .png p'⟩) = P.colorType p' from rfl, e2, e3]
          exact e4 _ _ h4'.2.2.2.2⟩
      · rw [show (Decoder.dimensions (P := P) ⟨e, .png p'⟩) = P.dimensions p' from rfl,
          show (Decoder.colorType (P := P) ⟨e, .png p'⟩) = P.colorType p' from rfl, e2, e3]
        exact h5
    | false =>
      rw [if_neg Bool.false_ne_true, if_neg Bool.false_ne_true]
      unfold Bmp.Decoder.newWithIcoFormat
      simp only [bind_assoc]
      refine (Bmp.readMetadata_sim h3).bind ?_
      rintro d d' ⟨ed, hr⟩
      rw [ed]
      simp only [ok_bind]
      refine Sim.bind (Q := Eq) ?_ ?_
      · unfold Decoder.readImage
        refine Sim.same fun _ => ?_
        exact readBmp_sim (d := { d with height := d.height / 2 }) hr _
      · rintro b _ rfl
        exact .ok rfl
  obtain ⟨b, hb, rfl⟩ := hs r h
  exact hb

end Ico
end Verif
