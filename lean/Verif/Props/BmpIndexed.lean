import Verif.Props.BmpTrunc

/-!
# BMP: reading palette indices (C64)
-/

namespace Verif
namespace Bmp

/-- Loops over two lists of the same length. -/
theorem forList_sim2 {σ τ β γ : Type} {Q : σ → τ → Prop} {L : β → Prop} {M : γ → Prop} {f : β → σ → R σ} {g : γ → τ → R τ} :
    ∀ (xs : List β) (ys : List γ) (s : σ) (t : τ), xs.length = ys.length → (∀ x ∈ xs, L x) → (∀ y ∈ ys, M y) → Q s t →
      (∀ x y s t, L x → M y → Q s t → Sim Q (f x s) (g y t)) → Sim Q (forList xs f s) (forList ys g t) := by
  intro xs
  induction xs with
  | nil =>
    intro ys s t hl _ _ h _
    match ys, hl with
    | [], _ => exact .ok h
  | cons x xs ih =>
    intro ys s t hl hx hy h hf
    match ys, hl with
    | y :: ys, hl =>
      exact (hf x y s t (hx x (by simp)) (hy y (by simp)) h).bind fun a b hab =>
        ih ys a b (by simpa using hl) (fun x h => hx x (by simp [h])) (fun y h => hy y (by simp [h])) hab hf

/-- The colours of a row of indices. -/
def colours (pal : List Rgb) (idx : List UInt8) : List UInt8 := idx.flatMap fun i => rgbBytes (pal.getD i.toNat (0, 0, 0))

/-- The colours of both rows, after the same bytes. -/
def RowRel (pal : List Rgb) (a b : List UInt8 × List UInt8) : Prop := b.1 = colours pal a.1 ∧ a.2 = b.2

theorem paletteRow_both {d : Decoder} {pal : List Rgb} (hi : d.indexedColor = false) (hc : d.channels = 3) (hbc : d.bitCount = 8)
    (hp : pal.length = 256) {rb : Nat} (hrb : d.width ≤ rb) {r1 r3 s : List UInt8} (h1 : r1.length = d.width) (h3 : r3.length = d.width * 3) :
    paletteRow (d.setIndexedColor true) pal rb r1 s = (do
      let (b, s) ← readExact rb s
      Except.ok (b.take d.width, s)) ∧
    paletteRow d pal rb r3 s = (do
      let (b, s) ← readExact rb s
      Except.ok (colours pal (b.take d.width), s)) := by
  unfold paletteRow readExact
  split
  swap
  · exact ⟨rfl, rfl⟩
  rename_i hs
  rw [ok_bind, ok_bind, ok_bind, ok_bind]
  dsimp only
  have hlen : (s.take rb).length = rb := by rw [List.length_take]; omega
  constructor
  · rw [if_pos (show (d.setIndexedColor true).indexedColor = true from rfl), show (d.setIndexedColor true).width = d.width from rfl,
      decide_eq_true (by omega), assertR_true, ok_bind, decide_eq_true h1, assertR_true, ok_bind]
  · rw [hi, hc, hbc]
    simp only [Bool.false_eq_true, if_false]
    obtain ⟨it, e1, ⟨g1, g2⟩, g3, g4⟩ := pixels_ok (c := 3) (by decide) h3
    rw [e1, ok_bind, if_neg (by decide), if_neg (by decide), if_neg (by decide)]
    rw [g3, List.nil_append] at g1 g2
    have hl8 : ((indices8 (s.take rb)).take d.width).length = d.width := by
      unfold indices8; rw [List.length_take, List.length_map]; omega
    rw [setRun_done _ it (by
      intro i hi
      obtain ⟨b, -, rfl⟩ := List.mem_map.1 (List.mem_of_mem_take hi)
      rw [hp]; exact b.toNat_lt) g1, ok_bind]
    dsimp only
    rw [g3, g2, List.take_of_length_le (by omega), List.drop_of_length_le (by omega), List.nil_append]
    congr 2
    unfold PixIter.bytes indices8 colours
    rw [List.append_nil, ← List.map_take, List.map_map, List.flatMap_def]
    rfl

theorem rowLoop_same {pal : List Rgb} {n m k : Nat} {f g : List UInt8 → List UInt8 → R (List UInt8 × List UInt8)}
    (hf : ∀ r s, r.length = n → f r s = (do let (b, s) ← readExact k s; Except.ok (b.take n, s)))
    (hg : ∀ r s, r.length = m → g r s = (do let (b, s) ← readExact k s; Except.ok (colours pal (b.take n), s)))
    (xs ys : List (List UInt8)) (hl : xs.length = ys.length) (hx : ∀ r ∈ xs, r.length = n) (hy : ∀ r ∈ ys, r.length = m) (s : List UInt8) :
    Sim (fun a b : List (List UInt8) × List UInt8 => b.1 = a.1.map (colours pal) ∧ a.2 = b.2) (rowLoop xs f s) (rowLoop ys g s) ∧
    Sim (fun b a : List (List UInt8) × List UInt8 => b.1 = a.1.map (colours pal) ∧ a.2 = b.2) (rowLoop ys g s) (rowLoop xs f s) := by
  unfold rowLoop
  constructor
  · refine forList_sim2 (L := fun r => r.length = n) (M := fun r => r.length = m) xs ys _ _ hl hx hy ⟨rfl, rfl⟩ ?_
    rintro r r' ⟨a, s⟩ ⟨_, _⟩ h1 h2 ⟨rfl, rfl⟩
    dsimp only
    rw [hf r s h1, hg r' s h2]
    refine Sim.bind (Q := RowRel pal) (Sim.same ?_) ?_
    · rintro ⟨b, s⟩; exact .ok ⟨rfl, rfl⟩
    · rintro ⟨b, s⟩ ⟨_, _⟩ ⟨rfl, rfl⟩
      exact .ok ⟨by simp, rfl⟩
  · refine forList_sim2 (L := fun r => r.length = m) (M := fun r => r.length = n) ys xs _ _ hl.symm hy hx ⟨rfl, rfl⟩ ?_
    rintro r r' ⟨_, _⟩ ⟨a, s⟩ h1 h2 ⟨rfl, rfl⟩
    dsimp only
    rw [hf r' s h2, hg r s h1]
    refine Sim.bind (Q := fun b a => RowRel pal a b) (Sim.same ?_) ?_
    · rintro ⟨b, s⟩; exact .ok ⟨rfl, rfl⟩
    · rintro ⟨_, _⟩ ⟨b, s⟩ ⟨rfl, rfl⟩
      exact .ok ⟨by simp, rfl⟩

theorem colours_flatten (pal : List Rgb) (rows : List (List UInt8)) : (rows.map (colours pal)).flatten = colours pal rows.flatten := by
  unfold colours
  induction rows with
  | nil => rfl
  | cons r rows ih => rw [List.map_cons, List.flatten_cons, List.flatten_cons, ih, List.flatMap_append]

/-- `set_indexed_color(true)`, then `read_image` into a buffer of `total_bytes` (src/codecs/bmp/decoder.rs:551-553,
1342-1345). -/
def decodeIndexed (file : List UInt8) : R (Nat × Nat × ColorType × List UInt8) := do
  let d ← Decoder.new file
  let d := d.setIndexedColor true
  let buf ← d.readImage (List.replicate (totalBytes d.width d.height d.colorType.bytesPerPixel) 0)
  .ok (d.width, d.height, d.colorType, buf)

/-- **C64**: for a file with a palette and eight bits per pixel, reading the indices gives one byte per pixel, and it succeeds
exactly when the normal reading does; the normal image has, at each pixel, the palette colour of the index. -/
theorem C64_indexed_partial {file : List UInt8} {d : Decoder} (hd : Decoder.new file = .ok d) (hty : d.imageType = .Palette)
    (hbc : d.bitCount = 8) :
    ∃ pal, d.palette = some pal ∧ pal.length = 256 ∧
      (∀ idx, decodeIndexed file = .ok (d.width, d.height, .L8, idx) →
        idx.length = d.width * d.height ∧ decode file = .ok (d.width, d.height, .Rgb8, colours pal idx)) ∧
      (∀ r, decode file = .ok r → ∃ idx, decodeIndexed file = .ok (d.width, d.height, .L8, idx)) ∧
      decodeIndexed file ≠ panicR := by
  have ht := readMetadata_total false false ⟨file, 0⟩
  have hd' := hd
  unfold Decoder.new at hd'
  rw [hd'] at ht
  obtain ⟨hg, hh, -, -, hal⟩ := ht
  obtain ⟨pal, hpal, hp⟩ := hg.palette (.inl hty)
  have halpha : d.addAlpha = false := by
    cases h : d.addAlpha with
    | false => rfl
    | true => rcases hal h with h | h | h <;> simp [hty] at h
  have hc : d.channels = 3 := by unfold Decoder.channels numChannels; rw [hg.indexed, halpha]; rfl
  have hw := hg.width
  have hb1 : d.width * d.height ≤ 65535 * 2 ^ 31 := Nat.mul_le_mul hw.2 (by have := hg.height; omega)
  have e1 : totalBytes d.width d.height 1 = d.width * d.height := by
    unfold totalBytes
    show min (d.width * d.height * 1) _ = _
    rw [Nat.mul_one, Nat.min_eq_left (by omega)]
  have e3 : totalBytes d.width d.height 3 = d.width * d.height * 3 := by
    unfold totalBytes
    show min (d.width * d.height * 3) _ = _
    rw [Nat.min_eq_left (by omega)]
  have r1 : decodeIndexed file = (do
      let (b, _) ← withRows (List.replicate (d.width * d.height) 0) d.width d.height 1 d.topDown
        (paletteRow (d.setIndexedColor true) pal ((8 * d.width + 31) / 32 * 4)) (d.reader.bytes.drop d.dataOffset)
      Except.ok (d.width, d.height, ColorType.L8, b)) := by
    unfold decodeIndexed
    rw [hd, ok_bind]
    have k1 : (d.setIndexedColor true).colorType.bytesPerPixel = 1 := rfl
    have k2 : (d.setIndexedColor true).channels = 1 := rfl
    dsimp only
    unfold Decoder.readImage readImageData
    rw [show (d.setIndexedColor true).imageType = .Palette from hty, k1]
    dsimp only
    unfold readPalettized
    rw [k2, show (d.setIndexedColor true).palette = some pal from hpal, show (d.setIndexedColor true).bitCount = 8 from hbc,
      show (d.setIndexedColor true).width = d.width from rfl, show (d.setIndexedColor true).height = d.height from rfl, e1,
      show (d.setIndexedColor true).topDown = d.topDown from rfl, show (d.setIndexedColor true).reader = d.reader from rfl,
      show (d.setIndexedColor true).dataOffset = d.dataOffset from rfl,
      decide_eq_true (List.length_replicate ..), assertR_true, ok_bind]
    dsimp only [unwrapR]
    rw [ok_bind, if_neg (by decide)]
    generalize withRows (List.replicate (d.width * d.height) 0) _ _ _ _ _ _ = x
    cases x <;> rfl
  have r3 : decode file = (do
      let (b, _) ← withRows (List.replicate (d.width * d.height * 3) 0) d.width d.height 3 d.topDown
        (paletteRow d pal ((8 * d.width + 31) / 32 * 4)) (d.reader.bytes.drop d.dataOffset)
      Except.ok (d.width, d.height, ColorType.Rgb8, b)) := by
    unfold decode
    rw [hd, ok_bind]
    have k1 : d.colorType = .Rgb8 := by unfold Decoder.colorType; rw [hg.indexed, halpha]; rfl
    unfold Decoder.readImage readImageData
    rw [hty, k1]
    dsimp only
    rw [show ColorType.Rgb8.bytesPerPixel = 3 from rfl, e3]
    unfold readPalettized
    rw [hc, hpal, hbc, decide_eq_true (List.length_replicate ..), assertR_true, ok_bind]
    dsimp only [unwrapR]
    rw [ok_bind, if_neg (by decide)]
    generalize withRows (List.replicate (d.width * d.height * 3) 0) _ _ _ _ _ _ = x
    cases x <;> rfl
  have f1 := fun (r s : List UInt8) (h : r.length = d.width) => (paletteRow_both hg.indexed hc hbc hp (rb := (8 * d.width + 31) / 32 * 4) (by omega) (s := s) h
    (r3 := List.replicate (d.width * 3) 0) (List.length_replicate ..)).1
  have f3 := fun (r s : List UInt8) (h : r.length = d.width * 3) => (paletteRow_both hg.indexed hc hbc hp (rb := (8 * d.width + 31) / 32 * 4) (by omega) (s := s)
    (r1 := List.replicate d.width 0) (List.length_replicate ..) h).2
  have tot : OkOr AnyE (fun a : Nat × Nat × ColorType × List UInt8 => a.2.2.2.length = d.width * d.height) (decodeIndexed file) := by
    rw [r1]
    refine (withRows_total hw hg.height (by decide) (by rw [List.length_replicate, Nat.mul_one]) _ (fun row s hr => ?_) _).bind ?_
    · rw [f1 row s (by omega)]
      refine ((readExact_total _ s).weaken fun _ _ => trivial).bind ?_
      rintro ⟨b, s⟩ hb
      show (b.take d.width).length = _
      have := hb
      dsimp only at this
      rw [List.length_take]; omega
    · rintro ⟨b, s⟩ hb
      show b.length = _
      dsimp only at hb
      omega
  rw [withRows_eq hw hg.height (by decide) (by rw [List.length_replicate, Nat.mul_one]), Nat.mul_one] at r1
  rw [withRows_eq hw hg.height (by decide) (by rw [List.length_replicate])] at r3
  generalize hs : d.reader.bytes.drop d.dataOffset = s at r1 r3
  obtain ⟨l1, l2⟩ := rows_lengths (n := d.width) (k := d.height) (by omega) (buf := List.replicate (d.width * d.height) 0)
    (by rw [List.length_replicate, Nat.mul_comm])
  obtain ⟨m1, m2⟩ := rows_lengths (n := d.width * 3) (k := d.height) (by omega) (buf := List.replicate (d.width * d.height * 3) 0)
    (by rw [List.length_replicate, Nat.mul_comm d.width, Nat.mul_assoc])
  have key : Sim (fun a b : Nat × Nat × ColorType × List UInt8 => ∃ idx, a = (d.width, d.height, .L8, idx) ∧
      b = (d.width, d.height, .Rgb8, colours pal idx)) (decodeIndexed file) (decode file) ∧
      Sim (fun _ b : Nat × Nat × ColorType × List UInt8 => ∃ idx, b = (d.width, d.height, .L8, idx)) (decode file) (decodeIndexed file) := by
    rw [r1, r3]
    cases d.topDown
    · simp only [Bool.false_eq_true, if_false]
      obtain ⟨k1, k2⟩ := rowLoop_same f1 f3 (chunksOf d.width (List.replicate (d.width * d.height) 0)).reverse
        (chunksOf (d.width * 3) (List.replicate (d.width * d.height * 3) 0)).reverse (by rw [List.length_reverse, List.length_reverse, l2, m2])
        (by simpa using l1) (by simpa using m1) s
      refine ⟨Sim.bind (Q := fun a b => b.1 = colours pal a.1) (k1.bind ?_) ?_, Sim.bind (Q := fun _ _ => True) (k2.bind ?_) ?_⟩
      · rintro ⟨a, _⟩ ⟨_, _⟩ ⟨rfl, rfl⟩
        refine .ok ?_
        dsimp only
        rw [← List.map_reverse, colours_flatten]
      · rintro ⟨a, _⟩ ⟨b, _⟩ h
        dsimp only at h
        subst h
        exact .ok ⟨a, rfl, rfl⟩
      · rintro ⟨a, _⟩ ⟨b, _⟩ _; exact .ok trivial
      · rintro ⟨a, _⟩ ⟨b, _⟩ _; exact .ok ⟨b, rfl⟩
    · simp only [if_true]
      obtain ⟨k1, k2⟩ := rowLoop_same f1 f3 (chunksOf d.width (List.replicate (d.width * d.height) 0))
        (chunksOf (d.width * 3) (List.replicate (d.width * d.height * 3) 0)) (by rw [l2, m2]) l1 m1 s
      refine ⟨Sim.bind (Q := fun a b => b.1 = colours pal a.1) (k1.bind ?_) ?_, Sim.bind (Q := fun _ _ => True) (k2.bind ?_) ?_⟩
      · rintro ⟨a, _⟩ ⟨_, _⟩ ⟨rfl, rfl⟩
        refine .ok ?_
        dsimp only
        rw [colours_flatten]
      · rintro ⟨a, _⟩ ⟨b, _⟩ h
        dsimp only at h
        subst h
        exact .ok ⟨a, rfl, rfl⟩
      · rintro ⟨a, _⟩ ⟨b, _⟩ _; exact .ok trivial
      · rintro ⟨a, _⟩ ⟨b, _⟩ _; exact .ok ⟨b, rfl⟩
  refine ⟨pal, hpal, hp, fun idx hidx => ?_, fun r hr => ?_, tot.ne_panic⟩
  · rw [hidx] at tot
    refine ⟨tot, ?_⟩
    obtain ⟨b, hb, idx', h1, h2⟩ := key.1 _ hidx
    cases h1
    rw [hb, h2]
  · obtain ⟨b, hb, idx', h1⟩ := key.2 _ hr
    exact ⟨idx', by rw [hb, h1]⟩

/-- Reading indices panics when a pixel has fewer than eight bits (here one, in a row of 33 pixels) … -/
def bits1 : List UInt8 :=
  [66, 77, 0, 0, 0, 0, 0, 0, 0, 0, 32, 0, 0, 0, 12, 0, 0, 0, 33, 0, 1, 0, 1, 0, 1, 0, 0, 0, 0, 255, 255, 255] ++ [0, 0, 0, 0, 0, 0, 0, 0]

/-- … and when the file has no palette. -/
def rgb24 : List UInt8 :=
  [66, 77, 0, 0, 0, 0, 0, 0, 0, 0, 26, 0, 0, 0, 12, 0, 0, 0, 1, 0, 1, 0, 1, 0, 24, 0] ++ [1, 2, 3, 0]

/-- **C64** is false without the restriction to eight bits and a palette: files that decode normally, for which reading
indices panics. -/
theorem C64_indexed_false :
    (∃ r, decode rgb24 = .ok r) ∧ decodeIndexed rgb24 = panicR ∧ decodeIndexed bits1 = panicR := by
  refine ⟨⟨(1, 1, .Rgb8, [3, 2, 1]), by decide +kernel⟩, by decide +kernel, ?_⟩
  decide +kernel

/-- A file that meets the conditions of `C64_indexed_partial`. -/
example : ∃ file d r, Decoder.new file = .ok d ∧ d.imageType = .Palette ∧ d.bitCount = 8 ∧ decode file = .ok r := by
  obtain ⟨file, h1, -, -, -, h5⟩ := C41_palette_roundtrip 1 1 (by decide) (by decide) [0] rfl [(1, 2, 3)] (by decide) (by decide) (by decide)
  have e : encodeWithPalette [0] 1 1 .L8 (some [(1, 2, 3)]) =
      .ok (headerBytes 62 40 1 1 1 4 1 ++ (entries [(1, 2, 3)] ++ [0, 0, 0, 0])) := by decide +kernel
  cases h1.symm.trans e
  obtain ⟨d, d1, -, d3, d4, -⟩ := new_gray (w := 1) (h := 1) (fs := 62) (isz := 4) (by decide) (by decide) (by decide) (by decide)
    [(1, 2, 3)] (by decide) (by decide) [0, 0, 0, 0]
  exact ⟨_, d, _, d1, d3, d4, h5⟩

end Bmp
end Verif
