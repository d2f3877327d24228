import Verif.Proofs.JpegScan

/-! # Lemmas on the files written by the JPEG encoder -/

namespace Verif
namespace Jpeg

open JpegSpec GenericImageView

/-! ## Segments -/

/-- A marker segment. -/
def seg (p : UInt8 × List UInt8) : List UInt8 := [0xFF, p.1] ++ beBytes 2 (p.2.length + 2) ++ p.2

theorem writeSegment_ok (s : BitWriter) (m : UInt8) (data : List UInt8) (h : data.length ≤ 65533) :
    s.writeSegment m data = .ok { s with w := s.w ++ seg (m, data) } := by
  unfold BitWriter.writeSegment seg
  rw [Nat.mod_eq_of_lt (by omega), addC_ok (by omega), ok_bind]
  simp only [List.append_assoc]

theorem beBytes2 (n : Nat) (h : n < 2 ^ 16) : ∃ a b, beBytes 2 n = [a, b] ∧ beNat [a, b] = n := by
  have hl := length_beBytes 2 n
  rcases hb : beBytes 2 n with _ | ⟨a, _ | ⟨b, _ | ⟨c, l⟩⟩⟩
  · rw [hb] at hl; simp at hl
  · rw [hb] at hl; simp at hl
  · refine ⟨a, b, rfl, ?_⟩
    rw [← hb, beNat_beBytes]
    omega
  · rw [hb] at hl; simp at hl

theorem segments_seg (m : UInt8) (data rest : List UInt8) (h : data.length ≤ 65533) :
    segments (seg (m, data) ++ rest) =
      if m = 0xDA then some ([(m, data)], rest)
      else match segments rest with
        | none => none
        | some (segs, tail) => some ((m, data) :: segs, tail) := by
  obtain ⟨a, b, hab, hn⟩ := beBytes2 (data.length + 2) (by omega)
  unfold seg
  dsimp only
  rw [hab]
  simp only [List.cons_append, List.nil_append]
  rw [segments]
  simp only [hn, Nat.add_sub_cancel, List.length_append]
  rw [if_neg (by omega), List.take_left' rfl, List.drop_left' rfl]
  rfl

theorem segments_ok (l : List (UInt8 × List UInt8)) (hl : ∀ p ∈ l, p.1 ≠ 0xDA ∧ p.2.length ≤ 65533) (sos data : List UInt8)
    (hs : sos.length ≤ 65533) :
    segments (l.flatMap seg ++ (seg (0xDA, sos) ++ data)) = some (l ++ [(0xDA, sos)], data) := by
  induction l with
  | nil => rw [List.flatMap_nil, List.nil_append, segments_seg _ _ _ hs, if_pos rfl]; rfl
  | cons p l ih =>
    obtain ⟨h1, h2⟩ := hl p (by simp)
    rw [List.flatMap_cons, List.append_assoc, show p = (p.1, p.2) from rfl, segments_seg _ _ _ h2, if_neg h1,
      ih (fun q hq => hl q (by simp [hq]))]
    rfl

/-! ## The colour profile -/

/-- The payload of the segment of chunk `i` of `n`. -/
def iccChunk (icc : List UInt8) (n i : Nat) : List UInt8 :=
  [0x49, 0x43, 0x43, 0x5F, 0x50, 0x52, 0x4F, 0x46, 0x49, 0x4C, 0x45, 0, UInt8.ofNat (i + 1), UInt8.ofNat n] ++
    (icc.drop (i * 65519)).take 65519

/-- The segments of the colour profile. -/
def iccSegs (icc : List UInt8) : List (UInt8 × List UInt8) :=
  (List.range ((icc.length + 65518) / 65519)).map fun i => (0xE2, iccChunk icc ((icc.length + 65518) / 65519) i)

theorem iccSegs_ok (icc : List UInt8) : ∀ p ∈ iccSegs icc, p.1 = 0xE2 ∧ p.2.length ≤ 65533 := by
  intro p hp
  obtain ⟨i, _, rfl⟩ := List.mem_map.1 hp
  refine ⟨rfl, ?_⟩
  simp only [iccChunk, List.length_append, List.length_cons, List.length_nil, List.length_take, List.length_drop]
  omega

theorem writeIccProfileChunks_ok (icc : List UInt8) (h : icc.length ≤ 65519 * 255) (s : BitWriter) :
    writeIccProfileChunks icc s = .ok { s with w := s.w ++ (iccSegs icc).flatMap seg } := by
  unfold writeIccProfileChunks
  by_cases h0 : icc = []
  · subst h0
    simp [iccSegs, pure, Except.pure]
  · have he : icc.isEmpty = false := by simp [h0]
    rw [he]
    simp only [Bool.false_eq_true, if_false]
    rw [if_neg (by omega)]
    have hn : (icc.length + (65533 - 14) - 1) / (65533 - 14) = (icc.length + 65518) / 65519 := by omega
    rw [hn, Nat.mod_eq_of_lt (by omega)]
    obtain ⟨s', e, hi⟩ := forRange_inv (n := (icc.length + 65518) / 65519) (f := fun i (s : BitWriter) =>
        s.writeSegment 0xE2 (iccChunk icc ((icc.length + 65518) / 65519) i))
      (fun i s' => s' = { s with w := s.w ++ ((List.range i).map fun i => ((0xE2 : UInt8), iccChunk icc ((icc.length + 65518) / 65519) i)).flatMap seg })
      (s := s) (by simp) (by
        intro i hi s' hs'
        have hlen : (iccChunk icc ((icc.length + 65518) / 65519) i).length ≤ 65533 := by
          simp only [iccChunk, List.length_append, List.length_cons, List.length_nil, List.length_take, List.length_drop]
          omega
        refine ⟨_, writeSegment_ok _ _ _ hlen, ?_⟩
        rw [hs', List.range_succ, List.map_append, List.flatMap_append]
        simp)
    subst hi
    exact e

/-! ## Tables -/

theorem natural_unzigzag' {α : Type} [Inhabited α] (d : α) (block : List α) (h : block.length = 64) :
    natural (UNZIGZAG.map fun k => block.getD k d) = block := by
  have hz : ∀ i, i < 64 → UNZIGZAG[zigzag.idxOf i]? = some i := by decide +kernel
  apply List.ext_getElem?
  intro i
  unfold natural
  by_cases hi : i < 64
  · rw [List.getElem?_map, List.getElem?_range hi, Option.map_some, List.getD_eq_getElem?_getD, List.getElem?_map, hz i hi]
    simp [List.getElem?_eq_getElem (show i < block.length by omega)]
  · rw [List.getElem?_eq_none (by simp; omega), List.getElem?_eq_none (by omega)]

/-- The payload of the segment of a quantisation table. -/
def dqt (id : UInt8) (t : List Nat) : List UInt8 := id :: UNZIGZAG.map fun k => UInt8.ofNat (t.getD k 0)

theorem quantizationSegment_ok (i : Nat) (hi : i < 2) {t : List Nat} (ht : QTable t) :
    quantizationSegment 8 i t = .ok (dqt (UInt8.ofNat i) t) := by
  unfold quantizationSegment
  have hu : ∀ k ∈ UNZIGZAG, k < 64 := by decide
  rw [mapM_ok (g := fun k => t.getD k 0) (fun k hk => getR_of (ht.entry (hu k hk)).1), ok_bind, List.map_map]
  unfold dqt
  rcases (show i = 0 ∨ i = 1 by omega) with rfl | rfl <;> rfl

theorem dqt_length (id : UInt8) (t : List Nat) : (dqt id t).length = 65 := by
  unfold dqt
  rw [List.length_cons, List.length_map]
  rfl

theorem dqt_table (id : UInt8) {t : List Nat} (ht : QTable t) : natural ((dqt id t).tail.map (·.toNat)) = t := by
  unfold dqt
  rw [List.tail_cons, List.map_map]
  have hu : ∀ k ∈ UNZIGZAG, k < 64 := by decide
  rw [List.map_congr_left (g := fun k => t.getD k 0)]
  · exact natural_unzigzag' 0 t ht.len
  · intro k hk
    have := (ht.entry (hu k hk)).2.2
    simp only [Function.comp, UInt8.toNat_ofNat']
    omega

/-- The payload of the segment of a Huffman table. -/
def dht (tc : UInt8) (t : HuffTable) : List UInt8 := tc :: (t.counts.map UInt8.ofNat ++ t.vals.map UInt8.ofNat)

theorem find_icc (icc : List UInt8) (p : UInt8 × List UInt8 → Bool) (hp : ∀ l, p (0xE2, l) = false) : (iccSegs icc).find? p = none := by
  rw [List.find?_eq_none]
  intro x hx
  have := (iccSegs_ok icc x hx).1
  obtain ⟨a, b⟩ := x
  dsimp only at this
  subst this
  simp [hp]

theorem find_icc_rev (icc : List UInt8) (p : UInt8 × List UInt8 → Bool) (hp : ∀ l, p (0xE2, l) = false) : (iccSegs icc).reverse.find? p = none := by
  rw [List.find?_eq_none]
  intro x hx
  have := (iccSegs_ok icc x (List.mem_reverse.1 hx)).1
  obtain ⟨a, b⟩ := x
  dsimp only at this
  subst this
  simp [hp]

/-- The segments of a file, given those after the colour profile, other than the scan header. -/
def fileSegs (d : PixelDensity) (icc : List UInt8) (l : List (UInt8 × List UInt8)) : List (UInt8 × List UInt8) :=
  (0xE0, jfifHeader d) :: (iccSegs icc ++ l)

theorem find_fileSegs (d : PixelDensity) (icc : List UInt8) (l : List (UInt8 × List UInt8)) (p : UInt8 × List UInt8 → Bool)
    (h0 : ∀ l, p (0xE0, l) = false) (h2 : ∀ l, p (0xE2, l) = false) : (fileSegs d icc l).find? p = l.find? p := by
  unfold fileSegs
  rw [List.find?_cons, h0, List.find?_append, find_icc _ _ h2]
  rfl

theorem find_fileSegs_rev (d : PixelDensity) (icc : List UInt8) (l : List (UInt8 × List UInt8)) (p : UInt8 × List UInt8 → Bool)
    (h0 : ∀ l, p (0xE0, l) = false) (h2 : ∀ l, p (0xE2, l) = false) : (fileSegs d icc l).reverse.find? p = l.reverse.find? p := by
  unfold fileSegs
  rw [List.reverse_cons, List.reverse_append, List.find?_append, List.find?_append, find_icc_rev _ _ h2]
  simp [h0]

theorem filter_fileSegs (d : PixelDensity) (icc : List UInt8) (l : List (UInt8 × List UInt8))
    (hl : ∀ p ∈ l, ¬(0xE0 ≤ p.1 ∧ p.1 ≤ 0xEF)) :
    (fileSegs d icc l).filter (fun s => 0xE0 ≤ s.1 ∧ s.1 ≤ 0xEF) = (0xE0, jfifHeader d) :: iccSegs icc := by
  unfold fileSegs
  rw [List.filter_cons_of_pos (by simp), List.filter_append]
  rw [List.filter_eq_self.2 (by
    intro p hp
    rw [(iccSegs_ok icc p hp).1]
    decide), List.filter_eq_nil_iff.2 (by
    intro p hp
    simpa using hl p hp), List.append_nil]

/-! ## Decoding a file -/

theorem decodeFile_eq {rest data sof sos bytes : List UInt8} {segs : List (UInt8 × List UInt8)} {a b : UInt8} {w h : Nat} {comps : List (UInt8 × UInt8)}
    {scan : List (UInt8 × Nat × Nat)} {quants : List (UInt8 × List Nat)} {tables : List (HuffTable × HuffTable)} {mcus : List (List (List Int))}
    {pad : List Bool} {apps : List (UInt8 × List UInt8)}
    (h2 : segments rest = some (segs, data)) (h3 : segs.find? (fun s => s.1 = 0xC0) = some (a, sof))
    (h4 : JpegSpec.frameHeader sof = some (w, h, comps)) (h5 : segs.find? (fun s => s.1 = 0xDA) = some (b, sos))
    (h6 : JpegSpec.scanHeader sos = some scan) (h7 : scan.map (·.1) = comps.map (·.1))
    (h8 : (comps.mapM fun c => do
      let q ← quantTable segs c.2
      some (c.1, q)) = some quants)
    (h9 : (scan.mapM fun c => do
      let dc ← huffTable segs 0 c.2.1
      let ac ← huffTable segs 1 c.2.2
      some (dc, ac)) = some tables)
    (h10 : unstuff data = (bytes, [0xFF, 0xD9]))
    (h11 : decodeMcus tables ((w + 7) / 8 * ((h + 7) / 8)) (tables.map fun _ => 0) (byteBits bytes) = some (mcus, pad))
    (h12 : pad.length < 8 ∧ pad.all id) (h13 : (segs.filter fun s => 0xE0 ≤ s.1 ∧ s.1 ≤ 0xEF) = apps) :
    decodeFile (0xFF :: 0xD8 :: rest) = some ⟨w, h, quants, mcus, apps⟩ := by
  unfold decodeFile
  simp only [Option.bind_eq_bind, Option.bind_some] at h8 h9 ⊢
  rw [h2]
  simp only [Option.bind_some]
  rw [h3]
  simp only [Option.bind_some, h4, h5, h6, h7, if_true, h8, h9, h10, h11]
  rw [if_pos h12]
  simp only [h13]

/-! ## Headers -/

theorem frameHeader_gray {w h : Nat} (hw : 0 < w) (hh : 0 < h) (hw2 : w < 2 ^ 16) (hh2 : h < 2 ^ 16) :
    JpegSpec.frameHeader (frameHeader 8 w h (components.take 1)) = some (w, h, [(1, 0)]) := by
  obtain ⟨a, b, e1, n1⟩ := beBytes2 h hh2
  obtain ⟨c, d, e2, n2⟩ := beBytes2 w hw2
  unfold frameHeader
  rw [e1, e2]
  have e : (components.take 1).flatMap (fun c => [UInt8.ofNat c.id, UInt8.ofNat ((c.h <<< 4) ||| c.v), UInt8.ofNat c.tq]) = [1, 0x11, 0] := by decide
  rw [e]
  simp only [List.cons_append, List.nil_append]
  unfold JpegSpec.frameHeader
  dsimp only
  rw [n1, n2, if_pos ⟨rfl, by omega, by omega, by decide⟩]
  rfl

theorem frameHeader_rgb {w h : Nat} (hw : 0 < w) (hh : 0 < h) (hw2 : w < 2 ^ 16) (hh2 : h < 2 ^ 16) :
    JpegSpec.frameHeader (frameHeader 8 w h (components.take 3)) = some (w, h, [(1, 0), (2, 1), (3, 1)]) := by
  obtain ⟨a, b, e1, n1⟩ := beBytes2 h hh2
  obtain ⟨c, d, e2, n2⟩ := beBytes2 w hw2
  unfold frameHeader
  rw [e1, e2]
  have e : (components.take 3).flatMap (fun c => [UInt8.ofNat c.id, UInt8.ofNat ((c.h <<< 4) ||| c.v), UInt8.ofNat c.tq]) =
    [1, 0x11, 0, 2, 0x11, 1, 3, 0x11, 1] := by decide
  rw [e]
  simp only [List.cons_append, List.nil_append]
  unfold JpegSpec.frameHeader
  dsimp only
  rw [n1, n2, if_pos ⟨rfl, by omega, by omega, by decide⟩]
  rfl

theorem scanHeader_gray : JpegSpec.scanHeader (scanHeader (components.take 1)) = some [(1, 0, 0)] := by decide
theorem scanHeader_rgb : JpegSpec.scanHeader (scanHeader (components.take 3)) = some [(1, 0, 0), (2, 1, 1), (3, 1, 1)] := by decide

theorem huffSeg_lumaDc : huffmanSegment 0 0 LUMA_DC = .ok (dht 0x00 LUMA_DC) := by decide +kernel
theorem huffSeg_lumaAc : huffmanSegment 1 0 LUMA_AC = .ok (dht 0x10 LUMA_AC) := by decide +kernel
theorem huffSeg_chromaDc : huffmanSegment 0 1 CHROMA_DC = .ok (dht 0x01 CHROMA_DC) := by decide +kernel
theorem huffSeg_chromaAc : huffmanSegment 1 1 CHROMA_AC = .ok (dht 0x11 CHROMA_AC) := by decide +kernel

/-- The table in a segment of a Huffman table. -/
def dhtTable (payload : List UInt8) : Option HuffTable :=
  if ((payload.tail.take 16).map (·.toNat)).length = 16 ∧ ((payload.tail.take 16).map (·.toNat)).sum = ((payload.drop 17).map (·.toNat)).length then
    some ⟨(payload.tail.take 16).map (·.toNat), (payload.drop 17).map (·.toNat)⟩ else none

theorem dht_lumaDc : dhtTable (dht 0x00 LUMA_DC) = some LUMA_DC := by decide +kernel
theorem dht_lumaAc : dhtTable (dht 0x10 LUMA_AC) = some LUMA_AC := by decide +kernel
theorem dht_chromaDc : dhtTable (dht 0x01 CHROMA_DC) = some CHROMA_DC := by decide +kernel
theorem dht_chromaAc : dhtTable (dht 0x11 CHROMA_AC) = some CHROMA_AC := by decide +kernel

theorem quantTable_of {segs : List (UInt8 × List UInt8)} {id m : UInt8} {t : List Nat} (ht : QTable t)
    (h : (segs.reverse.find? fun s => s.1 = 0xDB ∧ s.2.head? = some id) = some (m, dqt id t)) : quantTable segs id = some t := by
  unfold quantTable
  rw [h]
  simp only [Option.bind_eq_bind, Option.bind_some, dqt_length, if_true, dqt_table id ht]

theorem huffTable_of {segs : List (UInt8 × List UInt8)} {cls id : Nat} {m : UInt8} {payload : List UInt8} {t : HuffTable}
    (h : (segs.reverse.find? fun s => s.1 = 0xC4 ∧ (s.2.head?.map (·.toNat)) = some (16 * cls + id)) = some (m, payload))
    (ht : dhtTable payload = some t) : huffTable segs cls id = some t := by
  unfold huffTable
  rw [h]
  exact ht

/-- The segments of a grey file after the colour profile. -/
def grayTail (w h : Nat) (t : List Nat) : List (UInt8 × List UInt8) :=
  [(0xC0, frameHeader 8 w h (components.take 1)), (0xDB, dqt 0 t), (0xC4, dht 0x00 LUMA_DC), (0xC4, dht 0x10 LUMA_AC)]

/-- The segments of a colour file after the colour profile. -/
def rgbTail (w h : Nat) (t0 t1 : List Nat) : List (UInt8 × List UInt8) :=
  [(0xC0, frameHeader 8 w h (components.take 3)), (0xDB, dqt 0 t0), (0xDB, dqt 1 t1), (0xC4, dht 0x00 LUMA_DC), (0xC4, dht 0x10 LUMA_AC),
    (0xC4, dht 0x01 CHROMA_DC), (0xC4, dht 0x11 CHROMA_AC)]

theorem decode_gray (d : PixelDensity) (icc : List UInt8) {w h : Nat} (hw : 0 < w) (hh : 0 < h) (hw2 : w < 2 ^ 16) (hh2 : h < 2 ^ 16)
    {t : List Nat} (ht : QTable t) {bytes : List UInt8} {bs : List Bool} {n : Nat} (hn : n < 8) (hb : byteBits bytes = bs ++ List.replicate n true)
    {mcus : List (List (List Int))} (hm : mcus.length = (w + 7) / 8 * ((h + 7) / 8)) {preds : List Int}
    (hd : Decodes [(LUMA_DC, LUMA_AC)] [0] bs mcus preds) :
    decodeFile (0xFF :: 0xD8 :: ((fileSegs d icc (grayTail w h t)).flatMap seg ++
        (seg (0xDA, scanHeader (components.take 1)) ++ (stuff bytes ++ [0xFF, 0xD9])))) =
      some ⟨w, h, [(1, t)], mcus, (0xE0, jfifHeader d) :: iccSegs icc⟩ := by
  have happ : fileSegs d icc (grayTail w h t) ++ [(0xDA, scanHeader (components.take 1))] =
      fileSegs d icc (grayTail w h t ++ [(0xDA, scanHeader (components.take 1))]) := by
    simp [fileSegs]
  have hl : ∀ p ∈ fileSegs d icc (grayTail w h t), p.1 ≠ 0xDA ∧ p.2.length ≤ 65533 := by
    intro p hp
    simp only [fileSegs, List.mem_cons, List.mem_append] at hp
    rcases hp with rfl | hp | hp
    · refine ⟨by simp, ?_⟩
      cases d; rename_i u; cases u <;> simp [jfifHeader]
    · have := iccSegs_ok icc p hp
      exact ⟨by rw [this.1]; decide, this.2⟩
    · simp only [grayTail, List.mem_cons, List.not_mem_nil, or_false] at hp
      rcases hp with rfl | rfl | rfl | rfl
      · exact ⟨by simp, by simp [frameHeader, components]⟩
      · exact ⟨by simp, by rw [dqt_length]; omega⟩
      · exact ⟨by simp, by decide +kernel⟩
      · exact ⟨by simp, by decide +kernel⟩
  refine decodeFile_eq (segments_ok _ hl _ _ (by decide)) (by rw [happ, find_fileSegs _ _ _ _ (fun _ => rfl) (fun _ => rfl)]; rfl)
    (frameHeader_gray hw hh hw2 hh2) (by rw [happ, find_fileSegs _ _ _ _ (fun _ => rfl) (fun _ => rfl)]; rfl)
    scanHeader_gray rfl (quants := [(1, t)]) ?_ (tables := [(LUMA_DC, LUMA_AC)]) ?_ (unstuff_stuff bytes 0xD9 [] (by decide))
    (mcus := mcus) (pad := List.replicate n true) ?_ ⟨by simpa using hn, by simp⟩ ?_
  · have : quantTable (fileSegs d icc (grayTail w h t) ++ [(0xDA, scanHeader (components.take 1))]) 0 = some t := by
      apply quantTable_of ht (m := 0xDB)
      rw [happ, find_fileSegs_rev _ _ _ _ (fun _ => by simp) (fun _ => by simp)]
      rfl
    simp only [List.mapM_cons, List.mapM_nil, this]
    rfl
  · have h1 : huffTable (fileSegs d icc (grayTail w h t) ++ [(0xDA, scanHeader (components.take 1))]) 0 0 = some LUMA_DC := by
      apply huffTable_of (m := 0xC4) _ dht_lumaDc
      rw [happ, find_fileSegs_rev _ _ _ _ (fun _ => by simp) (fun _ => by simp)]
      rfl
    have h2 : huffTable (fileSegs d icc (grayTail w h t) ++ [(0xDA, scanHeader (components.take 1))]) 1 0 = some LUMA_AC := by
      apply huffTable_of (m := 0xC4) _ dht_lumaAc
      rw [happ, find_fileSegs_rev _ _ _ _ (fun _ => by simp) (fun _ => by simp)]
      rfl
    simp only [List.mapM_cons, List.mapM_nil, h1, h2]
    rfl
  · rw [hb, ← hm]
    exact hd.all _
  · rw [happ]
    apply filter_fileSegs
    intro p hp
    simp only [grayTail, List.cons_append, List.nil_append, List.mem_cons, List.not_mem_nil, or_false] at hp
    rcases hp with rfl | rfl | rfl | rfl | rfl <;> dsimp only <;> decide

theorem decode_rgb (d : PixelDensity) (icc : List UInt8) {w h : Nat} (hw : 0 < w) (hh : 0 < h) (hw2 : w < 2 ^ 16) (hh2 : h < 2 ^ 16)
    {t0 t1 : List Nat} (ht0 : QTable t0) (ht1 : QTable t1) {bytes : List UInt8} {bs : List Bool} {n : Nat} (hn : n < 8)
    (hb : byteBits bytes = bs ++ List.replicate n true)
    {mcus : List (List (List Int))} (hm : mcus.length = (w + 7) / 8 * ((h + 7) / 8)) {preds : List Int}
    (hd : Decodes rgbTables [0, 0, 0] bs mcus preds) :
    decodeFile (0xFF :: 0xD8 :: ((fileSegs d icc (rgbTail w h t0 t1)).flatMap seg ++
        (seg (0xDA, scanHeader (components.take 3)) ++ (stuff bytes ++ [0xFF, 0xD9])))) =
      some ⟨w, h, [(1, t0), (2, t1), (3, t1)], mcus, (0xE0, jfifHeader d) :: iccSegs icc⟩ := by
  have happ : fileSegs d icc (rgbTail w h t0 t1) ++ [(0xDA, scanHeader (components.take 3))] =
      fileSegs d icc (rgbTail w h t0 t1 ++ [(0xDA, scanHeader (components.take 3))]) := by
    simp [fileSegs]
  have hl : ∀ p ∈ fileSegs d icc (rgbTail w h t0 t1), p.1 ≠ 0xDA ∧ p.2.length ≤ 65533 := by
    intro p hp
    simp only [fileSegs, List.mem_cons, List.mem_append] at hp
    rcases hp with rfl | hp | hp
    · refine ⟨by simp, ?_⟩
      cases d; rename_i u; cases u <;> simp [jfifHeader]
    · have := iccSegs_ok icc p hp
      exact ⟨by rw [this.1]; decide, this.2⟩
    · simp only [rgbTail, List.mem_cons, List.not_mem_nil, or_false] at hp
      rcases hp with rfl | rfl | rfl | rfl | rfl | rfl | rfl
      · exact ⟨by simp, by simp [frameHeader, components]⟩
      · exact ⟨by simp, by rw [dqt_length]; omega⟩
      · exact ⟨by simp, by rw [dqt_length]; omega⟩
      · exact ⟨by simp, by decide +kernel⟩
      · exact ⟨by simp, by decide +kernel⟩
      · exact ⟨by simp, by decide +kernel⟩
      · exact ⟨by simp, by decide +kernel⟩
  have hseg : ∀ cls id m payload t, dhtTable payload = some t →
      (((rgbTail w h t0 t1 ++ [(0xDA, scanHeader (components.take 3))]).reverse.find? fun s => s.1 = 0xC4 ∧ (s.2.head?.map UInt8.toNat) = some (16 * cls + id)) =
        some (m, payload)) →
      huffTable (fileSegs d icc (rgbTail w h t0 t1) ++ [(0xDA, scanHeader (components.take 3))]) cls id = some t := by
    intro cls id m payload t ht hf
    apply huffTable_of (m := m) (payload := payload) _ ht
    rw [happ, find_fileSegs_rev _ _ _ _ (fun _ => by simp) (fun _ => by simp)]
    exact hf
  refine decodeFile_eq (segments_ok _ hl _ _ (by decide)) (by rw [happ, find_fileSegs _ _ _ _ (fun _ => rfl) (fun _ => rfl)]; rfl)
    (frameHeader_rgb hw hh hw2 hh2) (by rw [happ, find_fileSegs _ _ _ _ (fun _ => rfl) (fun _ => rfl)]; rfl)
    scanHeader_rgb rfl (quants := [(1, t0), (2, t1), (3, t1)]) ?_ (tables := rgbTables) ?_ (unstuff_stuff bytes 0xD9 [] (by decide))
    (mcus := mcus) (pad := List.replicate n true) ?_ ⟨by simpa using hn, by simp⟩ ?_
  · have h0 : quantTable (fileSegs d icc (rgbTail w h t0 t1) ++ [(0xDA, scanHeader (components.take 3))]) 0 = some t0 := by
      apply quantTable_of ht0 (m := 0xDB)
      rw [happ, find_fileSegs_rev _ _ _ _ (fun _ => by simp) (fun _ => by simp)]
      rfl
    have h1 : quantTable (fileSegs d icc (rgbTail w h t0 t1) ++ [(0xDA, scanHeader (components.take 3))]) 1 = some t1 := by
      apply quantTable_of ht1 (m := 0xDB)
      rw [happ, find_fileSegs_rev _ _ _ _ (fun _ => by simp) (fun _ => by simp)]
      rfl
    simp only [List.mapM_cons, List.mapM_nil, h0, h1]
    rfl
  · simp only [List.mapM_cons, List.mapM_nil, hseg 0 0 0xC4 _ _ dht_lumaDc rfl, hseg 1 0 0xC4 _ _ dht_lumaAc rfl,
      hseg 0 1 0xC4 _ _ dht_chromaDc rfl, hseg 1 1 0xC4 _ _ dht_chromaAc rfl]
    rfl
  · rw [hb, ← hm]
    exact hd.all _
  · rw [happ]
    apply filter_fileSegs
    intro p hp
    simp only [rgbTail, List.cons_append, List.nil_append, List.mem_cons, List.not_mem_nil, or_false] at hp
    rcases hp with rfl | rfl | rfl | rfl | rfl | rfl | rfl | rfl <;> dsimp only <;> decide

/-! ## The encoder -/

/-- An encoder that has not written anything, with valid quantisation tables and a colour profile that is not too large. -/
structure Fresh (e : Encoder) (t0 t1 : List Nat) : Prop where
  w : e.writer = BitWriter.new
  tables : e.tables = [t0, t1]
  q0 : QTable t0
  q1 : QTable t1
  icc : e.iccProfile.length ≤ 65519 * 255

theorem jfif_length (d : PixelDensity) : (jfifHeader d).length = 14 := by
  cases d; rename_i u; cases u <;> simp [jfifHeader]

theorem units_length {α : Type} (W H : Nat) (g : Nat → Nat → α) : (units W H g).length = W * H := by simp [units]

section
variable {I : Type} {m : PixelType} [GenericImageView I (Pix Nat m.ch)] {image : I} {w h : Nat} {px : Nat → Nat → Pix Nat m.ch}

theorem encodeImage_gray (hs : Shows m image w h px) (hm : m = .luma ∨ m = .lumaA) {e : Encoder} {t0 t1 : List Nat} (he : Fresh e t0 t1) :
    ∃ e', encodeImage .u8 m e image = .ok e' ∧
      decodeFile e'.writer.w = some ⟨w, h, [(1, t0)], units ((w + 7) / 8) ((h + 7) / 8) (grayUnit m w h px t0),
        (0xE0, jfifHeader e.density) :: iccSegs e.iccProfile⟩ := by
  have hw2 := hs.wle
  have hh2 := hs.hle
  obtain ⟨pre, hpre⟩ : ∃ pre, pre = 0xFF :: 0xD8 :: ((fileSegs e.density e.iccProfile (grayTail w h t0)).flatMap seg ++
      seg (0xDA, scanHeader (components.take 1))) := ⟨_, rfl⟩
  obtain ⟨s1, bs, preds, e1, w1, d1⟩ := encodeGray_ok hs hm (tables := e.tables) (t := t0) (by rw [he.tables]; rfl) he.q0 pre ⟨pre, 0, 0⟩
    (wrote_start ⟨pre, 0, 0⟩ rfl rfl)
  obtain ⟨s2, bytes, n, e2, w2, hn, hb⟩ := pad_wrote w1
  refine ⟨{ e with writer := s2.writeMarker 0xD9 }, ?_, ?_⟩
  · have hnum : (if m.ch = 1 ∨ m.ch = 2 then 1 else 3) = 1 := by rcases hm with rfl | rfl <;> rfl
    have hnrgb : ¬(m = .rgb ∨ m = .rgba) := by rcases hm with rfl | rfl <;> simp
    unfold encodeImage
    rw [hnum]
    dsimp only
    rw [writeSegment_ok _ _ _ (by rw [jfif_length]; omega), ok_bind, writeIccProfileChunks_ok _ he.icc, ok_bind, hs.width, hs.height,
      if_neg (by omega), if_neg (by omega), writeSegment_ok _ _ _ (by simp [frameHeader, components]), ok_bind, he.tables]
    rw [show assertR (decide ([t0, t1].length = 2)) = .ok () from rfl, ok_bind]
    simp only [if_true]
    rw [forRange_succ, forRange_zero, ok_bind, show getR [t0, t1] 0 = .ok t0 from rfl, ok_bind, quantizationSegment_ok 0 (by omega) he.q0, ok_bind,
      writeSegment_ok _ _ _ (by rw [dqt_length]; omega), ok_bind, huffSeg_lumaDc, ok_bind, writeSegment_ok _ _ _ (by decide +kernel), ok_bind,
      huffSeg_lumaAc, ok_bind, writeSegment_ok _ _ _ (by decide +kernel), ok_bind]
    simp only [show ¬(1 = 3) by omega, if_false, ok_bind]
    rw [writeSegment_ok _ _ _ (by decide), ok_bind, if_neg (fun hc => hnrgb hc.2), ← he.tables]
    have hst : (⟨(e.writer.writeMarker 0xD8).w ++ seg (0xE0, jfifHeader e.density) ++ (iccSegs e.iccProfile).flatMap seg ++
        seg (0xC0, frameHeader 8 w h (components.take 1)) ++ seg (0xDB, dqt (UInt8.ofNat 0) t0) ++ seg (0xC4, dht 0 LUMA_DC) ++
        seg (0xC4, dht 0x10 LUMA_AC) ++ seg (0xDA, scanHeader (components.take 1)), (e.writer.writeMarker 0xD8).accumulator,
        (e.writer.writeMarker 0xD8).nbits⟩ : BitWriter) = ⟨pre, 0, 0⟩ := by
      rw [he.w, hpre]
      unfold fileSegs grayTail BitWriter.writeMarker BitWriter.new
      simp only [List.flatMap_cons, List.flatMap_append, List.flatMap_nil, List.append_assoc, List.nil_append, List.cons_append, List.append_nil]
      rfl
    rw [hst, e1, ok_bind, e2, ok_bind]
  · have := decode_gray e.density e.iccProfile hs.wpos hs.hpos hw2 hh2 he.q0 hn hb (units_length _ _ _) d1
    rw [← this]
    unfold BitWriter.writeMarker
    dsimp only
    rw [w2, hpre]
    simp only [List.cons_append, List.append_assoc]

theorem encodeImage_rgb (hs : Shows m image w h px) (hm : m = .rgb ∨ m = .rgba) {e : Encoder} {t0 t1 : List Nat} (he : Fresh e t0 t1) :
    ∃ e', encodeImage .u8 m e image = .ok e' ∧
      decodeFile e'.writer.w = some ⟨w, h, [(1, t0), (2, t1), (3, t1)], units ((w + 7) / 8) ((h + 7) / 8) (rgbUnit m w h px t0 t1),
        (0xE0, jfifHeader e.density) :: iccSegs e.iccProfile⟩ := by
  have hw2 := hs.wle
  have hh2 := hs.hle
  obtain ⟨pre, hpre⟩ : ∃ pre, pre = 0xFF :: 0xD8 :: ((fileSegs e.density e.iccProfile (rgbTail w h t0 t1)).flatMap seg ++
      seg (0xDA, scanHeader (components.take 3))) := ⟨_, rfl⟩
  obtain ⟨s1, bs, preds, e1, w1, d1⟩ := encodeRgb_ok hs hm (tables := e.tables) (t0 := t0) (t1 := t1) (by rw [he.tables]; rfl)
    (by rw [he.tables]; rfl) he.q0 he.q1 pre ⟨pre, 0, 0⟩ (wrote_start ⟨pre, 0, 0⟩ rfl rfl)
  obtain ⟨s2, bytes, n, e2, w2, hn, hb⟩ := pad_wrote w1
  refine ⟨{ e with writer := s2.writeMarker 0xD9 }, ?_, ?_⟩
  · have hnum : (if m.ch = 1 ∨ m.ch = 2 then 1 else 3) = 3 := by rcases hm with rfl | rfl <;> rfl
    unfold encodeImage
    rw [hnum]
    dsimp only
    rw [writeSegment_ok _ _ _ (by rw [jfif_length]; omega), ok_bind, writeIccProfileChunks_ok _ he.icc, ok_bind, hs.width, hs.height,
      if_neg (by omega), if_neg (by omega), writeSegment_ok _ _ _ (by simp [frameHeader, components]), ok_bind, he.tables]
    rw [show assertR (decide ([t0, t1].length = 2)) = .ok () from rfl, ok_bind]
    simp only [show ¬(3 = 1) by omega, if_false]
    rw [forRange_succ, forRange_succ, forRange_zero, ok_bind, show getR [t0, t1] 0 = .ok t0 from rfl, ok_bind,
      quantizationSegment_ok 0 (by omega) he.q0, ok_bind,
      writeSegment_ok _ _ _ (by rw [dqt_length]; omega), ok_bind, show getR [t0, t1] 1 = .ok t1 from rfl, ok_bind,
      quantizationSegment_ok 1 (by omega) he.q1, ok_bind, writeSegment_ok _ _ _ (by rw [dqt_length]; omega), ok_bind,
      huffSeg_lumaDc, ok_bind, writeSegment_ok _ _ _ (by decide +kernel), ok_bind,
      huffSeg_lumaAc, ok_bind, writeSegment_ok _ _ _ (by decide +kernel), ok_bind]
    simp only [if_true]
    rw [huffSeg_chromaDc, ok_bind, writeSegment_ok _ _ _ (by decide +kernel), ok_bind, huffSeg_chromaAc, ok_bind,
      writeSegment_ok _ _ _ (by decide +kernel), ok_bind]
    rw [writeSegment_ok _ _ _ (by decide), ok_bind, if_pos ⟨trivial, hm⟩, ← he.tables]
    have hst : (⟨(e.writer.writeMarker 0xD8).w ++ seg (0xE0, jfifHeader e.density) ++ (iccSegs e.iccProfile).flatMap seg ++
        seg (0xC0, frameHeader 8 w h (components.take 3)) ++ seg (0xDB, dqt (UInt8.ofNat 0) t0) ++ seg (0xDB, dqt (UInt8.ofNat 1) t1) ++
        seg (0xC4, dht 0 LUMA_DC) ++
        seg (0xC4, dht 0x10 LUMA_AC) ++ seg (0xC4, dht 0x01 CHROMA_DC) ++ seg (0xC4, dht 0x11 CHROMA_AC) ++
        seg (0xDA, scanHeader (components.take 3)), (e.writer.writeMarker 0xD8).accumulator,
        (e.writer.writeMarker 0xD8).nbits⟩ : BitWriter) = ⟨pre, 0, 0⟩ := by
      rw [he.w, hpre]
      unfold fileSegs rgbTail BitWriter.writeMarker BitWriter.new
      simp only [List.flatMap_cons, List.flatMap_append, List.flatMap_nil, List.append_assoc, List.nil_append, List.cons_append, List.append_nil]
      rfl
    rw [hst, e1, ok_bind, e2, ok_bind]
  · have := decode_rgb e.density e.iccProfile hs.wpos hs.hpos hw2 hh2 he.q0 he.q1 hn hb (units_length _ _ _) d1
    rw [← this]
    unfold BitWriter.writeMarker
    dsimp only
    rw [w2, hpre]
    simp only [List.cons_append, List.append_assoc]

end

end Jpeg
end Verif
