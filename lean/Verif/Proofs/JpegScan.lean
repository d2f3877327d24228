import Verif.Model.JpegEncoder
import Verif.Proofs.JpegBlock
import Verif.Proofs.JpegDct
import Verif.Proofs.Color
import Verif.Proofs.Loops

/-! # Lemmas on the scans written by the JPEG encoder -/

namespace Verif
namespace Jpeg

open JpegSpec GenericImageView

/-! ## The standard tables -/

theorem valid_lumaDc : ValidTable LUMA_DC := ⟨by decide, by decide, by decide, by decide, by decide, by decide +kernel⟩
theorem valid_chromaDc : ValidTable CHROMA_DC := ⟨by decide, by decide, by decide, by decide, by decide, by decide +kernel⟩
theorem valid_lumaAc : ValidTable LUMA_AC :=
  ⟨by decide, by decide +kernel, by decide +kernel, by decide +kernel, by decide +kernel, by decide +kernel⟩
theorem valid_chromaAc : ValidTable CHROMA_AC :=
  ⟨by decide, by decide +kernel, by decide +kernel, by decide +kernel, by decide +kernel, by decide +kernel⟩

theorem rs_lumaAc : ∀ r < 16, ∀ s < 10, 16 * r + (s + 1) ∈ LUMA_AC.vals := by decide +kernel
theorem rs_chromaAc : ∀ r < 16, ∀ s < 10, 16 * r + (s + 1) ∈ CHROMA_AC.vals := by decide +kernel

theorem ac_luma : AcTable LUMA_AC 10 :=
  ⟨by decide, by decide +kernel, fun r s hr h1 h2 => by
    have := rs_lumaAc r hr (s - 1) (by omega)
    rwa [show s - 1 + 1 = s by omega] at this⟩

theorem ac_chroma : AcTable CHROMA_AC 10 :=
  ⟨by decide, by decide +kernel, fun r s hr h1 h2 => by
    have := rs_chromaAc r hr (s - 1) (by omega)
    rwa [show s - 1 + 1 = s by omega] at this⟩

theorem dc_luma : ∀ s, s ≤ 11 → s ∈ LUMA_DC.vals := by
  have : ∀ s < 12, s ∈ LUMA_DC.vals := by decide
  exact fun s h => this s (by omega)

theorem dc_chroma : ∀ s, s ≤ 11 → s ∈ CHROMA_DC.vals := by
  have : ∀ s < 12, s ∈ CHROMA_DC.vals := by decide
  exact fun s h => this s (by omega)

/-! ## Quantised blocks -/

/-- A quantisation table of 64 nonzero bytes. -/
structure QTable (t : List Nat) : Prop where
  len : t.length = 64
  pos : ∀ v ∈ t, 1 ≤ v
  le : ∀ v ∈ t, v ≤ 255

theorem QTable.entry {t : List Nat} (h : QTable t) {i : Nat} (hi : i < 64) :
    t[i]? = some (t.getD i 0) ∧ 1 ≤ t.getD i 0 ∧ t.getD i 0 ≤ 255 := by
  have hg : t[i]? = some (t.getD i 0) := by
    rw [List.getD_eq_getElem?_getD, List.getElem?_eq_getElem (by have := h.len; omega)]; rfl
  exact ⟨hg, h.pos _ (List.mem_of_getElem? hg), h.le _ (List.mem_of_getElem? hg)⟩

/-- The quantised coefficients of the samples `f 0`, ..., `f 63`. -/
def coeffs (table : List Nat) (f : Nat → Nat) : List Int :=
  (List.range 64).map fun j => quantize (out (fun i => (f i : Nat)) (j / 8) (j % 8)) (table.getD j 0)

theorem mapM_ok {α β : Type} {l : List α} {f : α → R β} {g : α → β} (h : ∀ a ∈ l, f a = .ok (g a)) : l.mapM f = .ok (l.map g) := by
  induction l with
  | nil => rfl
  | cons a l ih =>
    rw [List.mapM_cons, h a (by simp), ok_bind, ih (fun b hb => h b (by simp [hb])), ok_bind]
    rfl

theorem block_ok {f : Nat → Nat} (hf : ∀ i, i < 64 → f i ≤ 255) {t : List Nat} (ht : QTable t) :
    ∃ dct, fdct ((List.range 64).map f) = .ok dct ∧ quantizeBlock dct t = .ok (coeffs t f) := by
  have hfd := fdct_ok ((List.range 64).map f) (by simp) (by
    intro v hv
    obtain ⟨i, hi, rfl⟩ := List.mem_map.1 hv
    exact hf i (List.mem_range.1 hi))
  refine ⟨_, hfd, ?_⟩
  have hout : ∀ v u, v < 8 → u < 8 → out (fun i => (((List.range 64).map f).getD i 0 : Nat)) v u = out (fun i => (f i : Nat)) v u := by
    intro v u hv hu
    have hs : ∀ i, i < 64 → ((List.range 64).map f).getD i 0 = f i := by
      intro i hi
      rw [List.getD_eq_getElem?_getD, List.getElem?_map, List.getElem?_range hi]; rfl
    unfold out mid
    simp only [hs, Nat.reduceLT, Nat.reduceMul, Nat.reduceAdd]
  unfold quantizeBlock coeffs
  apply mapM_ok
  intro j hj
  have hj := List.mem_range.1 hj
  rw [getR_of (List.getElem?_map .. |>.trans (by rw [List.getElem?_range hj]; rfl)), ok_bind, getR_of (ht.entry hj).1, ok_bind]
  dsimp only
  rw [hout _ _ (by omega) (by omega)]

theorem coeffs_bound {f : Nat → Nat} (hf : ∀ i, i < 64 → f i ≤ 255) {t : List Nat} (ht : QTable t) :
    (coeffs t f).length = 64 ∧ (∀ k, 1 ≤ k → k < 64 → ((coeffs t f).getD k 0).natAbs < 2 ^ 10) ∧
      -1024 ≤ (coeffs t f).getD 0 0 ∧ (coeffs t f).getD 0 0 ≤ 1016 := by
  have hg : ∀ k, k < 64 → (coeffs t f).getD k 0 = quantize (out (fun i => (f i : Nat)) (k / 8) (k % 8)) (t.getD k 0) := by
    intro k hk
    unfold coeffs
    rw [List.getD_eq_getElem?_getD, List.getElem?_map, List.getElem?_range hk]; rfl
  have hb := fun k => out_bound (f := fun i => ((f i : Nat) : Int)) (fun i hi => ⟨by omega, by have := hf i hi; omega⟩) (k / 8) (k % 8)
  refine ⟨by simp [coeffs], ?_, ?_⟩
  · intro k h1 h2
    rw [hg k h2]
    obtain ⟨b1, b2, b3, b4⟩ := hb k
    have b3 := b3 (by omega)
    have := (quantize_eq (out (fun i => ((f i : Nat) : Int)) (k / 8) (k % 8)) (t.getD k 0) (by omega) (ht.entry h2).2.1 (ht.entry h2).2.2).2
    rcases tdiv8 (out (fun i => ((f i : Nat) : Int)) (k / 8) (k % 8)) with h | h <;> omega
  · rw [hg 0 (by omega)]
    obtain ⟨b1, b2, b3, b4⟩ := hb 0
    have b4 := b4 ⟨rfl, rfl⟩
    have := (quantize_eq (out (fun i => ((f i : Nat) : Int)) (0 / 8) (0 % 8)) (t.getD 0 0) (by omega) (ht.entry (i := 0) (by omega)).2.1
      (ht.entry (i := 0) (by omega)).2.2).2
    rcases tdiv8 (out (fun i => ((f i : Nat) : Int)) (0 / 8) (0 % 8)) with h | h <;> omega

/-! ## Decoding a sequence of units -/

/-- The bits are decoded to the units, and the predictions afterwards are `preds'`. -/
def Decodes (tables : List (HuffTable × HuffTable)) (preds : List Int) (bits : List Bool) (mcus : List (List (List Int)))
    (preds' : List Int) : Prop :=
  ∀ n rest, decodeMcus tables (mcus.length + n) preds (bits ++ rest) =
    (decodeMcus tables n preds' rest).map fun p => (mcus ++ p.1, p.2)

theorem decodes_nil (tables : List (HuffTable × HuffTable)) (preds : List Int) : Decodes tables preds [] [] preds := by
  intro n rest
  simp

theorem Decodes.snoc {tables : List (HuffTable × HuffTable)} {preds preds' preds'' : List Int} {bits B : List Bool}
    {mcus : List (List (List Int))} {mcu : List (List Int)} (h : Decodes tables preds bits mcus preds')
    (hd : ∀ rest, decodeMcu tables preds' (B ++ rest) = some (mcu, preds'', rest)) :
    Decodes tables preds (bits ++ B) (mcus ++ [mcu]) preds'' := by
  intro n rest
  have := h (n + 1) (B ++ rest)
  rw [List.length_append, List.length_singleton, List.append_assoc, show mcus.length + 1 + n = mcus.length + (n + 1) by omega, this]
  rw [decodeMcus, hd]
  simp only [Option.bind_eq_bind, Option.bind_some]
  cases decodeMcus tables n preds'' rest with
  | none => rfl
  | some p => simp

theorem Decodes.all {tables : List (HuffTable × HuffTable)} {preds preds' : List Int} {bits : List Bool} {mcus : List (List (List Int))}
    (h : Decodes tables preds bits mcus preds') (rest : List Bool) :
    decodeMcus tables mcus.length preds (bits ++ rest) = some (mcus, rest) := by
  have := h 0 rest
  rw [Nat.add_zero] at this
  rw [this]
  simp [decodeMcus]

theorem natural_head (block : List Int) (_h : block.length = 64) : (UNZIGZAG.map fun k => block.getD k 0).headD 0 = block.getD 0 0 := by
  simp [UNZIGZAG]

/-- Padding completes the last byte with ones. -/
theorem pad_wrote {pre : List UInt8} {s : BitWriter} {bs : List Bool} (h : Wrote pre s bs) :
    ∃ s' bytes n, s.padByte = .ok s' ∧ s'.w = pre ++ stuff bytes ∧ n < 8 ∧ byteBits bytes = bs ++ List.replicate n true := by
  obtain ⟨s', e, w⟩ := writeBits_wrote h (v := 0x7F) (n := 7) (by omega) (by decide)
  obtain ⟨bytes, pend, hw, hn, hp, ha, hb⟩ := w.h
  have hones : natBits 7 0x7F = List.replicate 7 true := by decide
  rw [hones] at hb
  have hlen := congrArg List.length hb
  rw [List.length_append, List.length_append, length_byteBits, length_natBits, List.length_replicate] at hlen
  refine ⟨s', bytes, 7 - s'.nbits, e, hw, by omega, ?_⟩
  have hsplit : List.replicate 7 true = List.replicate (7 - s'.nbits) true ++ List.replicate s'.nbits true := by
    rw [List.replicate_append_replicate]; congr 1; omega
  rw [hsplit, ← List.append_assoc] at hb
  exact (List.append_inj_left' hb (by simp)).symm

/-! ## Images -/

/-- The pixels of a view of 8-bit pixels. -/
structure Shows {I : Type} (m : PixelType) [GenericImageView I (Pix Nat m.ch)] (image : I) (w h : Nat) (px : Nat → Nat → Pix Nat m.ch) : Prop where
  width : widthOf image = w
  height : heightOf image = h
  wpos : 0 < w
  hpos : 0 < h
  wle : w < 2 ^ 16
  hle : h < 2 ^ 16
  get : ∀ x y, x < w → y < h → getPixel image x y = .ok (px x y)
  byte : ∀ x y, x < w → y < h → ∀ k, px x y k ≤ 255

section
variable {I : Type} {m : PixelType} [GenericImageView I (Pix Nat m.ch)] {image : I} {w h : Nat} {px : Nat → Nat → Pix Nat m.ch}

theorem pixelAtOrNear_ok (hs : Shows m image w h px) (x y : Nat) :
    pixelAtOrNear m image x y = .ok (px (min x (w - 1)) (min y (h - 1))) := by
  have := hs.wpos
  have := hs.hpos
  unfold pixelAtOrNear inBounds
  rw [hs.width, hs.height]
  by_cases hin : x < w ∧ y < h
  · rw [if_pos (by simp [hin.1, hin.2]), hs.get _ _ hin.1 hin.2, show min x (w - 1) = x by omega, show min y (h - 1) = y by omega]
  · rw [if_neg (by simp; omega), subC_ok (by omega), ok_bind, subC_ok (by omega), ok_bind, hs.get _ _ (by omega) (by omega)]

/-- The sample `k` of the pixel at `(x, y)`, or at the nearest position inside the image. -/
def sampleNear (m : PixelType) (w h : Nat) (px : Nat → Nat → Pix Nat m.ch) (x y k : Nat) : Nat :=
  if hk : k < m.ch then px (min x (w - 1)) (min y (h - 1)) ⟨k, hk⟩ else 0

theorem sampleNear_le (hs : Shows m image w h px) (x y k : Nat) : sampleNear m w h px x y k ≤ 255 := by
  have := hs.wpos
  have := hs.hpos
  unfold sampleNear
  split
  · exact hs.byte _ _ (by omega) (by omega) _
  · omega

theorem fc_luma (p : Pix Nat 1) : fromColor .u8 .u8 .luma .luma p = .ok (px1 (p 0)) := rfl
theorem fc_lumaA (p : Pix Nat 2) : fromColor .u8 .u8 .lumaA .luma p = .ok (px1 (p 0)) := rfl
theorem fc_rgb (p : Pix Nat 3) : fromColor .u8 .u8 .rgb .rgb p = .ok (px3 (p 0) (p 1) (p 2)) := rfl
theorem fc_rgba (p : Pix Nat 4) : fromColor .u8 .u8 .rgba .rgb p = .ok (px3 (p 0) (p 1) (p 2)) := rfl

theorem copyBlocksGray_ok (hs : Shows m image w h px) (hm : m = .luma ∨ m = .lumaA) (x0 y0 : Nat) (hx : x0 + 8 < 2 ^ 32) (hy : y0 + 8 < 2 ^ 32) :
    copyBlocksGray .u8 m image x0 y0 =
      .ok ((List.range 64).map fun i => sampleNear m w h px (x0 + i % 8) (y0 + i / 8) 0) := by
  unfold copyBlocksGray
  apply mapM_ok
  intro i hi
  have hi := List.mem_range.1 hi
  rw [addC_ok (by omega), ok_bind, addC_ok (by omega), ok_bind, pixelAtOrNear_ok hs, ok_bind]
  have hb := hs.byte (min (x0 + i % 8) (w - 1)) (min (y0 + i / 8) (h - 1)) (by have := hs.wpos; omega) (by have := hs.hpos; omega)
  rcases hm with rfl | rfl
  · rw [fc_luma, ok_bind]
    exact Prim.castFrom_ok (hb 0)
  · rw [fc_lumaA, ok_bind]
    exact Prim.castFrom_ok (hb 0)

/-- The conversion to luminance and chrominance, in 16-bit fixed point. -/
def ycc (r g b : Nat) : Nat × Nat × Nat :=
  ((19595 * r + 38469 * g + 7471 * b + 32767) / 2 ^ 16,
    (32768 * b + 128 * 65536 + 32767 - (11059 * r + 21709 * g)) / 2 ^ 16,
    (32768 * r + 128 * 65536 + 32767 - (27439 * g + 5329 * b)) / 2 ^ 16)

theorem ycc_le {r g b : Nat} (hr : r ≤ 255) (hg : g ≤ 255) (hb : b ≤ 255) :
    (ycc r g b).1 ≤ 255 ∧ (ycc r g b).2.1 ≤ 255 ∧ (ycc r g b).2.2 ≤ 255 := by
  unfold ycc
  dsimp only
  omega

theorem rgbToYcbcr_ok {r g b : Nat} (hr : r ≤ 255) (hg : g ≤ 255) (hb : b ≤ 255) : rgbToYcbcr r g b = .ok (ycc r g b) := by
  unfold rgbToYcbcr
  dsimp only
  iterate 20 (first | rw [i32_ok (by omega), ok_bind] | skip)
  unfold ycc
  congr 1
  refine Prod.ext ?_ (Prod.ext ?_ ?_)
  all_goals
    dsimp only
    rw [Int.emod_eq_of_lt (by omega) (by omega)]
    omega

/-- The converted pixel at `(x, y)`, or at the nearest position inside the image. -/
def yccNear (m : PixelType) (w h : Nat) (px : Nat → Nat → Pix Nat m.ch) (x y : Nat) : Nat × Nat × Nat :=
  ycc (sampleNear m w h px x y 0) (sampleNear m w h px x y 1) (sampleNear m w h px x y 2)

theorem copyBlocksYcbcr_ok (hs : Shows m image w h px) (hm : m = .rgb ∨ m = .rgba) (x0 y0 : Nat) (hx : x0 + 8 < 2 ^ 32) (hy : y0 + 8 < 2 ^ 32) :
    copyBlocksYcbcr .u8 m image x0 y0 =
      .ok ((List.range 64).map (fun i => (yccNear m w h px (x0 + i % 8) (y0 + i / 8)).1),
          (List.range 64).map (fun i => (yccNear m w h px (x0 + i % 8) (y0 + i / 8)).2.1),
          (List.range 64).map (fun i => (yccNear m w h px (x0 + i % 8) (y0 + i / 8)).2.2)) := by
  unfold copyBlocksYcbcr
  rw [mapM_ok (g := fun i => yccNear m w h px (x0 + i % 8) (y0 + i / 8))]
  · rw [ok_bind, List.map_map, List.map_map, List.map_map]
    rfl
  intro i hi
  have hi := List.mem_range.1 hi
  rw [addC_ok (by omega), ok_bind, addC_ok (by omega), ok_bind, pixelAtOrNear_ok hs, ok_bind, Nat.add_comm (i % 8), Nat.add_comm (i / 8)]
  have hb := hs.byte (min (x0 + i % 8) (w - 1)) (min (y0 + i / 8) (h - 1)) (by have := hs.wpos; omega) (by have := hs.hpos; omega)
  unfold yccNear
  rw [← rgbToYcbcr_ok (sampleNear_le hs _ _ _) (sampleNear_le hs _ _ _) (sampleNear_le hs _ _ _)]
  rcases hm with rfl | rfl
  · rw [fc_rgb, ok_bind]
    have e := fun k hk => show sampleNear _ w h px (x0 + i % 8) (y0 + i / 8) k = _ from dif_pos hk
    rw [e 0 (by decide), e 1 (by decide), e 2 (by decide)]
    generalize px (min (x0 + i % 8) (w - 1)) (min (y0 + i / 8) (h - 1)) = p at hb
    rw [Prim.castFrom_ok (show px3 (p 0) (p 1) (p 2) 0 ≤ Prim.u8.max from hb 0), ok_bind,
      Prim.castFrom_ok (show px3 (p 0) (p 1) (p 2) 1 ≤ Prim.u8.max from hb 1), ok_bind,
      Prim.castFrom_ok (show px3 (p 0) (p 1) (p 2) 2 ≤ Prim.u8.max from hb 2), ok_bind]
    rfl
  · rw [fc_rgba, ok_bind]
    have e := fun k hk => show sampleNear _ w h px (x0 + i % 8) (y0 + i / 8) k = _ from dif_pos hk
    rw [e 0 (by decide), e 1 (by decide), e 2 (by decide)]
    generalize px (min (x0 + i % 8) (w - 1)) (min (y0 + i / 8) (h - 1)) = p at hb
    rw [Prim.castFrom_ok (show px3 (p 0) (p 1) (p 2) 0 ≤ Prim.u8.max from hb 0), ok_bind,
      Prim.castFrom_ok (show px3 (p 0) (p 1) (p 2) 1 ≤ Prim.u8.max from hb 1), ok_bind,
      Prim.castFrom_ok (show px3 (p 0) (p 1) (p 2) 2 ≤ Prim.u8.max from hb 2), ok_bind]
    rfl

/-! ## Scans -/

/-- The units of an image of `W` times `H` blocks, row by row. -/
def units {α : Type} (W H : Nat) (g : Nat → Nat → α) : List α := (List.range (W * H)).map fun k => g (k % W) (k / W)

theorem units_step {α : Type} {W : Nat} (g : Nat → Nat → α) (y x : Nat) (hx : x < W) :
    (List.range (y * W + (x + 1))).map (fun k => g (k % W) (k / W)) = (List.range (y * W + x)).map (fun k => g (k % W) (k / W)) ++ [g x y] := by
  rw [← Nat.add_assoc, List.range_succ, List.map_append]
  congr 1
  simp only [List.map_cons, List.map_nil]
  rw [Nat.mul_comm y W, Nat.mul_add_mod, Nat.mod_eq_of_lt hx, Nat.mul_add_div (by omega), Nat.div_eq_of_lt hx, Nat.add_zero]

/-- The block of a unit of a grey image. -/
def grayUnit (m : PixelType) (w h : Nat) (px : Nat → Nat → Pix Nat m.ch) (t : List Nat) (i j : Nat) : List (List Int) :=
  [coeffs t fun k => sampleNear m w h px (i * 8 + k % 8) (j * 8 + k / 8) 0]

theorem grayStep_ok (hs : Shows m image w h px) (hm : m = .luma ∨ m = .lumaA) {tables : List (List Nat)} {t : List Nat}
    (h0 : tables[0]? = some t) (ht : QTable t) {ld la : List (Nat × Nat)} (cld : Codes ld LUMA_DC) (cla : Codes la LUMA_AC)
    (pre : List UInt8) (i j : Nat) (hi : i < 2 ^ 16) (hj : j < 2 ^ 16) (s : BitWriter) (prev : Int) (hp : -1024 ≤ prev ∧ prev ≤ 1016)
    (bs : List Bool) (hw : Wrote pre s bs) :
    ∃ s' p' B, grayStep .u8 m ld la tables image i j (s, prev) = .ok (s', p') ∧ (-1024 ≤ p' ∧ p' ≤ 1016) ∧ Wrote pre s' (bs ++ B) ∧
      ∀ rest, decodeMcu [(LUMA_DC, LUMA_AC)] [prev] (B ++ rest) = some (grayUnit m w h px t i j, [p'], rest) := by
  have hf : ∀ k, k < 64 → sampleNear m w h px (i * 8 + k % 8) (j * 8 + k / 8) 0 ≤ 255 := fun k _ => sampleNear_le hs _ _ _
  obtain ⟨dct, e1, e2⟩ := block_ok hf ht
  obtain ⟨b1, b2, b3, b4⟩ := coeffs_bound hf ht
  obtain ⟨s', B, e3, w3, d3⟩ := writeBlock_wrote cld cla ac_luma (by decide) (by decide) dc_luma pre _ b1 b2 prev (by omega) bs s hw
  refine ⟨s', _, B, ?_, ⟨b3, b4⟩, w3, ?_⟩
  · unfold grayStep
    rw [copyBlocksGray_ok hs hm _ _ (by omega) (by omega), ok_bind, e1, ok_bind, getR_of h0, ok_bind, e2, ok_bind]
    exact e3
  · intro rest
    simp only [decodeMcu, d3 rest, Option.bind_eq_bind, Option.bind_some, natural_unzigzag _ b1, natural_head _ b1]
    rfl

theorem encodeGray_ok (hs : Shows m image w h px) (hm : m = .luma ∨ m = .lumaA) {tables : List (List Nat)} {t : List Nat}
    (h0 : tables[0]? = some t) (ht : QTable t) (pre : List UInt8) (s : BitWriter) (hw : Wrote pre s []) :
    ∃ s' bs preds, encodeGray .u8 m tables image s = .ok s' ∧ Wrote pre s' bs ∧
      Decodes [(LUMA_DC, LUMA_AC)] [0] bs (units ((w + 7) / 8) ((h + 7) / 8) (grayUnit m w h px t)) preds := by
  have hwl := hs.wle
  have hhl := hs.hle
  obtain ⟨la, ela, _, cla⟩ := codes_of_valid LUMA_AC valid_lumaAc
  obtain ⟨ld, eld, _, cld⟩ := codes_of_valid LUMA_DC valid_lumaDc
  unfold encodeGray
  rw [ela, ok_bind, eld, ok_bind, hs.width, hs.height]
  obtain ⟨st, e, hi⟩ := forRange2_inv (w := (w + 7) / 8) (h := (h + 7) / 8) (body := fun i j st => grayStep .u8 m ld la tables image i j st)
    (fun j i st => (-1024 ≤ st.2 ∧ st.2 ≤ 1016) ∧ ∃ bs, Wrote pre st.1 bs ∧
      Decodes [(LUMA_DC, LUMA_AC)] [0] bs
        ((List.range (j * ((w + 7) / 8) + i)).map fun n => grayUnit m w h px t (n % ((w + 7) / 8)) (n / ((w + 7) / 8))) [st.2])
    (s := (s, 0)) ⟨⟨by norm_num, by norm_num⟩, [], hw, by simpa using decodes_nil _ _⟩ (by
      rintro j i hj hi ⟨s, prev⟩ ⟨hp, bs, hwr, hdec⟩
      obtain ⟨s', p', B, e, hp', hw', hd⟩ := grayStep_ok hs hm h0 ht cld cla pre i j (by omega) (by omega) s prev hp bs hwr
      refine ⟨_, e, hp', bs ++ B, hw', ?_⟩
      rw [units_step (grayUnit m w h px t) j i hi]
      exact hdec.snoc hd)
    (by
      intro j hj st ⟨hp, bs, hwr, hdec⟩
      refine ⟨hp, bs, hwr, ?_⟩
      rw [Nat.add_zero, Nat.succ_mul]
      exact hdec)
  rw [e, ok_bind]
  obtain ⟨_, bs, hwr, hdec⟩ := hi
  refine ⟨st.1, bs, [st.2], rfl, hwr, ?_⟩
  unfold units
  rw [Nat.mul_comm ((w + 7) / 8)]
  exact hdec

/-- The three blocks of a unit of a colour image. -/
def rgbUnit (m : PixelType) (w h : Nat) (px : Nat → Nat → Pix Nat m.ch) (t0 t1 : List Nat) (i j : Nat) : List (List Int) :=
  [coeffs t0 fun k => (yccNear m w h px (i * 8 + k % 8) (j * 8 + k / 8)).1,
    coeffs t1 fun k => (yccNear m w h px (i * 8 + k % 8) (j * 8 + k / 8)).2.1,
    coeffs t1 fun k => (yccNear m w h px (i * 8 + k % 8) (j * 8 + k / 8)).2.2]

/-- The tables of a colour image. -/
def rgbTables : List (HuffTable × HuffTable) := [(LUMA_DC, LUMA_AC), (CHROMA_DC, CHROMA_AC), (CHROMA_DC, CHROMA_AC)]

theorem rgbStep_ok (hs : Shows m image w h px) (hm : m = .rgb ∨ m = .rgba) {tables : List (List Nat)} {t0 t1 : List Nat}
    (h0 : tables[0]? = some t0) (h1 : tables[1]? = some t1) (ht0 : QTable t0) (ht1 : QTable t1) {l : Luts} (cld : Codes l.ld LUMA_DC)
    (cla : Codes l.la LUMA_AC) (ccd : Codes l.cd CHROMA_DC) (cca : Codes l.ca CHROMA_AC)
    (pre : List UInt8) (i j : Nat) (hi : i < 2 ^ 16) (hj : j < 2 ^ 16) (s : BitWriter) (p1 p2 p3 : Int) (hp1 : -1024 ≤ p1 ∧ p1 ≤ 1016)
    (hp2 : -1024 ≤ p2 ∧ p2 ≤ 1016) (hp3 : -1024 ≤ p3 ∧ p3 ≤ 1016) (bs : List Bool) (hw : Wrote pre s bs) :
    ∃ s' q1 q2 q3 B, rgbStep .u8 m l tables image i j (s, p1, p2, p3) = .ok (s', q1, q2, q3) ∧ (-1024 ≤ q1 ∧ q1 ≤ 1016) ∧
      (-1024 ≤ q2 ∧ q2 ≤ 1016) ∧ (-1024 ≤ q3 ∧ q3 ≤ 1016) ∧ Wrote pre s' (bs ++ B) ∧
      ∀ rest, decodeMcu rgbTables [p1, p2, p3] (B ++ rest) = some (rgbUnit m w h px t0 t1 i j, [q1, q2, q3], rest) := by
  have hy : ∀ k, (yccNear m w h px (i * 8 + k % 8) (j * 8 + k / 8)).1 ≤ 255 ∧ (yccNear m w h px (i * 8 + k % 8) (j * 8 + k / 8)).2.1 ≤ 255 ∧
      (yccNear m w h px (i * 8 + k % 8) (j * 8 + k / 8)).2.2 ≤ 255 :=
    fun k => ycc_le (sampleNear_le hs _ _ _) (sampleNear_le hs _ _ _) (sampleNear_le hs _ _ _)
  have hcp := copyBlocksYcbcr_ok hs hm (i * 8) (j * 8) (by omega) (by omega)
  obtain ⟨d1, e1, x1⟩ := block_ok (fun k _ => (hy k).1) ht0
  obtain ⟨d2, e2, x2⟩ := block_ok (fun k _ => (hy k).2.1) ht1
  obtain ⟨d3, e3, x3⟩ := block_ok (fun k _ => (hy k).2.2) ht1
  obtain ⟨b1, b2, b3⟩ := coeffs_bound (fun k _ => (hy k).1) ht0
  obtain ⟨c1, c2, c3⟩ := coeffs_bound (fun k _ => (hy k).2.1) ht1
  obtain ⟨r1, r2, r3⟩ := coeffs_bound (fun k _ => (hy k).2.2) ht1
  rw [show rgbUnit m w h px t0 t1 i j = [_, _, _] from rfl]
  generalize coeffs t0 (fun k => (yccNear m w h px (i * 8 + k % 8) (j * 8 + k / 8)).1) = B1 at *
  generalize coeffs t1 (fun k => (yccNear m w h px (i * 8 + k % 8) (j * 8 + k / 8)).2.1) = B2 at *
  generalize coeffs t1 (fun k => (yccNear m w h px (i * 8 + k % 8) (j * 8 + k / 8)).2.2) = B3 at *
  obtain ⟨s1, A1, f1, w1, g1⟩ := writeBlock_wrote cld cla ac_luma (by decide) (by decide) dc_luma pre B1 b1 b2 p1 (by omega) bs s hw
  obtain ⟨s2, A2, f2, w2, g2⟩ := writeBlock_wrote ccd cca ac_chroma (by decide) (by decide) dc_chroma pre B2 c1 c2 p2 (by omega) _ s1 w1
  obtain ⟨s3, A3, f3, w3, g3⟩ := writeBlock_wrote ccd cca ac_chroma (by decide) (by decide) dc_chroma pre B3 r1 r2 p3 (by omega) _ s2 w2
  refine ⟨s3, B1.getD 0 0, B2.getD 0 0, B3.getD 0 0, A1 ++ (A2 ++ A3), ?_, b3, c3, r3, by simpa only [List.append_assoc] using w3, ?_⟩
  · unfold rgbStep
    rw [hcp, ok_bind]
    dsimp only
    rw [e1, ok_bind, e2, ok_bind, e3, ok_bind, getR_of h0, ok_bind, getR_of h1, ok_bind, x1, ok_bind, x2, ok_bind, x3, ok_bind, f1, ok_bind]
    dsimp only
    rw [f2, ok_bind]
    dsimp only
    rw [f3, ok_bind]
  · intro rest
    unfold rgbTables
    simp only [decodeMcu, List.append_assoc, g1, g2, g3, Option.bind_eq_bind, Option.bind_some, natural_unzigzag _ b1, natural_head _ b1,
      natural_unzigzag _ c1, natural_head _ c1, natural_unzigzag _ r1, natural_head _ r1]

theorem encodeRgb_ok (hs : Shows m image w h px) (hm : m = .rgb ∨ m = .rgba) {tables : List (List Nat)} {t0 t1 : List Nat}
    (h0 : tables[0]? = some t0) (h1 : tables[1]? = some t1) (ht0 : QTable t0) (ht1 : QTable t1) (pre : List UInt8) (s : BitWriter)
    (hw : Wrote pre s []) :
    ∃ s' bs preds, encodeRgb .u8 m tables image s = .ok s' ∧ Wrote pre s' bs ∧
      Decodes rgbTables [0, 0, 0] bs (units ((w + 7) / 8) ((h + 7) / 8) (rgbUnit m w h px t0 t1)) preds := by
  have hwl := hs.wle
  have hhl := hs.hle
  obtain ⟨la, ela, _, cla⟩ := codes_of_valid LUMA_AC valid_lumaAc
  obtain ⟨ld, eld, _, cld⟩ := codes_of_valid LUMA_DC valid_lumaDc
  obtain ⟨ca, eca, _, cca⟩ := codes_of_valid CHROMA_AC valid_chromaAc
  obtain ⟨cd, ecd, _, ccd⟩ := codes_of_valid CHROMA_DC valid_chromaDc
  unfold encodeRgb
  rw [ela, ok_bind, eld, ok_bind, ecd, ok_bind, eca, ok_bind, hs.width, hs.height]
  obtain ⟨st, e, hi⟩ := forRange2_inv (w := (w + 7) / 8) (h := (h + 7) / 8)
    (body := fun i j st => rgbStep .u8 m ⟨ld, la, cd, ca⟩ tables image i j st)
    (fun j i st => (-1024 ≤ st.2.1 ∧ st.2.1 ≤ 1016) ∧ (-1024 ≤ st.2.2.1 ∧ st.2.2.1 ≤ 1016) ∧ (-1024 ≤ st.2.2.2 ∧ st.2.2.2 ≤ 1016) ∧
      ∃ bs, Wrote pre st.1 bs ∧
      Decodes rgbTables [0, 0, 0] bs ((List.range (j * ((w + 7) / 8) + i)).map
        fun n => rgbUnit m w h px t0 t1 (n % ((w + 7) / 8)) (n / ((w + 7) / 8))) [st.2.1, st.2.2.1, st.2.2.2])
    (s := (s, 0, 0, 0)) ⟨⟨by norm_num, by norm_num⟩, ⟨by norm_num, by norm_num⟩, ⟨by norm_num, by norm_num⟩, [], hw,
      by simpa using decodes_nil _ _⟩ (by
      rintro j i hj hi ⟨s, p1, p2, p3⟩ ⟨hp1, hp2, hp3, bs, hwr, hdec⟩
      obtain ⟨s', q1, q2, q3, B, e, hq1, hq2, hq3, hw', hd⟩ := rgbStep_ok (l := ⟨ld, la, cd, ca⟩) hs hm h0 h1 ht0 ht1 cld cla ccd cca pre i j
        (by omega) (by omega) s p1 p2 p3 hp1 hp2 hp3 bs hwr
      refine ⟨_, e, hq1, hq2, hq3, bs ++ B, hw', ?_⟩
      rw [units_step (rgbUnit m w h px t0 t1) j i hi]
      exact hdec.snoc hd)
    (by
      intro j hj st ⟨hp1, hp2, hp3, bs, hwr, hdec⟩
      refine ⟨hp1, hp2, hp3, bs, hwr, ?_⟩
      rw [Nat.add_zero, Nat.succ_mul]
      exact hdec)
  rw [e, ok_bind]
  obtain ⟨_, _, _, bs, hwr, hdec⟩ := hi
  refine ⟨st.1, bs, [st.2.1, st.2.2.1, st.2.2.2], rfl, hwr, ?_⟩
  unfold units
  rw [Nat.mul_comm ((w + 7) / 8)]
  exact hdec

end

end Jpeg
end Verif
