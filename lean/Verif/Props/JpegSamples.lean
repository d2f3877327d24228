import Verif.Props.JpegFile
import Verif.Proofs.DctInverse

/-!
# C118: the samples of a JPEG file are near those of the image

C44 compares the coefficients of the file with the cosine transform of the image. Here the file is decoded to samples with the exact inverse transform, and
every sample differs from the image by at most a bound that depends on the quantisation table alone.
-/

namespace Verif
namespace Jpeg

open JpegSpec Finset

theorem sample_near {d : Decoded} {w h : Nat} {planes : List Plane} (hd : FileShows d w h planes) {k : Nat} {p : Plane} (hp : planes[k]? = some p) {x y : Nat}
    (hx : x < w) (hy : y < h) : |d.sample k x y - (p.sample x y : ℝ)| ≤ tableError p.table := by
  obtain ⟨unit, h1, _, h3⟩ := hd.blocks (x / 8) (y / 8) (by omega) (by omega)
  obtain ⟨block, h4, h5⟩ := h3 k p hp
  have h6 := idct_near h5 (y := y % 8) (x := x % 8) (by omega) (by omega)
  have e1 : p.block w h (x / 8) (y / 8) (8 * (y % 8) + x % 8) = p.sample x y := by
    unfold Plane.block
    rw [show (8 * (y % 8) + x % 8) % 8 = x % 8 by omega, show (8 * (y % 8) + x % 8) / 8 = y % 8 by omega, Nat.div_add_mod, Nat.div_add_mod,
      Nat.min_eq_left (by omega), Nat.min_eq_left (by omega)]
  rw [e1] at h6
  have e2 : (d.components.getD k (0, [])).2 = p.table := by
    rw [hd.components, List.getD_eq_getElem?_getD, List.getElem?_map, hp]
    rfl
  have e3 : (d.mcus.getD (y / 8 * ((d.width + 7) / 8) + x / 8) []).getD k [] = block := by
    rw [hd.width, List.getD_eq_getElem?_getD (l := d.mcus), h1, Option.getD_some, List.getD_eq_getElem?_getD, h4, Option.getD_some]
  unfold Decoded.sample
  dsimp only
  rw [e2, e3]
  exact h6

/-- **C118: grey images.** The file that is written for a buffer of grey samples shows every sample with an error of at most the bound of the quantisation table. -/
theorem C118_gray {w h : Nat} {data : List Nat} (hw : 0 < w) (hh : 0 < h) (hw2 : w < 2 ^ 16) (hh2 : h < 2 ^ 16) (hl : data.length = w * h)
    (hb : ∀ v ∈ data, v ≤ 255) {e : Encoder} {t0 t1 : List Nat} (he : Fresh e t0 t1) (hd1 : e.density.density.1 < 2 ^ 16)
    (hd2 : e.density.density.2 < 2 ^ 16) :
    ∃ e' d, encode e data w h .L8 = .ok e' ∧ decodeFile e'.writer.w = some d ∧ d.width = w ∧ d.height = h ∧ d.components.length = 1 ∧
      ∀ x y, x < w → y < h → |d.sample 0 x y - (data.getD (y * w + x) 0 : ℝ)| ≤ tableError t0 := by
  obtain ⟨e', d, h1, h2, h3, _⟩ := C44_encode_gray_partial hw hh hw2 hh2 hl hb he hd1 hd2
  exact ⟨e', d, h1, h2, h3.width, h3.height, by rw [h3.components]; rfl, fun x y hx hy => sample_near h3 (k := 0) rfl hx hy⟩

theorem ycc_near {r g b y cb cr : Nat} (h : IsYcc r g b y cb cr) {y' cb' cr' e0 e1 : ℝ} (h1 : |y' - y| ≤ e0) (h2 : |cb' - cb| ≤ e1) (h3 : |cr' - cr| ≤ e1) :
    |redOf y' cb' cr' - r| ≤ e0 + 0.51 + 1.402 * (e1 + 0.51) ∧
    |greenOf y' cb' cr' - g| ≤ e0 + 0.51 + (0.114 * 1.772 / 0.587 + 0.299 * 1.402 / 0.587) * (e1 + 0.51) ∧
    |blueOf y' cb' cr' - b| ≤ e0 + 0.51 + 1.772 * (e1 + 0.51) := by
  have hy := h.luma
  have hcb := h.blue
  have hcr := h.red
  unfold lumaOf at hy
  unfold cbOf at hcb
  unfold crOf at hcr
  unfold redOf greenOf blueOf
  rw [abs_le] at hy hcb hcr h1 h2 h3
  simp only [abs_le]
  obtain ⟨a1, a2⟩ := hy
  obtain ⟨b1, b2⟩ := hcb
  obtain ⟨c1, c2⟩ := hcr
  obtain ⟨d1, d2⟩ := h1
  obtain ⟨f1, f2⟩ := h2
  obtain ⟨g1, g2⟩ := h3
  norm_num at *
  refine ⟨⟨?_, ?_⟩, ⟨?_, ?_⟩, ?_, ?_⟩ <;> linarith

/-- **C118: colour images.** The file that is written for a buffer of colours shows every channel with an error of at most a bound that depends on the two
quantisation tables. -/
theorem C118_rgb {w h : Nat} {data : List Nat} (hw : 0 < w) (hh : 0 < h) (hw2 : w < 2 ^ 16) (hh2 : h < 2 ^ 16) (hl : data.length = w * h * 3)
    (hb : ∀ v ∈ data, v ≤ 255) {e : Encoder} {t0 t1 : List Nat} (he : Fresh e t0 t1) (hd1 : e.density.density.1 < 2 ^ 16)
    (hd2 : e.density.density.2 < 2 ^ 16) :
    ∃ e' d, encode e data w h .Rgb8 = .ok e' ∧ decodeFile e'.writer.w = some d ∧ d.width = w ∧ d.height = h ∧ d.components.length = 3 ∧
      ∀ x y, x < w → y < h →
        |redOf (d.sample 0 x y) (d.sample 1 x y) (d.sample 2 x y) - (data.getD ((y * w + x) * 3) 0 : ℝ)|
          ≤ tableError t0 + 0.51 + 1.402 * (tableError t1 + 0.51) ∧
        |greenOf (d.sample 0 x y) (d.sample 1 x y) (d.sample 2 x y) - (data.getD ((y * w + x) * 3 + 1) 0 : ℝ)|
          ≤ tableError t0 + 0.51 + (0.114 * 1.772 / 0.587 + 0.299 * 1.402 / 0.587) * (tableError t1 + 0.51) ∧
        |blueOf (d.sample 0 x y) (d.sample 1 x y) (d.sample 2 x y) - (data.getD ((y * w + x) * 3 + 2) 0 : ℝ)|
          ≤ tableError t0 + 0.51 + 1.772 * (tableError t1 + 0.51) := by
  obtain ⟨e', d, sy, scb, scr, h1, h2, h3, h4, _⟩ := C44_encode_rgb_partial hw hh hw2 hh2 hl hb he hd1 hd2
  refine ⟨e', d, h1, h2, h3.width, h3.height, by rw [h3.components]; rfl, fun x y hx hy => ?_⟩
  exact ycc_near (h4 x y hx hy) (sample_near h3 (k := 0) rfl hx hy) (sample_near h3 (k := 1) rfl hx hy) (sample_near h3 (k := 2) rfl hx hy)

theorem tableError_mono {s t : List Nat} (h : ∀ i, s.getD i 0 ≤ t.getD i 0) : tableError s ≤ tableError t := by
  unfold tableError
  refine Real.sqrt_le_sqrt (sum_le_sum fun k _ => ?_)
  have h1 : (s.getD k 0 : ℝ) ≤ (t.getD k 0 : ℝ) := by exact_mod_cast h k
  have h2 : (0 : ℝ) ≤ (s.getD k 0 : ℝ) := Nat.cast_nonneg _
  exact pow_le_pow_left₀ (by linarith) (by linarith) 2

/-- **C118: a higher quality never has a larger bound**, for both tables. -/
theorem C118_quality {p q : Nat} (h : p ≤ q) (c : Nat) :
    tableError ((newWithQuality q).tables.getD c []) ≤ tableError ((newWithQuality p).tables.getD c []) :=
  tableError_mono ((C68_quality p q h).2.1 c)

/-- The bound for a table of ones. -/
theorem tableError_ones : tableError (List.replicate 64 1) = 44 / 3 := by
  unfold tableError
  have e : ∑ k ∈ range 64, (((List.replicate 64 1).getD k 0 : ℕ) / 2 + 4 / 3 : ℝ) ^ 2 = ∑ _k ∈ range 64, (11 / 6 : ℝ) ^ 2 := by
    refine sum_congr rfl fun k hk => ?_
    rw [List.getD_eq_getElem?_getD, List.getElem?_replicate, if_pos (mem_range.1 hk)]
    norm_num
  rw [e, sum_const, card_range, show (64 • (11 / 6 : ℝ) ^ 2) = (44 / 3) ^ 2 by norm_num]
  exact Real.sqrt_sq (by norm_num)

/-- **C118: the best quality.** With quality 100 every sample of a grey image is shown with an error below 15. -/
theorem C118_best {w h : Nat} {data : List Nat} (hw : 0 < w) (hh : 0 < h) (hw2 : w < 2 ^ 16) (hh2 : h < 2 ^ 16) (hl : data.length = w * h)
    (hb : ∀ v ∈ data, v ≤ 255) :
    ∃ e' d, encode (newWithQuality 100) data w h .L8 = .ok e' ∧ decodeFile e'.writer.w = some d ∧ d.width = w ∧ d.height = h ∧
      ∀ x y, x < w → y < h → |d.sample 0 x y - (data.getD (y * w + x) 0 : ℝ)| ≤ 44 / 3 := by
  obtain ⟨e', d, h1, h2, h3, h4, _, h5⟩ := C118_gray hw hh hw2 hh2 hl hb (fresh_new 100) (by simp [newWithQuality]) (by simp [newWithQuality])
  refine ⟨e', d, h1, h2, h3, h4, fun x y hx hy => ?_⟩
  rw [← tableError_ones]
  convert h5 x y hx hy using 2
  decide +kernel

/-- A 2 by 1 image satisfies the hypotheses. -/
example : ∃ e' d, encode (newWithQuality 100) [10, 250] 2 1 .L8 = .ok e' ∧ decodeFile e'.writer.w = some d ∧ d.width = 2 ∧ d.height = 1 ∧
    ∀ x y, x < 2 → y < 1 → |d.sample 0 x y - (([10, 250] : List Nat).getD (y * 2 + x) 0 : ℝ)| ≤ 44 / 3 := by
  have := C118_best (w := 2) (h := 1) (data := [10, 250]) (by omega) (by omega) (by omega) (by omega) rfl (by decide)
  exact_mod_cast this

end Jpeg
end Verif
