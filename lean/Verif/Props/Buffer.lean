import Verif.Proofs.Buffer

/-!
# Properties of `ImageBuffer` (C01 - C04, C06)

Hypotheses `ch < 256`, `w < 2^32` are the ranges of `Pixel::CHANNEL_COUNT : u8` and of `u32`;
`data.length < 2^64` is the range of `usize`. `ImageBuffer.Inv` collects them with the size invariant
which `from_raw` establishes (`C01_from_raw_inv`) and every method keeps.
-/

namespace Verif
open ImageBuffer

variable {α : Type} {ch : Nat}

/-! ## C01 -/

/-- `from_raw` succeeds exactly when the pixel count fits `usize` and the container. -/
theorem C01_from_raw_iff (w h : Nat) (buf : List α) (hc : ch < 256) (hw : w < 2 ^ 32) :
    (∃ b : ImageBuffer α ch, fromRaw ch w h buf = some b) ↔
      w * h * ch < 2 ^ 64 ∧ w * h * ch ≤ buf.length := by
  rw [← checkImageFits_iff hc hw]
  unfold fromRaw
  by_cases h : checkImageFits ch w h buf.length = true <;> simp [h]

/-- A buffer obtained from `from_raw` has the requested size, the given container, and satisfies the
size invariant. -/
theorem C01_from_raw_inv (w h : Nat) (buf : List α) (hc : ch < 256) (hw : w < 2 ^ 32)
    (hh : h < 2 ^ 32) (hl : buf.length < 2 ^ 64) (b : ImageBuffer α ch)
    (hb : fromRaw ch w h buf = some b) :
    b.width = w ∧ b.height = h ∧ b.data = buf ∧ b.Inv := by
  have hf := (C01_from_raw_iff (ch := ch) w h buf hc hw).1 ⟨b, hb⟩
  unfold fromRaw at hb
  split at hb
  · cases hb; exact ⟨rfl, rfl, rfl, hw, hh, hl, hf.2⟩
  · cases hb

/-- Every in-bounds pixel of a buffer obtained from `from_raw` is readable, and consists of the `ch`
samples from `(y*w + x)*ch` on. -/
theorem C01_from_raw_get_pixel (w h : Nat) (buf : List α) (hc : ch < 256) (hw : w < 2 ^ 32)
    (hh : h < 2 ^ 32) (hl : buf.length < 2 ^ 64) (b : ImageBuffer α ch)
    (hb : fromRaw ch w h buf = some b) (x y : Nat) (hx : x < w) (hy : y < h) :
    ∃ p, b.getPixel x y = .ok p ∧
      ∀ c : Fin ch, buf[(y * w + x) * ch + c.val]? = some (p c) := by
  obtain ⟨rfl, rfl, rfl, hi⟩ := C01_from_raw_inv w h buf hc hw hh hl b hb
  obtain ⟨p, hp⟩ := getPixel_exists hi hx hy
  exact ⟨p, hp, (getPixel_eq_ok hi hx hy p).1 hp⟩

/-- Out-of-bounds reads panic. -/
theorem C01_get_pixel_out_of_bounds (b : ImageBuffer α ch) (x y : Nat)
    (h : b.width ≤ x ∨ b.height ≤ y) : b.getPixel x y = .error .panic :=
  getPixel_oob (by omega)

-- Non-vacuity: a 2×2 RGB buffer over a container with slack.
example : ∃ b : ImageBuffer Nat 3, fromRaw 3 2 2 (List.range 13) = some b ∧ b.width = 2 :=
  ⟨⟨2, 2, List.range 13⟩, by decide, rfl⟩
-- and a rejected one
example : fromRaw 3 2 2 (List.range 11) = (none : Option (ImageBuffer Nat 3)) := by decide

/-! ## C02 -/

/-- One `put_pixel`: the write lands, nothing else moves, sizes stay. -/
theorem C02_put_get (b : ImageBuffer α ch) (hb : b.Inv) (x y : Nat) (hx : x < b.width)
    (hy : y < b.height) (p : Pix α ch) :
    ∃ b', b.putPixel x y p = .ok b' ∧ b'.Inv ∧ b'.width = b.width ∧ b'.height = b.height ∧
      b'.data.length = b.data.length ∧ b'.getPixel x y = .ok p ∧
      ∀ x' y', x' < b.width → y' < b.height → ¬(x' = x ∧ y' = y) →
        b'.getPixel x' y' = b.getPixel x' y' :=
  put_spec hb hx hy p

/-- An out-of-bounds `put_pixel` panics. -/
theorem C02_put_out_of_bounds (b : ImageBuffer α ch) (x y : Nat) (p : Pix α ch)
    (h : b.width ≤ x ∨ b.height ≤ y) : b.putPixel x y p = .error .panic :=
  putPixel_oob p (by omega)

/-- `put_pixel` also leaves the samples behind the image (container slack) alone. -/
theorem C02_put_keeps_slack (b : ImageBuffer α ch) (hb : b.Inv) (x y : Nat) (hx : x < b.width)
    (hy : y < b.height) (p : Pix α ch) (b' : ImageBuffer α ch) (h : b.putPixel x y p = .ok b')
    (i : Nat) (hi : b.width * b.height * ch ≤ i) : b'.data[i]? = b.data[i]? := by
  rw [putPixel_ok hb hx hy] at h
  cases h
  have h1 := end_le hb hx hy
  have h2 := chunk_end_le (ch := ch) (idx_lt hx hy)
  show (overwrite _ _ _)[i]? = _
  rw [getElem?_overwrite (by simpa using h1), if_neg (by omega), if_neg (by simp; omega)]

/-- Running a list of `put_pixel(x, y, p)` calls. -/
def putAll (b : ImageBuffer α ch) (ops : List (Nat × Nat × Pix α ch)) : R (ImageBuffer α ch) :=
  forList ops (fun o b => b.putPixel o.1 o.2.1 o.2.2) b

/-- The pixel last written to `(x, y)` by a history of writes, if any. -/
def lastWrite (ops : List (Nat × Nat × Pix α ch)) (x y : Nat) : Option (Pix α ch) :=
  (ops.reverse.find? (fun o => decide (o.1 = x ∧ o.2.1 = y))).map (fun o => o.2.2)

/-- Any history of writes: each pixel holds the last value written to it, else its initial value. -/
theorem C02_put_history (b : ImageBuffer α ch) (hb : b.Inv) (ops : List (Nat × Nat × Pix α ch))
    (hops : ∀ o ∈ ops, o.1 < b.width ∧ o.2.1 < b.height) :
    ∃ b', putAll b ops = .ok b' ∧ b'.Inv ∧ b'.width = b.width ∧ b'.height = b.height ∧
      ∀ x y, x < b.width → y < b.height →
        (∀ p, lastWrite ops x y = some p → b'.getPixel x y = .ok p) ∧
        (lastWrite ops x y = none → b'.getPixel x y = b.getPixel x y) := by
  apply forList_inv (xs := ops) (fun pre _ (b' : ImageBuffer α ch) =>
    b'.Inv ∧ b'.width = b.width ∧ b'.height = b.height ∧
      ∀ x y, x < b.width → y < b.height →
        (∀ p, lastWrite pre x y = some p → b'.getPixel x y = .ok p) ∧
        (lastWrite pre x y = none → b'.getPixel x y = b.getPixel x y))
  · exact ⟨hb, rfl, rfl, fun x y _ _ => ⟨fun p hp => (by simp [lastWrite] at hp), fun _ => rfl⟩⟩
  · intro pre o post he b1 ⟨hi, hw, hh, hg⟩
    obtain ⟨ho1, ho2⟩ := hops o (by rw [← he]; simp)
    obtain ⟨b2, h1, h2, h3, h4, _, h5, h6⟩ :=
      put_spec hi (x := o.1) (y := o.2.1) (by omega) (by omega) o.2.2
    refine ⟨b2, h1, h2, by omega, by omega, fun x y hx hy => ?_⟩
    by_cases hxy : o.1 = x ∧ o.2.1 = y
    · have : lastWrite (pre ++ [o]) x y = some o.2.2 := by simp [lastWrite, hxy]
      rw [this]
      obtain ⟨rfl, rfl⟩ := hxy
      exact ⟨fun p hp => by cases hp; exact h5, fun h => by cases h⟩
    · have : lastWrite (pre ++ [o]) x y = lastWrite pre x y := by simp [lastWrite, hxy]
      rw [this, h6 x y (by omega) (by omega) (by omega)]
      exact hg x y hx hy

example : (⟨2, 1, [5, 6, 7]⟩ : ImageBuffer Nat 1).Inv := ⟨by decide, by decide, by decide, by decide⟩

/-! ## C03 -/

/-- The claim of C03 for one buffer and coordinate. -/
def C03_claim (b : ImageBuffer α ch) (x y : Nat) : Prop :=
  (x < b.width → y < b.height → ∃ p, b.getPixel x y = .ok p ∧ b.getPixelChecked x y = .ok (some p)) ∧
  (¬(x < b.width ∧ y < b.height) → b.getPixelChecked x y = .ok none)

/-- C03 fails: with a container longer than the image, `get_pixel_checked` returns samples behind the
image for `y ≥ height` (witness: a 1×1 grey image over two samples, read at `(0, 1)`). -/
theorem C03_get_pixel_checked_false :
    ¬ ∀ (b : ImageBuffer Nat 1), b.Inv → ∀ x y, x < 2 ^ 32 → y < 2 ^ 32 → C03_claim b x y := by
  intro h
  have h1 := (h ⟨1, 1, [10, 20]⟩ ⟨by decide, by decide, by decide, by decide⟩ 0 1
    (by decide) (by decide)).2 (by decide)
  have h2 : (⟨1, 1, [10, 20]⟩ : ImageBuffer Nat 1).getPixelChecked 0 1 =
      .ok (some fun c => [20][c.val]'c.isLt) := rfl
  rw [h2] at h1; cases h1

/-- What `get_pixel_checked` does on every buffer and every coordinate: it is `Some` exactly when
`x < width` and the samples of the pixel lie in the container, and then returns those; no panic. -/
theorem C03_get_pixel_checked_exact (b : ImageBuffer α ch) (hb : b.Inv) (h0 : 0 < ch)
    (hc : ch < 256) (x y : Nat) :
    if x < b.width ∧ (y * b.width + x) * ch + ch ≤ b.data.length then
      ∃ p, b.getPixelChecked x y = .ok (some p) ∧
        ∀ c : Fin ch, b.data[(y * b.width + x) * ch + c.val]? = some (p c)
    else b.getPixelChecked x y = .ok none := by
  have hlen := hb.len64
  by_cases hx : x < b.width
  · by_cases hin : (y * b.width + x) * ch + ch ≤ b.data.length
    · rw [if_pos ⟨hx, hin⟩]
      have hmul : y * b.width + x ≤ (y * b.width + x) * ch := Nat.le_mul_of_pos_right _ h0
      have e1 : satMul 64 (satAdd 64 (satMul 64 y b.width) x) ch = (y * b.width + x) * ch := by
        have a1 : satMul 64 y b.width = y * b.width := by unfold satMul; omega
        have a2 : satAdd 64 (satMul 64 y b.width) x = y * b.width + x := by
          rw [a1]; unfold satAdd; omega
        rw [a2]; unfold satMul; omega
      unfold getPixelChecked
      rw [if_neg (by omega)]
      simp only [e1, checkedAdd]
      rw [if_pos (by omega)]
      simp only
      rw [if_pos ⟨by omega, hin⟩]
      refine ⟨fun c => b.data[(y * b.width + x) * ch + c.val], ?_, fun c => by simp⟩
      have : fromSlice ch (((b.data.drop ((y * b.width + x) * ch)).take
          ((y * b.width + x) * ch + ch - (y * b.width + x) * ch))) =
          .ok (fun c => b.data[(y * b.width + x) * ch + c.val]) := by
        rw [fromSlice_eq_ok]
        refine ⟨by simp; omega, fun c => ?_⟩
        rw [List.getElem?_take, if_pos (by omega), List.getElem?_drop]; simp
      rw [this]; rfl
    · rw [if_neg (fun h => hin h.2)]
      unfold getPixelChecked
      rw [if_neg (by omega)]
      simp only [checkedAdd]
      -- the saturated start index is at least `len - ch + 1`
      have key : b.data.length <
          satMul 64 (satAdd 64 (satMul 64 y b.width) x) ch + ch := by
        by_cases hA : y * b.width + x < 2 ^ 64
        · have a1 : satMul 64 y b.width = y * b.width := by unfold satMul; omega
          have a2 : satAdd 64 (satMul 64 y b.width) x = y * b.width + x := by
            rw [a1]; unfold satAdd; omega
          rw [a2]; unfold satMul; omega
        · have a2 : satAdd 64 (satMul 64 y b.width) x = 2 ^ 64 - 1 := by
            unfold satAdd satMul; omega
          have : 2 ^ 64 - 1 ≤ (2 ^ 64 - 1) * ch := Nat.le_mul_of_pos_right _ h0
          rw [a2]; unfold satMul; omega
      split
      · rfl
      · rename_i e he
        split at he
        · cases he
          rw [if_neg (by omega)]
        · cases he
  · rw [if_neg (by omega)]
    unfold getPixelChecked
    rw [if_pos (by omega)]

/-- C03 for buffers whose container is exactly the image (`ImageBuffer::new`, decoded images, ...).
Missing from C03: containers longer than the image, where the claim is false
(`C03_get_pixel_checked_false`). -/
theorem C03_get_pixel_checked_partial (b : ImageBuffer α ch) (hb : b.Inv) (h0 : 0 < ch)
    (hc : ch < 256) (ht : b.data.length = b.width * b.height * ch) (x y : Nat) :
    C03_claim b x y := by
  have h := C03_get_pixel_checked_exact b hb h0 hc x y
  constructor
  · intro hx hy
    rw [if_pos ⟨hx, end_le hb hx hy⟩] at h
    obtain ⟨p, h1, h2⟩ := h
    exact ⟨p, (getPixel_eq_ok hb hx hy p).2 h2, h1⟩
  · intro hn
    rw [if_neg] at h
    · exact h
    · rintro ⟨h1, h2⟩
      have hy : b.height ≤ y := by omega
      have h3 : b.height * b.width ≤ y * b.width := Nat.mul_le_mul_right _ hy
      have h4 : b.width * b.height * ch ≤ (y * b.width + x) * ch := by
        apply Nat.mul_le_mul_right; rw [Nat.mul_comm b.width]; omega
      omega

/-- On every buffer, the in-bounds half of C03 holds. -/
theorem C03_in_bounds_partial (b : ImageBuffer α ch) (hb : b.Inv) (h0 : 0 < ch) (hc : ch < 256)
    (x y : Nat) (hx : x < b.width) (hy : y < b.height) :
    ∃ p, b.getPixel x y = .ok p ∧ b.getPixelChecked x y = .ok (some p) := by
  have h := C03_get_pixel_checked_exact b hb h0 hc x y
  rw [if_pos ⟨hx, end_le hb hx hy⟩] at h
  obtain ⟨p, h1, h2⟩ := h
  exact ⟨p, (getPixel_eq_ok hb hx hy p).2 h2, h1⟩

/-! ## C04 -/

/-- `pixels()` yields `width * height` pixels, pixel `(x, y)` at position `y * width + x`. -/
theorem C04_pixels (b : ImageBuffer α ch) (hb : b.Inv) (h0 : 0 < ch) (hc : ch < 256) :
    ∃ ps, b.pixels = .ok ps ∧ ps.length = b.width * b.height ∧
      ∀ x y, x < b.width → y < b.height →
        ∃ p, ps[y * b.width + x]? = some p ∧ b.getPixel x y = .ok p :=
  pixels_ok hb h0 hc

/-- `enumerate_pixels()` yields `(x, y, pixel)` for every in-bounds coordinate, at position
`y * width + x`, and then ends, without overflow. `fuel` is the number of `next` calls made; any
number that reaches the end gives the same items. -/
theorem C04_enumerate_pixels (b : ImageBuffer α ch) (hb : b.Inv) (h0 : 0 < ch) (hc : ch < 256)
    (fuel : Nat) (hf : b.width * b.height < fuel) :
    ∃ it items, b.enumeratePixels = .ok it ∧ drain EnumeratePixels.next fuel it = .ok items ∧
      items.length = b.width * b.height ∧
      ∀ x y, x < b.width → y < b.height →
        ∃ p, items[y * b.width + x]? = some (x, y, p) ∧ b.getPixel x y = .ok p := by
  obtain ⟨ps, h1, h2, h3⟩ := pixels_ok hb h0 hc
  have hit : b.enumeratePixels = .ok ⟨ps, 0, 0, b.width⟩ := by
    unfold enumeratePixels; rw [h1]; rfl
  by_cases hw : b.width = 0
  · have hps : ps = [] := by
      apply List.eq_nil_of_length_eq_zero; rw [h2, hw, Nat.zero_mul]
    subst hps
    obtain ⟨n, rfl⟩ : ∃ n, fuel = n + 1 := ⟨fuel - 1, by omega⟩
    refine ⟨_, [], hit, ?_, by simp [hw], fun x y hx => by omega⟩
    simp [drain, EnumeratePixels.next, hw, addC]
  · have hw' : 0 < b.width := by omega
    have hd := drain_enumerate b.width hw' hb.w32 ps 0 0 fuel (by omega) (by omega) (by
      rw [Nat.zero_mul, Nat.zero_add, h2, Nat.mul_div_cancel_left _ hw']
      exact hb.h32)
    refine ⟨_, _, hit, hd, by simp [h2], fun x y hx hy => ?_⟩
    obtain ⟨p, hp1, hp2⟩ := h3 x y hx hy
    refine ⟨p, ?_, hp2⟩
    rw [List.getElem?_map, List.getElem?_zipIdx, hp1]
    simp only [Option.map_some, Nat.zero_mul, Nat.zero_add, Option.some.injEq, Prod.mk.injEq, and_true]
    rw [Nat.add_comm, Nat.add_mul_mod_self_right, Nat.add_mul_div_right _ _ hw',
      Nat.mod_eq_of_lt hx, Nat.div_eq_of_lt hx, Nat.zero_add]
    exact ⟨rfl, rfl⟩

/-- `rows()` of an image with at least one column yields `height` rows, row `y` holding the pixels
`(0, y) .. (width-1, y)`. -/
theorem C04_rows (b : ImageBuffer α ch) (hb : b.Inv) (h0 : 0 < ch) (hc : ch < 256)
    (hw : 0 < b.width) :
    ∃ rs, b.rows = .ok rs ∧ rs.length = b.height ∧
      ∀ y, y < b.height → ∃ r, rs[y]? = some r ∧ r.length = b.width ∧
        ∀ x, x < b.width → ∃ p, r[x]? = some p ∧ b.getPixel x y = .ok p :=
  rows_ok hb h0 hc hw

/-- `rows()` of an image without columns is empty. -/
theorem C04_rows_zero_width (b : ImageBuffer α ch) (hw : b.width = 0) : b.rows = .ok [] := by
  unfold rows; rw [hw, mulC_ok (by simp)]; simp

/-- Draining `EnumerateRows` over `rs`. -/
theorem drain_rows (w : Nat) (rs : List (List (Pix α ch))) :
    ∀ y fuel, rs.length < fuel → y + rs.length + 1 < 2 ^ 32 →
      drain EnumerateRows.next fuel (⟨rs, y, w⟩ : EnumerateRows α ch) =
        .ok (rs.zipIdx.map fun q => (y + q.2, ⟨q.1, 0, y + q.2, w⟩)) := by
  induction rs with
  | nil =>
    intro y fuel hf hy
    obtain ⟨n, rfl⟩ : ∃ n, fuel = n + 1 := ⟨fuel - 1, by simp at hf; omega⟩
    simp only [drain, EnumerateRows.next]
    rw [addC_ok (by simp at hy; omega)]; rfl
  | cons r rs ih =>
    intro y fuel hf hy
    obtain ⟨n, rfl⟩ : ∃ n, fuel = n + 1 := ⟨fuel - 1, by simp at hf; omega⟩
    simp only [List.length_cons] at hf hy
    simp only [drain, EnumerateRows.next]
    rw [addC_ok (by omega)]; simp only [ok_bind]
    rw [ih (y + 1) n (by omega) (by omega)]
    simp only [ok_bind, List.zipIdx_cons, List.map_cons, Nat.add_zero]
    congr 2
    rw [List.zipIdx_succ, List.map_map]
    apply List.map_congr_left
    rintro ⟨q, k⟩ _
    simp only [Function.comp]
    rw [show y + 1 + k = y + (k + 1) by omega]

/-- `enumerate_rows()` yields for every `y < height` the pair of `y` and an enumerating iterator over
row `y` starting at `(0, y)`. Missing from C04: height `u32::MAX`, where the call that should end the
iteration overflows (`C04_enumerate_rows_overflow`). -/
theorem C04_enumerate_rows_partial (b : ImageBuffer α ch) (hb : b.Inv) (h0 : 0 < ch) (hc : ch < 256)
    (hw : 0 < b.width) (hh : b.height < 2 ^ 32 - 1) (fuel : Nat) (hf : b.height < fuel) :
    ∃ it items, b.enumerateRows = .ok it ∧ drain EnumerateRows.next fuel it = .ok items ∧
      items.length = b.height ∧
      ∀ y, y < b.height → ∃ row, items[y]? = some (y, row) ∧
        ∃ rowItems, drain EnumeratePixels.next (b.width + 1) row = .ok rowItems ∧
          rowItems.length = b.width ∧
          ∀ x, x < b.width → ∃ p, rowItems[x]? = some (x, y, p) ∧ b.getPixel x y = .ok p := by
  obtain ⟨rs, h1, h2, h3⟩ := rows_ok hb h0 hc hw
  refine ⟨⟨rs, 0, b.width⟩, _, by unfold enumerateRows; rw [h1]; rfl,
    drain_rows b.width rs 0 fuel (by omega) (by omega), by simp [h2], fun y hy => ?_⟩
  obtain ⟨r, hr1, hr2, hr3⟩ := h3 y hy
  refine ⟨⟨r, 0, y, b.width⟩, ?_, ?_⟩
  · rw [List.getElem?_map, List.getElem?_zipIdx, hr1]; simp
  · have hd := drain_enumerate b.width hw hb.w32 r 0 y (b.width + 1) (by omega) (by omega) (by
      rw [hr2, Nat.add_zero, ← Nat.succ_mul, Nat.mul_div_cancel _ hw]; omega)
    refine ⟨_, hd, by simp [hr2], fun x hx => ?_⟩
    obtain ⟨p, hp1, hp2⟩ := hr3 x hx
    refine ⟨p, ?_, hp2⟩
    rw [List.getElem?_map, List.getElem?_zipIdx, hp1]
    simp only [Option.map_some, Nat.zero_add, Nat.add_zero, Option.some.injEq, Prod.mk.injEq, and_true]
    rw [Nat.add_comm, Nat.add_mul_mod_self_right, Nat.add_mul_div_right _ _ hw,
      Nat.mod_eq_of_lt hx, Nat.div_eq_of_lt hx, Nat.zero_add]
    exact ⟨rfl, rfl⟩

theorem drain_rows_panic (w : Nat) (rs : List (List (Pix α ch))) :
    ∀ y fuel, rs.length < fuel → y + rs.length = 2 ^ 32 - 1 →
      drain EnumerateRows.next fuel (⟨rs, y, w⟩ : EnumerateRows α ch) = .error .panic := by
  induction rs with
  | nil =>
    intro y fuel hf hy
    obtain ⟨n, rfl⟩ : ∃ n, fuel = n + 1 := ⟨fuel - 1, by simp at hf; omega⟩
    simp only [List.length_nil, Nat.add_zero] at hy
    subst hy
    simp [drain, EnumerateRows.next, addC, panicR]
  | cons r rs ih =>
    intro y fuel hf hy
    obtain ⟨n, rfl⟩ : ∃ n, fuel = n + 1 := ⟨fuel - 1, by simp at hf; omega⟩
    simp only [List.length_cons] at hf hy
    simp only [drain, EnumerateRows.next]
    rw [addC_ok (by omega)]; simp only [ok_bind]
    rw [ih (y + 1) n (by omega) (by omega)]; rfl

/-- For every image of `u32::MAX` rows, iterating `enumerate_rows()` to the end panics (with overflow
checks; in release builds the row counter wraps after the last row, harmlessly). -/
theorem C04_enumerate_rows_overflow (b : ImageBuffer α ch) (hb : b.Inv) (h0 : 0 < ch)
    (hc : ch < 256) (hw : 0 < b.width) (hh : b.height = 2 ^ 32 - 1) (fuel : Nat)
    (hf : b.height < fuel) :
    ∃ it, b.enumerateRows = .ok it ∧ drain EnumerateRows.next fuel it = .error .panic := by
  obtain ⟨rs, h1, h2, -⟩ := rows_ok hb h0 hc hw
  exact ⟨⟨rs, 0, b.width⟩, by unfold enumerateRows; rw [h1]; rfl,
    drain_rows_panic b.width rs 0 fuel (by omega) (by omega)⟩

-- Non-vacuity of the overflow statement: such an image exists.
example : (⟨1, 2 ^ 32 - 1, List.replicate (2 ^ 32 - 1) 0⟩ : ImageBuffer Nat 1).Inv :=
  ⟨by decide, by decide, by rw [List.length_replicate]; decide,
    by rw [List.length_replicate]; decide⟩

/-! ## C06 -/

/-- `new`: the zero sample everywhere, tight container. -/
theorem C06_new (z : α) (w h : Nat) (hc : ch < 256) (hw : w < 2 ^ 32) (hh : h < 2 ^ 32)
    (hs : w * h * ch < 2 ^ 64) :
    ∃ b, new ch z w h = .ok b ∧ b.Inv ∧ b.width = w ∧ b.height = h ∧
      b.data.length = w * h * ch ∧ (∀ i, i < w * h * ch → b.data[i]? = some z) ∧
      ∀ x y, x < w → y < h → b.getPixel x y = .ok (fun _ => z) := by
  have hi : (⟨w, h, List.replicate (w * h * ch) z⟩ : ImageBuffer α ch).Inv := new_inv hw hh hs
  refine ⟨_, new_ok hc hw hs, hi, rfl, rfl, by simp, fun i hi => by simp [hi], fun x y hx hy => ?_⟩
  rw [getPixel_eq_ok hi hx hy]
  intro c
  have := chunk_end_le (ch := ch) (idx_lt hx hy)
  simp only
  rw [List.getElem?_replicate, if_pos (by omega)]

/-- `new` panics exactly when the size does not fit. -/
theorem C06_new_overflow (z : α) (w h : Nat) (hc : ch < 256) (hw : w < 2 ^ 32)
    (hs : ¬ w * h * ch < 2 ^ 64) : new (α := α) ch z w h = .error .panic := by
  unfold new; rw [imageBufferLen_eq hc hw, if_neg hs]; rfl

/-- `from_pixel`: the given pixel everywhere. -/
theorem C06_from_pixel (z : α) (w h : Nat) (p : Pix α ch) (h0 : 0 < ch) (hc : ch < 256)
    (hw : w < 2 ^ 32) (hh : h < 2 ^ 32) (hs : w * h * ch < 2 ^ 64) :
    ∃ b, fromPixel z w h p = .ok b ∧ b.Inv ∧ b.width = w ∧ b.height = h ∧
      b.data.length = w * h * ch ∧ ∀ x y, x < w → y < h → b.getPixel x y = .ok p := by
  have hi : (⟨w, h, List.replicate (w * h * ch) z⟩ : ImageBuffer α ch).Inv := new_inv hw hh hs
  obtain ⟨ps, h1, h2, -⟩ := pixels_ok hi h0 hc
  obtain ⟨g1, g2, g3, g4, g5⟩ := setPixels_spec hi (ps := ps.map fun _ => p) (by simp [h2])
  refine ⟨_, ?_, g1, g2, g3, by rw [g4]; simp, fun x y hx hy => ?_⟩
  · unfold fromPixel; rw [new_ok hc hw hs]; simp only [ok_bind]; rw [h1]; rfl
  · apply g5 x y p hx hy
    have hk := idx_lt hx hy
    rw [List.getElem?_map, List.getElem?_eq_getElem (by rw [h2]; exact hk)]; rfl

/-- `from_fn`: pixel `(x, y)` is `f(x, y)`. -/
theorem C06_from_fn (z : α) (w h : Nat) (f : Nat → Nat → Pix α ch) (h0 : 0 < ch) (hc : ch < 256)
    (hw : w < 2 ^ 32) (hh : h < 2 ^ 32) (hs : w * h * ch < 2 ^ 64) :
    ∃ b, fromFn z w h f = .ok b ∧ b.Inv ∧ b.width = w ∧ b.height = h ∧
      b.data.length = w * h * ch ∧ ∀ x y, x < w → y < h → b.getPixel x y = .ok (f x y) := by
  have hi : (⟨w, h, List.replicate (w * h * ch) z⟩ : ImageBuffer α ch).Inv := new_inv hw hh hs
  obtain ⟨ps, p1, p2, -⟩ := pixels_ok hi h0 hc
  have e1' : (⟨w, h, List.replicate (w * h * ch) z⟩ : ImageBuffer α ch).enumeratePixels =
      .ok ⟨ps, 0, 0, w⟩ := by unfold enumeratePixels; rw [p1]; rfl
  obtain ⟨it, items, e1, e2, e3, e4⟩ := C04_enumerate_pixels _ hi h0 hc
    (ps.length + 1) (by simp only at p2 ⊢; omega)
  rw [e1'] at e1; cases e1
  obtain ⟨g1, g2, g3, g4, g5⟩ := setPixels_spec hi (ps := items.map fun q => f q.1 q.2.1)
    (by simpa using e3)
  refine ⟨_, ?_, g1, g2, g3, by rw [g4]; simp, fun x y hx hy => ?_⟩
  · unfold fromFn; rw [new_ok hc hw hs]; simp only [ok_bind]; rw [e1']; simp only [ok_bind]
    rw [e2]; rfl
  · apply g5 x y _ hx hy
    obtain ⟨p, hp, -⟩ := e4 x y hx hy
    rw [List.getElem?_map]
    simp only at hp
    rw [hp]; rfl

-- Non-vacuity: a concrete `from_fn`, run in the model.
example : fromFn (ch := 2) 0 2 2 (fun x y => fun c => 10 * y + x + 100 * c.val) =
    .ok ⟨2, 2, [0, 100, 1, 101, 10, 110, 11, 111]⟩ := by rfl
end Verif
