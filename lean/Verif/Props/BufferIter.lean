import Verif.Proofs.BufferIter

/-!
# C110: the iterators of `ImageBuffer` under every sequence of calls
-/

namespace Verif
namespace BufIter
open ImageBuffer

variable {α : Type} {ch : Nat}

/-- The picture in a buffer; `d` outside. -/
def picture (d : Pix α ch) (b : ImageBuffer α ch) (x y : Nat) : Pix α ch :=
  match b.getPixel x y with
  | .ok p => p
  | .error _ => d

/-- The buffer holds the picture. -/
def Shows (b : ImageBuffer α ch) (w h : Nat) (pic : Nat → Nat → Pix α ch) : Prop :=
  b.Inv ∧ b.width = w ∧ b.height = h ∧ ∀ x y, x < w → y < h → b.getPixel x y = .ok (pic x y)

theorem picture_rel (d : Pix α ch) {b : ImageBuffer α ch} (hb : b.Inv) : RelBuf b.width b.height b (picture d b) := by
  refine ⟨hb, rfl, rfl, fun x y hx hy => ?_⟩
  obtain ⟨p, hp⟩ := getPixel_exists hb hx hy
  unfold picture
  rw [hp]

theorem RelBuf.shows {w h : Nat} {b : ImageBuffer α ch} {pic : Nat → Nat → Pix α ch} (hb : RelBuf w h b pic) : Shows b w h pic :=
  ⟨hb.inv, hb.width, hb.height, hb.pix⟩

/-- Whatever a program does with `pixels()` or `pixels_mut()` – taking pixels from the front and the back in any order, asking for the length, reading and
writing through the references it keeps – it gets the answers of the list of all coordinates in row-major order, and the buffer then holds what was written. -/
theorem C110_pixels (d : Pix α ch) (b : ImageBuffer α ch) (hb : b.Inv) (hc : 0 < ch) (hc2 : ch < 256) (ss : List (Step (Pix α ch))) :
    ∃ b', usePixels b ss = .ok (((⟨b.width, picture d b, none, [allCoords b.width b.height], []⟩ : Ideal _).run false ss).1, b') ∧
      Shows b' b.width b.height ((⟨b.width, picture d b, none, [allCoords b.width b.height], []⟩ : Ideal _).run false ss).2 := by
  have hrel : Rel b.width b.height (⟨b, none, [Chunks ch 0 (b.width * b.height)], []⟩ : Held α ch)
      ⟨b.width, picture d b, none, [allCoords b.width b.height], []⟩ := by
    refine ⟨picture_rel d hb, rfl, trivial, LRel.single ⟨0, _, rfl, ?_, by omega⟩, LRel.nil⟩
    rcases Nat.eq_zero_or_pos b.width with h0 | h0
    · rw [h0, Nat.zero_mul]
      unfold allCoords
      have : rowCoords 0 = fun _ => [] := by funext y; rfl
      rw [this]; simp
    · exact allCoords_eq h0 _
  obtain ⟨b', e, hb'⟩ := run_ok hc ss hrel
  refine ⟨b', ?_, hb'.shows⟩
  unfold usePixels
  rw [pixels_start hb hc hc2, ok_bind]
  exact e

/-- The same for `rows()` and `rows_mut()`, and the pixel iterators of the rows, all of which may be used interleaved. -/
theorem C110_rows (d : Pix α ch) (b : ImageBuffer α ch) (hb : b.Inv) (hc : 0 < ch) (hc2 : ch < 256) (ss : List (Step (Pix α ch))) :
    ∃ b', useRows b ss = .ok (((⟨b.width, picture d b, some (allRows b.width b.height), [], []⟩ : Ideal _).run false ss).1, b') ∧
      Shows b' b.width b.height ((⟨b.width, picture d b, some (allRows b.width b.height), [], []⟩ : Ideal _).run false ss).2 := by
  obtain ⟨c, e0, hr⟩ := rows_start hb hc hc2
  have hrel : Rel b.width b.height (⟨b, some c, [], []⟩ : Held α ch) ⟨b.width, picture d b, some (allRows b.width b.height), [], []⟩ :=
    ⟨picture_rel d hb, rfl, hr, LRel.nil, LRel.nil⟩
  obtain ⟨b', e, hb'⟩ := run_ok hc ss hrel
  refine ⟨b', ?_, hb'.shows⟩
  unfold useRows
  rw [e0, ok_bind]
  exact e

/-- `enumerate_pixels()` and `enumerate_pixels_mut()`: the coordinates are right as well. Excluded are programs that ask again after the end so often that
the row counter reaches `2^32`. -/
theorem C110_enumerate_pixels_partial (d : Pix α ch) (b : ImageBuffer α ch) (hb : b.Inv) (hc : 0 < ch) (hc2 : ch < 256) (ss : List (Step (Pix α ch)))
    (hp : b.height - 1 + polls ((⟨b.width, picture d b, none, [allCoords b.width b.height], []⟩ : Ideal _).run true ss).1 < 2 ^ 32) :
    ∃ b', useEnumPixels b ss = .ok (((⟨b.width, picture d b, none, [allCoords b.width b.height], []⟩ : Ideal _).run true ss).1, b') ∧
      Shows b' b.width b.height ((⟨b.width, picture d b, none, [allCoords b.width b.height], []⟩ : Ideal _).run true ss).2 := by
  have hrel : ERel b.width b.height 0 (⟨b, none, [⟨Chunks ch 0 (b.width * b.height), 0, 0, b.width⟩], []⟩ : EHeld α ch)
      ⟨b.width, picture d b, none, [allCoords b.width b.height], []⟩ := by
    refine ⟨picture_rel d hb, rfl, trivial, LRel.single ⟨0, b.width * b.height, rfl, ?_, by omega, rfl, Nat.zero_le _, fun _ => ⟨?_, Nat.zero_le _⟩⟩, LRel.nil⟩
    · rcases Nat.eq_zero_or_pos b.width with h0 | h0
      · rw [h0, Nat.zero_mul]
        unfold allCoords
        have : rowCoords 0 = fun _ => [] := by funext y; rfl
        rw [this]; simp
      · exact allCoords_eq h0 _
    · simp
  obtain ⟨b', e, hb'⟩ := erun_ok hc ss hrel ⟨by rw [Nat.zero_add]; exact hp, fun h => by cases h⟩
  refine ⟨b', ?_, hb'.shows⟩
  unfold useEnumPixels
  rw [pixels_start hb hc hc2, ok_bind]
  exact e

/-- `enumerate_rows()` and `enumerate_rows_mut()`, with the same exception. -/
theorem C110_enumerate_rows_partial (d : Pix α ch) (b : ImageBuffer α ch) (hb : b.Inv) (hc : 0 < ch) (hc2 : ch < 256) (ss : List (Step (Pix α ch)))
    (hp : b.height + polls ((⟨b.width, picture d b, some (allRows b.width b.height), [], []⟩ : Ideal _).run true ss).1 < 2 ^ 32) :
    ∃ b', useEnumRows b ss = .ok (((⟨b.width, picture d b, some (allRows b.width b.height), [], []⟩ : Ideal _).run true ss).1, b') ∧
      Shows b' b.width b.height ((⟨b.width, picture d b, some (allRows b.width b.height), [], []⟩ : Ideal _).run true ss).2 := by
  obtain ⟨c, e0, hr⟩ := rows_start hb hc hc2
  have hrel : ERel b.width b.height 0 (⟨b, some ⟨c, 0, b.width⟩, [], []⟩ : EHeld α ch)
      ⟨b.width, picture d b, some (allRows b.width b.height), [], []⟩ := by
    refine ⟨picture_rel d hb, rfl, ⟨hr, rfl, fun y ys h => ?_, Nat.zero_le _⟩, LRel.nil, LRel.nil⟩
    show 0 = y
    unfold allRows at h
    by_cases h0 : b.width = 0
    · rw [if_pos h0] at h; cases h
    · rw [if_neg h0] at h
      cases hh : b.height with
      | zero => rw [hh] at h; cases h
      | succ n =>
        rw [hh, List.range_eq_range', List.range'_succ] at h
        injection h
  obtain ⟨b', e, hb'⟩ := erun_ok hc ss hrel ⟨by omega, fun _ => by omega⟩
  refine ⟨b', ?_, hb'.shows⟩
  unfold useEnumRows
  rw [e0, ok_bind]
  exact e

theorem polled_panics (b : ImageBuffer Nat 3) : ∀ (n x y : Nat), x ≤ 1 → y < 2 ^ 32 → 2 ^ 32 ≤ y + n →
    erun (⟨b, none, [⟨Chunks 3 0 0, x, y, 0⟩], []⟩ : EHeld Nat 3) (List.replicate n (.next 0)) = .error .panic := by
  intro n
  induction n with
  | zero => intro x y _ h1 h2; omega
  | succ n ih =>
    intro x y hx h1 h2
    rw [List.replicate_succ]
    unfold erun estep
    simp only [List.getElem?_cons_zero]
    unfold EnumPixels.next
    simp only [Nat.zero_le, if_true]
    by_cases hy : y + 1 < 2 ^ 32
    · rw [addC_ok hy]
      simp only [ok_bind]
      rw [addC_ok (by decide)]
      simp only [ok_bind, Chunks.next_zero (show 0 < 3 by decide), List.set_cons_zero, Nat.zero_add]
      rw [ih 1 (y + 1) (Nat.le_refl _) hy (by omega)]
      rfl
    · unfold addC
      rw [if_neg hy]
      rfl

/-- Asking an `enumerate_pixels()` that has ended for more items: the row counter goes on and overflows at the `2^32`-nd time (for an image without
columns). -/
theorem C110_polled_false (hgt : Nat) :
    useEnumPixels (⟨0, hgt, []⟩ : ImageBuffer Nat 3) (List.replicate (2 ^ 32) (.next 0)) = .error .panic := by
  have h : pixels (⟨0, hgt, []⟩ : ImageBuffer Nat 3) = .ok (Chunks 3 0 0) := by
    simp [pixels, innerSlice, imageBufferLen, checkedMul, unwrapR, chunksExact, Chunks, ok_bind]
  unfold useEnumPixels
  rw [h, ok_bind]
  exact polled_panics _ _ 0 0 (by decide) (by decide) (by decide)

/-! Non-vacuity -/

/-- Two rows are taken from both ends and used interleaved. -/
example : useRows (⟨2, 2, [1, 2, 3, 4, 99]⟩ : ImageBuffer Nat 1)
    [.rowLen, .rowBack, .rowNext, .rowNext, .len 0, .nextBack 0, .next 1, .write 0 (fun _ => 7), .next 0, .next 0, .write 1 (fun _ => 8)] =
    .ok ([.count 2, .item true, .item true, .item false, .count 2, .item true, .item true, .done, .item true, .item false, .done],
      ⟨2, 2, [8, 2, 3, 7, 99]⟩) := by
  rfl

example : useEnumPixels (⟨2, 1, [1, 2]⟩ : ImageBuffer Nat 1) [.next 0, .next 0, .next 0, .len 0] =
    .ok ([.coord (some (0, 0)), .coord (some (1, 0)), .coord none, .count 0], ⟨2, 1, [1, 2]⟩) := by
  rfl

example : allCoords 2 2 = [(0, 0), (1, 0), (0, 1), (1, 1)] := by decide

end BufIter
end Verif
