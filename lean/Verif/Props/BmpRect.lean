import Verif.Model.BmpRect
import Verif.Props.BmpPixels
import Verif.Props.BmpRle
import Verif.Props.LoadRect

/-!
# C117: a rectangle of a BMP file is the part of the decoded image
-/

namespace Verif
namespace Bmp

open BmpSpec

/-- A decoded file has run-length encoded pixels or uncompressed pixels. -/
theorem new_type {file : List UInt8} {d : Decoder} (hd : Decoder.new file = .ok d) :
    (d.imageType = .RLE8 ∨ d.imageType = .RLE4) ∨ (compression file = 0 ∨ compression file = 3) := by
  obtain ⟨-, ht, hht, ty, F, hm⟩ := new_cases.1 hd
  have e : d.imageType = ty := by
    unfold metaTail at hm
    rw [bind_eq_ok] at hm
    obtain ⟨⟨_, _, _⟩, -, hm⟩ := hm
    dsimp only at hm
    rw [bind_eq_ok] at hm
    obtain ⟨⟨_, _⟩, -, hm⟩ := hm
    dsimp only at hm
    rw [bind_eq_ok] at hm
    obtain ⟨⟨_, _⟩, -, hm⟩ := hm
    cases hm
    rfl
  rcases F.type with ⟨h, -⟩ | ⟨-, -, h⟩ | ⟨-, -, h⟩ | ⟨h, -⟩
  · exact .inr (.inl h)
  · exact .inl (.inl (e.trans h))
  · exact .inl (.inr (e.trans h))
  · exact .inr (.inr h)

/-- What is read does not depend on what was in the buffer. -/
theorem readImageData_any {file : List UInt8} {d : Decoder} (hd : Decoder.new file = .ok d) {b1 b2 out : List UInt8}
    (h1 : b1.length = d.width * d.height * d.channels) (h2 : b2.length = d.width * d.height * d.channels)
    (h : readImageData d b1 = .ok out) : readImageData d b2 = .ok out := by
  rcases new_type hd with ht | hc
  · obtain ⟨-, pal, -, K⟩ := readRle_draws hd ht
    exact (K b2 out h2).2 ((K b1 out h1).1 h)
  · have D := (new_iff hc).2 d hd
    have hs := rows_present_of_data hd ⟨D.plain.type.1, D.plain.type.2.1⟩ h
    have hs' : d.height * ((d.bitCount * d.width + 31) / 32 * 4) ≤ (d.reader.bytes.drop d.dataOffset).length := by
      rw [List.length_drop, D.bytes]; omega
    rw [readImageData_file D.plain rfl h1 hs'] at h
    rw [readImageData_file D.plain rfl h2 hs', h]

/-- The whole image, as the only scanline. -/
theorem rectDecoder {file : List UInt8} {d : Decoder} (hd : Decoder.new file = .ok d) {scratch : Nat → List UInt8}
    (hscr : ∀ n, (scratch n).length = n) {img : List UInt8} {limit : Nat} (E : Err → Prop)
    (hl : limit = totalBytes d.width d.height d.colorType.bytesPerPixel)
    (himg : ∀ buf : List UInt8, buf.length = totalBytes d.width d.height d.colorType.bytesPerPixel →
      OkOr E (fun o => o = img) (readImageData d buf)) (hlen : img.length = limit) :
    ScanlineDecoder (fun i => img.getD i 0) (totalBytes d.width d.height d.colorType.bytesPerPixel) limit E (fun d' _ => d' = d)
      (fun d _ => .ok d) (fun d n => do
        let out ← readImageData d (scratch n)
        .ok (out, d)) := by
  refine ⟨fun d' k j h _ => h, ?_⟩
  rintro d' k rfl hk
  rw [← hl] at hk ⊢
  have h0 : k = 0 := by
    rcases Nat.eq_zero_or_pos k with h | h
    · exact h
    · have := Nat.le_mul_of_pos_left limit h
      omega
  subst h0
  refine OkOr.bind (himg (scratch limit) (by rw [hscr, hl])) ?_
  rintro o rfl
  refine ⟨?_, rfl⟩
  dsimp only
  simp only [Nat.zero_mul, Nat.zero_add, Nat.one_mul]
  apply List.ext_getElem?
  intro i
  by_cases hi : i < limit
  · rw [getElem?_segment (by omega), List.getD_eq_getElem?_getD, Nat.zero_add, List.getElem?_eq_getElem (by omega)]; rfl
  · rw [List.getElem?_eq_none (by omega), List.getElem?_eq_none (by rw [length_segment]; omega)]

/-- The sizes that `load_rect` needs. -/
theorem rect_sizes {file : List UInt8} {d : Decoder} (hd : Decoder.new file = .ok d) :
    0 < d.colorType.bytesPerPixel ∧ 0 < totalBytes d.width d.height d.colorType.bytesPerPixel ∧
    d.width * d.colorType.bytesPerPixel * d.height = totalBytes d.width d.height d.colorType.bytesPerPixel ∧
    totalBytes d.width d.height d.colorType.bytesPerPixel = d.width * d.height * d.channels ∧
    totalBytes d.width d.height d.colorType.bytesPerPixel < 2 ^ 60 ∧ d.Good := by
  obtain ⟨hg, hh, -, -, -⟩ := (readMetadata_total false false ⟨file, 0⟩).of_ok hd
  have ht := totalBytes_eq hg
  have hc := channels_eq hg.indexed
  have hcb : d.channels = d.colorType.bytesPerPixel := by
    rw [hc.1]; unfold Decoder.colorType; rw [hg.indexed]; cases d.addAlpha <;> rfl
  have hw := hg.width
  have hh2 := hg.height
  rw [ht, ← hcb]
  have h34 := hc.2.1
  have hpos := Nat.mul_pos (Nat.mul_pos hw.1 hh) (show 0 < d.channels by omega)
  have hle : d.width * d.height * d.channels ≤ 65535 * 2 ^ 31 * 4 :=
    Nat.mul_le_mul (Nat.mul_le_mul hw.2 (by omega)) (by omega)
  exact ⟨by omega, hpos, by rw [Nat.mul_right_comm], rfl, by omega, hg⟩

/-- What `decode` does, in terms of `read_image_data`. -/
theorem decode_data {file : List UInt8} {d : Decoder} (hd : Decoder.new file = .ok d) {r : Nat × Nat × ColorType × List UInt8} :
    decode file = .ok r ↔ r.1 = d.width ∧ r.2.1 = d.height ∧ r.2.2.1 = d.colorType ∧
      readImageData d (List.replicate (totalBytes d.width d.height d.colorType.bytesPerPixel) 0) = .ok r.2.2.2 := by
  unfold decode
  rw [hd, ok_bind]
  unfold Decoder.readImage
  rw [decide_eq_true (List.length_replicate ..), assertR_true, ok_bind, bind_eq_ok]
  constructor
  · rintro ⟨o, h, h2⟩
    cases h2
    exact ⟨rfl, rfl, rfl, h⟩
  · obtain ⟨a, b, c, o⟩ := r
    rintro ⟨h1, h2, h3, h4⟩
    dsimp only at *
    subst h1 h2 h3
    exact ⟨o, h4, rfl⟩

/-- **C117**: when the file decodes, reading a rectangle that lies inside the image stores at `buf[i * row_pitch + c]` the byte `c` of the row `i` of
the rectangle of the decoded image, and nothing else; for any caller's buffer that holds the rows at the given pitch, and whatever memory the
decoder works in. The decoder is as before, so that this holds for every call in a row of calls. -/
theorem C117_rect {file : List UInt8} {d : Decoder} (hd : Decoder.new file = .ok d) {w h : Nat} {ct : ColorType} {img : List UInt8}
    (hdec : decode file = .ok (w, h, ct, img)) (scratch : Nat → List UInt8) (hscr : ∀ n, (scratch n).length = n)
    (x y width height rowPitch : Nat) (buf : List UInt8) (hw0 : 0 < width) (hh0 : 0 < height) (hx : x + width ≤ w) (hy : y + height ≤ h)
    (hlen : buf.length < 2 ^ 64) (hpitch : width * ct.bytesPerPixel ≤ rowPitch)
    (hbuf : (height - 1) * rowPitch + width * ct.bytesPerPixel ≤ buf.length) :
    ∃ out, readRect d scratch x y width height buf rowPitch = .ok out ∧ out.length = buf.length ∧
      (∀ i c, i < height → c < width * ct.bytesPerPixel →
        out[i * rowPitch + c]? = img[((y + i) * w + x) * ct.bytesPerPixel + c]?) ∧
      (∀ q, (∀ i c, i < height → c < width * ct.bytesPerPixel → q ≠ i * rowPitch + c) → out[q]? = buf[q]?) := by
  obtain ⟨s1, s2, s3, s4, s5, hg⟩ := rect_sizes hd
  obtain ⟨e1, e2, e3, e4⟩ := (decode_data hd).1 hdec
  dsimp only at e1 e2 e3 e4
  subst e1 e2 e3
  have hil : img.length = totalBytes d.width d.height d.colorType.bytesPerPixel := by
    have := (readImageData_total hg (by rw [List.length_replicate, s4])).of_ok e4
    rw [this, List.length_replicate]
  have hsd := rectDecoder hd hscr (limit := d.width * d.colorType.bytesPerPixel * d.height) (fun _ => False) s3 (img := img) (by
    intro b hb
    rw [readImageData_any hd (by rw [List.length_replicate, s4]) (by rw [hb, s4]) e4]
    exact rfl) (by rw [hil, s3])
  have H := C33_load_rect_partial d.width d.height d.colorType.bytesPerPixel x y width height rowPitch hsd s2 buf d rfl s1 hw0 hh0 hx hy
    (by omega) hlen hpitch hbuf
  unfold readRect
  revert H
  generalize loadRect _ _ _ _ _ _ _ _ _ _ _ _ _ = r
  intro H
  match r, H with
  | .ok (out, d'), ⟨_, h1, h2, h3⟩ =>
    refine ⟨out, rfl, h1, ?_, h3⟩
    intro i c hi hc
    rw [h2 i c hi hc]
    unfold rectByte
    dsimp only
    have a1 : (y + i) * (d.width * d.colorType.bytesPerPixel) + x * d.colorType.bytesPerPixel =
        ((y + i) * d.width + x) * d.colorType.bytesPerPixel := by rw [Nat.add_mul _ x, Nat.mul_assoc]
    have a2 : ((y + i) * d.width + x) * d.colorType.bytesPerPixel + c < img.length := by
      have b1 : (y + i + 1) * (d.width * d.colorType.bytesPerPixel) ≤ d.height * (d.width * d.colorType.bytesPerPixel) :=
        Nat.mul_le_mul_right _ (by omega)
      rw [Nat.add_mul, Nat.one_mul, Nat.mul_comm d.height, s3] at b1
      have b2 : x * d.colorType.bytesPerPixel + width * d.colorType.bytesPerPixel ≤ d.width * d.colorType.bytesPerPixel := by
        rw [← Nat.add_mul]; exact Nat.mul_le_mul_right _ hx
      omega
    rw [a1, List.getD_eq_getElem?_getD, List.getElem?_eq_getElem a2]
    rfl
  | .error (.err e), H => exact H.elim
  | .error .panic, H => exact H.elim

/-- **C117**: when the file does not decode, no rectangle of it can be read: it is an error, not a panic and not made-up pixels. -/
theorem C117_fails {file : List UInt8} {d : Decoder} (hd : Decoder.new file = .ok d) (hdec : ∀ r, decode file ≠ .ok r)
    (scratch : Nat → List UInt8) (hscr : ∀ n, (scratch n).length = n)
    (x y width height rowPitch : Nat) (buf : List UInt8) (hw0 : 0 < width) (hh0 : 0 < height) (hx : x + width ≤ d.width) (hy : y + height ≤ d.height)
    (hlen : buf.length < 2 ^ 64) (hpitch : width * d.colorType.bytesPerPixel ≤ rowPitch)
    (hbuf : (height - 1) * rowPitch + width * d.colorType.bytesPerPixel ≤ buf.length) :
    ∃ e, readRect d scratch x y width height buf rowPitch = .error (.err e) := by
  obtain ⟨s1, s2, s3, s4, s5, hg⟩ := rect_sizes hd
  have hno : ∀ b : List UInt8, b.length = totalBytes d.width d.height d.colorType.bytesPerPixel → ∀ P, OkOr AnyE P (readImageData d b) := by
    intro b hb P
    have h1 := readImageData_total hg (buf := b) (by rw [hb, s4])
    cases hr : readImageData d b with
    | ok o =>
      have := readImageData_any hd (b2 := List.replicate (totalBytes d.width d.height d.colorType.bytesPerPixel) 0) (by rw [hb, s4])
        (by rw [List.length_replicate, s4]) hr
      exact absurd ((decode_data hd (r := (d.width, d.height, d.colorType, o))).2 ⟨rfl, rfl, rfl, this⟩) (hdec _)
    | error f => rw [hr] at h1; cases f with | err e => exact h1 | panic => exact h1
  have H : ∀ v : UInt8, _ := fun v =>
    C33_load_rect_partial d.width d.height d.colorType.bytesPerPixel x y width height rowPitch
      (rectDecoder hd hscr (limit := d.width * d.colorType.bytesPerPixel * d.height) AnyE s3
        (img := List.replicate (d.width * d.colorType.bytesPerPixel * d.height) v) (fun b hb => hno b hb _) (List.length_replicate ..))
      s2 buf d rfl s1 hw0 hh0 hx hy (by omega) hlen hpitch hbuf
  unfold readRect
  revert H
  generalize loadRect _ _ _ _ _ _ _ _ _ _ _ _ _ = r
  intro H
  match r, H with
  | .ok (out, d'), H =>
    have hb0 : 0 < width * d.colorType.bytesPerPixel := Nat.mul_pos hw0 s1
    have g := fun v => (H v).2.2.1 0 0 hh0 hb0
    have hlt : (y + 0) * (d.width * d.colorType.bytesPerPixel) + x * d.colorType.bytesPerPixel + 0 <
        d.width * d.colorType.bytesPerPixel * d.height := by
      have b1 : (y + 0 + 1) * (d.width * d.colorType.bytesPerPixel) ≤ d.height * (d.width * d.colorType.bytesPerPixel) :=
        Nat.mul_le_mul_right _ (by omega)
      rw [Nat.add_mul, Nat.one_mul, Nat.mul_comm d.height] at b1
      have b2 : x * d.colorType.bytesPerPixel + width * d.colorType.bytesPerPixel ≤ d.width * d.colorType.bytesPerPixel := by
        rw [← Nat.add_mul]; exact Nat.mul_le_mul_right _ hx
      omega
    have e : ∀ v : UInt8, rectByte (fun i => (List.replicate (d.width * d.colorType.bytesPerPixel * d.height) v).getD i 0)
        (d.width * d.colorType.bytesPerPixel) d.colorType.bytesPerPixel x y 0 0 = v := by
      intro v
      unfold rectByte
      dsimp only
      rw [List.getD_eq_getElem?_getD, List.getElem?_replicate, if_pos hlt]; rfl
    have g0 := g 0
    have g1 := g 1
    rw [e] at g0 g1
    rw [g0] at g1
    exact absurd g1 (by decide)
  | .error (.err e), H => exact ⟨e, rfl⟩
  | .error .panic, H => exact (H 0).elim

/-- **C117**: a rectangle that is empty or not inside the image is an error, whatever the file contains. -/
theorem C117_rejects {file : List UInt8} {d : Decoder} (hd : Decoder.new file = .ok d) (scratch : Nat → List UInt8)
    (x y width height rowPitch : Nat) (buf : List UInt8) (hlen : buf.length < 2 ^ 64) (hwh : width * height < 2 ^ 64)
    (hbuf : width * height * d.colorType.bytesPerPixel ≤ buf.length)
    (hout : d.width < x + width ∨ d.height < y + height ∨ width = 0 ∨ height = 0) :
    readRect d scratch x y width height buf rowPitch = .error (.err .dimensionMismatch) := by
  obtain ⟨s1, s2, s3, s4, s5, hg⟩ := rect_sizes hd
  obtain ⟨-, hh, -, -, -⟩ := (readMetadata_total false false ⟨file, 0⟩).of_ok hd
  unfold readRect
  rw [C33_load_rect_rejects _ _ _ _ _ _ _ _ _ _ _ _ _ (by
    have : d.colorType.bytesPerPixel * d.width * 1 ≤ d.colorType.bytesPerPixel * d.width * d.height := Nat.mul_le_mul_left _ hh
    rw [Nat.mul_comm d.colorType.bytesPerPixel d.width] at this ⊢
    omega) hwh hbuf hlen hout]
  rfl

/-! The right two columns of a 3x2 image, with a row pitch of 7, into a buffer that was not empty; and the same rectangle of a cut file. -/

set_option maxRecDepth 100000 in
example : ∃ d, Decoder.new shortFile = .ok d ∧ readRect d (fun n => List.replicate n 77) 1 0 2 2 (List.replicate 14 9) 7 =
    .ok [30, 20, 10, 30, 20, 10, 9, 255, 0, 0, 30, 20, 10, 9] := by
  refine ⟨_, rfl, ?_⟩
  decide +kernel

set_option maxRecDepth 100000 in
example : ∃ d, Decoder.new (shortFile.take 39) = .ok d ∧ readRect d (fun n => List.replicate n 77) 1 0 2 2 (List.replicate 14 9) 7 =
    .error (.err .io) := by
  refine ⟨_, rfl, ?_⟩
  decide +kernel

set_option maxRecDepth 100000 in
/-- **C117** without the requirement on the size of the buffer is false: the function only checks that the buffer holds `width * height` pixels, and with
a larger row pitch the rows that do not begin in it are left out without an error. -/
theorem C117_dropped_false : ∃ (file : List UInt8) (d : Decoder) (img : List UInt8), Decoder.new file = .ok d ∧ decode file = .ok (3, 2, .Rgb8, img) ∧
    readRect d (fun n => List.replicate n 0) 0 0 3 2 (List.replicate (3 * 2 * 3) 9) 18 = .ok (img.take 9 ++ List.replicate 9 9) := by
  refine ⟨shortFile, _, _, rfl, rfl, ?_⟩
  decide +kernel

end Bmp
end Verif
