import Verif.Model.Bmp
import Verif.Model.CrateEncoders
import Verif.Model.Farbfeld
import Verif.Model.Hdr
import Verif.Model.Ico
import Verif.Model.JpegEncoder
import Verif.Model.OpenExr
import Verif.Model.Png
import Verif.Model.PnmEncoder
import Verif.Model.Tga
import Verif.Model.Tiff
import Verif.Proofs.Buffer

/-!
# The buffer of `write_image` (C138)

The documentation of `ImageEncoder::write_image` (src/image.rs:809-811): "Panics if `width * height * color_type.bytes_per_pixel() != buf.len()`."
-/

namespace Verif
namespace WriteImage

/-- The number of bytes of a picture: rows of whole bytes. -/
def pictureBytes (bits w h : Nat) : Nat := (w * bits + 7) / 8 * h

/-- The documented contract of `write_image` for buffers of a wrong length; slices are shorter than 2^63 bytes. -/
def LengthContract {β : Type} (total : Nat) (write : List UInt8 → R β) : Prop :=
  ∀ buf : List UInt8, buf.length < 2 ^ 63 → buf.length ≠ total → write buf = .error .panic

theorem assert_false {α : Type} {c : Bool} (h : c = false) (k : Unit → R α) : (assertR c >>= k) = .error .panic := by
  rw [h]; rfl

theorem bufferSize_cases (c : ExtendedColorType) (w h : Nat) :
    c.bufferSize w h = .error .panic ∨ c.bufferSize w h = .ok (min (pictureBytes c.bitsPerPixel w h) (2 ^ 64 - 1)) := by
  unfold ExtendedColorType.bufferSize mulC addC
  by_cases h1 : w * c.bitsPerPixel < 2 ^ 64
  · rw [if_pos h1, ok_bind]
    by_cases h2 : w * c.bitsPerPixel + 7 < 2 ^ 64
    · rw [if_pos h2]; exact .inr rfl
    · rw [if_neg h2]; exact .inl rfl
  · rw [if_neg h1]; exact .inl rfl

theorem check_fails {β : Type} (c : ExtendedColorType) (w h n : Nat) (h63 : n < 2 ^ 63) (hn : n ≠ pictureBytes c.bitsPerPixel w h) (b : Nat → Bool)
    (hb : ∀ e, e ≠ n → b e = false) (k : Nat → Unit → R β) :
    (c.bufferSize w h >>= fun e => assertR (b e) >>= k e) = .error .panic := by
  rcases bufferSize_cases c w h with e | e
  · rw [e]; rfl
  · rw [e, ok_bind]
    exact assert_false (hb _ (by omega)) _

/-- **C138: a buffer of a wrong length panics**, for all encoders, sizes and colour types; QOI, farbfeld and BMP look at the colour type (and the palette)
first, and refuse those they cannot store with an error. -/
theorem C138_wrong_length (w h : Nat) (c : ExtendedColorType) :
    (∀ encode sink, c = .Rgb8 ∨ c = .Rgba8 → LengthContract (pictureBytes c.bitsPerPixel w h) fun buf => CrateEnc.qoiWrite encode sink buf w h c)
    ∧ (∀ encode, LengthContract (pictureBytes c.bitsPerPixel w h) fun buf => CrateEnc.webpWrite encode buf w h c)
    ∧ (∀ le encode sink, LengthContract (pictureBytes c.bitsPerPixel w h) fun buf => CrateEnc.avifWrite le encode sink buf w h c)
    ∧ (∀ palette, palette = none ∨ c = .L8 ∨ c = .La8 →
        LengthContract (pictureBytes c.bitsPerPixel w h) fun buf => Bmp.encodeWithPalette buf w h c palette)
    ∧ (∀ le, c = .Rgba16 → LengthContract (w * h * 8) fun buf => Farbfeld.writeImage le buf w h c)
    ∧ (∀ png, LengthContract (pictureBytes c.bitsPerPixel w h) fun buf => Ico.writeImage png buf w h c)
    ∧ (∀ e : Jpeg.Encoder, LengthContract (pictureBytes c.bitsPerPixel w h) fun buf => Jpeg.encode e (buf.map (·.toNat)) w h c)
    ∧ (∀ le, LengthContract (pictureBytes c.bitsPerPixel w h) fun buf => Exr.writeImage le buf w h c)
    ∧ (∀ (F : Type) (k : Png.Crate F) le e, LengthContract (pictureBytes c.bitsPerPixel w h) fun buf => Png.Encoder.writeImage k le e buf w h c)
    ∧ (∀ strategy, LengthContract (pictureBytes c.bitsPerPixel w h) fun buf => Pnm.writeImage strategy buf w h c)
    ∧ (∀ rle, LengthContract (pictureBytes c.bitsPerPixel w h) fun buf => Tga.encode rle buf w h c)
    ∧ (∀ le aligned create write, LengthContract (pictureBytes c.bitsPerPixel w h) fun buf => Tiff.encode le aligned create write buf w h c) := by
  refine ⟨?_, ?_, ?_, ?_, ?_, ?_, ?_, ?_, ?_, ?_, ?_, ?_⟩
  · intro encode sink hc buf h63 hn
    simp only [CrateEnc.qoiWrite]
    rw [if_neg (by rcases hc with rfl | rfl <;> simp)]
    exact check_fails c w h _ h63 hn (fun e => decide (e = buf.length)) (fun e he => decide_eq_false he) _
  · intro encode buf h63 hn
    exact check_fails c w h _ h63 hn (fun e => decide (e = buf.length)) (fun e he => decide_eq_false he) _
  · intro le encode sink buf h63 hn
    exact check_fails c w h _ h63 hn (fun e => decide (e = buf.length)) (fun e he => decide_eq_false he) _
  · intro palette hp buf h63 hn
    simp only [Bmp.encodeWithPalette]
    rw [if_neg (by rcases hp with rfl | rfl | rfl <;> simp)]
    exact check_fails c w h _ h63 hn (fun e => e == buf.length) (fun e he => beq_eq_false_iff_ne.2 he) _
  · intro le hc buf h63 hn
    simp only [Farbfeld.writeImage]
    rw [if_neg (by simp [hc])]
    refine assert_false (beq_eq_false_iff_ne.2 ?_) _
    unfold satMul
    omega
  · intro png buf h63 hn
    exact check_fails c w h _ h63 hn (fun e => decide (e = buf.length)) (fun e he => decide_eq_false he) _
  · intro e buf h63 hn
    refine check_fails c w h (buf.map (·.toNat)).length (by simpa using h63) (by simpa using hn) (fun e => decide (e = (buf.map (·.toNat)).length))
      (fun e he => decide_eq_false he) _
  · intro le buf h63 hn
    exact check_fails c w h _ h63 hn (fun e => decide (e = buf.length)) (fun e he => decide_eq_false he) _
  · intro F k le e buf h63 hn
    exact check_fails c w h _ h63 hn (fun e => decide (e = buf.length)) (fun e he => decide_eq_false he) _
  · intro strategy buf h63 hn
    exact check_fails c w h _ h63 hn (fun e => e == buf.length) (fun e he => beq_eq_false_iff_ne.2 he) _
  · intro rle buf h63 hn
    exact check_fails c w h _ h63 hn (fun e => e == buf.length) (fun e he => beq_eq_false_iff_ne.2 he) _
  · intro le aligned create write buf h63 hn
    exact check_fails c w h _ h63 hn (fun e => decide (e = buf.length)) (fun e he => decide_eq_false he) _

theorem toRgbe8_cases (lg : ℚ → ℤ) (p : Hdr.RgbF) : (∃ q, Hdr.toRgbe8 lg p = .ok q) ∨ Hdr.toRgbe8 lg p = .error .panic := by
  unfold Hdr.toRgbe8
  simp only
  split
  · exact .inl ⟨_, rfl⟩
  · split
    · exact .inl ⟨_, rfl⟩
    · exact .inr rfl

theorem mapM_cases (lg : ℚ → ℤ) (l : List Hdr.RgbF) :
    (∃ q : List Hdr.Rgbe, l.mapM (Hdr.toRgbe8 lg) = .ok q ∧ q.length = l.length) ∨ l.mapM (Hdr.toRgbe8 lg) = .error .panic := by
  induction l with
  | nil => exact .inl ⟨[], rfl, rfl⟩
  | cons a l ih =>
    rw [List.mapM_cons]
    rcases toRgbe8_cases lg a with ⟨q, e⟩ | e
    · rw [e, ok_bind]
      rcases ih with ⟨qs, e, hl⟩ | e
      · rw [e]; exact .inl ⟨q :: qs, rfl, by simp [hl]⟩
      · rw [e]; exact .inr rfl
    · rw [e]; exact .inr rfl

/-- **C138, HDR**: a buffer that is too short panics. -/
theorem C138_hdr_short (lg : ℚ → ℤ) (read : List UInt8 → Hdr.RgbF) (w h : Nat) (buf : List UInt8) (hb : buf.length < w * h * 12) :
    Hdr.writeImage lg read buf w h .Rgb32F = .error .panic := by
  show (((chunksExact 12 buf).map read).mapM (Hdr.toRgbe8 lg) >>= fun px => Hdr.encodePixels px w h) = _
  rcases mapM_cases lg ((chunksExact 12 buf).map read) with ⟨q, e, hl⟩ | e
  · rw [e, ok_bind]
    rw [List.length_map, length_chunksExact] at hl
    unfold Hdr.encodePixels mulC
    split
    · rw [ok_bind]
      exact assert_false (decide_eq_false (by rw [hl]; omega)) _
    · rfl
  · rw [e]; rfl

/-- **C138, HDR**: up to eleven bytes after the picture are accepted and change nothing at all. -/
theorem C138_hdr_longer (lg : ℚ → ℤ) (read : List UInt8 → Hdr.RgbF) (w h : Nat) (buf extra : List UInt8) (hb : buf.length = w * h * 12)
    (he : extra.length < 12) : Hdr.writeImage lg read (buf ++ extra) w h .Rgb32F = Hdr.writeImage lg read buf w h .Rgb32F := by
  have : chunksExact 12 (buf ++ extra) = chunksExact 12 buf := by
    unfold chunksExact
    have h1 : (buf ++ extra).length / 12 = buf.length / 12 := by rw [List.length_append]; omega
    rw [h1]
    apply List.map_congr_left
    intro k hk
    rw [List.mem_range] at hk
    rw [List.drop_append_of_le_length (by omega), List.take_append_of_le_length (by rw [List.length_drop]; omega)]
  show Hdr.encode lg ((chunksExact 12 (buf ++ extra)).map read) w h = Hdr.encode lg ((chunksExact 12 buf).map read) w h
  rw [this]

/-- The three floats of the black pixels of the counterexamples. -/
def blackRead (_ : List UInt8) : Hdr.RgbF := ⟨.fin 0, .fin 0, .fin 0⟩

/-- **C138 is false of HDR**: 13 bytes for a picture of one pixel are written like 12 bytes, and with 24 bytes two pixels get into the file of a picture of
one. -/
theorem C138_hdr_false : ¬ LengthContract (pictureBytes ExtendedColorType.Rgb32F.bitsPerPixel 1 1) (fun buf => Hdr.writeImage (fun _ => 0) blackRead buf 1 1 .Rgb32F)
    ∧ Hdr.writeImage (fun _ => 0) blackRead (List.replicate 12 0) 1 1 .Rgb32F = .ok (Hdr.headerBytes 1 1 ++ [0, 0, 0, 0])
    ∧ Hdr.writeImage (fun _ => 0) blackRead (List.replicate 13 0) 1 1 .Rgb32F = .ok (Hdr.headerBytes 1 1 ++ [0, 0, 0, 0])
    ∧ Hdr.writeImage (fun _ => 0) blackRead (List.replicate 24 0) 1 1 .Rgb32F = .ok (Hdr.headerBytes 1 1 ++ [0, 0, 0, 0, 0, 0, 0, 0]) := by
  have e : Hdr.writeImage (fun _ => 0) blackRead (List.replicate 13 0) 1 1 .Rgb32F = .ok (Hdr.headerBytes 1 1 ++ [0, 0, 0, 0]) := by decide +kernel
  refine ⟨fun h => ?_, by decide +kernel, e, by decide +kernel⟩
  have h1 : Hdr.writeImage (fun _ => 0) blackRead (List.replicate 13 0) 1 1 .Rgb32F = .error .panic :=
    h (List.replicate 13 0) (by simp) (by decide)
  rw [e] at h1
  cases h1

example : Tga.encode false [1, 2] 1 1 .L8 = .error .panic :=
  (C138_wrong_length 1 1 .L8).2.2.2.2.2.2.2.2.2.2.1 false [1, 2] (by decide) (by decide)

/-- The right length is accepted. -/
example : ∃ file, Tga.encode false [1] 1 1 .L8 = .ok file := ⟨_, rfl⟩

end WriteImage
end Verif
