import Verif.Proofs.Tga
import Verif.Proofs.Buffer

/-!
# TGA (C37, C38, C54, C56, C57)
-/

namespace Verif
namespace Tga

/-! ## Swapping red and blue -/

/-- A pixel with its bytes 0 and 2 exchanged. -/
def swapped : List UInt8 → List UInt8
  | a :: b :: c :: t => c :: b :: a :: t
  | l => l

theorem swap02_ok {l : List UInt8} (h : 3 ≤ l.length) : swap02 l = .ok (swapped l) := by
  match l, h with
  | a :: b :: c :: t, _ => rfl

@[simp] theorem length_swapped (l : List UInt8) : (swapped l).length = l.length := by
  unfold swapped; split <;> rfl

theorem swapped_swapped (l : List UInt8) : swapped (swapped l) = l := by
  match l with
  | [] | [_] | [_, _] | _ :: _ :: _ :: _ => rfl

theorem mapM_swap {ps : List (List UInt8)} (h : ∀ p ∈ ps, 3 ≤ p.length) : ps.mapM swap02 = (.ok (ps.map swapped) : R _) := by
  induction ps with
  | nil => rfl
  | cons p ps ih =>
    rw [List.mapM_cons, swap02_ok (h p (by simp)), ih (fun q hq => h q (by simp [hq]))]
    rfl

theorem swapPixels_ok {n k : Nat} (hn : 3 ≤ n) {l : List UInt8} (hl : l.length = k * n) :
    swapPixels n l = .ok ((chunksOf n l).map swapped).flatten := by
  obtain ⟨-, g2, -⟩ := chunksOf_eq (by omega) hl
  unfold swapPixels
  rw [show (n != 0) = true from by simp; omega]
  simp only [assertR_true, ok_bind]
  rw [mapM_swap (fun p hp => by rw [g2 p hp]; exact hn)]
  rfl

theorem length_map_swapped {n : Nat} {ps : List (List UInt8)} (h : ∀ p ∈ ps, p.length = n) :
    (ps.map swapped).flatten.length = ps.length * n := by
  induction ps with
  | nil => simp
  | cons p ps ih =>
    simp only [List.map_cons, List.flatten_cons, List.length_append, length_swapped, List.length_cons]
    rw [ih (fun q hq => h q (by simp [hq])), h p (by simp), Nat.succ_mul]; omega

theorem swapPixels_twice {n k : Nat} (hn : 3 ≤ n) {l : List UInt8} (hl : l.length = k * n) :
    ∃ l', swapPixels n l = .ok l' ∧ l'.length = k * n ∧ swapPixels n l' = .ok l := by
  obtain ⟨g1, g2, g3⟩ := chunksOf_eq (by omega) hl
  refine ⟨_, swapPixels_ok hn hl, by rw [length_map_swapped g2, g3], ?_⟩
  have hlen := length_map_swapped g2
  rw [swapPixels_ok hn hlen, chunksOf_flatten (by omega) (by
    intro c hc
    obtain ⟨p, hp, rfl⟩ := List.mem_map.1 hc
    rw [length_swapped, g2 p hp]), List.map_map]
  rw [show (swapped ∘ swapped : List UInt8 → List UInt8) = id from funext swapped_swapped, List.map_id, g1]

/-! ## C37: packets -/

/-- C37: for every pixel sequence and pixel size, the encoder writes well-formed packets of 1 to 128 pixels each that
denote exactly the input. -/
theorem C37_packets (color : ExtendedColorType) (h0 : 0 < color.bitsPerPixel / 8) (k : Nat) (image : List UInt8)
    (hl : image.length = k * (color.bitsPerPixel / 8)) :
    ∃ out, runLengthEncode image color = .ok out ∧ Packets (color.bitsPerPixel / 8) out image :=
  runLengthEncode_ok h0 hl

/-- C37: decoding what the encoder wrote yields exactly the input, and leaves the reader right behind it. -/
theorem C37_roundtrip (color : ExtendedColorType) (h0 : 0 < color.bitsPerPixel / 8) (k : Nat) (image : List UInt8)
    (hl : image.length = k * (color.bitsPerPixel / 8)) :
    ∃ out, runLengthEncode image color = .ok out ∧
      ∀ rest, readEncodedData (color.bitsPerPixel / 8) image.length (out ++ rest) = .ok (image, rest) := by
  obtain ⟨out, h1, h2⟩ := runLengthEncode_ok h0 hl
  exact ⟨out, h1, fun rest => readEncodedData_packets h0 h2 rest⟩

/-- A sequence with runs and literals (pixels of 1 and of 3 bytes). -/
example : runLengthEncode [7, 7, 7, 1, 2, 3, 3] .L8 = .ok [0x82, 7, 2, 1, 2, 3, 0x80, 3] := by decide +kernel
example : runLengthEncode [1, 2, 3, 1, 2, 3, 4, 5, 6] .Rgb8 = .ok [0x81, 1, 2, 3, 0, 4, 5, 6] := by decide +kernel

/-! ## C38: files -/

/-- The header fields fit their types. -/
structure Header.Fits (h : Header) : Prop where
  idLength : h.idLength < 2 ^ 8
  mapType : h.mapType < 2 ^ 8
  imageType : h.imageType < 2 ^ 8
  mapOrigin : h.mapOrigin < 2 ^ 16
  mapLength : h.mapLength < 2 ^ 16
  mapEntrySize : h.mapEntrySize < 2 ^ 8
  xOrigin : h.xOrigin < 2 ^ 16
  yOrigin : h.yOrigin < 2 ^ 16
  imageWidth : h.imageWidth < 2 ^ 16
  imageHeight : h.imageHeight < 2 ^ 16
  pixelDepth : h.pixelDepth < 2 ^ 8
  imageDesc : h.imageDesc < 2 ^ 8

/-- C38: writing and reading a header gives the header back. -/
theorem C38_header (h : Header) (hf : h.Fits) (s : List UInt8) : Header.fromReader (h.bytes ++ s) = .ok (h, s) := by
  unfold Header.fromReader Header.bytes
  simp only [List.append_assoc, List.cons_append, List.nil_append]
  rw [readU8_ofNat hf.idLength]; simp only [ok_bind]
  rw [readU8_ofNat hf.mapType]; simp only [ok_bind]
  rw [readU8_ofNat hf.imageType]; simp only [ok_bind]
  rw [readLE_append 2 _ (by simpa using hf.mapOrigin)]; simp only [ok_bind]
  rw [readLE_append 2 _ (by simpa using hf.mapLength)]; simp only [ok_bind]
  rw [readU8_ofNat hf.mapEntrySize]; simp only [ok_bind]
  rw [readLE_append 2 _ (by simpa using hf.xOrigin)]; simp only [ok_bind]
  rw [readLE_append 2 _ (by simpa using hf.yOrigin)]; simp only [ok_bind]
  rw [readLE_append 2 _ (by simpa using hf.imageWidth)]; simp only [ok_bind]
  rw [readLE_append 2 _ (by simpa using hf.imageHeight)]; simp only [ok_bind]
  rw [readU8_ofNat hf.pixelDepth]; simp only [ok_bind]
  rw [readU8_ofNat hf.imageDesc]; simp only [ok_bind]

/-- The colour types that TGA stores. -/
def Stored (c : ColorType) : Prop := c = .L8 ∨ c = .La8 ∨ c = .Rgb8 ∨ c = .Rgba8

theorem Stored.bits {c : ColorType} (h : Stored c) :
    c.toExtended.bitsPerPixel / 8 = c.bytesPerPixel ∧ c.toExtended.bitsPerPixel = 8 * c.bytesPerPixel ∧
      0 < c.bytesPerPixel ∧ c.bytesPerPixel ≤ 4 := by
  rcases h with rfl | rfl | rfl | rfl <;> decide

/-- The header the encoder writes. -/
def headerFor (c : ColorType) (w h : Nat) (rle : Bool) : Header :=
  let alpha := if c.hasAlpha then 8 else 0
  { imageType := (if rle then 8 else 0) + (if c.hasColor then 2 else 3)
    imageWidth := w, imageHeight := h
    pixelDepth := 8 * c.bytesPerPixel
    imageDesc := alpha + 32 }

theorem fromPixelInfo_eq {c : ColorType} (hc : Stored c) {w h : Nat} (hw : 0 < w) (hh : 0 < h) (rle : Bool) :
    Header.fromPixelInfo c.toExtended w h rle = .ok (headerFor c w h rle) := by
  unfold Header.fromPixelInfo
  rw [if_pos ⟨hw, hh⟩]
  rcases hc with rfl | rfl | rfl | rfl <;> cases rle <;> rfl

theorem bufferSize_eq {c : ColorType} (hc : Stored c) {w h : Nat} (hw : w < 2 ^ 16) (hh : h < 2 ^ 16) :
    c.toExtended.bufferSize w h = .ok (w * h * c.bytesPerPixel) := by
  obtain ⟨h1, h2, h3, h4⟩ := hc.bits
  unfold ExtendedColorType.bufferSize
  have hp1 : w * c.bytesPerPixel ≤ w * 4 := Nat.mul_le_mul_left _ h4
  have hp : w * (8 * c.bytesPerPixel) = 8 * (w * c.bytesPerPixel) := by rw [Nat.mul_left_comm]
  rw [h2, mulC, if_pos (by rw [hp]; omega)]
  simp only [ok_bind]
  rw [hp, addC_ok (by omega)]
  simp only [ok_bind]
  rw [show (8 * (w * c.bytesPerPixel) + 7) / 8 = w * c.bytesPerPixel by omega]
  have hp2 : w * c.bytesPerPixel * h ≤ (2 ^ 16 * 4) * 2 ^ 16 := Nat.mul_le_mul (by omega) (by omega)
  rw [satMul, Nat.min_eq_left (by omega), Nat.mul_right_comm]

theorem toBgr_twice {c : ColorType} (hc : Stored c) {k : Nat} {buf : List UInt8} (hl : buf.length = k * c.bytesPerPixel) :
    ∃ img, toBgr c.toExtended buf = .ok img ∧ img.length = k * c.bytesPerPixel ∧ reverseEncoding c img = .ok buf := by
  rcases hc with rfl | rfl | rfl | rfl
  · exact ⟨buf, rfl, hl, rfl⟩
  · exact ⟨buf, rfl, hl, rfl⟩
  · exact swapPixels_twice (by decide) hl
  · exact swapPixels_twice (by decide) hl

/-- What the encoder writes: the header, then the pixels with red and blue exchanged, either plainly or as packets. -/
theorem encode_eq {c : ColorType} (hc : Stored c) {w h : Nat} (hw : 0 < w) (hh : 0 < h) (hw' : w < 2 ^ 16)
    (hh' : h < 2 ^ 16) (rle : Bool) {buf : List UInt8} (hl : buf.length = w * h * c.bytesPerPixel) :
    ∃ img d, encode rle buf w h c.toExtended = .ok ((headerFor c w h rle).bytes ++ d) ∧
      img.length = w * h * c.bytesPerPixel ∧ reverseEncoding c img = .ok buf ∧
      (if rle then Packets c.bytesPerPixel d img else d = img) := by
  obtain ⟨img, g1, g2, g3⟩ := toBgr_twice hc hl
  obtain ⟨b1, b2, b3, b4⟩ := hc.bits
  unfold encode
  rw [bufferSize_eq hc hw' hh']
  simp only [ok_bind]
  rw [show (w * h * c.bytesPerPixel == buf.length) = true from by simp [hl]]
  simp only [assertR_true, ok_bind]
  rw [if_neg (by omega), if_neg (by omega), fromPixelInfo_eq hc hw hh rle]
  simp only [ok_bind]
  rw [g1]
  simp only [ok_bind]
  cases rle with
  | false =>
    refine ⟨img, img, ?_, g2, g3, rfl⟩
    rcases hc with rfl | rfl | rfl | rfl <;> rfl
  | true =>
    obtain ⟨out, e1, e2⟩ := runLengthEncode_ok (color := c.toExtended) (by omega) (by rw [b1]; exact g2)
    refine ⟨img, out, ?_, g2, g3, by rw [b1] at e2; simpa using e2⟩
    have : ImageType.fromByte (headerFor c w h true).imageType = .RunTrueColor ∨
        ImageType.fromByte (headerFor c w h true).imageType = .RunGrayScale := by
      rcases hc with rfl | rfl | rfl | rfl <;> simp [headerFor, ImageType.fromByte, ColorType.hasColor]
    rcases this with h | h <;> rw [h] <;> simp only [e1, ok_bind]

theorem headerFor_fits {c : ColorType} (hc : Stored c) {w h : Nat} (hw' : w < 2 ^ 16) (hh' : h < 2 ^ 16) (rle : Bool) :
    (headerFor c w h rle).Fits := by
  rcases hc with rfl | rfl | rfl | rfl <;> cases rle <;>
    constructor <;> first | exact hw' | exact hh' | (simp [headerFor, ColorType.hasColor, ColorType.hasAlpha, ColorType.bytesPerPixel])

theorem colorInformation_headerFor {c : ColorType} (hc : Stored c) (w h : Nat) (rle : Bool) :
    colorInformation (headerFor c w h rle) = .ok (c, none) := by
  rcases hc with rfl | rfl | rfl | rfl <;> cases rle <;>
    simp [colorInformation, headerFor, ColorType.hasColor, ColorType.hasAlpha, ColorType.bytesPerPixel, colorInfo,
      ImageType.fromByte, ImageType.isColor]

theorem new_headerFor {c : ColorType} (hc : Stored c) {w h : Nat} (hw' : w < 2 ^ 16) (hh' : h < 2 ^ 16) (rle : Bool)
    (s : List UInt8) :
    Decoder.new ((headerFor c w h rle).bytes ++ s) = .ok ⟨s, headerFor c w h rle, c, none, none⟩ := by
  unfold Decoder.new
  rw [C38_header _ (headerFor_fits hc hw' hh' rle)]
  simp only [ok_bind]
  rw [show (headerFor c w h rle).idLength = 0 from rfl]
  simp only [readExact, Nat.zero_le, if_true, List.drop_zero, ok_bind]
  rw [readColorMap, if_neg (by simp [headerFor])]
  simp only [ok_bind]
  rw [colorInformation_headerFor hc]
  simp only [ok_bind]

theorem flags_headerFor {c : ColorType} (hc : Stored c) (w h : Nat) (rle : Bool) :
    (ImageType.fromByte (headerFor c w h rle).imageType).isEncoded = rle ∧
    (ImageType.fromByte (headerFor c w h rle).imageType).isColorMapped = false ∧
    isFlipped (headerFor c w h rle) = false ∧ ((headerFor c w h rle).pixelDepth + 7) / 8 = c.bytesPerPixel := by
  rcases hc with rfl | rfl | rfl | rfl <;> cases rle <;> 
    simp [headerFor, ColorType.hasColor, ColorType.hasAlpha, ColorType.bytesPerPixel, isFlipped, ImageType.fromByte,
      ImageType.isEncoded, ImageType.isColorMapped]

theorem readImage_plain {d : Decoder} {buf0 img buf : List UInt8} (h1 : d.bytesPerPixel = d.colorType.bytesPerPixel)
    (h2 : d.imageType.isColorMapped = false) (h3 : isFlipped d.header = false) (hraw : d.rawData = .ok img)
    (hl : img.length = buf0.length) (htot : buf0.length = satMul 64 (d.width * d.height) d.colorType.bytesPerPixel)
    (hrev : reverseEncoding d.colorType img = .ok buf) : d.readImage buf0 = .ok buf := by
  have hover : overwrite buf0 0 img = img := by
    unfold overwrite
    rw [List.take_zero, List.nil_append, List.drop_eq_nil_of_le (by omega), List.append_nil]
  unfold Decoder.readImage Decoder.fillBuffer
  rw [← htot, hraw, h1, h2]
  simp only [beq_self_eq_true, assertR_true, ok_bind, Nat.le_refl, if_true, hl, hover, Bool.false_eq_true, if_false, hrev]
  rw [flipVertically, h3]
  rfl

theorem readImage_headerFor {c : ColorType} (hc : Stored c) {w h : Nat} (hw' : w < 2 ^ 16)
    (hh' : h < 2 ^ 16) (rle : Bool) {buf img s : List UInt8} (hl : img.length = w * h * c.bytesPerPixel)
    (hrev : reverseEncoding c img = .ok buf)
    (hraw : (⟨s, headerFor c w h rle, c, none, none⟩ : Decoder).rawData = .ok img) :
    decode ((headerFor c w h rle).bytes ++ s) = .ok (w, h, c, buf) := by
  obtain ⟨f1, f2, f3, f4⟩ := flags_headerFor hc w h rle
  obtain ⟨b1, b2, b3, b4⟩ := hc.bits
  have hle : w * h * c.bytesPerPixel ≤ 2 ^ 16 * 2 ^ 16 * 4 :=
    Nat.mul_le_mul (Nat.mul_le_mul (by omega) (by omega)) b4
  unfold decode
  rw [new_headerFor hc hw' hh']
  simp only [ok_bind]
  have hlen : (List.replicate (w * h * c.bytesPerPixel) (0 : UInt8)).length = w * h * c.bytesPerPixel :=
    List.length_replicate
  have hr := readImage_plain (d := ⟨s, headerFor c w h rle, c, none, none⟩)
    (buf0 := List.replicate (w * h * c.bytesPerPixel) (0 : UInt8)) f4 f2 f3 hraw (by rw [hl, hlen])
    (by rw [hlen]; exact (Nat.min_eq_left (by omega)).symm) hrev
  exact (congrArg (fun x => x >>= fun buf => Except.ok (w, h, c, buf)) hr)

/-- C38: encoding an L8, La8, Rgb8 or Rgba8 image of 1..65535 pixels in either direction, with or without run-length
encoding, succeeds, and decoding the file (whatever bytes follow it) gives the dimensions, colour type and bytes back. -/
theorem C38_roundtrip (c : ColorType) (hc : c = .L8 ∨ c = .La8 ∨ c = .Rgb8 ∨ c = .Rgba8) (w h : Nat)
    (hw : 1 ≤ w ∧ w ≤ 65535) (hh : 1 ≤ h ∧ h ≤ 65535) (rle : Bool) (buf : List UInt8)
    (hl : buf.length = w * h * c.bytesPerPixel) :
    ∃ file, encode rle buf w h c.toExtended = .ok file ∧
      ∀ trailing, decode (file ++ trailing) = .ok (w, h, c, buf) := by
  obtain ⟨img, d, e1, e2, e3, e4⟩ := encode_eq hc (w := w) (h := h) (by omega) (by omega) (by omega) (by omega) rle hl
  have hc' : Stored c := hc
  obtain ⟨f1, f2, f3, f4⟩ := flags_headerFor hc' w h rle
  obtain ⟨b1, b2, b3, b4⟩ := hc'.bits
  refine ⟨_, e1, fun t => ?_⟩
  rw [List.append_assoc]
  refine readImage_headerFor hc' (by omega) (by omega) rle e2 e3 ?_
  unfold Decoder.rawData
  simp only [Decoder.width, Decoder.height, Decoder.bytesPerPixel, Decoder.imageType, f1, f4]
  rw [show (headerFor c w h rle).imageWidth = w from rfl, show (headerFor c w h rle).imageHeight = h from rfl]
  cases rle with
  | false =>
    simp only [Bool.false_eq_true, if_false] at e4 ⊢
    subst e4
    rw [readExact_append' e2]
    rfl
  | true =>
    simp only [if_true] at e4 ⊢
    rw [← e2, readEncodedData_packets b3 e4]
    rfl

example : ∃ file, encode true [1, 2, 3, 1, 2, 3, 4, 5, 6, 7, 8, 9] 2 2 .Rgb8 = .ok file ∧
    decode file = .ok (2, 2, .Rgb8, [1, 2, 3, 1, 2, 3, 4, 5, 6, 7, 8, 9]) := by
  obtain ⟨file, h1, h2⟩ := C38_roundtrip .Rgb8 (by simp) 2 2 (by omega) (by omega) true [1, 2, 3, 1, 2, 3, 4, 5, 6, 7, 8, 9] rfl
  exact ⟨file, h1, by simpa using h2 []⟩

/-- C38: larger images are refused with an error instead of being written with wrapped dimensions. -/
theorem C38_too_large (c : ColorType) (w h : Nat) (hw : w < 2 ^ 32) (hh : h < 2 ^ 32)
    (hbig : 65535 < w ∨ 65535 < h) (rle : Bool) (buf : List UInt8)
    (hl : c.toExtended.bufferSize w h = .ok buf.length) : encode rle buf w h c.toExtended = errR .encoding := by
  unfold encode
  rw [hl]
  simp only [ok_bind, beq_self_eq_true, assertR_true]
  split
  · rfl
  · rw [if_pos (by omega)]

example : ColorType.L8.toExtended.bufferSize 70000 0 = .ok ([] : List UInt8).length := by decide

/-! ## C54: truncated files -/

theorem packets_nonempty {n : Nat} (hn : 0 < n) {enc px : List UInt8} (h : Packets n enc px) (he : enc ≠ []) :
    0 < px.length := by
  cases h with
  | nil => exact absurd rfl he
  | run h1 h2 hp _ =>
    rw [List.length_append, length_replicate_flatten, hp]
    have := Nat.mul_pos h1 hn
    omega
  | @raw c _ _ _ h1 h2 hp _ =>
    rw [List.length_append, hp]
    have := Nat.mul_pos h1 hn
    omega

theorem readEncodedLoop_nil {n m : Nat} {acc : List UInt8} {f : Nat} (h : acc.length < m) :
    readEncodedLoop n m (f + 1) acc [] = errR .io := by
  rw [readEncodedLoop, if_pos h]; rfl

/-- Packets from which at least a pixel's worth of bytes is missing at the end make the decoder fail. -/
theorem readEncodedLoop_short {n : Nat} (hn : 0 < n) {enc px : List UInt8} (h : Packets n enc px) :
    ∀ (acc : List UInt8) (k fuel : Nat), k + n ≤ enc.length → k < fuel →
      readEncodedLoop n (acc.length + px.length) fuel acc (enc.take k) = errR .io := by
  induction h with
  | nil => intro acc k fuel h; simp at h; omega
  | @run c pixel enc px h1 h2 hp hpk ih =>
    intro acc k fuel hk hf
    obtain ⟨f, rfl⟩ : ∃ f, fuel = f + 1 := ⟨fuel - 1, by omega⟩
    have hpos : 0 < c * n := Nat.mul_pos (by omega) hn
    have hlt : acc.length < acc.length + ((List.replicate c pixel).flatten ++ px).length := by
      rw [List.length_append, length_replicate_flatten, hp]; omega
    cases k with
    | zero => rw [List.take_zero]; exact readEncodedLoop_nil hlt
    | succ k =>
      rw [readEncodedLoop, if_pos hlt]
      simp only [List.cons_append, List.take_succ_cons, readU8, ok_bind]
      obtain ⟨g1, g2⟩ := runByte c h1 h2
      rw [if_pos g1, g2]
      simp only [readUpTo]
      simp only [List.length_append, List.length_cons, hp] at hk
      by_cases hkn : n ≤ k
      · have e1 : (pixel ++ enc).take k = pixel ++ enc.take (k - n) := by
          rw [List.take_append, List.take_of_length_le (by omega), hp]
        rw [e1, show (pixel ++ enc.take (k - n)).take n = pixel by rw [← hp]; simp,
          show (pixel ++ enc.take (k - n)).drop n = enc.take (k - n) by rw [← hp]; simp, cycleTake_eq hn hp]
        have := ih (acc ++ (List.replicate c pixel).flatten) (k - n) f (by omega) (by omega)
        rw [← this]
        congr 1
        simp only [List.length_append]; omega
      · have hpx : k = 0 ∨ 0 < px.length := by
          by_cases hk0 : k = 0
          · exact Or.inl hk0
          · refine Or.inr (packets_nonempty hn hpk ?_)
            rintro rfl; rw [List.length_nil] at hk; omega
        obtain ⟨f', rfl⟩ : ∃ f', f = f' + 1 := ⟨f - 1, by omega⟩
        rw [List.drop_eq_nil_of_le (by simp; omega)]
        apply readEncodedLoop_nil
        have := length_cycleTake_le (c * n) (((pixel ++ enc).take k).take n)
        rw [List.length_append, List.length_append, length_replicate_flatten, hp]
        rcases hpx with rfl | hpx
        · simp only [List.take_zero, List.take_nil, cycleTake, List.length_nil, if_true]; omega
        · omega
  | @raw c data enc px h1 h2 hp hpk ih =>
    intro acc k fuel hk hf
    obtain ⟨f, rfl⟩ : ∃ f, fuel = f + 1 := ⟨fuel - 1, by omega⟩
    have hpos : 0 < c * n := Nat.mul_pos (by omega) hn
    have hlt : acc.length < acc.length + (data ++ px).length := by
      rw [List.length_append, hp]; omega
    cases k with
    | zero => rw [List.take_zero]; exact readEncodedLoop_nil hlt
    | succ k =>
      rw [readEncodedLoop, if_pos hlt]
      simp only [List.cons_append, List.take_succ_cons, readU8, ok_bind]
      obtain ⟨g1, g2⟩ := rawByte c h1 h2
      rw [if_neg (by rw [g1]; simp), g2]
      simp only [readUpTo]
      simp only [List.length_append, List.length_cons, hp] at hk
      by_cases hkn : c * n ≤ k
      · have e1 : (data ++ enc).take k = data ++ enc.take (k - c * n) := by
          rw [List.take_append, List.take_of_length_le (by omega), hp]
        rw [e1, show (data ++ enc.take (k - c * n)).take (c * n) = data by rw [← hp]; simp,
          show (data ++ enc.take (k - c * n)).drop (c * n) = enc.take (k - c * n) by rw [← hp]; simp]
        have := ih (acc ++ data) (k - c * n) f (by omega) (by omega)
        rw [← this]
        congr 1
        simp only [List.length_append]; omega
      · obtain ⟨f', rfl⟩ : ∃ f', f = f' + 1 := ⟨f - 1, by omega⟩
        rw [List.drop_eq_nil_of_le (by simp; omega)]
        apply readEncodedLoop_nil
        rw [List.length_append, List.length_append, hp, List.length_take, List.length_take, List.length_append]
        omega

theorem new_short {file : List UInt8} (h : file.length < 18) :
    ∃ e, Decoder.new file = errR e := by
  match file, h with
  | [], _ => exact ⟨_, rfl⟩
  | [_], _ => exact ⟨_, rfl⟩
  | [_, _], _ => exact ⟨_, rfl⟩
  | [_, _, _], _ => exact ⟨_, rfl⟩
  | [_, _, _, _], _ => exact ⟨_, rfl⟩
  | [_, _, _, _, _], _ => exact ⟨_, rfl⟩
  | [_, _, _, _, _, _], _ => exact ⟨_, rfl⟩
  | [_, _, _, _, _, _, _], _ => exact ⟨_, rfl⟩
  | [_, _, _, _, _, _, _, _], _ => exact ⟨_, rfl⟩
  | [_, _, _, _, _, _, _, _, _], _ => exact ⟨_, rfl⟩
  | [_, _, _, _, _, _, _, _, _, _], _ => exact ⟨_, rfl⟩
  | [_, _, _, _, _, _, _, _, _, _, _], _ => exact ⟨_, rfl⟩
  | [_, _, _, _, _, _, _, _, _, _, _, _], _ => exact ⟨_, rfl⟩
  | [_, _, _, _, _, _, _, _, _, _, _, _, _], _ => exact ⟨_, rfl⟩
  | [_, _, _, _, _, _, _, _, _, _, _, _, _, _], _ => exact ⟨_, rfl⟩
  | [_, _, _, _, _, _, _, _, _, _, _, _, _, _, _], _ => exact ⟨_, rfl⟩
  | [_, _, _, _, _, _, _, _, _, _, _, _, _, _, _, _], _ => exact ⟨_, rfl⟩
  | [_, _, _, _, _, _, _, _, _, _, _, _, _, _, _, _, _], _ => exact ⟨_, rfl⟩
  | _ :: _ :: _ :: _ :: _ :: _ :: _ :: _ :: _ :: _ :: _ :: _ :: _ :: _ :: _ :: _ :: _ :: _ :: _, h => simp at h; omega

@[simp] theorem length_bytes (h : Header) : h.bytes.length = 18 := by simp [Header.bytes]

theorem readImage_err {d : Decoder} {buf0 : List UInt8} {e : Err} (hraw : d.rawData = errR e)
    (htot : buf0.length = satMul 64 (d.width * d.height) d.colorType.bytesPerPixel) : d.readImage buf0 = errR e := by
  unfold Decoder.readImage Decoder.fillBuffer
  rw [← htot, hraw]
  simp only [beq_self_eq_true, assertR_true, ok_bind]
  rfl

/-- C54 (TGA, partial): a file written by the encoder from which bytes are missing at the end, at least one if the file
is not run-length encoded and at least a pixel's worth if it is, is refused with an error. Missing from the full claim:
run-length encoded files that lack fewer bytes than a pixel has, see `C54_tga_false`. -/
theorem C54_tga_partial (c : ColorType) (hc : c = .L8 ∨ c = .La8 ∨ c = .Rgb8 ∨ c = .Rgba8) (w h : Nat)
    (hw : 1 ≤ w ∧ w ≤ 65535) (hh : 1 ≤ h ∧ h ≤ 65535) (rle : Bool) (buf file : List UInt8)
    (hl : buf.length = w * h * c.bytesPerPixel) (he : encode rle buf w h c.toExtended = .ok file) (k : Nat)
    (hk : k + (if rle then c.bytesPerPixel else 1) ≤ file.length) : ∃ e, decode (file.take k) = errR e := by
  obtain ⟨img, d, e1, e2, e3, e4⟩ := encode_eq hc (w := w) (h := h) (by omega) (by omega) (by omega) (by omega) rle hl
  have hc' : Stored c := hc
  obtain ⟨f1, f2, f3, f4⟩ := flags_headerFor hc' w h rle
  obtain ⟨b1, b2, b3, b4⟩ := hc'.bits
  have hfile : file = (headerFor c w h rle).bytes ++ d := by
    have := e1.symm.trans he; simpa using this.symm
  subst hfile
  rw [List.length_append, length_bytes] at hk
  by_cases h18 : k < 18
  · obtain ⟨e, hE⟩ := new_short (file := ((headerFor c w h rle).bytes ++ d).take k) (by simp; omega)
    exact ⟨e, by unfold decode; rw [hE]; rfl⟩
  · refine ⟨.io, ?_⟩
    rw [List.take_append, List.take_of_length_le (by simp; omega), length_bytes]
    unfold decode
    rw [new_headerFor hc' (by omega) (by omega)]
    simp only [ok_bind]
    have hraw : (⟨d.take (k - 18), headerFor c w h rle, c, none, none⟩ : Decoder).rawData = errR .io := by
      unfold Decoder.rawData
      simp only [Decoder.width, Decoder.height, Decoder.bytesPerPixel, Decoder.imageType, f1, f4]
      rw [show (headerFor c w h rle).imageWidth = w from rfl, show (headerFor c w h rle).imageHeight = h from rfl]
      cases rle with
      | false =>
        simp only [Bool.false_eq_true, if_false] at e4 hk ⊢
        subst e4
        rw [readExact_short (by simp; omega)]
        rfl
      | true =>
        simp only [if_true] at e4 hk ⊢
        unfold readEncodedData
        have hsh := readEncodedLoop_short b3 e4 [] (k - 18) ((d.take (k - 18)).length + 1) (by omega) (by simp; omega)
        simp only [List.length_nil, Nat.zero_add, e2] at hsh
        rw [hsh]; rfl
    have hle : w * h * c.bytesPerPixel ≤ 2 ^ 16 * 2 ^ 16 * 4 :=
      Nat.mul_le_mul (Nat.mul_le_mul (by omega) (by omega)) b4
    have hr := readImage_err (d := ⟨d.take (k - 18), headerFor c w h rle, c, none, none⟩)
      (buf0 := List.replicate (w * h * c.bytesPerPixel) (0 : UInt8)) hraw
      (by rw [List.length_replicate]; exact (Nat.min_eq_left (by omega)).symm)
    exact (congrArg (fun x => x >>= fun buf => Except.ok (w, h, c, buf)) hr)

/-- C54 is false of TGA: the file of a 1x1 Rgb8 image with run-length encoding, cut by its last byte, is accepted and
decodes to a different image. -/
theorem C54_tga_false :
    ∃ file, encode true [10, 20, 30] 1 1 .Rgb8 = .ok file ∧
      decode (file.take (file.length - 1)) = .ok (1, 1, .Rgb8, [30, 20, 30]) := by
  refine ⟨_, rfl, ?_⟩
  decide +kernel

/-- The hypotheses of `C54_tga_partial` are met: the same file cut by three bytes. -/
example : ∃ e, ∃ file, encode true [10, 20, 30] 1 1 .Rgb8 = .ok file ∧ decode (file.take (file.length - 3)) = errR e := by
  refine ⟨.io, _, rfl, ?_⟩
  decide +kernel

/-! ## C56: the decoder never panics -/

theorem readLE2_total (s : List UInt8) : OkOr (fun e => e = .io) (fun r => r.1 < 2 ^ 16) (readLE 2 s) := by
  unfold readLE
  refine OkOr.bind (readExact_total 2 s) ?_
  rintro ⟨b, s⟩ hb
  have := leNat_lt b
  simp only [OkOr]
  simp only at hb
  rw [hb] at this
  exact this

theorem fromReader_total (s : List UInt8) : OkOr (fun e => e = .io) (fun r => r.1.Fits) (Header.fromReader s) := by
  unfold Header.fromReader
  refine OkOr.bind (readU8_total s) ?_
  rintro ⟨v1, s⟩ h1
  refine OkOr.bind (readU8_total s) ?_
  rintro ⟨v2, s⟩ h2
  refine OkOr.bind (readU8_total s) ?_
  rintro ⟨v3, s⟩ h3
  refine OkOr.bind (readLE2_total s) ?_
  rintro ⟨v4, s⟩ h4
  refine OkOr.bind (readLE2_total s) ?_
  rintro ⟨v5, s⟩ h5
  refine OkOr.bind (readU8_total s) ?_
  rintro ⟨v6, s⟩ h6
  refine OkOr.bind (readLE2_total s) ?_
  rintro ⟨v7, s⟩ h7
  refine OkOr.bind (readLE2_total s) ?_
  rintro ⟨v8, s⟩ h8
  refine OkOr.bind (readLE2_total s) ?_
  rintro ⟨v9, s⟩ h9
  refine OkOr.bind (readLE2_total s) ?_
  rintro ⟨v10, s⟩ h10
  refine OkOr.bind (readU8_total s) ?_
  rintro ⟨v11, s⟩ h11
  refine OkOr.bind (readU8_total s) ?_
  rintro ⟨v12, s⟩ h12
  exact ⟨h1, h2, h3, h4, h5, h6, h7, h8, h9, h10, h11, h12⟩

theorem colorInfo_total (a o : Nat) (c : Bool) :
    OkOr (fun e => e = .unsupported) (fun r => Stored r.1) (colorInfo a o c) := by
  unfold colorInfo
  split <;> simp [OkOr, errR, Stored]

theorem colorInformation_total (h : Header) :
    OkOr (fun e => e = .unsupported) (fun r => Stored r.1 ∧ h.pixelDepth ≤ 32) (colorInformation h) := by
  unfold colorInformation
  split
  · rfl
  · dsimp only
    split
    · exact OkOr.mono (colorInfo_total _ _ _) (fun _ h => ⟨h, by omega⟩)
    · split
      · rfl
      · exact OkOr.mono (colorInfo_total _ _ _) (fun _ h => ⟨h, by omega⟩)

/-- The errors TGA decoding can report. -/
def DecErr (e : Err) : Prop := e = .io ∨ e = .unsupported ∨ e = .limitsDimension

theorem new_total (file : List UInt8) :
    OkOr DecErr (fun d => d.header.Fits ∧ Stored d.colorType ∧ d.header.pixelDepth ≤ 32) (Decoder.new file) := by
  unfold Decoder.new
  refine OkOr.bind (OkOr.weaken (fromReader_total file) (fun e he => Or.inl he)) ?_
  rintro ⟨h, s⟩ hf
  dsimp only at hf ⊢
  refine OkOr.bind (OkOr.weaken (readExact_total h.idLength s) (fun e he => Or.inl he)) ?_
  rintro ⟨_, s⟩ _
  dsimp only
  refine OkOr.bind (P := fun _ => True) ?_ ?_
  · unfold readColorMap
    split
    · refine OkOr.bind (P := fun _ => True) ?_ (fun _ _ => trivial)
      unfold ColorMap.fromReader
      exact OkOr.bind (OkOr.weaken (readExact_total _ s) (fun e he => Or.inl he)) (fun _ _ => trivial)
    · trivial
  · rintro ⟨m, s⟩ _
    dsimp only
    refine OkOr.bind (OkOr.weaken (colorInformation_total h) (fun e he => Or.inr (Or.inl he))) ?_
    rintro ⟨c, o⟩ ⟨hc, hd⟩
    exact ⟨hf, hc, hd⟩

theorem rawData_total (d : Decoder) :
    OkOr DecErr (fun l => l.length = d.width * d.height * d.bytesPerPixel) d.rawData := by
  unfold Decoder.rawData
  dsimp only
  split
  · refine OkOr.bind (OkOr.weaken (readEncodedData_total _ _ _) (fun e he => Or.inl he)) ?_
    rintro ⟨p, s⟩ h; exact h
  · refine OkOr.bind (OkOr.weaken (readExact_total _ _) (fun e he => Or.inl he)) ?_
    rintro ⟨p, s⟩ h; exact h

theorem expandColorMap_total (n : Nat) (m : Option ColorMap) (l : List UInt8) :
    OkOr DecErr (fun _ => True) (expandColorMap n m l) := by
  unfold expandColorMap
  split
  · exact Or.inl rfl
  · split
    · exact Or.inl rfl
    · apply forList_okOr (fun _ => True) trivial
      intro c _ r _
      split
      · trivial
      · exact Or.inl rfl

theorem fillBuffer_total (d : Decoder) (buf0 : List UInt8)
    (hl : buf0.length = d.width * d.height * d.colorType.bytesPerPixel) :
    OkOr DecErr (fun l => l.length = buf0.length) (d.fillBuffer buf0) := by
  unfold Decoder.fillBuffer
  refine OkOr.bind (rawData_total d) ?_
  intro raw hraw
  refine OkOr.bind (P := fun l => l.length = buf0.length) ?_ ?_
  · split
    · rename_i hle
      have : raw.length ≤ buf0.length := by
        rw [hraw, hl]; exact Nat.mul_le_mul_left _ hle
      rw [if_pos this]
      exact length_overwrite (by omega)
    · rfl
  · intro buf hb
    split
    · refine OkOr.bind (expandColorMap_total _ _ _) ?_
      intro p _
      split
      · exact Or.inr (Or.inr rfl)
      · rename_i h
        simp only [OkOr]; rw [← hb]; omega
    · exact hb

/-! ### Flipping -/

theorem swapAt_ok {l : List UInt8} {a b : Nat} (ha : a < l.length) (hb : b < l.length) :
    swapAt l a b = .ok ((l.set a l[b]).set b l[a]) := by
  simp [swapAt, List.getElem?_eq_getElem ha, List.getElem?_eq_getElem hb, unwrapR]

theorem swap_getElem? {l : List UInt8} {a b : Nat} (ha : a < l.length) (hb : b < l.length) (i : Nat) :
    ((l.set a l[b]).set b l[a])[i]? = if i = b then l[a]? else if i = a then l[b]? else l[i]? := by
  rw [List.getElem?_set]
  by_cases h1 : i = b
  · subst h1; simp [List.getElem?_eq_getElem ha, hb]
  · rw [if_neg (fun h => h1 h.symm), if_neg h1, List.getElem?_set]
    by_cases h2 : i = a
    · subst h2; simp [List.getElem?_eq_getElem hb, ha]
    · rw [if_neg (fun h => h2 h.symm), if_neg h2]

theorem row_lt {h wb y x : Nat} (hy : y < h) (hx : x < wb) : y * wb + x < h * wb := by
  have : (y + 1) * wb ≤ h * wb := Nat.mul_le_mul_right _ hy
  rw [Nat.succ_mul] at this; omega

theorem row_inj {wb y x y' x' : Nat} (hx : x < wb) (hx' : x' < wb) : y * wb + x = y' * wb + x' ↔ y = y' ∧ x = x' := by
  constructor
  · intro h
    have h1 : (y * wb + x) / wb = y := by
      rw [Nat.mul_comm, Nat.mul_add_div (by omega), Nat.div_eq_of_lt hx]; omega
    have h2 : (y' * wb + x') / wb = y' := by
      rw [Nat.mul_comm, Nat.mul_add_div (by omega), Nat.div_eq_of_lt hx']; omega
    have : y = y' := by rw [← h1, h, h2]
    subst this
    exact ⟨rfl, by omega⟩
  · rintro ⟨rfl, rfl⟩; rfl

/-- Row `y` of the result when the rows whose distance to the nearer edge is below `v`, and the first `x0` bytes of
those at distance `v`, have been exchanged. -/
def FlipInv (h wb : Nat) (pix : List UInt8) (v x0 : Nat) (l : List UInt8) : Prop :=
  l.length = h * wb ∧ ∀ (y x : Nat), y < h → x < wb →
    l[y * wb + x]? = pix[(if min y (h - 1 - y) < v ∨ (min y (h - 1 - y) = v ∧ x < x0) then h - 1 - y else y) * wb + x]?

theorem flipVertically_ok {hd : Header} {pix : List UInt8} {wb : Nat} (hl : pix.length = hd.imageHeight * wb)
    (hf : isFlipped hd = true) :
    ∃ l, flipVertically hd pix = .ok l ∧ l.length = pix.length ∧
      ∀ (y x : Nat), y < hd.imageHeight → x < wb → l[y * wb + x]? = pix[(hd.imageHeight - 1 - y) * wb + x]? := by
  unfold flipVertically
  rw [if_pos hf]
  by_cases h0 : hd.imageHeight = 0
  · rw [if_pos h0]
    exact ⟨pix, rfl, rfl, fun y x hy => by omega⟩
  rw [if_neg h0]
  dsimp only
  have hwb : pix.length / hd.imageHeight = wb := by
    rw [hl]; exact Nat.mul_div_cancel_left wb (by omega)
  rw [hwb]
  generalize hd.imageHeight = h at *
  obtain ⟨l, h1, h2, h3⟩ := forRange_inv (n := h / 2) (s := pix)
    (f := fun v pixels => do
        let target ← subC ((h - v) * wb) wb
        forRange wb (fun x pixels => swapAt pixels (target + x) (v * wb + x)) pixels)
    (fun v l => FlipInv h wb pix v 0 l)
    ⟨hl, by intro y x _ _; rw [if_neg (by omega)]⟩
    (by
      intro v hv l hi
      have hsub : (h - v) * wb - wb = (h - 1 - v) * wb := by
        rw [show h - v = (h - 1 - v) + 1 by omega, Nat.succ_mul]; omega
      have hge : wb ≤ (h - v) * wb := Nat.le_mul_of_pos_left wb (by omega)
      rw [subC_ok hge, hsub]
      simp only [ok_bind]
      obtain ⟨l', g1, g2⟩ := forRange_inv (n := wb) (s := l)
        (f := fun x pixels => swapAt pixels ((h - 1 - v) * wb + x) (v * wb + x))
        (fun x0 l => FlipInv h wb pix v x0 l) hi
        (by
          intro x0 hx0 l ⟨k1, k2⟩
          have b1 : (h - 1 - v) * wb + x0 < l.length := by rw [k1]; exact row_lt (by omega) hx0
          have b2 : v * wb + x0 < l.length := by rw [k1]; exact row_lt (by omega) hx0
          refine ⟨_, swapAt_ok b1 b2, by simp [k1], ?_⟩
          intro y x hy hx
          rw [swap_getElem? b1 b2]
          by_cases c1 : y * wb + x = v * wb + x0
          · obtain ⟨rfl, rfl⟩ := (row_inj hx hx0).1 c1
            rw [if_pos rfl, k2 _ _ (by omega) hx0, if_neg (by omega), if_pos (by omega)]
          · rw [if_neg c1]
            by_cases c2 : y * wb + x = (h - 1 - v) * wb + x0
            · obtain ⟨rfl, rfl⟩ := (row_inj hx hx0).1 c2
              rw [if_pos rfl, k2 _ _ (by omega) hx0, if_neg (by omega), if_pos (by omega)]
              rw [show h - 1 - (h - 1 - v) = v by omega]
            · rw [if_neg c2, k2 y x hy hx]
              have d1 : ¬(y = v ∧ x = x0) := fun hh => c1 (by rw [hh.1, hh.2])
              have d2 : ¬(y = h - 1 - v ∧ x = x0) := fun hh => c2 (by rw [hh.1, hh.2])
              by_cases c3 : min y (h - 1 - y) < v ∨ (min y (h - 1 - y) = v ∧ x < x0)
              · rw [if_pos c3, if_pos (by omega)]
              · rw [if_neg c3, if_neg (by omega)])
      refine ⟨l', g1, g2.1, ?_⟩
      intro y x hy hx
      rw [g2.2 y x hy hx]
      by_cases c3 : min y (h - 1 - y) < v + 1 ∨ (min y (h - 1 - y) = v + 1 ∧ x < 0)
      · rw [if_pos c3, if_pos (by omega)]
      · rw [if_neg c3, if_neg (by omega)])
  refine ⟨l, h1, by rw [h2, hl], ?_⟩
  intro y x hy hx
  rw [h3 y x hy hx]
  by_cases c3 : min y (h - 1 - y) < h / 2 ∨ (min y (h - 1 - y) = h / 2 ∧ x < 0)
  · rw [if_pos c3]
  · rw [if_neg c3, show h - 1 - y = y by omega]

theorem reverseEncoding_ok {c : ColorType} (hc : Stored c) {k : Nat} {l : List UInt8} (hl : l.length = k * c.bytesPerPixel) :
    ∃ l', reverseEncoding c l = .ok l' ∧ l'.length = l.length := by
  rcases hc with rfl | rfl | rfl | rfl
  · exact ⟨l, rfl, rfl⟩
  · exact ⟨l, rfl, rfl⟩
  · obtain ⟨l', h1, h2, -⟩ := swapPixels_twice (n := 3) (k := k) (by decide) hl
    exact ⟨l', h1, by rw [h2, hl]; rfl⟩
  · obtain ⟨l', h1, h2, -⟩ := swapPixels_twice (n := 4) (k := k) (by decide) hl
    exact ⟨l', h1, by rw [h2, hl]; rfl⟩

theorem readImage_total {d : Decoder} (hf : d.header.Fits) (hc : Stored d.colorType) {buf0 : List UInt8}
    (hl : buf0.length = d.width * d.height * d.colorType.bytesPerPixel) :
    OkOr DecErr (fun l => l.length = buf0.length) (d.readImage buf0) := by
  have hle : d.width * d.height * d.colorType.bytesPerPixel ≤ 2 ^ 16 * 2 ^ 16 * 4 :=
    Nat.mul_le_mul (Nat.mul_le_mul (Nat.le_of_lt hf.imageWidth) (Nat.le_of_lt hf.imageHeight)) hc.bits.2.2.2
  unfold Decoder.readImage
  rw [show (buf0.length == satMul 64 (d.width * d.height) d.colorType.bytesPerPixel) = true from by
    rw [hl, satMul, Nat.min_eq_left (by omega)]; simp]
  simp only [assertR_true, ok_bind]
  refine OkOr.bind (fillBuffer_total d buf0 hl) ?_
  intro l hll
  obtain ⟨l', h1, h2⟩ := reverseEncoding_ok hc (hll.trans hl)
  rw [h1]
  simp only [ok_bind]
  by_cases hfl : isFlipped d.header = true
  · obtain ⟨l'', h3, h4, -⟩ := flipVertically_ok (hd := d.header) (pix := l') (wb := d.width * d.colorType.bytesPerPixel)
      (by rw [h2, hll, hl, Nat.mul_comm d.width, Nat.mul_assoc]; rfl) hfl
    rw [h3]
    simp only [OkOr]; omega
  · rw [flipVertically, if_neg hfl]
    simp only [OkOr]; omega

/-- C56: for every byte string, decoding it as TGA never panics: it returns an error of one of three kinds, or an image
in one of the four colour types whose buffer has exactly the size of the declared dimensions. -/
theorem C56_tga_total (file : List UInt8) :
    OkOr (fun e => e = .io ∨ e = .unsupported ∨ e = .limitsDimension)
      (fun r => (r.2.2.1 = .L8 ∨ r.2.2.1 = .La8 ∨ r.2.2.1 = .Rgb8 ∨ r.2.2.1 = .Rgba8) ∧ r.1 < 2 ^ 16 ∧ r.2.1 < 2 ^ 16 ∧
        r.2.2.2.length = r.1 * r.2.1 * r.2.2.1.bytesPerPixel) (decode file) := by
  unfold decode
  refine OkOr.bind (new_total file) ?_
  rintro d ⟨hf, hc, -⟩
  refine OkOr.bind (readImage_total hf hc (List.length_replicate)) ?_
  intro buf hb
  rw [List.length_replicate] at hb
  exact ⟨hc, hf.imageWidth, hf.imageHeight, hb⟩

/-- Both outcomes occur. -/
example : decode [] = errR .io ∧
    decode [0, 0, 3, 0, 0, 0, 0, 0, 0, 0, 0, 0, 1, 0, 2, 0, 8, 0, 5, 6] = .ok (1, 2, .L8, [6, 5]) := by
  constructor <;> decide +kernel

/-! ## C57: the screen origin -/

/-- C57: clearing the screen-origin bit of a file's header (stored bottom row first) gives the same image with its rows
in reverse order. -/
theorem C57_origin (h : Header) (hf : h.Fits) (d : Nat) (hd : d < 32) (s : List UInt8) (w ht : Nat) (c : ColorType)
    (buf : List UInt8)
    (hdec : decode (Header.bytes { h with imageDesc := d + 32 } ++ s) = .ok (w, ht, c, buf)) :
    ∃ buf', decode (Header.bytes { h with imageDesc := d } ++ s) = .ok (w, ht, c, buf') ∧ buf'.length = buf.length ∧
      ∀ (y x : Nat), y < ht → x < w * c.bytesPerPixel →
        buf'[y * (w * c.bytesPerPixel) + x]? = buf[(ht - 1 - y) * (w * c.bytesPerPixel) + x]? := by
  have hbits : ∀ d : Nat, d < 32 → (d + 32) &&& 0b1111 = d &&& 0b1111 ∧ (0b100000 &&& (d + 32)) ≠ 0 ∧
      0b100000 &&& d = 0 := by decide +kernel
  obtain ⟨k1, k2, k3⟩ := hbits d hd
  have fits : ∀ v, v < 2 ^ 8 → Header.Fits { h with imageDesc := v } := fun v hv => ⟨hf.1, hf.2, hf.3, hf.4, hf.5, hf.6,
    hf.7, hf.8, hf.9, hf.10, hf.11, hv⟩
  have hci : colorInformation { h with imageDesc := d + 32 } = colorInformation { h with imageDesc := d } := by
    unfold colorInformation
    dsimp only
    rw [k1]
  have hnew : ∀ v, v < 2 ^ 8 → Decoder.new (Header.bytes { h with imageDesc := v } ++ s) = (do
      let (_, s) ← readExact h.idLength s
      let (m, s) ← readColorMap { h with imageDesc := v } s
      let (c, o) ← colorInformation { h with imageDesc := v }
      Except.ok ⟨s, { h with imageDesc := v }, c, o, m⟩) := by
    intro v hv
    unfold Decoder.new
    rw [C38_header _ (fits v hv)]
    rfl
  unfold decode at hdec ⊢
  rw [hnew _ (by omega)] at hdec ⊢
  cases hre : readExact h.idLength s with
  | error e => rw [hre] at hdec; exact absurd hdec (by simp)
  | ok a =>
    obtain ⟨x1, s1⟩ := a
    rw [hre] at hdec
    simp only [ok_bind] at hdec ⊢
    rw [show readColorMap { h with imageDesc := d } s1 = readColorMap { h with imageDesc := d + 32 } s1 from rfl]
    cases hcm : readColorMap { h with imageDesc := d + 32 } s1 with
    | error e => rw [hcm] at hdec; exact absurd hdec (by simp)
    | ok a =>
      obtain ⟨m, s2⟩ := a
      rw [hcm] at hdec
      simp only [ok_bind] at hdec ⊢
      have hstored := colorInformation_total { h with imageDesc := d }
      rw [hci] at hdec
      cases hcc : colorInformation { h with imageDesc := d } with
      | error e => rw [hcc] at hdec; exact absurd hdec (by simp)
      | ok a =>
        obtain ⟨c', o⟩ := a
        rw [hcc] at hdec hstored
        simp only [ok_bind] at hdec ⊢
        obtain ⟨hst, -⟩ := hstored
        dsimp only at hst
        have hfill : ∀ b, (⟨s2, { h with imageDesc := d + 32 }, c', o, m⟩ : Decoder).fillBuffer b =
          (⟨s2, { h with imageDesc := d }, c', o, m⟩ : Decoder).fillBuffer b := fun b => rfl
        unfold Decoder.readImage at hdec ⊢
        simp only [Decoder.width, Decoder.height, hfill] at hdec ⊢
        cases has : assertR ((List.replicate (h.imageWidth * h.imageHeight * c'.bytesPerPixel) (0 : UInt8)).length ==
            satMul 64 (h.imageWidth * h.imageHeight) c'.bytesPerPixel) with
        | error e => rw [has] at hdec; exact absurd hdec (by simp)
        | ok _ =>
          rw [has] at hdec
          simp only [ok_bind] at hdec ⊢
          have htot := fillBuffer_total ⟨s2, { h with imageDesc := d }, c', o, m⟩
            (List.replicate (h.imageWidth * h.imageHeight * c'.bytesPerPixel) (0 : UInt8)) (List.length_replicate)
          cases hfb : (⟨s2, { h with imageDesc := d }, c', o, m⟩ : Decoder).fillBuffer
            (List.replicate (h.imageWidth * h.imageHeight * c'.bytesPerPixel) (0 : UInt8)) with
          | error e => rw [hfb] at hdec; exact absurd hdec (by simp)
          | ok b1 =>
            rw [hfb] at hdec htot
            simp only [ok_bind] at hdec ⊢
            rw [OkOr, List.length_replicate] at htot
            obtain ⟨b2, r1, r2⟩ := reverseEncoding_ok hst htot
            rw [r1] at hdec ⊢
            simp only [ok_bind] at hdec ⊢
            have hnf : isFlipped { h with imageDesc := d + 32 } = false := by
              simp only [isFlipped, Bool.not_eq_false', bne_iff_ne]; exact k2
            have hfl : isFlipped { h with imageDesc := d } = true := by
              simp only [isFlipped, Bool.not_eq_true', bne_eq_false_iff_eq]; exact k3
            rw [flipVertically, hnf] at hdec
            simp only [Bool.false_eq_true, if_false, ok_bind] at hdec
            injection hdec with hdec
            simp only [Prod.mk.injEq] at hdec
            obtain ⟨e1, e2, e3, e4⟩ := hdec
            subst e1 e2 e3 e4
            obtain ⟨b3, f1, f2, f3⟩ := flipVertically_ok (hd := { h with imageDesc := d }) (pix := b2)
              (wb := h.imageWidth * c'.bytesPerPixel)
              (by rw [r2, htot, Nat.mul_comm h.imageWidth, Nat.mul_assoc]) hfl
            refine ⟨b3, ?_, f2, f3⟩
            rw [f1]; rfl

/-- A two-row file in both orders. -/
example : decode (Header.bytes { imageType := 3, imageWidth := 1, imageHeight := 2, pixelDepth := 8, imageDesc := 0 + 32 } ++ [5, 6]) =
    .ok (1, 2, .L8, [5, 6]) := by decide +kernel

end Tga
end Verif
