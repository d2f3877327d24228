import Verif.Model.ReadImage
import Verif.Model.Avif
import Verif.Model.Bmp
import Verif.Model.Dxt
import Verif.Model.Gif
import Verif.Model.Ico
import Verif.Model.Pcx
import Verif.Model.Png
import Verif.Model.PnmDecoder
import Verif.Model.Tga
import Verif.Model.Tiff
import Verif.Model.Webp
import Verif.Model.OpenExr
import Verif.Model.JpegDecoder
import Verif.Model.CrateEncoders
import Verif.Props.HdrPixels
import Verif.Props.DecoderToImage
import Verif.Props.CrateCodecs

/-!
# The buffer of `read_image` (C135) and the QOI decoder (C136)

The documentation of `ImageDecoder::read_image` (src/image.rs:688-690): "This function panics if `buf.len() != self.total_bytes()`."
-/

namespace Verif
namespace ReadImage

/-- The documented contract of `read_image` for buffers of a wrong length. -/
def LengthContract (total : Nat) (read : List UInt8 → R (List UInt8)) : Prop := ∀ buf : List UInt8, buf.length ≠ total → read buf = .error .panic

theorem assert_false {α : Type} {c : Bool} (h : c = false) (k : Unit → R α) : (assertR c >>= k) = .error .panic := by
  rw [h]; rfl

/-- **C135: a buffer of a wrong length panics**, for every decoder of these formats in every state. -/
theorem C135_wrong_length :
    (∀ m (d : Avif.Decoder), LengthContract (totalBytes d.picture.width d.picture.height d.colorType.bytesPerPixel) (d.readImage m))
    ∧ (∀ d : Bmp.Decoder, LengthContract (totalBytes d.width d.height d.colorType.bytesPerPixel) d.readImage)
    ∧ (∀ d : Dxt.Decoder, LengthContract (totalBytes d.dimensions.1 d.dimensions.2 d.variant.colorType.bytesPerPixel) d.readImage)
    ∧ (∀ d : Gif.Decoder, LengthContract (totalBytes d.reader.width d.reader.height 4) d.readImage)
    ∧ (∀ P (d : Ico.Decoder P), LengthContract (totalBytes d.dimensions.1 d.dimensions.2 d.colorType.bytesPerPixel) d.readImage)
    ∧ (∀ c : Pcx.Crate, LengthContract (totalBytes c.width c.height 3) c.readImage)
    ∧ (∀ le (d : Png.Decoder), LengthContract (totalBytes d.dimensions.1 d.dimensions.2 d.colorType.bytesPerPixel) fun buf => d.readImage le buf.length)
    ∧ (∀ le (d : Pnm.Decoder), LengthContract (totalBytes d.header.width d.header.height d.tuple.colorType.bytesPerPixel)
        fun buf => d.readImage le buf.length)
    ∧ (∀ d : Tga.Decoder, LengthContract (totalBytes d.width d.height d.colorType.bytesPerPixel) d.readImage)
    ∧ (∀ le (d : Tiff.Decoder), LengthContract (totalBytes d.width d.height d.colorType.bytesPerPixel) (d.readImage le))
    ∧ (∀ c : Webp.Crate, LengthContract (totalBytes c.width c.height c.colorType.bytesPerPixel) fun buf => c.readImage buf.length)
    ∧ (∀ le (r : Farbfeld.Reader), LengthContract (totalBytes r.width r.height 8) (r.readImage le))
    ∧ (∀ le (d : Hdr.Decoder), LengthContract (totalBytes d.width d.height 12) (d.readImage le)) := by
  refine ⟨?_, ?_, ?_, ?_, ?_, ?_, ?_, ?_, ?_, ?_, ?_, ?_, ?_⟩
  · exact fun m d buf h => assert_false (decide_eq_false h) _
  · exact fun d buf h => assert_false (decide_eq_false h) _
  · exact fun d buf h => assert_false (decide_eq_false h) _
  · exact fun d buf h => assert_false (decide_eq_false h) _
  · exact fun P d buf h => assert_false (decide_eq_false h) _
  · exact fun d buf h => assert_false (decide_eq_false h) _
  · exact fun le d buf h => assert_false (decide_eq_false h) _
  · exact fun le d buf h => assert_false (decide_eq_false h) _
  · exact fun d buf h => assert_false (beq_eq_false_iff_ne.2 h) _
  · exact fun le d buf h => assert_false (decide_eq_false h) _
  · exact fun d buf h => assert_false (decide_eq_false h) _
  · exact fun le d buf h => assert_false (decide_eq_false h) _
  · exact fun le d buf h => assert_false (decide_eq_false h) _

/-- **C135, OpenEXR**: the expected length is computed with checked instead of saturating products; the contract holds all the same. -/
theorem C135_openexr (le : Bool) (d : Exr.Decoder) (events : R (List Exr.Event)) :
    LengthContract (totalBytes d.dimensions.1 d.dimensions.2 d.colorType.bytesPerPixel) fun buf => Exr.readImage le d events buf.length := by
  intro buf h
  have sub : ∀ a b : Int, Exr.subI32 a b = .ok (a - b) ∨ Exr.subI32 a b = .error .panic := by
    intro a b; unfold Exr.subI32; split
    · exact .inl rfl
    · exact .inr rfl
  simp only [Exr.readImage]
  rcases sub d.header.posX d.header.dispX with e | e <;> rw [e]
  · rw [ok_bind]
    rcases sub d.header.posY d.header.dispY with e | e <;> rw [e]
    · rw [ok_bind]
      apply assert_false
      apply decide_eq_false
      intro hx
      apply h
      simp only [checkedMul, Option.bind_eq_some_iff] at hx
      obtain ⟨s, h1, h2⟩ := hx
      split at h1
      · cases h1
        split at h2
        · have h3 := Option.some.inj h2
          rename_i hlt
          unfold totalBytes satMul
          omega
        · cases h2
      · cases h1
    · rfl
  · rfl

/-- **C135, JPEG**: a buffer of a wrong length is a decoding error, not the documented panic. -/
theorem C135_jpeg (d : JpegDec.Decoder) (c : ColorType) (hc : d.colorType = .ok c) (len : Nat) (h : len ≠ totalBytes d.width d.height c.bytesPerPixel) :
    d.readImage len = errR .decoding := by
  unfold JpegDec.Decoder.readImage
  rw [hc, ok_bind, if_pos h]

/-- A JPEG decoder of a 1×1 grey picture. -/
def jpegDemo : JpegDec.Decoder := ⟨⟨.ok (1, 1, .luma), fun _ _ _ n => .ok (List.replicate n 7)⟩, .luma, 1, 1, .noLimits⟩

/-- **C135 is false of JPEG**: no panic for a buffer of two bytes instead of one. -/
theorem C135_jpeg_false : ¬ ∀ (d : JpegDec.Decoder) (c : ColorType), d.colorType = .ok c →
    LengthContract (totalBytes d.width d.height c.bytesPerPixel) fun buf => d.readImage buf.length := by
  intro h
  have h1 := h jpegDemo .L8 rfl [0, 0] (by decide +kernel)
  have h2 := C135_jpeg jpegDemo .L8 rfl 2 (by decide +kernel)
  have h3 : (errR .decoding : R (List UInt8)) = .error .panic := h2.symm.trans h1
  cases h3

/-- A QOI crate that behaves like `qoi::Decoder::decode_to_buf`: the buffer may be longer than the picture, the rest of it is left alone. -/
def longCrate (w h : Nat) (rgba : Bool) (pixels : List UInt8) : Qoi.Crate Unit where
  fromStream _ := some (⟨w, h, rgba⟩, ())
  decodeToBuf _ _ buf := if pixels.length ≤ buf.length then some (overwrite buf 0 pixels) else none

/-- **C135 is false of QOI**: a buffer of four bytes for a picture of three is filled without complaint, and one of two is an error and no panic. -/
theorem C135_qoi_false :
    (∃ d, Qoi.new (longCrate 1 1 false [1, 2, 3]) () = .ok d ∧ totalBytes d.dimensions.1 d.dimensions.2 d.colorType.bytesPerPixel = 3
      ∧ d.readImage (longCrate 1 1 false [1, 2, 3]) [9, 9, 9, 9] = .ok [1, 2, 3, 9]
      ∧ d.readImage (longCrate 1 1 false [1, 2, 3]) [9, 9] = errR .decoding) := by
  refine ⟨⟨⟨1, 1, false⟩, ()⟩, rfl, ?_, rfl, rfl⟩
  decide +kernel

/-! ## Buffers of the right length: farbfeld and Radiance HDR -/

/-- `decode` of the other properties of farbfeld is `read_image` into a buffer of the right length, whatever it holds. -/
theorem C135_farbfeld (le : Bool) (r : Farbfeld.Reader) (buf : List UInt8) (h : buf.length = totalBytes r.width r.height 8) :
    r.readImage le buf = (do let (d, _) ← r.readExact le (totalBytes r.width r.height 8); .ok d) := by
  unfold Farbfeld.Reader.readImage
  rw [h]
  simp [assertR]

theorem length_pixelBytes (le : Bool) (p : Hdr.RgbF) : (Hdr.pixelBytes le p).length = 12 := by
  unfold Hdr.pixelBytes
  rw [DynamicImage.length_bytesOf]
  rfl

theorem length_flatMap_pixelBytes (le : Bool) (l : List Hdr.RgbF) : (l.flatMap (Hdr.pixelBytes le)).length = 12 * l.length := by
  induction l with
  | nil => rfl
  | cons a l ih => rw [List.flatMap_cons, List.length_append, ih, length_pixelBytes, List.length_cons]; omega

/-- The copying loop of the HDR decoder fills a buffer of 12 bytes for each pixel. -/
theorem hdr_copy (le : Bool) (img : List Hdr.RgbF) (buf : List UInt8) (h : buf.length = 12 * img.length) (h64 : buf.length < 2 ^ 64) :
    forList img.zipIdx (fun (data, i) buf => do
      let start ← mulC 64 i 12
      assertR (decide (start ≤ buf.length))
      assertR (decide (12 ≤ buf.length - start))
      .ok (overwrite buf start (Hdr.pixelBytes le data))) buf = .ok (img.flatMap (Hdr.pixelBytes le)) := by
  obtain ⟨s', e, hi⟩ := forList_inv (xs := img.zipIdx) (s := buf) (f := fun (data, i) buf => do
      let start ← mulC 64 i 12
      assertR (decide (start ≤ buf.length))
      assertR (decide (12 ≤ buf.length - start))
      .ok (overwrite buf start (Hdr.pixelBytes le data)))
    (fun pre _ b => b = (pre.map Prod.fst).flatMap (Hdr.pixelBytes le) ++ buf.drop (12 * pre.length)) (by simp) (by
      intro pre x post hx b hb
      obtain ⟨p, i⟩ := x
      have hlen : pre.length < img.length := by
        have := congrArg List.length hx
        simp at this
        omega
      have hi : i = pre.length := by
        have h1 : (pre ++ (p, i) :: post)[pre.length]? = some (p, i) := by simp
        rw [hx, List.getElem?_zipIdx] at h1
        simp only [Option.map_eq_some_iff] at h1
        obtain ⟨q, _, hq⟩ := h1
        cases hq
        omega
      subst hi
      have hl : ((pre.map Prod.fst).flatMap (Hdr.pixelBytes le)).length = 12 * pre.length := by
        rw [length_flatMap_pixelBytes, List.length_map]
      have hbl : b.length = buf.length := by
        rw [hb, List.length_append, hl, List.length_drop]; omega
      refine ⟨overwrite b (pre.length * 12) (Hdr.pixelBytes le p), ?_, ?_⟩
      · have hm : mulC 64 pre.length 12 = .ok (pre.length * 12) := by
          unfold mulC; rw [if_pos (by omega)]
        simp only [hm, ok_bind]
        have a1 : decide (pre.length * 12 ≤ b.length) = true := by apply decide_eq_true; omega
        have a2 : decide (12 ≤ b.length - pre.length * 12) = true := by apply decide_eq_true; omega
        rw [a1, a2]
        rfl
      · have := Hdr.overwrite_mid ((pre.map Prod.fst).flatMap (Hdr.pixelBytes le)) (buf.drop (12 * pre.length)) (Hdr.pixelBytes le p)
          (by rw [length_pixelBytes, List.length_drop]; omega)
        rw [hl, ← hb, length_pixelBytes, List.drop_drop] at this
        rw [Nat.mul_comm pre.length 12, this]
        simp [Nat.mul_add])
  rw [e]
  congr 1
  rw [hi]
  simp [h]

/-- **C135, HDR**: `read_image` of an opened file into a buffer of the right length, whatever it holds, succeeds exactly when the pixels can be decoded and
leaves there the three floats of each pixel, in the byte order of the machine. (A slice is shorter than 2^63 bytes.) -/
theorem C135_hdr (T : Hdr.Text) (strict : Bool) (file : List UInt8) (d : Hdr.Decoder) (hd : Hdr.Decoder.new T strict file = .ok d) (le : Bool)
    (buf : List UInt8) (h : buf.length = totalBytes d.width d.height 12) (h63 : buf.length < 2 ^ 63) (out : List UInt8) :
    d.readImage le buf = .ok out ↔
      ∃ px, Hdr.decode T strict file = .ok (d.width, d.height, px) ∧ out = px.flatMap (Hdr.pixelBytes le) := by
  have hfit := Hdr.decoderNew_total T strict file
  rw [hd] at hfit
  have hw : d.width < 2 ^ 32 := hfit.1
  have hdec : Hdr.decode T strict file = (d.readTransform Hdr.Rgbe.toHdr >>= fun px => .ok (d.width, d.height, px)) := by
    unfold Hdr.decode; rw [hd, ok_bind]
  have htot : buf.length = d.width * d.height * 12 := by
    unfold totalBytes satMul at h
    omega
  have h64 : d.width * d.height < 2 ^ 64 := by omega
  have hread : d.readImage le buf = (d.readTransform Hdr.Rgbe.toHdr >>= fun img => forList img.zipIdx (fun (data, i) buf => do
      let start ← mulC 64 i 12
      assertR (decide (start ≤ buf.length))
      assertR (decide (12 ≤ buf.length - start))
      .ok (overwrite buf start (Hdr.pixelBytes le data))) buf) := by
    unfold Hdr.Decoder.readImage
    rw [decide_eq_true h]
    have : mulC 64 d.width d.height = .ok (d.width * d.height) := by unfold mulC; rw [if_pos h64]
    rw [this]
    rfl
  rw [hread, hdec]
  cases hp : d.readTransform Hdr.Rgbe.toHdr with
  | error e =>
    constructor
    · intro x; cases x
    · rintro ⟨px, x, -⟩; cases x
  | ok px =>
    have hlen : px.length = d.width * d.height := by
      have hx : Hdr.decode T strict file = .ok (d.width, d.height, px) := by rw [hdec, hp]; rfl
      obtain ⟨d', hd', -, -, hpx⟩ := (Hdr.C113_pixels T strict file _ _ px).1 hx
      split at hpx
      · rename_i h0
        rw [hpx]
        rcases h0 with h0 | h0 <;> simp [h0]
      · obtain ⟨rows, rest, hpic, hr, hpx⟩ := hpx
        rw [hpx, List.length_map]
        clear hpx hx hd'
        rw [← hr]
        clear hr
        generalize d'.r = s at hpic
        induction hpic with
        | done => simp
        | row hl _ _ ih => rw [List.flatten_cons, List.length_append, ih, hl, List.length_cons]; ring
    simp only [ok_bind]
    rw [hdr_copy le px buf (by rw [htot, hlen]; omega) (by omega)]
    constructor
    · intro x; cases x; exact ⟨px, rfl, rfl⟩
    · rintro ⟨px', x, rfl⟩; cases x; rfl

/-! ## The QOI decoder (C136) -/

/-- **C136: the QOI decoder** reports the size and the kind of pixels in the header, hands out exactly what the crate decodes, and every error of the crate
is a decoding error; the wrapper itself never panics. -/
theorem C136_qoi {F : Type} (c : Qoi.Crate F) (reader : F) :
    (c.fromStream reader = none → Qoi.new c reader = errR .decoding)
    ∧ ∀ h rest, c.fromStream reader = some (h, rest) → ∃ d, Qoi.new c reader = .ok d ∧ d.dimensions = (h.width, h.height)
      ∧ d.colorType = (if h.rgba = true then .Rgba8 else .Rgb8)
      ∧ ∀ buf, (∀ out, d.readImage c buf = .ok out ↔ c.decodeToBuf h rest buf = some out)
        ∧ (c.decodeToBuf h rest buf = none → d.readImage c buf = errR .decoding) := by
  constructor
  · intro h; unfold Qoi.new; rw [h]
  · intro h rest e
    refine ⟨⟨h, rest⟩, by unfold Qoi.new; rw [e], rfl, rfl, fun buf => ⟨fun out => ?_, fun hn => ?_⟩⟩
    · unfold Qoi.Decoder.readImage
      cases c.decodeToBuf h rest buf with
      | none => constructor <;> intro x <;> cases x
      | some o => constructor <;> intro x <;> cases x <;> rfl
    · unfold Qoi.Decoder.readImage
      simp only [hn]

/-- What is assumed of the crate for the round trip: what it encodes (pictures of 3 or 4 bytes per pixel), it decodes to the same size, kind and bytes,
into any buffer of the right length. -/
def Faithful (encode : List UInt8 → Nat → Nat → Option (List UInt8)) (c : Qoi.Crate (List UInt8)) : Prop :=
  ∀ pixels w h ch file, ch = 3 ∨ ch = 4 → pixels.length = w * h * ch → encode pixels w h = some file →
    ∃ rest, c.fromStream file = some (⟨w, h, decide (ch = 4)⟩, rest)
      ∧ ∀ buf : List UInt8, buf.length = pixels.length → c.decodeToBuf ⟨w, h, decide (ch = 4)⟩ rest buf = some pixels

/-- **C136: round trip through QOI**: if `write_image` of `QoiEncoder` succeeds and wrote `file`, then `QoiDecoder` opens `file`, reports the same
size and colour type and `read_image` into a buffer of `total_bytes` returns the same bytes. -/
theorem C136_roundtrip (encode : List UInt8 → Nat → Nat → Option (List UInt8)) (c : Qoi.Crate (List UInt8)) (hf : Faithful encode c)
    (pixels file : List UInt8) (w h : Nat) (color : ColorType) (hc : color = .Rgb8 ∨ color = .Rgba8) (hw32 : w < 2 ^ 32)
    (h64 : w * h * color.bytesPerPixel < 2 ^ 64)
    (hw : CrateEnc.qoiWrite encode (fun d => if d = file then .ok () else panicR) pixels w h color.toExtended = .ok ()) :
    ∃ d, Qoi.new c file = .ok d ∧ d.dimensions = (w, h) ∧ d.colorType = color
      ∧ ∀ buf : List UInt8, buf.length = totalBytes w h color.bytesPerPixel → d.readImage c buf = .ok pixels := by
  have hlen : pixels.length = w * h * color.bytesPerPixel ∧ encode pixels w h = some file := by
    obtain ⟨-, h2⟩ := CrateEnc.C104_qoi encode (fun d => if d = file then .ok () else panicR) pixels w h hw32 color.toExtended color.bytesPerPixel h64
    obtain ⟨h3, h4⟩ := h2 (by rcases hc with rfl | rfl; exacts [.inl ⟨rfl, rfl⟩, .inr ⟨rfl, rfl⟩])
    by_cases hl : pixels.length = w * h * color.bytesPerPixel
    · refine ⟨hl, ?_⟩
      rw [h3 hl] at hw
      cases he : encode pixels w h with
      | none => rw [he] at hw; cases hw
      | some data =>
        rw [he] at hw
        by_cases hd : data = file
        · rw [hd]
        · simp only [if_neg hd] at hw
          cases hw
    · rw [h4 hl] at hw
      cases hw
  obtain ⟨hl, he⟩ := hlen
  obtain ⟨rest, h1, h2⟩ := hf pixels w h color.bytesPerPixel file (by rcases hc with rfl | rfl; exacts [.inl rfl, .inr rfl]) hl he
  refine ⟨⟨_, rest⟩, by unfold Qoi.new; rw [h1], rfl, ?_, ?_⟩
  · rcases hc with rfl | rfl <;> rfl
  · intro buf hb
    unfold Qoi.Decoder.readImage
    rw [h2 buf (by rw [hb, hl]; unfold totalBytes satMul; omega)]

/-- A crate for the examples: three bytes of header, then the pixels. -/
def plainEncode (pixels : List UInt8) (w h : Nat) : Option (List UInt8) :=
  if w * h = 0 ∨ 256 ≤ w ∨ 256 ≤ h then none else some (UInt8.ofNat w :: UInt8.ofNat h :: UInt8.ofNat (pixels.length / (w * h)) :: pixels)

/-- The decoder that belongs to `plainEncode`. -/
def plainCrate : Qoi.Crate (List UInt8) where
  fromStream
    | w :: h :: ch :: rest => some (⟨w.toNat, h.toNat, decide (ch.toNat = 4)⟩, rest)
    | _ => none
  decodeToBuf _ rest buf := if rest.length = buf.length then some rest else none

/-- The assumption of `C136_roundtrip` can be met. -/
theorem plain_faithful : Faithful plainEncode plainCrate := by
  intro pixels w h ch file hch hl he
  unfold plainEncode at he
  split at he
  · cases he
  · rename_i h0
    cases he
    refine ⟨pixels, ?_, fun buf hb => ?_⟩
    · have h1 : pixels.length / (w * h) = ch := by
        rw [hl, Nat.mul_div_cancel_left _ (by omega)]
      have h2 : ch < 256 := by omega
      simp only [plainCrate, h1, UInt8.toNat_ofNat', Nat.reducePow]
      rw [Nat.mod_eq_of_lt (by omega), Nat.mod_eq_of_lt (by omega), Nat.mod_eq_of_lt h2]
    · simp only [plainCrate]
      rw [if_pos hb.symm]

example : ∃ file, CrateEnc.qoiWrite plainEncode (fun d => if d = file then .ok () else panicR) [1, 2, 3, 4, 5, 6] 2 1 .Rgb8 = .ok () :=
  ⟨[2, 1, 3, 1, 2, 3, 4, 5, 6], by decide +kernel⟩

example : ∃ d, Qoi.new plainCrate [2, 1, 3, 1, 2, 3, 4, 5, 6] = .ok d ∧ d.dimensions = (2, 1) ∧ d.colorType = .Rgb8
    ∧ d.readImage plainCrate [0, 0, 0, 0, 0, 0] = .ok [1, 2, 3, 4, 5, 6] := ⟨⟨⟨2, 1, false⟩, [1, 2, 3, 4, 5, 6]⟩, rfl, rfl, rfl, rfl⟩

/-- A wrong and a right length for HDR. -/
example : Hdr.Decoder.readImage true ⟨[9, 8, 7, 6], 1, 1, Hdr.Meta.new⟩ [0, 0] = .error .panic := by
  apply C135_wrong_length.2.2.2.2.2.2.2.2.2.2.2.2
  decide +kernel

/-- The file of the examples of C113 decodes into a buffer of 72 bytes; its first sample is 5.0. -/
example : ((do let d ← Hdr.Decoder.new Hdr.demoText true Hdr.demoFile; d.readImage false (List.replicate 72 9)) : R (List UInt8)).map (fun b => (b.length, b.take 4))
    = .ok (72, [0x40, 0xa0, 0, 0]) := by decide +kernel

end ReadImage
end Verif
