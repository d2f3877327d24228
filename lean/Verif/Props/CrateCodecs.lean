import Verif.Model.JpegDecoder
import Verif.Model.CrateEncoders
import Verif.Proofs.Buffer
import Verif.Proofs.Apng
import Verif.Props.Color
import Verif.Props.DecoderToImage
import Verif.Props.Tiff

/-!
# C103: JPEG decoding; C104: encoding to QOI, WebP and AVIF

What is done around the crates.
-/

namespace Verif.JpegDec
open Verif

/-- The colour type of the image for a colour space of the file: grey and RGB with or without alpha as they are, everything else as RGB. -/
def imageColor : ColorSpace → ColorType
  | .luma => .L8
  | .lumaA => .La8
  | .rgba => .Rgba8
  | _ => .Rgb8

/-- The colour space the crate is asked for, for a colour type of the image. -/
def outputSpace : ColorType → ColorSpace
  | .L8 => .luma
  | .La8 => .lumaA
  | .Rgba8 => .rgba
  | _ => .rgb

/-- A JPEG file that the crate can open has its size and one of the four colour types. -/
theorem C103_open (c : Crate) (w h : Nat) (cs : ColorSpace) (hc : c.headers = .ok (w, h, cs)) (hw : w < 2 ^ 16) (hh : h < 2 ^ 16) :
    ∃ d, new c = .ok d ∧ d.width = w ∧ d.height = h ∧ d.colorType = .ok (imageColor cs) := by
  unfold new
  rw [hc]
  dsimp only
  rw [decide_eq_true hw, decide_eq_true hh]
  simp only [assertR_true, ok_bind]
  refine ⟨_, rfl, rfl, rfl, ?_⟩
  cases cs <;> rfl

/-- The image: limits that it does not exceed are accepted and handed to the crate, which is asked for the colour space of the announced
colour type; its bytes are the result. A buffer of the wrong length is an error, not a panic. -/
theorem C103_read (c : Crate) (w h : Nat) (cs : ColorSpace) (hc : c.headers = .ok (w, h, cs)) (hw : w < 2 ^ 16) (hh : h < 2 ^ 16)
    (l : Limits) (hlw : ∀ m, l.maxImageWidth = some m → w ≤ m) (hlh : ∀ m, l.maxImageHeight = some m → h ≤ m) :
    ∃ d d', new c = .ok d ∧ d.setLimits l = .ok d' ∧ ∀ len,
      (len = w * h * (imageColor cs).bytesPerPixel → d'.readImage len =
        match c.decode (outputSpace (imageColor cs)) (l.maxImageWidth.getD (2 ^ 64 - 1)) (l.maxImageHeight.getD (2 ^ 64 - 1)) len with
        | .ok bytes => .ok bytes
        | .error .unsupported => errR .unsupported
        | .error .largeDimensions => errR .limitsDimension
        | .error .other => errR .decoding) ∧
      (len ≠ w * h * (imageColor cs).bytesPerPixel → d'.readImage len = errR .decoding) := by
  have hnew : new c = .ok ⟨c, cs, w, h, .noLimits⟩ := by
    unfold new
    rw [hc]
    dsimp only
    rw [decide_eq_true hw, decide_eq_true hh]
    rfl
  have hcd : l.checkDimensions w h = .ok () := by
    unfold Limits.checkDimensions
    cases h1 : l.maxImageWidth with
    | none =>
      cases h2 : l.maxImageHeight with
      | none => rfl
      | some n => simp only [gt_iff_lt, if_neg (Nat.not_lt.mpr (hlh n h2))]; rfl
    | some m =>
      cases h2 : l.maxImageHeight with
      | none => simp only [gt_iff_lt, if_neg (Nat.not_lt.mpr (hlw m h1))]; rfl
      | some n => simp only [gt_iff_lt, if_neg (Nat.not_lt.mpr (hlw m h1)), if_neg (Nat.not_lt.mpr (hlh n h2))]; rfl
  refine ⟨_, ⟨c, cs, w, h, l⟩, hnew, by unfold Decoder.setLimits; dsimp only; rw [hcd]; rfl, fun len => ?_⟩
  have hcol : (⟨c, cs, w, h, l⟩ : Decoder).colorType = .ok (imageColor cs) := by cases cs <;> rfl
  have hsp : toSupported cs = outputSpace (imageColor cs) := by cases cs <;> rfl
  have ht : totalBytes w h (imageColor cs).bytesPerPixel = w * h * (imageColor cs).bytesPerPixel := by
    unfold totalBytes satMul
    have h1 : w * h ≤ 2 ^ 16 * 2 ^ 16 := Nat.mul_le_mul (by omega) (by omega)
    have h2 : (imageColor cs).bytesPerPixel ≤ 4 := by cases cs <;> decide
    have h3 : w * h * (imageColor cs).bytesPerPixel ≤ 2 ^ 16 * 2 ^ 16 * 4 := Nat.mul_le_mul h1 h2
    omega
  unfold Decoder.readImage
  rw [hcol]
  simp only [ok_bind, ht, hsp]
  constructor
  · intro hl
    rw [if_neg (by omega)]
    cases c.decode (outputSpace (imageColor cs)) (l.maxImageWidth.getD (2 ^ 64 - 1)) (l.maxImageHeight.getD (2 ^ 64 - 1)) len with
    | ok b => rfl
    | error e => cases e <;> rfl
  · intro hl
    rw [if_pos hl]

/-- An image larger than the limits is refused. -/
theorem C103_limits (d : Decoder) (l : Limits)
    (hl : (∃ m, l.maxImageWidth = some m ∧ m < d.width) ∨ (∃ m, l.maxImageHeight = some m ∧ m < d.height)) :
    d.setLimits l = errR .limitsDimension := by
  unfold Decoder.setLimits Limits.checkDimensions
  rcases hl with ⟨m, h1, h2⟩ | ⟨m, h1, h2⟩
  · rw [h1]; simp only [gt_iff_lt, if_pos h2, errR]; rfl
  · rw [h1]
    cases l.maxImageWidth with
    | none => simp only [gt_iff_lt, if_pos h2, errR]; rfl
    | some m' =>
      by_cases hw : d.width > m'
      · simp only [if_pos hw, errR]; rfl
      · simp only [if_neg hw, gt_iff_lt, if_pos h2, errR]; rfl

/-- A 2 x 1 CMYK file, decoded as RGB. -/
def exFile : Crate := ⟨.ok (2, 1, .cmyk), fun cs _ _ n => if cs = .rgb ∧ n = 6 then .ok [1, 2, 3, 4, 5, 6] else .error .other⟩

example : (do (← (← new exFile).setLimits ⟨some 2, none, none⟩).readImage 6) = .ok [1, 2, 3, 4, 5, 6] := by decide +kernel
example : (do (← (← new exFile).setLimits ⟨some 1, none, none⟩).readImage 6) = errR .limitsDimension := by decide +kernel

end Verif.JpegDec

namespace Verif.CrateEnc
open Verif ImageBuffer

/-- QOI: RGB and RGBA images go to the crate as they are; other colour types are refused; a wrong length panics, as documented. -/
theorem C104_qoi (encode : List UInt8 → Nat → Nat → Option (List UInt8)) (sink : List UInt8 → R Unit) (buf : List UInt8) (w h : Nat)
    (hw : w < 2 ^ 32) (color : ExtendedColorType) (ch : Nat) (h64 : w * h * ch < 2 ^ 64) :
    (color ≠ .Rgb8 → color ≠ .Rgba8 → qoiWrite encode sink buf w h color = errR .encoding) ∧
    ((color = .Rgb8 ∧ ch = 3 ∨ color = .Rgba8 ∧ ch = 4) →
      (buf.length = w * h * ch → qoiWrite encode sink buf w h color = match encode buf w h with
        | none => errR .encoding
        | some data => sink data) ∧
      (buf.length ≠ w * h * ch → qoiWrite encode sink buf w h color = panicR)) := by
  unfold qoiWrite
  constructor
  · intro h1 h2
    rw [if_pos (by simp [h1, h2])]
  · intro hc
    have hbs : color.bufferSize w h = .ok (w * h * ch) := by
      rcases hc with ⟨rfl, rfl⟩ | ⟨rfl, rfl⟩ <;> exact Tiff.bufferSize_eq hw (by omega) rfl h64
    rw [if_neg (by rcases hc with ⟨rfl, rfl⟩ | ⟨rfl, rfl⟩ <;> simp), hbs]
    simp only [ok_bind]
    constructor
    · intro hl
      rw [decide_eq_true hl.symm]
      rfl
    · intro hl
      rw [decide_eq_false (Ne.symm hl)]
      rfl

/-- The colours that WebP can take: what the crate is told, and the bytes per pixel. -/
def webpTable : List (ExtendedColorType × WebpColor × Nat) :=
  [(.L8, .l8, 1), (.La8, .la8, 2), (.Rgb8, .rgb8, 3), (.Rgba8, .rgba8, 4)]

/-- WebP: 8-bit images go to the crate as they are; other colour types are refused; a wrong length panics, as documented. -/
theorem C104_webp (encode : List UInt8 → Nat → Nat → WebpColor → R Unit) (buf : List UInt8) (w h : Nat) (hw : w < 2 ^ 32)
    (color : ExtendedColorType) :
    (∀ c ch, (color, c, ch) ∈ webpTable → w * h * ch < 2 ^ 64 →
      (buf.length = w * h * ch → webpWrite encode buf w h color = encode buf w h c) ∧
      (buf.length ≠ w * h * ch → webpWrite encode buf w h color = panicR)) ∧
    ((∀ c ch, (color, c, ch) ∉ webpTable) → color.bufferSize w h = .ok buf.length → webpWrite encode buf w h color = errR .unsupported) := by
  unfold webpWrite
  constructor
  · intro c ch hc h64
    have hbs : color.bufferSize w h = .ok (w * h * ch) := by
      simp only [webpTable, List.mem_cons, Prod.mk.injEq, List.not_mem_nil, or_false] at hc
      rcases hc with ⟨rfl, _, rfl⟩ | ⟨rfl, _, rfl⟩ | ⟨rfl, _, rfl⟩ | ⟨rfl, _, rfl⟩ <;> exact Tiff.bufferSize_eq hw (by omega) rfl h64
    rw [hbs]
    simp only [ok_bind]
    constructor
    · intro hl
      rw [decide_eq_true hl.symm]
      simp only [assertR_true, ok_bind]
      simp only [webpTable, List.mem_cons, Prod.mk.injEq, List.not_mem_nil, or_false] at hc
      rcases hc with ⟨rfl, rfl, rfl⟩ | ⟨rfl, rfl, rfl⟩ | ⟨rfl, rfl, rfl⟩ | ⟨rfl, rfl, rfl⟩ <;> rfl
    · intro hl
      rw [decide_eq_false (Ne.symm hl)]
      rfl
  · intro hc hl
    rw [hl]
    simp only [ok_bind, decide_true, assertR_true]
    have h1 := hc .l8 1
    have h2 := hc .la8 2
    have h3 := hc .rgb8 3
    have h4 := hc .rgba8 4
    cases color <;> first
      | rfl
      | (exfalso; simp [webpTable] at h1 h2 h3 h4)

/-! ## AVIF -/

/-- The colours that are converted to RGBA: the pixel type and the samples. -/
def convertedTable : List (ExtendedColorType × PixelType × Prim) :=
  [(.L8, .luma, .u8), (.La8, .lumaA, .u8), (.L16, .luma, .u16), (.La16, .lumaA, .u16), (.Rgb16, .rgb, .u16), (.Rgba16, .rgba, .u16)]

/-- The 8-bit value closest to a sample (`C18_down`). -/
def to8 (S : Prim) (v : Nat) : Nat := if S = .u16 then (v + 128) / 257 else v

/-- RGB and alpha of a pixel, given by its samples. -/
def rgbaOf (s : PixelType) (S : Prim) (p : List Nat) : List Nat :=
  match s, p with
  | .luma, [l] => [to8 S l, to8 S l, to8 S l, 255]
  | .lumaA, [l, a] => [to8 S l, to8 S l, to8 S l, to8 S a]
  | .rgb, [r, g, b] => [to8 S r, to8 S g, to8 S b, 255]
  | .rgba, [r, g, b, a] => [to8 S r, to8 S g, to8 S b, to8 S a]
  | _, _ => []

theorem slice_ofFn {l : List Nat} {n i : Nat} (h : i * n + n ≤ l.length) :
    (l.drop (i * n)).take n = List.ofFn fun c : Fin n => l.getD (i * n + c.val) 0 := by
  apply List.ext_getElem?
  intro j
  rw [List.getElem?_take, List.getElem?_ofFn]
  by_cases hj : j < n
  · rw [if_pos hj, dif_pos hj, List.getElem?_drop, List.getD_eq_getElem?_getD, List.getElem?_eq_getElem (by omega)]
    rfl
  · rw [if_neg hj, dif_neg hj]

theorem fromColor_rgba (S : Prim) (hS : S = .u8 ∨ S = .u16) (s : PixelType) (p : Pix Nat s.ch) (hp : ∀ c, p c ≤ S.max) :
    ∃ q, fromColor S .u8 s .rgba p = .ok q ∧ List.ofFn q = rgbaOf s S (List.ofFn p) := by
  have hprim : ∀ v, v ≤ S.max → fromPrimitive S .u8 v = .ok (to8 S v) := by
    intro v hv
    rcases hS with rfl | rfl
    · exact fromPrimitive_same _ _
    · exact fromPrimitive_down (by simp only [Prim.max, Prim.bits] at hv; omega)
  cases s
  · simp only [fromColor]; rw [hprim _ (hp 0)]; exact ⟨_, rfl, rfl⟩
  · simp only [fromColor]; rw [hprim _ (hp 0), hprim _ (hp 1)]; exact ⟨_, rfl, rfl⟩
  · simp only [fromColor]; rw [hprim _ (hp 0), hprim _ (hp 1), hprim _ (hp 2)]; exact ⟨_, rfl, rfl⟩
  · simp only [fromColor]; rw [hprim _ (hp 0), hprim _ (hp 1), hprim _ (hp 2), hprim _ (hp 3)]; exact ⟨_, rfl, rfl⟩

theorem convertInto_ok (S : Prim) (hS : S = .u8 ∨ S = .u16) (s : PixelType) {w h : Nat} (hw : w < 2 ^ 32) (hh : h < 2 ^ 32)
    (h64 : w * h * 4 < 2 ^ 64) (vals : List Nat) (hv : ∀ v ∈ vals, v ≤ S.max) (hl : vals.length = w * h * s.ch) :
    ∃ out, (do convertInto S s (← tryFromRaw s.ch vals w h)) = .ok (.rgba8 out w h) ∧ out.length = w * h * 4 ∧
      ∀ i < w * h, (out.drop (i * 4)).take 4 = rgbaOf s S ((vals.drop (i * s.ch)).take s.ch) := by
  have hch : 0 < s.ch ∧ s.ch ≤ 4 := by cases s <;> decide
  have hle : w * h * s.ch ≤ w * h * 4 := Nat.mul_le_mul_left _ hch.2
  have hraw : ImageBuffer.fromRaw s.ch w h vals = some ⟨w, h, vals⟩ := by
    have := (ImageBuffer.checkImageFits_iff (ch := s.ch) (w := w) (h := h) (len := vals.length) (by omega) hw).2
      ⟨by omega, by omega⟩
    unfold ImageBuffer.fromRaw
    rw [if_pos this]
  have hinv : (⟨w, h, vals⟩ : ImageBuffer Nat s.ch).Inv := ⟨hw, hh, by dsimp only; omega, by dsimp only; omega⟩
  have hconv : Convertible S .u8 := by
    rcases hS with rfl | rfl
    · exact Or.inl rfl
    · exact Or.inr (Or.inr ⟨rfl, rfl⟩)
  obtain ⟨b, b1, b2, b3, b4, b5, b6⟩ := C20_convert_buffer S .u8 hconv s .rgba ⟨w, h, vals⟩ hinv hv h64
  refine ⟨b.data, ?_, b5, ?_⟩
  · unfold tryFromRaw
    rw [hraw]
    simp only [ok_bind]
    unfold convertInto
    rw [b1]
    rfl
  · intro i hi
    have hw0 : 0 < w := by
      rcases Nat.eq_zero_or_pos w with h0 | h0
      · rw [h0, Nat.zero_mul] at hi; omega
      · exact h0
    have hx : i % w < w := Nat.mod_lt _ hw0
    have hy : i / w < h := Nat.div_lt_of_lt_mul hi
    have hidx : i / w * w + i % w = i := by rw [Nat.mul_comm]; exact Nat.div_add_mod i w
    have hce := chunk_end_le (ch := s.ch) hi
    have hce4 := chunk_end_le (ch := 4) hi
    obtain ⟨q, q1, q2⟩ := b6 (i % w) (i / w) _ hx hy (Apng.getPixel_raw hinv hx hy)
    have q3 := Apng.getPixel_raw b2 (x := i % w) (y := i / w) (by rw [b3]; exact hx) (by rw [b4]; exact hy)
    rw [q2] at q3
    simp only [Except.ok.injEq] at q3
    dsimp only at q1
    have b3' : b.width = w := b3
    rw [hidx] at q1
    rw [b3', hidx] at q3
    have hb5 : b.data.length = w * h * 4 := b5
    rw [slice_ofFn (by omega), slice_ofFn (by omega)]
    have q3' : List.ofFn (fun c : Fin 4 => b.data.getD (i * 4 + c.val) 0) = List.ofFn q := by rw [q3]
    rw [q3']
    obtain ⟨q', r1, r2⟩ := fromColor_rgba S hS s (fun c : Fin s.ch => vals.getD (i * s.ch + c.val) 0) (by
      intro c
      have := c.isLt
      rw [List.getD_eq_getElem?_getD, List.getElem?_eq_getElem (by omega)]
      exact hv _ (List.getElem_mem _))
    rw [q1] at r1
    cases r1
    exact r2

/-- AVIF, grey and 16-bit images: `ravif` gets an RGBA image of the same size, every pixel with the nearest 8-bit values, and opaque when there is
no alpha channel. -/
theorem C104_avif_converted (le : Bool) (color : ExtendedColorType) (s : PixelType) (S : Prim) (ht : (color, s, S) ∈ convertedTable)
    (w h : Nat) (hw : w < 2 ^ 32) (hh : h < 2 ^ 32) (h64 : w * h * 8 < 2 ^ 64) (vals : List Nat) (hv : ∀ v ∈ vals, v ≤ S.max)
    (hl : vals.length = w * h * s.ch) :
    ∃ out, out.length = w * h * 4 ∧
      (∀ i < w * h, (out.drop (i * 4)).take 4 = rgbaOf s S ((vals.drop (i * s.ch)).take s.ch)) ∧
      ∀ encode sink, avifWrite le encode sink (bytesOf le (S.bits / 8) vals) w h color = match encode (.rgba8 out w h) with
        | none => errR .encoding
        | some file => sink file := by
  have hS : S = .u8 ∨ S = .u16 := by
    simp only [convertedTable, List.mem_cons, Prod.mk.injEq, List.not_mem_nil, or_false] at ht
    grind
  have hch : s.ch ≤ 4 := by cases s <;> decide
  have hsz : 0 < S.bits / 8 ∧ S.bits / 8 ≤ 2 ∧ ∀ v ∈ vals, v < 256 ^ (S.bits / 8) := by
    rcases hS with rfl | rfl
    · exact ⟨by decide, by decide, fun v h => by have := hv v h; simp only [Prim.max, Prim.bits] at this ⊢; omega⟩
    · exact ⟨by decide, by decide, fun v h => by have := hv v h; simp only [Prim.max, Prim.bits] at this ⊢; omega⟩
  obtain ⟨out, o1, o2, o3⟩ := convertInto_ok S hS s hw hh (by omega) vals hv hl
  refine ⟨out, o2, o3, fun encode sink => ?_⟩
  have hlen : (bytesOf le (S.bits / 8) vals).length = w * h * (s.ch * (S.bits / 8)) := by
    rw [Exr.length_bytesOf, hl, Nat.mul_assoc]
  have hbits : color.bitsPerPixel = s.ch * (S.bits / 8) * 8 := by
    simp only [convertedTable, List.mem_cons, Prod.mk.injEq, List.not_mem_nil, or_false] at ht
    rcases ht with ⟨rfl, rfl, rfl⟩ | ⟨rfl, rfl, rfl⟩ | ⟨rfl, rfl, rfl⟩ | ⟨rfl, rfl, rfl⟩ | ⟨rfl, rfl, rfl⟩ | ⟨rfl, rfl, rfl⟩ <;> rfl
  have h8 : s.ch * (S.bits / 8) ≤ 8 := Nat.mul_le_mul hch hsz.2.1
  have h64' : w * h * (s.ch * (S.bits / 8)) < 2 ^ 64 := Nat.lt_of_le_of_lt (Nat.mul_le_mul_left _ h8) h64
  have hbs := Tiff.bufferSize_eq (color := color) (h := h) hw (by omega) hbits h64'
  have henc : encodeAsImg le (bytesOf le (S.bits / 8) vals) w h color = .ok (.rgba8 out w h) := by
    have hu8 : S = .u8 → (bytesOf le (S.bits / 8) vals).map (·.toNat) = vals := by
      rintro rfl
      exact Tiff.bytes_toNat le vals (by simpa [Prim.bits] using hsz.2.2)
    have hu16 : S = .u16 → castBuffer le (bytesOf le (S.bits / 8) vals) = .ok vals := by
      rintro rfl
      have e : Prim.u16.bits / 8 = 2 := rfl
      unfold castBuffer
      rw [e, if_neg (by rw [Exr.length_bytesOf]; omega), DynamicImage.samplesOf_bytesOf le 2 (by omega) vals hsz.2.2]
    simp only [convertedTable, List.mem_cons, Prod.mk.injEq, List.not_mem_nil, or_false] at ht
    unfold encodeAsImg
    rcases ht with ⟨rfl, rfl, rfl⟩ | ⟨rfl, rfl, rfl⟩ | ⟨rfl, rfl, rfl⟩ | ⟨rfl, rfl, rfl⟩ | ⟨rfl, rfl, rfl⟩ | ⟨rfl, rfl, rfl⟩
    · dsimp only; rw [hu8 rfl]; exact o1
    · dsimp only; rw [hu8 rfl]; exact o1
    · dsimp only; rw [hu16 rfl]; exact o1
    · dsimp only; rw [hu16 rfl]; exact o1
    · dsimp only; rw [hu16 rfl]; exact o1
    · dsimp only; rw [hu16 rfl]; exact o1
  unfold avifWrite
  rw [hbs]
  simp only [ok_bind]
  rw [decide_eq_true hlen.symm]
  simp only [assertR_true, ok_bind, henc]
  rfl

/-- AVIF, RGB and RGBA images of 8 bits: `ravif` gets the bytes as they are; an image without pixels is refused. -/
theorem C104_avif_direct (le : Bool) (color : ExtendedColorType) (ch : Nat) (hc : color = .Rgb8 ∧ ch = 3 ∨ color = .Rgba8 ∧ ch = 4)
    (w h : Nat) (hw : w < 2 ^ 32) (hh : h < 2 ^ 32) (h64 : w * h * 4 < 2 ^ 64) (data : List UInt8) (hl : data.length = w * h * ch)
    (encode : RgbColor → Option (List UInt8)) (sink : List UInt8 → R Unit) :
    (w * h = 0 → avifWrite le encode sink data w h color = errR .dimensionMismatch) ∧
    (w * h ≠ 0 → avifWrite le encode sink data w h color =
      match encode (if ch = 3 then .rgb8 (data.map (·.toNat)) w h else .rgba8 (data.map (·.toNat)) w h) with
      | none => errR .encoding
      | some file => sink file) := by
  have hch : 0 < ch ∧ ch ≤ 4 := by omega
  have hle : w * h * ch ≤ w * h * 4 := Nat.mul_le_mul_left _ hch.2
  have hbs : color.bufferSize w h = .ok (w * h * ch) := by
    rcases hc with ⟨rfl, rfl⟩ | ⟨rfl, rfl⟩ <;> exact Tiff.bufferSize_eq hw (by omega) rfl (by omega)
  have hinv : (⟨w, h, data.map (·.toNat)⟩ : ImageBuffer Nat ch).Inv :=
    ⟨hw, hh, by dsimp only; rw [List.length_map]; omega, by dsimp only; rw [List.length_map]; omega⟩
  have hraw : tryFromRaw ch (data.map (·.toNat)) w h = .ok ⟨w, h, data.map (·.toNat)⟩ := by
    have := (ImageBuffer.checkImageFits_iff (ch := ch) (w := w) (h := h) (len := (data.map (·.toNat)).length) (by omega) hw).2
      ⟨by omega, by rw [List.length_map]; omega⟩
    unfold tryFromRaw ImageBuffer.fromRaw
    rw [if_pos this]
  obtain ⟨ps, p1, p2, _⟩ := ImageBuffer.pixels_ok hinv hch.1 (by omega)
  have p2' : ps.length = w * h := p2
  have hsh : avifWrite le encode sink data w h color =
      (do
        let img ← (do
          if ps.length = 0 then errR .dimensionMismatch
          (.ok (if ch = 3 then .rgb8 (data.map (·.toNat)) w h else .rgba8 (data.map (·.toNat)) w h) : R RgbColor))
        match encode img with
        | none => errR .encoding
        | some file => sink file) := by
    unfold avifWrite
    rw [hbs]
    simp only [ok_bind]
    rw [decide_eq_true hl.symm]
    simp only [assertR_true, ok_bind]
    rcases hc with ⟨rfl, rfl⟩ | ⟨rfl, rfl⟩ <;>
    · unfold encodeAsImg
      dsimp only
      rw [hraw]
      simp only [ok_bind]
      rw [p1]
      rfl
  rw [hsh, p2']
  constructor
  · intro h0
    rw [if_pos h0]; rfl
  · intro h0
    rw [if_neg h0]; rfl

/-- Other colour types are refused. -/
theorem C104_avif_other (le : Bool) (color : ExtendedColorType) (h1 : color ≠ .Rgb8) (h2 : color ≠ .Rgba8)
    (h3 : ∀ s S, (color, s, S) ∉ convertedTable) (w h : Nat) (data : List UInt8) (hl : color.bufferSize w h = .ok data.length)
    (encode : RgbColor → Option (List UInt8)) (sink : List UInt8 → R Unit) :
    avifWrite le encode sink data w h color = errR .unsupported := by
  unfold avifWrite
  rw [hl]
  simp only [ok_bind, decide_true, assertR_true]
  have a1 := h3 .luma .u8
  have a2 := h3 .lumaA .u8
  have a3 := h3 .luma .u16
  have a4 := h3 .lumaA .u16
  have a5 := h3 .rgb .u16
  have a6 := h3 .rgba .u16
  cases color <;> first
    | rfl
    | (exfalso; simp [convertedTable] at a1 a2 a3 a4 a5 a6 h1 h2)

/-- Images without pixels are not always refused: a grey one of 0 x 0 is handed to `ravif`, although `encode_as_img` says that it does the checks
because `ravif` has only asserts. -/
theorem C104_avif_empty_false :
    ¬ ∀ (color : ExtendedColorType) (w h : Nat), w * h = 0 → ∃ e, encodeAsImg true [] w h color = errR e := by
  intro hall
  obtain ⟨e, he⟩ := hall .L8 0 0 rfl
  have : encodeAsImg true [] 0 0 .L8 = .ok (.rgba8 [] 0 0) := by decide +kernel
  rw [this] at he
  cases he

/-- Speed and quality are limited to what the crate accepts. -/
theorem C104_avif_settings (speed quality : Nat) :
    (avifSettings speed quality).1 ≤ 10 ∧ (avifSettings speed quality).2 ≤ 100 ∧
    (speed ≤ 10 → (avifSettings speed quality).1 = speed) ∧ (quality ≤ 100 → (avifSettings speed quality).2 = quality) := by
  unfold avifSettings
  dsimp only
  omega

example : encodeAsImg true [0x80, 0x80, 0xff, 0xff] 1 1 .La16 = .ok (.rgba8 [128, 128, 128, 255] 1 1) := by decide +kernel
example : encodeAsImg true [1, 2, 3] 1 1 .Rgb8 = .ok (.rgb8 [1, 2, 3] 1 1) := by decide +kernel
example : qoiWrite (fun b _ _ => some b) (fun b => if b = [1, 2, 3] then .ok () else panicR) [1, 2, 3] 1 1 .Rgb8 = .ok () := by decide +kernel
example : webpWrite (fun b _ _ c => if b = [1, 2] ∧ c = .la8 then .ok () else panicR) [1, 2] 1 1 .La8 = .ok () := by decide +kernel

end Verif.CrateEnc
