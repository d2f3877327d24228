import Verif.Model.DynamicNew
import Verif.Props.Dynamic
import Verif.Props.DecoderToImage
import Verif.Props.Flat

/-!
# C128: what a `DynamicImage` is made of, and what comes out of it

Specification: `d.samplesAt x y` lists the samples of the pixel at `(x, y)` of an image, `d.color` is its colour type.
-/

namespace Verif
namespace DynamicImage

theorem bytesOf_zero (le : Bool) (sz n : Nat) : bytesOf le sz (List.replicate n 0) = List.replicate (n * sz) 0 := by
  have hl : ∀ sz, leBytes sz 0 = List.replicate sz 0 := by
    intro sz
    induction sz with
    | zero => rfl
    | succ k ih =>
      rw [leBytes, show (0 : Nat) / 256 = 0 from rfl, ih]; rfl
  unfold bytesOf
  induction n with
  | zero => simp
  | succ n ih =>
    rw [List.replicate_succ, List.flatMap_cons, ih]
    have : (if le = true then leBytes sz 0 else beBytes sz 0) = List.replicate sz 0 := by
      unfold beBytes; rw [hl, List.reverse_replicate]; split <;> rfl
    rw [this, List.replicate_append_replicate]
    congr 1
    rw [Nat.succ_mul, Nat.add_comm]

theorem new_eq (w h : Nat) (c : ColorType) :
    new w h c = (ImageBuffer.new c.channelCount 0 w h >>= fun b => .ok (ofBuffer c b)) := by
  cases c <;> rfl

/-- **C128** `DynamicImage::new(w, h, color)` has the colour type and the dimensions that were asked for, every sample of
every pixel is zero, and its bytes are `w * h * bytes_per_pixel` zeros. -/
theorem C128_new (le : Bool) (w h : Nat) (c : ColorType) (hw : w < 2 ^ 32) (hh : h < 2 ^ 32)
    (hs : w * h * c.channelCount < 2 ^ 64) :
    ∃ d, new w h c = .ok d ∧ d.Valid ∧ d.color = c ∧ d.width = w ∧ d.height = h ∧
      (∀ x y, x < w → y < h → d.samplesAt x y = .ok (List.replicate c.channelCount 0)) ∧
      d.asBytes le = List.replicate (w * h * c.bytesPerPixel) 0 := by
  have key : ∀ ch : Nat, ch < 256 → w * h * ch < 2 ^ 64 → ∃ b : ImageBuffer Nat ch,
      ImageBuffer.new ch 0 w h = .ok b ∧ b.Inv ∧ b.width = w ∧ b.height = h ∧
      (∀ x y, x < w → y < h → (b.getPixel x y).map Pix.toList = .ok (List.replicate ch 0)) ∧
      b.data = List.replicate (w * h * ch) 0 := by
    intro ch hc hs
    obtain ⟨b, h1, h2, h3, h4, h5, h6, h7⟩ := C06_new (ch := ch) (0 : Nat) w h hc hw hh hs
    refine ⟨b, h1, h2, h3, h4, fun x y hx hy => ?_, ?_⟩
    · rw [h7 x y hx hy]
      show Except.ok _ = _
      congr 1
      apply List.ext_getElem?
      intro i
      simp [Pix.toList, List.getElem?_replicate]
    · apply List.ext_getElem?
      intro i
      by_cases hi : i < w * h * ch
      · rw [h6 i hi, List.getElem?_replicate, if_pos hi]
      · rw [List.getElem?_eq_none (by omega), List.getElem?_replicate, if_neg hi]
  have hbytes : ∀ sz ch, c.bytesPerPixel = ch * sz →
      bytesOf le sz (List.replicate (w * h * ch) 0) = List.replicate (w * h * c.bytesPerPixel) 0 := by
    intro sz ch e
    rw [bytesOf_zero, e, Nat.mul_assoc]
  obtain ⟨b, h1, h2, h3, h4, h5, h6⟩ := key c.channelCount (by cases c <;> decide) hs
  refine ⟨ofBuffer c b, by rw [new_eq, h1, ok_bind], ?_⟩
  have hb := hbytes c.sampleSize c.channelCount (by rw [Nat.mul_comm, sampleSize_mul])
  cases c <;> refine ⟨h2, rfl, h3, h4, h5, ?_⟩ <;>
    (show bytesOf le _ b.data = _; rw [h6]; exact hb)

/-- **C128** It panics exactly when the number of samples is not a `usize`. -/
theorem C128_new_overflow (w h : Nat) (c : ColorType) (hw : w < 2 ^ 32) (hh : h < 2 ^ 32) :
    new w h c = .error .panic ↔ 2 ^ 64 ≤ w * h * c.channelCount := by
  constructor
  · intro hp
    false_or_by_contra
    rename_i hn
    obtain ⟨d, h1, -⟩ := C128_new true w h c hw hh (by omega)
    rw [hp] at h1; cases h1
  · intro hs
    rw [new_eq, C06_new_overflow (0 : Nat) w h (by cases c <;> decide) hw (Nat.not_lt.2 hs)]; rfl

/-- **C128** `as_rgb8` ... return the buffer exactly for an image of that colour type, and it is the image's own buffer:
same dimensions, same container, same pixels. -/
theorem C128_as (c : ColorType) (d : DynamicImage) :
    ((d.asType c).isSome = true ↔ d.color = c) ∧
    ∀ b, d.asType c = some b → b.width = d.width ∧ b.height = d.height ∧ b.data = (d.useBuf fun b => b.data) ∧
      ∀ x y, (b.getPixel x y).map Pix.toList = d.samplesAt x y := by
  constructor
  · cases c <;> cases d <;> first | exact iff_of_true rfl rfl | exact iff_of_false nofun nofun
  · intro b hb
    cases c <;> cases d <;> cases hb <;>
      exact ⟨rfl, rfl, rfl, fun _ _ => rfl⟩

/-- **C128** `as_mut_rgb8` ... hand out a reference exactly for an image of that colour type; after any change through it
the image has the same colour type and its buffer is the changed one. -/
theorem C128_as_mut (c : ColorType) (f : ImageBuffer Nat c.channelCount → ImageBuffer Nat c.channelCount)
    (d : DynamicImage) :
    ((d.asMutType c f).isSome = true ↔ d.color = c) ∧
    ∀ d', d.asMutType c f = some d' → d'.color = c ∧ d'.asType c = (d.asType c).map f := by
  constructor
  · cases c <;> cases d <;> first | exact iff_of_true rfl rfl | exact iff_of_false nofun nofun
  · intro d' hb
    cases c <;> cases d <;> cases hb <;>
      exact ⟨rfl, rfl⟩

/-- **C128** Wrapping a buffer and taking it out again gives the same buffer, and wrapping what was taken out gives the
same image; in between the colour type, the dimensions and the pixels are those of the buffer. -/
theorem C128_from_into (c : ColorType) (b : ImageBuffer Nat c.channelCount)
    (toC : DynamicImage → R (ImageBuffer Nat c.channelCount)) :
    (ofBuffer c b).color = c ∧ (ofBuffer c b).width = b.width ∧ (ofBuffer c b).height = b.height ∧
    (∀ x y, (ofBuffer c b).samplesAt x y = (b.getPixel x y).map Pix.toList) ∧
    (ofBuffer c b).intoType c toC = .ok b ∧ (ofBuffer c b).asType c = some b := by
  cases c <;> exact ⟨rfl, rfl, rfl, fun _ _ => rfl, rfl, rfl⟩

/-- **C128** `into_rgb8` ... return the buffer unchanged, without a conversion, when the image has that colour type, and
otherwise what `to_rgb8` ... returns. -/
theorem C128_into (c : ColorType) (toC : DynamicImage → R (ImageBuffer Nat c.channelCount)) (d : DynamicImage) :
    (d.color = c → ∃ b, d.intoType c toC = .ok b ∧ d.asType c = some b ∧ ofBuffer c b = d) ∧
    (d.color ≠ c → d.intoType c toC = toC d) := by
  constructor
  · intro h
    cases c <;> cases d <;> cases h <;> exact ⟨_, rfl, rfl, rfl⟩
  · intro h
    cases c <;> cases d <;> first | rfl | exact absurd rfl h

theorem converted_self {S : Prim} {m : PixelType} {p q : Pix Nat m.ch} (h : IsConverted S S m m p q) : q = p := by
  obtain ⟨-, h2, h3, h4⟩ := h
  have hid : ∀ v, rescale S S v = v := by intro v; cases S <;> rfl
  funext i
  cases m
  · have := h3 rfl 0
    rw [hid, lumaOf, if_neg (by decide)] at this
    match i with | 0 => exact this
  · have := h3 rfl 0
    rw [hid, lumaOf, if_neg (by decide)] at this
    have h5 := h4
    simp only [alphaOf, PixelType.hasAlpha, hid, if_true, Option.some.injEq] at h5
    match i with
    | 0 => exact this
    | 1 => exact h5
  · have := fun i => h2 rfl i
    simp only [hid] at this
    match i with
    | 0 => exact this 0
    | 1 => exact this 1
    | 2 => exact this 2
  · have := fun i => h2 rfl i
    simp only [hid] at this
    have h5 := h4
    simp only [alphaOf, PixelType.hasAlpha, hid, if_true, Option.some.injEq] at h5
    match i with
    | 0 => exact this 0
    | 1 => exact this 1
    | 2 => exact this 2
    | 3 => exact h5

/-- **C128** For an image that has the colour type already, the copy made by `to_rgb8` ... shows the same picture as the
buffer returned by `into_rgb8` ...: same dimensions, same pixels. -/
theorem C128_to_same (d : DynamicImage) (S : Prim) (m : PixelType)
    (fc : (s : PixelType) → Pix Nat s.ch → R (Pix Nat m.ch))
    (b : ImageBuffer Nat m.ch) (h : IntBuf d S m b) (hb : b.Inv) (hr : ∀ v ∈ b.data, v ≤ S.max) :
    ∃ b' : ImageBuffer Nat m.ch, d.toType S m fc = .ok b' ∧ b'.width = b.width ∧ b'.height = b.height ∧
      ∀ x y, x < b.width → y < b.height → b'.getPixel x y = b.getPixel x y := by
  have hS : S = .u8 ∨ S = .u16 := by cases h <;> simp
  have h64 : b.width * b.height * m.ch < 2 ^ 64 := Nat.lt_of_le_of_lt hb.fits hb.len64
  obtain ⟨b', h1, -, h3, h4, h5⟩ := C52_to d S S hS m m fc b h hb hr h64
  refine ⟨b', h1, ?_, ?_, fun x y hx hy => ?_⟩
  · rw [h3]; cases h <;> rfl
  · rw [h4]; cases h <;> rfl
  · obtain ⟨p, q, k1, k2, k3⟩ := h5 x y hx hy
    rw [k1, k2, converted_self k3]

/-- **C128** A grey float buffer becomes an RGB (with alpha: RGBA) float image of the same dimensions; each pixel has the
grey value in all three colours, and its alpha. -/
theorem C128_from_luma32f (b : ImageBuffer Nat 1) (hb : b.Inv) (hr : ∀ v ∈ b.data, v < 2 ^ 32)
    (hs : b.width * b.height * 3 < 2 ^ 64) :
    ∃ d, ofLuma32F b = .ok d ∧ d.color = .Rgb32F ∧ d.width = b.width ∧ d.height = b.height ∧
      ∀ x y p, x < b.width → y < b.height → b.getPixel x y = .ok p → d.samplesAt x y = .ok [p 0, p 0, p 0] := by
  obtain ⟨b', h1, -, h3, h4, -, h6⟩ := C20_convert_buffer .u32 .u32 (.inl rfl) .luma .rgb b hb
    (fun v hv => Nat.le_sub_one_of_lt (hr v hv)) hs
  have he : (fun p : Pix Nat 1 => (Except.ok (px3 (p 0) (p 0) (p 0)) : R (Pix Nat 3))) = fromColor .u32 .u32 .luma .rgb := by
    funext p; rfl
  refine ⟨rgb32F b', by unfold ofLuma32F; rw [he, h1]; rfl, rfl, h3, h4, fun x y p hx hy hp => ?_⟩
  obtain ⟨q, k1, k2⟩ := h6 x y p hx hy hp
  show (b'.getPixel x y).map _ = _
  rw [k2]
  rw [← he] at k1
  cases k1
  rfl

theorem C128_from_lumaA32f (b : ImageBuffer Nat 2) (hb : b.Inv) (hr : ∀ v ∈ b.data, v < 2 ^ 32)
    (hs : b.width * b.height * 4 < 2 ^ 64) :
    ∃ d, ofLumaA32F b = .ok d ∧ d.color = .Rgba32F ∧ d.width = b.width ∧ d.height = b.height ∧
      ∀ x y p, x < b.width → y < b.height → b.getPixel x y = .ok p → d.samplesAt x y = .ok [p 0, p 0, p 0, p 1] := by
  obtain ⟨b', h1, -, h3, h4, -, h6⟩ := C20_convert_buffer .u32 .u32 (.inl rfl) .lumaA .rgba b hb
    (fun v hv => Nat.le_sub_one_of_lt (hr v hv)) hs
  have he : (fun p : Pix Nat 2 => (Except.ok (px4 (p 0) (p 0) (p 0) (p 1)) : R (Pix Nat 4))) =
      fromColor .u32 .u32 .lumaA .rgba := by
    funext p; rfl
  refine ⟨rgba32F b', by unfold ofLumaA32F; rw [he, h1]; rfl, rfl, h3, h4, fun x y p hx hy hp => ?_⟩
  obtain ⟨q, k1, k2⟩ := h6 x y p hx hy hp
  show (b'.getPixel x y).map _ = _
  rw [k2]
  rw [← he] at k1
  cases k1
  rfl

/-- **C128** After `a.clone_from(&b)`, `a` is `b`, whatever it was before. -/
theorem C128_clone_from (a b : DynamicImage) : cloneFrom a b = b := by
  cases a <;> cases b <;> rfl

/-- **C128** Exactly one of the three flat views exists, by the size of the samples, and it addresses the samples of the
image: sample `k` of the pixel at `(x, y)`. -/
theorem C128_flat (d : DynamicImage) (hv : d.Valid) :
    (d.asFlatSamplesU8.isSome = true ↔ d.color.sampleSize = 1) ∧
    (d.asFlatSamplesU16.isSome = true ↔ d.color.sampleSize = 2) ∧
    (d.asFlatSamplesF32.isSome = true ↔ d.color.sampleSize = 4) ∧
    ∀ r, (d.asFlatSamplesU8 = some r ∨ d.asFlatSamplesU16 = some r ∨ d.asFlatSamplesF32 = some r) →
      ∃ f, r = .ok f ∧ ∀ x y l, d.samplesAt x y = .ok l → ∀ k, f.getSample k x y = l[k]? := by
  have key : ∀ (ch : Nat) (b : ImageBuffer Nat ch), 1 ≤ ch → ch < 256 → b.Inv → ∃ f, b.intoFlatSamples = .ok f ∧
      ∀ x y l, (b.getPixel x y).map Pix.toList = .ok l → ∀ k, f.getSample k x y = l[k]? := by
    intro ch b h1 hc hb
    obtain ⟨f, hf, -⟩ := C26_round_trip_partial b hb hc h1
    refine ⟨f, hf, fun x y l hl k => ?_⟩
    obtain ⟨p, hp, rfl⟩ : ∃ p, b.getPixel x y = .ok p ∧ p.toList = l := by
      cases e : b.getPixel x y with
      | error e' => rw [e] at hl; cases hl
      | ok p => rw [e] at hl; cases hl; exact ⟨p, rfl, rfl⟩
    obtain ⟨g1, g2⟩ := C26_get_sample b hb hc f hf k x y
    by_cases hk : k < ch
    · rw [(g1 hk p hp).1]
      simp [Pix.toList, hk]
    · rw [(g2 (by omega)).1]
      simp [Pix.toList, hk]
  refine ⟨?_, ?_, ?_, ?_⟩
  · cases d <;> simp [asFlatSamplesU8, color, ColorType.sampleSize]
  · cases d <;> simp [asFlatSamplesU16, color, ColorType.sampleSize]
  · cases d <;> simp [asFlatSamplesF32, color, ColorType.sampleSize]
  · intro r hr
    cases d <;> simp only [asFlatSamplesU8, asFlatSamplesU16, asFlatSamplesF32, Option.some.injEq, reduceCtorEq,
      or_false, false_or] at hr <;> subst hr <;> exact key _ _ (by decide) (by decide) hv

/-- **C128** `as_bytes` and `into_bytes` start with the bytes of the pixels, and are exactly those when the container has no
more samples than the image needs. -/
theorem C128_bytes (le : Bool) (d : DynamicImage) (hv : d.Valid) :
      d.innerBytes le <+: d.asBytes le ∧
    (d.innerBytes le).length = d.width * d.height * d.color.bytesPerPixel ∧
    (d.asBytes le = d.innerBytes le ↔ (d.useBuf fun b => b.data).length = d.width * d.height * d.color.channelCount) := by
  have key : ∀ (ch sz : Nat) (b : ImageBuffer Nat ch), 0 < sz → b.Inv →
      bytesOf le sz (b.data.take (b.width * b.height * ch)) <+: bytesOf le sz b.data ∧
      (bytesOf le sz (b.data.take (b.width * b.height * ch))).length = b.width * b.height * (sz * ch) ∧
      (bytesOf le sz b.data = bytesOf le sz (b.data.take (b.width * b.height * ch)) ↔
        b.data.length = b.width * b.height * ch) := by
    intro ch sz b hsz hb
    have hf := hb.fits
    refine ⟨?_, ?_, ?_⟩
    · refine ⟨bytesOf le sz (b.data.drop (b.width * b.height * ch)), ?_⟩
      unfold bytesOf
      rw [← List.flatMap_append, List.take_append_drop]
    · rw [length_bytesOf, List.length_take, Nat.min_eq_left hf, Nat.mul_comm sz, Nat.mul_assoc]
    · constructor
      · intro e
        have := congrArg List.length e
        rw [length_bytesOf, length_bytesOf, List.length_take, Nat.min_eq_left hf] at this
        exact Nat.eq_of_mul_eq_mul_right hsz this
      · intro e
        rw [List.take_of_length_le (by omega)]
  rw [← sampleSize_mul]
  cases d <;> exact key _ _ _ (sampleSize_pos _) hv

/-- **C128** is false for the bytes as documented ("this image's pixels"): a 1×1 grey image in a container of two samples
has two bytes. -/
theorem C128_bytes_false : ∃ d : DynamicImage, d.Valid ∧ d.width = 1 ∧ d.height = 1 ∧ d.color = .L8 ∧
    ImageBuffer.fromRaw 1 1 1 [7, 9] = d.asType .L8 ∧ d.asBytes true = [7, 9] :=
  ⟨luma8 ⟨1, 1, [7, 9]⟩, ⟨by decide, by decide, by decide, by decide⟩, rfl, rfl, rfl, rfl, by decide +kernel⟩

/-! ## Concrete cases -/

example : new 2 3 .La16 = .ok (lumaA16 ⟨2, 3, List.replicate 12 0⟩) := by decide +kernel
example : new (2 ^ 32 - 1) (2 ^ 32 - 1) .Rgb8 = .error .panic :=
  (C128_new_overflow _ _ _ (by decide) (by decide)).2 (by decide)
example : (rgb16 ⟨1, 1, [1, 2, 3]⟩).asType .Rgb16 = some ⟨1, 1, [1, 2, 3]⟩ ∧ (rgb16 ⟨1, 1, [1, 2, 3]⟩).asType .Rgb8 = none :=
  ⟨rfl, rfl⟩
example : ofLumaA32F ⟨1, 1, [0x3f800000, 0x3f000000]⟩ =
    .ok (rgba32F ⟨1, 1, [0x3f800000, 0x3f800000, 0x3f800000, 0x3f000000]⟩) := by decide +kernel
example : (luma8 ⟨1, 1, [7]⟩).cloneFrom (rgb8 ⟨1, 1, [1, 2, 3]⟩) = rgb8 ⟨1, 1, [1, 2, 3]⟩ := rfl
/-- An image with slack in its container is valid, and `C128_to_same` applies to it. -/
example : ∃ b', (luma16 ⟨2, 1, [500, 65535, 3]⟩).toType .u16 .luma (fun _ _ => panicR) = .ok b' ∧
    b'.getPixel 1 0 = (⟨2, 1, [500, 65535, 3]⟩ : ImageBuffer Nat 1).getPixel 1 0 := by
  obtain ⟨b', h1, -, -, h4⟩ := C128_to_same (luma16 ⟨2, 1, [500, 65535, 3]⟩) .u16 .luma (fun _ _ => panicR)
    ⟨2, 1, [500, 65535, 3]⟩ (.luma16 _) ⟨by decide, by decide, by decide, by decide⟩ (by decide)
  exact ⟨b', h1, h4 1 0 (by decide) (by decide)⟩

end DynamicImage
end Verif
