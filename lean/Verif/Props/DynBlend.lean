import Verif.Model.DynBlend
import Verif.Props.Dynamic
import Verif.Props.FloatDyn
import Verif.Props.Blend
import Verif.Props.FloatBlend
import Verif.Props.Overlay

/-!
# Composing onto a `DynamicImage` (C132)

Specification vocabulary: `IsConverted` (`Props/Dynamic.lean`, a pixel in another colour type and depth), `overColour`, `overOpacity`, `TruncOf`
(`Props/Blend.lean`, the source-over formula), `Covered` (`Props/Overlay.lean`, the place of the top image), `samplesAt` (the samples of one pixel).
-/

namespace Verif
open GenericImageView GenericImage LawfulView LawfulImage

namespace DynamicImage

/-- Every sample of every pixel is at most `M`. -/
def InRange {ch : Nat} (b : ImageBuffer Nat ch) (M : Nat) : Prop :=
  ∀ x y p, x < b.width → y < b.height → b.getPixel x y = .ok p → ∀ c, p c ≤ M

/-- `r` is the pixel `q` composed over `p`, as the library does it for each kind of pixel with `S` samples: exact for fully transparent and fully opaque
RGBA pixels, otherwise the source-over formula rounded down. A pixel without alpha replaces the other. -/
def ComposedInt (S : Prim) : (m : PixelType) → (p q r : Pix Nat m.ch) → Prop
  | .luma, _, q, r => r = q
  | .rgb, _, q, r => r = q
  | .lumaA, p, q, r => (p 1 = 0 → q 1 = 0 → r = p) ∧
      (0 < p 1 ∨ 0 < q 1 → TruncOf S.max (r 0) (overColour S.max (p 0) (p 1) (q 0) (q 1)) ∧
        TruncOf S.max (r 1) (S.max * overOpacity S.max (p 1) (q 1)))
  | .rgba, p, q, r => (q 3 = 0 → r = p) ∧ (q 3 = S.max → r = q) ∧
      (0 < p 3 ∨ 0 < q 3 →
        (∀ c : Fin 4, c ≠ 3 → TruncOf S.max (r c) (overColour S.max (p c) (p 3) (q c) (q 3))) ∧
        TruncOf S.max (r 3) (S.max * overOpacity S.max (p 3) (q 3)))

theorem blendPixel_composed {S : Prim} (hS : S = .u8 ∨ S = .u16) (m : PixelType) (p q : Pix Nat m.ch) (hp : ∀ c, p c ≤ S.max) (hq : ∀ c, q c ≤ S.max) :
    ∃ r, Verif.blendPixel S m p q = .ok r ∧ (∀ c, r c ≤ S.max) ∧ ComposedInt S m p q r := by
  cases m with
  | luma => exact ⟨q, rfl, hq, rfl⟩
  | rgb => exact ⟨q, rfl, hq, rfl⟩
  | lumaA =>
    obtain ⟨r, h1, h2, h3, h4⟩ := C49_lumaA_partial S hS p q hp hq
    exact ⟨r, h1, h2, h3, h4⟩
  | rgba =>
    obtain ⟨r, h1, h2, h3⟩ := C49_rgba S hS p q hp hq
    obtain ⟨e1, e2⟩ := C49_rgba_extremes S p q
    refine ⟨r, h1, h2, fun h => ?_, fun h => ?_, h3⟩
    · have := e1 h; rw [h1] at this; exact Except.ok.inj this
    · have := e2 h; rw [h1] at this; exact Except.ok.inj this

theorem blendAt_ok {ch : Nat} {b : ImageBuffer Nat ch} (hb : b.Inv) {blend : Pix Nat ch → Pix Nat ch → R (Pix Nat ch)} {x y : Nat} (hx : x < b.width)
    (hy : y < b.height) {p q r : Pix Nat ch} (hp : b.getPixel x y = .ok p) (hr : blend p q = .ok r) :
    ∃ b', b.blendAt blend x y q = .ok b' ∧ b'.Inv ∧ b'.width = b.width ∧ b'.height = b.height ∧ b'.getPixel x y = .ok r ∧
      ∀ i j, i < b.width → j < b.height → ¬(i = x ∧ j = y) → b'.getPixel i j = b.getPixel i j := by
  obtain ⟨b', k1, k2, k3, k4, -, k5, k6⟩ := C02_put_get b hb x y hx hy r
  exact ⟨b', by simp only [ImageBuffer.blendAt, hp, hr, ok_bind, k1], k2, k3, k4, k5, k6⟩

/-- The conversion of the `Rgba<u8>` pixel that each integer variant applies before it stores or blends it. -/
theorem blendPixel_int {d : DynamicImage} {S : Prim} {m : PixelType} {b : ImageBuffer Nat m.ch} (h : IntBuf d S m b) (pixel : Pix Nat 4)
    (hp : ∀ c, pixel c ≤ 255) :
    ∃ q, IsConverted .u8 S .rgba m pixel q ∧ ∀ x y b', b.blendAt (Verif.blendPixel S m) x y q = .ok b' →
      ∃ d', d.blendPixel x y pixel = .ok d' ∧ IntBuf d' S m b' ∧ d'.color = d.color := by
  obtain ⟨r, h1, hr⟩ : ∃ q, fromColor .u8 .u8 .rgba m pixel = .ok q ∧ IsConverted .u8 .u8 .rgba m pixel q :=
    fromColor_converted (.inl rfl) hp
  obtain ⟨r2, k1, hr2⟩ : ∃ q, fromColor .u8 .u16 m m r = .ok q ∧ IsConverted .u8 .u16 .rgba m pixel q := by
    obtain ⟨h2, h3, h4, h5⟩ := hr
    obtain ⟨q, k1, k2, k3, k4, k5⟩ := fromColor_converted (S := .u8) (T := .u16) (s := m) (d := m) (.inr (.inl ⟨rfl, rfl⟩)) h2
    refine ⟨q, k1, k2, fun hc i => ?_, fun hc i => ?_, ?_⟩
    · rw [k3 hc, h3 hc]; rfl
    · rw [k4 hc, lumaOf, if_neg (by simp [hc]), h4 hc]; rfl
    · rw [k5, h5]; cases m <;> rfl
  obtain ⟨r4, l1, hr4⟩ : ∃ q, fromColor .u8 .u16 .rgba .rgba pixel = .ok q ∧ IsConverted .u8 .u16 .rgba .rgba pixel q :=
    fromColor_converted (.inr (.inl ⟨rfl, rfl⟩)) hp
  have hsame : IsConverted .u8 .u8 .rgba .rgba pixel pixel := ⟨hp, fun _ _ => rfl, nofun, rfl⟩
  cases h
  case rgba8 =>
    exact ⟨pixel, hsame, fun x y b' e => ⟨.rgba8 b', by simp only [blendPixel, e, ok_bind], .rgba8 b', rfl⟩⟩
  case rgba16 =>
    exact ⟨r4, hr4, fun x y b' e => ⟨.rgba16 b', by simp only [blendPixel, l1, e, ok_bind], .rgba16 b', rfl⟩⟩
  case luma8 =>
    exact ⟨r, hr, fun x y b' e => ⟨.luma8 b', by simp only [blendPixel, h1, e, ok_bind], .luma8 b', rfl⟩⟩
  case lumaA8 =>
    exact ⟨r, hr, fun x y b' e => ⟨.lumaA8 b', by simp only [blendPixel, h1, e, ok_bind], .lumaA8 b', rfl⟩⟩
  case rgb8 =>
    exact ⟨r, hr, fun x y b' e => ⟨.rgb8 b', by simp only [blendPixel, h1, e, ok_bind], .rgb8 b', rfl⟩⟩
  case luma16 =>
    exact ⟨r2, hr2, fun x y b' e => ⟨.luma16 b', by simp only [blendPixel, h1, k1, e, ok_bind], .luma16 b', rfl⟩⟩
  case lumaA16 =>
    exact ⟨r2, hr2, fun x y b' e => ⟨.lumaA16 b', by simp only [blendPixel, h1, k1, e, ok_bind], .lumaA16 b', rfl⟩⟩
  case rgb16 =>
    exact ⟨r2, hr2, fun x y b' e => ⟨.rgb16 b', by simp only [blendPixel, h1, k1, e, ok_bind], .rgb16 b', rfl⟩⟩

theorem _root_.Verif.IntBuf.dims {d : DynamicImage} {S : Prim} {m : PixelType} {b : ImageBuffer Nat m.ch} (h : IntBuf d S m b) :
    d.width = b.width ∧ d.height = b.height := by cases h <;> exact ⟨rfl, rfl⟩

theorem _root_.Verif.IntBuf.samplesAt {d : DynamicImage} {S : Prim} {m : PixelType} {b : ImageBuffer Nat m.ch} (h : IntBuf d S m b) (x y : Nat) :
    d.samplesAt x y = (b.getPixel x y).map Pix.toList := by cases h <;> rfl

theorem _root_.Verif.IntBuf.small {d : DynamicImage} {S : Prim} {m : PixelType} {b : ImageBuffer Nat m.ch} (h : IntBuf d S m b) : S = .u8 ∨ S = .u16 := by
  cases h <;> simp

/-- **C132: `blend_pixel`** on an image of integer samples converts the pixel to the type of the image, composes it over the pixel at that place and
changes no other pixel; it never fails inside the image. -/
theorem C132_blend (d : DynamicImage) (S : Prim) (m : PixelType) (b : ImageBuffer Nat m.ch) (h : IntBuf d S m b) (hb : b.Inv) (hr : InRange b S.max)
    (x y : Nat) (hx : x < d.width) (hy : y < d.height) (pixel : Pix Nat 4) (hp : ∀ c, pixel c ≤ 255) :
    ∃ d' b' p q r, d.blendPixel x y pixel = .ok d' ∧ IntBuf d' S m b' ∧ b'.Inv ∧ InRange b' S.max ∧ d'.color = d.color ∧ d'.width = d.width ∧
      d'.height = d.height ∧ b.getPixel x y = .ok p ∧ IsConverted .u8 S .rgba m pixel q ∧ b'.getPixel x y = .ok r ∧ ComposedInt S m p q r ∧
      ∀ i j, i < d.width → j < d.height → ¬(i = x ∧ j = y) → d'.samplesAt i j = d.samplesAt i j := by
  obtain ⟨hw, hh⟩ := h.dims
  rw [hw] at hx
  rw [hh] at hy
  obtain ⟨p, ep⟩ := ImageBuffer.getPixel_exists hb hx hy
  obtain ⟨q, hq, hd⟩ := blendPixel_int h pixel hp
  obtain ⟨r, er, rr, hc⟩ := blendPixel_composed h.small m p q (hr x y p hx hy ep) hq.1
  obtain ⟨b', k1, k2, k3, k4, k5, k6⟩ := blendAt_ok hb hx hy ep er
  obtain ⟨d', l1, l2, l3⟩ := hd x y b' k1
  obtain ⟨hw', hh'⟩ := l2.dims
  refine ⟨d', b', p, q, r, l1, l2, k2, ?_, l3, by rw [hw', hw, k3], by rw [hh', hh, k4], ep, hq, k5, hc, ?_⟩
  · intro i j a hi hj ha
    by_cases e : i = x ∧ j = y
    · obtain ⟨rfl, rfl⟩ := e
      rw [k5] at ha; cases ha; exact rr
    · rw [k6 i j (by omega) (by omega) e] at ha
      exact hr i j a (by omega) (by omega) ha
  · intro i j hi hj e
    rw [l2.samplesAt, h.samplesAt, k6 i j (by omega) (by omega) e]

/-- **C132: `blend_pixel` on RGBA images** of 8 and 16 bits: a fully transparent pixel leaves the image as it is and a fully opaque one does what
`put_pixel` does. -/
theorem C132_extremes (d : DynamicImage) (S : Prim) (b : ImageBuffer Nat 4) (h : IntBuf d S .rgba b) (hb : b.Inv)
    (x y : Nat) (hx : x < d.width) (hy : y < d.height) (pixel : Pix Nat 4) (hp : ∀ c, pixel c ≤ 255) :
    (pixel 3 = 0 → ∃ d', d.blendPixel x y pixel = .ok d' ∧ ∀ i j, i < d.width → j < d.height → d'.samplesAt i j = d.samplesAt i j) ∧
    (pixel 3 = 255 → d.blendPixel x y pixel = d.putPixel storeBits x y pixel) := by
  cases h with
  | rgba8 b =>
    obtain ⟨p, ep⟩ := ImageBuffer.getPixel_exists (b := b) hb hx hy
    constructor
    · intro h0
      obtain ⟨b', k1, k2, k3, k4, k5, k6⟩ := blendAt_ok hb (blend := Verif.blendPixel .u8 .rgba) hx hy ep ((C49_rgba_extremes .u8 p pixel).1 h0)
      refine ⟨rgba8 b', by simp only [blendPixel, k1, ok_bind], fun i j hi hj => ?_⟩
      by_cases e : i = x ∧ j = y
      · obtain ⟨rfl, rfl⟩ := e
        show (b'.getPixel i j).map _ = (b.getPixel i j).map _
        rw [k5, ep]
      · show (b'.getPixel i j).map _ = (b.getPixel i j).map _
        rw [k6 i j hi hj e]
    · intro h1
      have := (C49_rgba_extremes .u8 p pixel).2 h1
      simp only [blendPixel, putPixel, ImageBuffer.blendAt, ep, ok_bind, this]
  | rgba16 b =>
    obtain ⟨p, ep⟩ := ImageBuffer.getPixel_exists (b := b) hb hx hy
    obtain ⟨q, l1, l2, l3, -, l5⟩ := fromColor_converted (S := .u8) (T := .u16) (s := .rgba) (d := .rgba) (.inr (.inl ⟨rfl, rfl⟩)) hp
    have h3 : q 3 = pixel 3 * 257 := Option.some.inj l5
    constructor
    · intro h0
      obtain ⟨b', k1, k2, k3, k4, k5, k6⟩ := blendAt_ok hb (blend := Verif.blendPixel .u16 .rgba) hx hy ep
        ((C49_rgba_extremes .u16 p q).1 (by rw [h3, h0]))
      refine ⟨rgba16 b', by simp only [blendPixel, l1, k1, ok_bind], fun i j hi hj => ?_⟩
      by_cases e : i = x ∧ j = y
      · obtain ⟨rfl, rfl⟩ := e
        show (b'.getPixel i j).map _ = (b.getPixel i j).map _
        rw [k5, ep]
      · show (b'.getPixel i j).map _ = (b.getPixel i j).map _
        rw [k6 i j hi hj e]
    · intro h1
      have := (C49_rgba_extremes .u16 p q).2 (by rw [h3, h1]; rfl)
      simp only [blendPixel, putPixel, ImageBuffer.blendAt, ep, ok_bind, this, l1]

/-- **C132: images without alpha**: `blend_pixel` is `put_pixel`, whatever the alpha of the pixel is. -/
theorem C132_no_alpha (d : DynamicImage) (hv : d.Valid) (hc : d.color = .L8 ∨ d.color = .L16 ∨ d.color = .Rgb8 ∨ d.color = .Rgb16 ∨ d.color = .Rgb32F)
    (x y : Nat) (hx : x < d.width) (hy : y < d.height) (pixel : Pix Nat 4) :
    d.blendPixel x y pixel = d.putPixel storeBits x y pixel := by
  have key : ∀ {ch : Nat} (b : ImageBuffer Nat ch) (blend : Pix Nat ch → Pix Nat ch → R (Pix Nat ch)) (q : Pix Nat ch), b.Inv → x < b.width →
      y < b.height → (∀ a b, blend a b = .ok b) → b.blendAt blend x y q = b.putPixel x y q := by
    intro ch b blend q hb hx hy hbl
    obtain ⟨p, ep⟩ := ImageBuffer.getPixel_exists hb hx hy
    simp only [ImageBuffer.blendAt, ep, ok_bind, hbl]
  cases d with
  | luma8 b =>
    simp only [blendPixel, putPixel]
    cases fromColor .u8 .u8 .rgba .luma pixel with
    | error e => rfl
    | ok q => simp only [ok_bind, key b (Verif.blendPixel .u8 .luma) q hv hx hy fun _ _ => rfl]
  | rgb8 b =>
    simp only [blendPixel, putPixel]
    cases fromColor .u8 .u8 .rgba .rgb pixel with
    | error e => rfl
    | ok q => simp only [ok_bind, key b (Verif.blendPixel .u8 .rgb) q hv hx hy fun _ _ => rfl]
  | luma16 b =>
    simp only [blendPixel, putPixel]
    cases fromColor .u8 .u8 .rgba .luma pixel with
    | error e => rfl
    | ok r =>
      simp only [ok_bind]
      cases fromColor .u8 .u16 .luma .luma r with
      | error e => rfl
      | ok q => simp only [ok_bind, key b (Verif.blendPixel .u16 .luma) q hv hx hy fun _ _ => rfl]
  | rgb16 b =>
    simp only [blendPixel, putPixel]
    cases fromColor .u8 .u8 .rgba .rgb pixel with
    | error e => rfl
    | ok r =>
      simp only [ok_bind]
      cases fromColor .u8 .u16 .rgb .rgb r with
      | error e => rfl
      | ok q => simp only [ok_bind, key b (Verif.blendPixel .u16 .rgb) q hv hx hy fun _ _ => rfl]
  | rgb32F b =>
    simp only [blendPixel, putPixel]
    cases storeBits .rgb pixel with
    | error e => rfl
    | ok q => simp only [ok_bind, key b (fun _ p => .ok p) q hv hx hy fun _ _ => rfl]
  | lumaA8 b => rcases hc with h | h | h | h | h <;> cases h
  | rgba8 b => rcases hc with h | h | h | h | h <;> cases h
  | lumaA16 b => rcases hc with h | h | h | h | h <;> cases h
  | rgba16 b => rcases hc with h | h | h | h | h <;> cases h
  | rgba32F b => rcases hc with h | h | h | h | h <;> cases h

/-- **Blending a fully transparent pixel onto an image without alpha overwrites the pixel** with its colour. -/
theorem C132_transparent_false : (rgb8 ⟨1, 1, [10, 20, 30]⟩).blendPixel 0 0 (px4 255 0 0 0) = .ok (rgb8 ⟨1, 1, [255, 0, 0]⟩) := by rfl

theorem isF32_mul (a b : Fl) : IsF32 (a.mul f32 b) := by
  cases a <;> cases b <;> simp only [Fl.mul] <;> first
    | trivial
    | exact isF32_ofRat _
    | (split <;> trivial)

/-- On the values of the bit patterns, the blend of two patterns is the blend of `f32` pixels. -/
theorem blendBits_value (self other : Pix Nat 4) : ∃ r, blendBitsRgba self other = .ok r ∧
    (fun k => ofBits32 (r k)) = blendRgbaF (fun k => ofBits32 (self k)) (fun k => ofBits32 (other k)) := by
  unfold blendBitsRgba
  simp only
  split
  · rename_i h
    exact ⟨self, rfl, ((C121_extremes _ _).1 h).symm⟩
  · rename_i h0
    split
    · rename_i h
      exact ⟨other, rfl, ((C121_extremes _ _).2 h).symm⟩
    · rename_i h1
      split
      · rename_i h
        refine ⟨self, rfl, ?_⟩
        unfold blendRgbaF
        simp only
        rw [if_neg h0, if_neg h1, if_pos h]
      · rename_i h
        refine ⟨_, rfl, ?_⟩
        funext k
        refine ofBits32_toBits32 ?_
        unfold blendRgbaF
        simp only
        rw [if_neg h0, if_neg h1, if_neg h]
        match k with
        | 0 => exact isF32_mul _ _
        | 1 => exact isF32_mul _ _
        | 2 => exact isF32_mul _ _
        | 3 => exact isF32_mul _ _

/-- **C132: RGBA images of `f32` samples**: the pixel is composed over the one at that place with the source-over formula (samples between 0 and 1);
alpha 0 leaves and alpha 255 replaces the pixel, whatever its samples are; no other pixel changes. -/
theorem C132_float (b : ImageBuffer Nat 4) (hb : b.Inv) (x y : Nat) (hx : x < b.width) (hy : y < b.height) (pixel : Pix Nat 4)
    (hp : ∀ c, pixel c ≤ 255) :
    ∃ b' p q r, (rgba32F b).blendPixel x y pixel = .ok (rgba32F b') ∧ b'.Inv ∧ b'.width = b.width ∧ b'.height = b.height ∧
      b.getPixel x y = .ok p ∧ b'.getPixel x y = .ok r ∧ (∀ c, ofBits32 (q c) = f32OfUint .u8 (pixel c)) ∧
      (pixel 3 = 0 → r = p) ∧ (pixel 3 = 255 → r = q) ∧
      (UnitPix (fun k => ofBits32 (p k)) → IsOver 3 (fun k => ofBits32 (p k)) (fun k => ofBits32 (q k)) (fun k => ofBits32 (r k))) ∧
      ∀ i j, i < b.width → j < b.height → ¬(i = x ∧ j = y) → b'.getPixel i j = b.getPixel i j := by
  obtain ⟨p, ep⟩ := ImageBuffer.getPixel_exists hb hx hy
  let q : Pix Nat 4 := px4 (toBits32 (f32OfUint .u8 (pixel 0))) (toBits32 (f32OfUint .u8 (pixel 1))) (toBits32 (f32OfUint .u8 (pixel 2)))
    (toBits32 (f32OfUint .u8 (pixel 3)))
  have hq : ∀ c, ofBits32 (q c) = f32OfUint .u8 (pixel c) := by
    intro c
    match c with
    | 0 => exact dec_enc _ _
    | 1 => exact dec_enc _ _
    | 2 => exact dec_enc _ _
    | 3 => exact dec_enc _ _
  obtain ⟨r, er, hr⟩ := blendBits_value p q
  obtain ⟨b', k1, k2, k3, k4, k5, k6⟩ := blendAt_ok hb hx hy ep er
  refine ⟨b', p, q, r, ?_, k2, k3, k4, ep, k5, hq, ?_, ?_, ?_, k6⟩
  · show (do .ok (rgba32F (← b.blendAt blendBitsRgba x y (← storeBits .rgba pixel)))) = _
    simp only [storeBits, ok_bind]
    have k1' := k1
    simp only [q] at k1'
    rw [k1']; rfl
  · intro h0
    unfold blendBitsRgba at er
    have h3 : ofBits32 (q 3) = .fin 0 := by rw [hq, h0]; decide +kernel
    simp only [h3, if_true] at er
    exact (Except.ok.inj er).symm
  · intro h1
    unfold blendBitsRgba at er
    have h3 : ofBits32 (q 3) = .fin 1 := by rw [hq, h1]; decide +kernel
    simp only [h3] at er
    rw [if_neg (by rw [Fl.fin.injEq]; norm_num)] at er
    simp only [if_true] at er
    exact (Except.ok.inj er).symm
  · intro hu
    rw [hr]
    refine C121_rgba _ _ hu fun k => ?_
    obtain ⟨v, ev, v0, v1, -⟩ := f32OfUint_eq (T := .u8) (.inl rfl) (hp k)
    have hf := isF32_ofUint .u8 (pixel k)
    rw [ev] at hf
    exact ⟨v, by rw [hq, ev], hf.1, v0, v1⟩

/-! ## `overlay` -/

/-- Two nested loops that change one place of the state at each step. -/
theorem rel_loop {D P : Type} (g : D → Nat → Nat → P) (K : D → Prop) (Sel : Nat → Nat → Prop) {w h : Nat} {body : Nat → Nat → D → R D} (ox oy : Nat)
    (rel : Nat → Nat → P → P → Prop) {d0 : D} (h0 : K d0) (hsel : ∀ x y, x < w → y < h → Sel (ox + x) (oy + y))
    (step : ∀ x y, x < w → y < h → ∀ d, K d → ∃ d', body x y d = .ok d' ∧ K d' ∧ rel x y (g d (ox + x) (oy + y)) (g d' (ox + x) (oy + y)) ∧
      ∀ a b, Sel a b → ¬(a = ox + x ∧ b = oy + y) → g d' a b = g d a b) :
    ∃ d, forRange h (fun y d => forRange w (fun x d => body x y d) d) d0 = .ok d ∧ K d ∧
      (∀ x y, x < w → y < h → rel x y (g d0 (ox + x) (oy + y)) (g d (ox + x) (oy + y))) ∧
      ∀ a b, Sel a b → ¬(ox ≤ a ∧ a < ox + w ∧ oy ≤ b ∧ b < oy + h) → g d a b = g d0 a b := by
  let Inv : Nat → Nat → D → Prop := fun y x d => K d ∧
    (∀ x' y', x' < w → y' < h → (y' < y ∨ y' = y ∧ x' < x) → rel x' y' (g d0 (ox + x') (oy + y')) (g d (ox + x') (oy + y'))) ∧
    ∀ a b, Sel a b → (∀ x' y', x' < w → y' < h → (y' < y ∨ y' = y ∧ x' < x) → ¬(a = ox + x' ∧ b = oy + y')) → g d a b = g d0 a b
  obtain ⟨d, e, hK, hR, hU⟩ := forRange_inv (n := h) (f := fun y d => forRange w (fun x d => body x y d) d) (fun y d => Inv y 0 d) (s := d0)
    ⟨h0, fun x' y' _ _ hh => by omega, fun a b _ _ => rfl⟩
    (fun y hy d hd => by
      obtain ⟨d', e', hK', hR', hU'⟩ := forRange_inv (n := w) (f := fun x d => body x y d) (fun x d => Inv y x d) (s := d) hd
        (fun x hx s hs => by
          obtain ⟨s', f1, f2, f3, f4⟩ := step x y hx hy s hs.1
          refine ⟨s', f1, f2, fun x' y' hx' hy' hh => ?_, fun a b hab hh => ?_⟩
          · by_cases he : x' = x ∧ y' = y
            · obtain ⟨rfl, rfl⟩ := he
              rw [← hs.2.2 (ox + x') (oy + y') (hsel _ _ hx' hy') (fun x'' y'' _ _ h1 h2 => by omega)]
              exact f3
            · rw [f4 _ _ (hsel _ _ hx' hy') (by omega)]
              exact hs.2.1 x' y' hx' hy' (by omega)
          · rw [f4 a b hab (hh x y hx hy (by omega))]
            exact hs.2.2 a b hab fun x' y' hx' hy' h1 => hh x' y' hx' hy' (by omega))
      exact ⟨d', e', hK', fun x' y' hx' hy' hh => hR' x' y' hx' hy' (by omega), fun a b hab hh => hU' a b hab fun x' y' hx' hy' h1 =>
        hh x' y' hx' hy' (by omega)⟩)
  exact ⟨d, e, hK, fun x y hx hy => hR x y hx hy (by omega), fun a b hab hh => hU a b hab fun x' y' hx' hy' _ h2 => hh (by omega)⟩

theorem getPixel_view (ff : (s : PixelType) → Pix Nat s.ch → R (Pix Nat 4)) {d : DynamicImage} {S : Prim} {m : PixelType} {b : ImageBuffer Nat m.ch}
    (h : IntBuf d S m b) {x y : Nat} {p : Pix Nat m.ch} (e : b.getPixel x y = .ok p) (hp : ∀ c, p c ≤ S.max) :
    ∃ q, d.getPixel ff x y = .ok q ∧ IsConverted S .u8 m .rgba p q := by
  obtain ⟨r, k1, k2, k3, -, k5⟩ := fromColor_converted (S := S) (T := S) (d := .rgba) (.inl rfl) hp
  have hS := h.small
  obtain ⟨q, l1, l2, l3, -, l5⟩ := fromColor_converted (S := S) (T := .u8) (d := .rgba)
    (by rcases hS with rfl | rfl; exact .inl rfl; exact .inr (.inr ⟨rfl, rfl⟩)) k2
  have hid : ∀ v, rescale S S v = v := by intro v; rcases hS with rfl | rfl <;> rfl
  refine ⟨q, ?_, l2, fun _ i => ?_, nofun, ?_⟩
  · cases h <;> simp only [DynamicImage.getPixel, e, ok_bind, k1, l1]
  · rw [l3 rfl, k3 rfl, hid]
  · rw [l5, k5]
    rcases hS with rfl | rfl <;> cases m <;>
      first | rfl | simp [alphaOf, PixelType.hasAlpha, rescale, Prim.max, Prim.bits]

/-- An 8-bit pixel survives the way to RGBA and back. -/
theorem conv_back {m : PixelType} {p s : Pix Nat m.ch} {q : Pix Nat 4} (h1 : IsConverted .u8 .u8 m .rgba p q) (h2 : IsConverted .u8 .u8 .rgba m q s) :
    s = p := by
  obtain ⟨-, a1, -, a2⟩ := h1
  obtain ⟨-, b1, b2, b3⟩ := h2
  have a1 := a1 rfl
  cases m with
  | luma =>
    funext c
    have e := b2 rfl 0
    simp only [rgbOf, lumaOf, PixelType.isColor, if_true, rescale] at e a1
    have := a1 0; have := a1 1; have := a1 2
    match c with
    | 0 => simp only [Fin.castLE] at *; omega
  | lumaA =>
    funext c
    have e := b2 rfl 0
    simp only [rgbOf, lumaOf, PixelType.isColor, if_true, rescale] at e a1
    simp only [alphaOf, PixelType.hasAlpha, if_true, rescale, Option.some.injEq] at a2 b3
    have := a1 0; have := a1 1; have := a1 2
    match c with
    | 0 => simp only [Fin.castLE] at *; omega
    | 1 => rw [b3, a2]
  | rgb =>
    funext c
    have e := b1 rfl c
    have e' := a1 c
    simp only [rgbOf, rescale] at e e'
    rw [e, e']
  | rgba =>
    funext c
    simp only [alphaOf, PixelType.hasAlpha, if_true, rescale, Option.some.injEq] at a2 b3
    have e := b1 rfl
    simp only [rgbOf, rescale] at e a1
    match c with
    | 0 => exact (e 0).trans (a1 0)
    | 1 => exact (e 1).trans (a1 1)
    | 2 => exact (e 2).trans (a1 2)
    | 3 => rw [b3, a2]

theorem toList_inj {ch : Nat} {p q : Pix Nat ch} (h : p.toList = q.toList) : p = q := List.ofFn_injective h

/-- **C132: `overlay` onto an image of integer samples** keeps type and size and every pixel that the top image does not cover. Where it does, the pixel
is taken as 8-bit RGBA, composed with the pixel of the top image, and stored in the type of the image. In an 8-bit image of any colour type a pixel below a
fully transparent one stays as it is. -/
theorem C132_overlay {I : Type} [GenericImageView I (Pix Nat 4)] [LawfulView I (Pix Nat 4)] (d : DynamicImage) (S : Prim) (m : PixelType)
    (b : ImageBuffer Nat m.ch) (h : IntBuf d S m b) (hb : b.Inv) (hr : InRange b S.max) (top : I) (wt : WF top)
    (ht : ∀ x y p, x < widthOf top → y < heightOf top → GenericImageView.getPixel top x y = .ok p → ∀ c, p c ≤ 255)
    (x y : Int) (hx : -2 ^ 63 ≤ x ∧ x < 2 ^ 63) (hy : -2 ^ 63 ≤ y ∧ y < 2 ^ 63) :
    ∃ d' b', d.overlayOn top x y = .ok d' ∧ IntBuf d' S m b' ∧ b'.Inv ∧ InRange b' S.max ∧ d'.color = d.color ∧ d'.width = d.width ∧
      d'.height = d.height ∧ ∀ i j, i < d.width → j < d.height →
        (Covered (dims top) x y i j → ∃ p p8 q r s, d.samplesAt i j = .ok (Pix.toList (ch := m.ch) p) ∧ IsConverted S .u8 m .rgba p p8 ∧
          GenericImageView.getPixel top (i - x).toNat (j - y).toNat = .ok q ∧ ComposedInt .u8 .rgba p8 q r ∧ IsConverted .u8 S .rgba m r s ∧
          d'.samplesAt i j = .ok s.toList ∧ (S = .u8 → q 3 = 0 → s = p)) ∧
        (¬Covered (dims top) x y i j → d'.samplesAt i j = d.samplesAt i j) := by
  obtain ⟨hw, hh⟩ := h.dims
  have wb1 : d.width < 2 ^ 32 := by rw [hw]; exact width_lt (i := b) hb
  have wb2 : d.height < 2 ^ 32 := by rw [hh]; exact height_lt (i := b) hb
  have wt1 : (dims top).1 < 2 ^ 32 := width_lt wt
  have wt2 : (dims top).2 < 2 ^ 32 := height_lt wt
  obtain ⟨o, ho, hc, hm, r1, r2, r3, r4⟩ := C11_overlay_bounds_ext (d.width, d.height) (dims top) x y wb1 wb2 wt1 wt2 hx hy
  simp only at r1 r2 hc
  obtain ⟨d', e, hK, hR, hU⟩ := rel_loop (w := o.rangeW) (h := o.rangeH)
    (body := fun x y bottom => do
      let p ← GenericImageView.getPixel top (← addC 32 o.topX x) (← addC 32 o.topY y)
      let b ← GenericImageView.getPixel bottom (← addC 32 o.bottomX x) (← addC 32 o.bottomY y)
      let b ← blendRgba .u8 b p
      GenericImage.putPixel bottom (← addC 32 o.bottomX x) (← addC 32 o.bottomY y) b) (d0 := d)
    (fun d a b => d.samplesAt a b)
    (fun d' => ∃ b', IntBuf d' S m b' ∧ b'.Inv ∧ InRange b' S.max ∧ d'.color = d.color ∧ b'.width = d.width ∧ b'.height = d.height)
    (fun a b => a < d.width ∧ b < d.height) o.bottomX o.bottomY
    (fun i k u v => ∃ p p8 q r s, u = .ok (Pix.toList (ch := m.ch) p) ∧ IsConverted S .u8 m .rgba p p8 ∧
      GenericImageView.getPixel top (o.topX + i) (o.topY + k) = .ok q ∧ ComposedInt .u8 .rgba p8 q r ∧ IsConverted .u8 S .rgba m r s ∧
      v = .ok s.toList ∧ (S = .u8 → q 3 = 0 → s = p))
    ⟨b, h, hb, hr, rfl, hw.symm, hh.symm⟩
    (fun i k hi hk => ⟨by omega, by omega⟩)
    (fun i k hi hk d1 ⟨b1, i1, v1, g1, c1, w1, h1⟩ => by
      obtain ⟨hw1, hh1⟩ := i1.dims
      have hbx : o.bottomX + i < b1.width := by omega
      have hby : o.bottomY + k < b1.height := by omega
      obtain ⟨q, hq⟩ := get_ok (i := top) (x := o.topX + i) (y := o.topY + k) wt (by show _ < (dims top).1; omega) (by show _ < (dims top).2; omega)
      obtain ⟨p, ep⟩ := ImageBuffer.getPixel_exists v1 hbx hby
      have pr := g1 _ _ p hbx hby ep
      obtain ⟨p8, e8, h8⟩ := getPixel_view viewBits i1 ep pr
      have hq255 := ht _ _ q (by show _ < (dims top).1; omega) (by show _ < (dims top).2; omega) hq
      obtain ⟨r, er, rr, hcomp⟩ := blendPixel_composed (S := .u8) (.inl rfl) .rgba p8 q h8.1 hq255
      obtain ⟨d2, b2, s, f1, f2, f3, f4, f5, f6, f7, f8, f9⟩ := C52_put_pixel storeBits d1 S m b1 i1 v1 (o.bottomX + i) (o.bottomY + k)
        (by omega) (by omega) r rr
      obtain ⟨hw2, hh2⟩ := f2.dims
      refine ⟨d2, ?_, ⟨b2, f2, f3, ?_, by rw [f4, c1], by omega, by omega⟩, ⟨p, p8, q, r, s, ?_, h8, hq, hcomp, f8, ?_, ?_⟩, ?_⟩
      · rw [addC_ok (by omega), addC_ok (by omega)]
        simp only [ok_bind, hq]
        rw [addC_ok (by omega), addC_ok (by omega)]
        simp only [ok_bind]
        have e8' : GenericImageView.getPixel d1 (o.bottomX + i) (o.bottomY + k) = .ok p8 := e8
        have er' : blendRgba .u8 p8 q = .ok r := er
        have f1' : GenericImage.putPixel d1 (o.bottomX + i) (o.bottomY + k) r = .ok d2 := f1
        rw [e8', ok_bind, er', ok_bind, f1']
      · intro a c z ha hc' hz
        by_cases he : a = o.bottomX + i ∧ c = o.bottomY + k
        · obtain ⟨rfl, rfl⟩ := he
          rw [f7] at hz; cases hz; exact f8.1
        · have hs := f9 a c (by omega) (by omega) he
          rw [f2.samplesAt, i1.samplesAt, hz] at hs
          obtain ⟨z0, hz0⟩ := ImageBuffer.getPixel_exists v1 (x := a) (y := c) (by omega) (by omega)
          rw [hz0] at hs
          have : z = z0 := toList_inj (Except.ok.inj hs)
          rw [this]
          exact g1 a c z0 (by omega) (by omega) hz0
      · show d1.samplesAt _ _ = _
        rw [i1.samplesAt, ep]; rfl
      · show d2.samplesAt _ _ = _
        rw [f2.samplesAt, f7]; rfl
      · intro hS h0
        subst hS
        have : r = p8 := hcomp.1 h0
        subst this
        exact conv_back h8 f8
      · intro a c hac he
        exact f9 a c (by omega) (by omega) he)
  obtain ⟨b', i', v', g', c', w', h'⟩ := hK
  obtain ⟨hw', hh'⟩ := i'.dims
  refine ⟨d', b', ?_, i', v', g', c', by omega, by omega, fun i j hi hj => ⟨fun hcov => ?_, fun hcov => ?_⟩⟩
  · show overlay _ d top x y = _
    unfold overlay
    have ho' : overlayBoundsExt (dims d) (dims top) x y = .ok o := ho
    rw [ho', ok_bind]
    exact e
  · have hcon := (hc i j).2 ⟨hi, hj, hcov⟩
    obtain ⟨m1, m2⟩ := hm i j hcon
    obtain ⟨n1, n2, n3, n4⟩ := hcon
    obtain ⟨p, p8, q, r, s, t1, t2, t3, t4, t5, t6, t7⟩ := hR (i - o.bottomX) (j - o.bottomY) (by omega) (by omega)
    rw [show o.bottomX + (i - o.bottomX) = i by omega, show o.bottomY + (j - o.bottomY) = j by omega] at t1 t6
    refine ⟨p, p8, q, r, s, t1, t2, ?_, t4, t5, t6, t7⟩
    rw [← t3]
    congr 1 <;> omega
  · refine hU i j ⟨hi, hj⟩ fun hin => hcov ?_
    exact ((hc i j).1 ⟨by omega, by omega, by omega, by omega⟩).2.2

/-- **A fully transparent picture over a 16-bit image changes it**: the samples are cut to 8 bits on the way. -/
theorem C132_overlay_false :
    (luma16 ⟨1, 1, [4660]⟩).overlayOn (⟨1, 1, [0, 0, 0, 0]⟩ : ImageBuffer Nat 4) 0 0 = .ok (luma16 ⟨1, 1, [4626]⟩) := by
  decide +kernel

example : (rgba8 ⟨1, 1, [10, 20, 30, 255]⟩).blendPixel 0 0 (px4 200 100 0 128) = .ok (rgba8 ⟨1, 1, [105, 60, 14, 254]⟩) := by decide +kernel
example : IntBuf (rgba8 ⟨1, 1, [0, 0, 200, 255]⟩) .u8 .rgba ⟨1, 1, [0, 0, 200, 255]⟩ ∧ (⟨1, 1, [0, 0, 200, 255]⟩ : ImageBuffer Nat 4).Inv ∧
    (∀ v ∈ (⟨1, 1, [0, 0, 200, 255]⟩ : ImageBuffer Nat 4).data, v ≤ 255) :=
  ⟨.rgba8 _, ⟨by decide, by decide, by decide, by decide⟩, by decide⟩
example : (rgb8 ⟨2, 1, [10, 20, 30, 40, 50, 60]⟩).overlayOn (⟨1, 1, [255, 255, 255, 0]⟩ : ImageBuffer Nat 4) 0 0 =
    .ok (rgb8 ⟨2, 1, [10, 20, 30, 40, 50, 60]⟩) := by decide +kernel

end DynamicImage
end Verif
