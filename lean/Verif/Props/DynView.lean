import Verif.Props.DynBlend
import Verif.Props.Affine
import Verif.Props.Generic

/-!
# A `DynamicImage` behind the generic image traits (C133)

Functions that take any `GenericImageView` (crops, rotations, `overlay`, `replace`, `copy_from`, …) accept a `DynamicImage` and then see 8-bit RGBA pixels.
`Props/Dynamic.lean` and `Props/FloatDyn.lean` say what one pixel is; here is what follows for whole images.
-/

namespace Verif
open GenericImageView GenericImage LawfulView LawfulImage

namespace DynamicImage

/-- A `DynamicImage` as the library makes it: a buffer that holds every pixel, with samples that fit their type. The `f32` samples may be anything. -/
def Good (d : DynamicImage) : Prop :=
  (∃ S m b, IntBuf d S m b ∧ b.Inv ∧ ∀ v ∈ b.data, v ≤ S.max) ∨ ∃ m b, FloatBuf d m b ∧ b.Inv

theorem _root_.Verif.FloatBuf.dims {d : DynamicImage} {m : PixelType} {b : ImageBuffer Nat m.ch} (h : FloatBuf d m b) :
    d.width = b.width ∧ d.height = b.height := by cases h <;> exact ⟨rfl, rfl⟩

/-- Two RGBA pixels that are the same conversion are equal. -/
theorem converted_unique {S : Prim} {m : PixelType} {p : Pix Nat m.ch} {q q' : Pix Nat 4} (h : IsConverted S .u8 m .rgba p q)
    (h' : IsConverted S .u8 m .rgba p q') : q = q' := by
  have e := h.2.1 rfl
  have e' := h'.2.1 rfl
  have a : some (q 3) = some (q' 3) := h.2.2.2.trans h'.2.2.2.symm
  funext c
  match c with
  | 0 => exact (e 0).trans (e' 0).symm
  | 1 => exact (e 1).trans (e' 1).symm
  | 2 => exact (e 2).trans (e' 2).symm
  | 3 => exact Option.some.inj a

/-- `to_rgba` and then to 8 bits is the same as the conversion in one step. -/
theorem viewBits_eq {s : PixelType} (hs : s = .rgb ∨ s = .rgba) (p : Pix Nat s.ch) : viewBits s p = convertBits .u8 .rgba s p := by
  rcases hs with rfl | rfl
  · have ha1 : uintOfF32 .u8 (.fin 1) = .ok 255 := (C51_special .u8 (.inl rfl)).2.2.2.2 1 le_rfl
    unfold viewBits convertBits
    simp only [toRgbaFloat, fromColorFloat, px4_0, px4_1, px4_2, px4_3, ha1, ok_bind]
    rfl
  · rfl

theorem good_get {d : DynamicImage} (h : Good d) {x y : Nat} (hx : x < d.width) (hy : y < d.height) :
    ∃ q, d.getPixel viewBits x y = .ok q ∧ ∀ c, q c ≤ 255 := by
  rcases h with ⟨S, m, b, h, hb, hr⟩ | ⟨m, b, h, hb⟩
  · obtain ⟨hw, hh⟩ := h.dims
    obtain ⟨p, e, hp⟩ := getPixel_le hb hr (x := x) (y := y) (by omega) (by omega)
    obtain ⟨q, e1, e2⟩ := getPixel_view viewBits h e hp
    exact ⟨q, e1, e2.1⟩
  · obtain ⟨p, q, -, e1, -, -, -, e2⟩ := C130_get_pixel d m b h hb x y hx hy
    exact ⟨q, e1, e2⟩

instance : LawfulView DynamicImage (Pix Nat 4) where
  WF := Good
  width_lt := by
    rintro d (⟨S, m, b, h, hb, -⟩ | ⟨m, b, h, hb⟩)
    · show d.width < _; rw [h.dims.1]; exact hb.1
    · show d.width < _; rw [h.dims.1]; exact hb.1
  height_lt := by
    rintro d (⟨S, m, b, h, hb, -⟩ | ⟨m, b, h, hb⟩)
    · show d.height < _; rw [h.dims.2]; exact hb.2
    · show d.height < _; rw [h.dims.2]; exact hb.2
  get_ok := fun h hx hy => let ⟨q, e, _⟩ := good_get h hx hy; ⟨q, e⟩

/-- **C133: the view of a `DynamicImage` is its `to_rgba8()`.** For every image of every type, `get_pixel` succeeds on exactly the pixels of the image and
returns the pixel of `to_rgba8()` at that place. -/
theorem C133_rgba8 (d : DynamicImage) (h : Good d) (hs : d.width * d.height * 4 < 2 ^ 64) :
    ∃ b : ImageBuffer Nat 4, d.toType .u8 .rgba (convertBits .u8 .rgba) = .ok b ∧ b.Inv ∧ b.width = d.width ∧ b.height = d.height ∧
      (∀ x y, x < d.width → y < d.height → ∃ q, GenericImageView.getPixel d x y = .ok q ∧ b.getPixel x y = .ok q) ∧
      ∀ x y, ¬(x < d.width ∧ y < d.height) → GenericImageView.getPixel d x y = .error .panic := by
  have hout : ∀ x y, ¬(x < d.width ∧ y < d.height) → GenericImageView.getPixel d x y = .error .panic := by
    intro x y hxy
    show d.getPixel viewBits x y = _
    cases d <;> (simp only [DynamicImage.getPixel]; rw [C01_get_pixel_out_of_bounds _ x y (by simp only [width, height, useBuf] at hxy; omega)]; rfl)
  rcases h with ⟨S, m, b, h, hb, hr⟩ | ⟨m, b, h, hb⟩
  · obtain ⟨hw, hh⟩ := h.dims
    obtain ⟨b', e1, e2, e3, e4, e5⟩ := C52_to d S .u8 (.inl rfl) m .rgba (convertBits .u8 .rgba) b h hb hr (by rw [← hw, ← hh]; exact hs)
    refine ⟨b', e1, e2, e3, e4, fun x y hx hy => ?_, hout⟩
    obtain ⟨p, q, k1, k2, k3⟩ := e5 x y (by omega) (by omega)
    obtain ⟨p', l1, l2⟩ := getPixel_le hb hr (x := x) (y := y) (by omega) (by omega)
    rw [k1] at l1; cases l1
    obtain ⟨q', m1, m2⟩ := getPixel_view viewBits h k1 l2
    rw [converted_unique k3 m2] at k2
    exact ⟨q', m1, k2⟩
  · have hm : m = .rgb ∨ m = .rgba := h.type
    obtain ⟨hw, hh⟩ := h.dims
    obtain ⟨b', e1, e2, e3, e4, e5⟩ := convert_total 0 (convertBits .u8 .rgba m) (fun p => by
      obtain ⟨q, hq, -⟩ := fromColorFloat_ok .u8 (.inl rfl) m .rgba hm fun k => ofBits32 (p k)
      exact ⟨q, hq⟩) b hb (ch_range .rgba) (ch_range m) (by rw [← hw, ← hh]; exact hs)
    refine ⟨b', ?_, e2, by omega, by omega, fun x y hx hy => ?_, hout⟩
    · cases h <;> exact e1
    · obtain ⟨p, hp⟩ := ImageBuffer.getPixel_exists hb (x := x) (y := y) (by omega) (by omega)
      obtain ⟨q, k1, k2⟩ := e5 x y p (by omega) (by omega) hp
      refine ⟨q, ?_, k2⟩
      rw [← viewBits_eq hm] at k1
      show d.getPixel viewBits x y = _
      cases h <;> simp only [DynamicImage.getPixel, hp, ok_bind, k1]

/-- **C133: flips and rotations.** Rotating and flipping two views of the same picture gives the same buffer; so for a `DynamicImage` it is the rotated
or flipped `to_rgba8()`. -/
theorem C133_affine (d : DynamicImage) (h : Good d) (hs : d.width * d.height * 4 < 2 ^ 64) (b : ImageBuffer Nat 4)
    (hb : d.toType .u8 .rgba (convertBits .u8 .rgba) = .ok b) :
    Verif.rotate90 0 d = Verif.rotate90 0 b ∧ Verif.rotate180 0 d = Verif.rotate180 0 b ∧ Verif.rotate270 0 d = Verif.rotate270 0 b ∧
    Verif.flipHorizontal 0 d = Verif.flipHorizontal 0 b ∧ Verif.flipVertical 0 d = Verif.flipVertical 0 b := by
  obtain ⟨b', e1, ib, e3, e4, e5, -⟩ := C133_rgba8 d h hs
  rw [hb] at e1; cases e1
  have same : ∀ x y, x < d.width → y < d.height → GenericImageView.getPixel d x y = GenericImageView.getPixel b x y := by
    intro x y hx hy
    obtain ⟨q, k1, k2⟩ := e5 x y hx hy
    exact k1.trans k2.symm
  have hs' : b.width * b.height * 4 < 2 ^ 64 := by rw [e3, e4]; exact hs
  have wd : widthOf d = d.width := rfl
  have hd : heightOf d = d.height := rfl
  have wb : widthOf b = b.width := rfl
  have hb' : heightOf b = b.height := rfl
  refine ⟨?_, ?_, ?_, ?_, ?_⟩
  · obtain ⟨u, u1, u2, u3, u4⟩ := C13_rotate90 0 d h (by decide) hs
    obtain ⟨v, v1, v2, v3, v4⟩ := C13_rotate90 0 b ib (by decide) hs'
    obtain ⟨wa, va, pa⟩ := u4.pull
    obtain ⟨wc, vc, pc⟩ := v4.pull
    rw [u1, v1]
    congr 1
    refine ImageBuffer.ext_exact v2 u2 v3 u3 ⟨Prod.ext ?_ ?_, fun x y hx hy => ?_⟩
    · show widthOf u = widthOf v; omega
    · show heightOf u = heightOf v; omega
    · rw [pa _ _ (by omega) (by omega), pc _ _ (by omega) (by omega), same _ _ (by omega) (by omega)]; congr 1; omega
  · obtain ⟨u, u1, u2, u3, u4⟩ := C13_rotate180 0 d h (by decide) hs
    obtain ⟨v, v1, v2, v3, v4⟩ := C13_rotate180 0 b ib (by decide) hs'
    obtain ⟨wa, va, pa⟩ := u4.pull
    obtain ⟨wc, vc, pc⟩ := v4.pull
    rw [u1, v1]
    congr 1
    refine ImageBuffer.ext_exact v2 u2 v3 u3 ⟨Prod.ext ?_ ?_, fun x y hx hy => ?_⟩
    · show widthOf u = widthOf v; omega
    · show heightOf u = heightOf v; omega
    · rw [pa _ _ (by omega) (by omega), pc _ _ (by omega) (by omega), same _ _ (by omega) (by omega)]; congr 1 <;> omega
  · obtain ⟨u, u1, u2, u3, u4⟩ := C13_rotate270 0 d h (by decide) hs
    obtain ⟨v, v1, v2, v3, v4⟩ := C13_rotate270 0 b ib (by decide) hs'
    obtain ⟨wa, va, pa⟩ := u4.pull
    obtain ⟨wc, vc, pc⟩ := v4.pull
    rw [u1, v1]
    congr 1
    refine ImageBuffer.ext_exact v2 u2 v3 u3 ⟨Prod.ext ?_ ?_, fun x y hx hy => ?_⟩
    · show widthOf u = widthOf v; omega
    · show heightOf u = heightOf v; omega
    · rw [pa _ _ (by omega) (by omega), pc _ _ (by omega) (by omega), same _ _ (by omega) (by omega)]; congr 1; omega
  · obtain ⟨u, u1, u2, u3, u4⟩ := C13_flip_horizontal 0 d h (by decide) hs
    obtain ⟨v, v1, v2, v3, v4⟩ := C13_flip_horizontal 0 b ib (by decide) hs'
    obtain ⟨wa, va, pa⟩ := u4.pull
    obtain ⟨wc, vc, pc⟩ := v4.pull
    rw [u1, v1]
    congr 1
    refine ImageBuffer.ext_exact v2 u2 v3 u3 ⟨Prod.ext ?_ ?_, fun x y hx hy => ?_⟩
    · show widthOf u = widthOf v; omega
    · show heightOf u = heightOf v; omega
    · rw [pa _ _ (by omega) (by omega), pc _ _ (by omega) (by omega), same _ _ (by omega) (by omega)]; congr 1; omega
  · obtain ⟨u, u1, u2, u3, u4⟩ := C13_flip_vertical 0 d h (by decide) hs
    obtain ⟨v, v1, v2, v3, v4⟩ := C13_flip_vertical 0 b ib (by decide) hs'
    obtain ⟨wa, va, pa⟩ := u4.pull
    obtain ⟨wc, vc, pc⟩ := v4.pull
    rw [u1, v1]
    congr 1
    refine ImageBuffer.ext_exact v2 u2 v3 u3 ⟨Prod.ext ?_ ?_, fun x y hx hy => ?_⟩
    · show widthOf u = widthOf v; omega
    · show heightOf u = heightOf v; omega
    · rw [pa _ _ (by omega) (by omega), pc _ _ (by omega) (by omega), same _ _ (by omega) (by omega)]; congr 1; omega

/-- **C133: crops.** `crop_imm(&image, x, y, w, h).to_image()` of a `DynamicImage` succeeds for every rectangle and is the part of `to_rgba8()` inside it. -/
theorem C133_crop (d : DynamicImage) (h : Good d) (hs : d.width * d.height * 4 < 2 ^ 64) (b : ImageBuffer Nat 4)
    (hb : d.toType .u8 .rgba (convertBits .u8 .rgba) = .ok b) (x y w k : Nat) :
    ∃ out : ImageBuffer Nat 4, (cropImm d x y w k >>= fun v => v.toImage 0) = .ok out ∧ out.width = min w (d.width - x) ∧ out.height = min k (d.height - y) ∧
      ∀ i j, i < out.width → j < out.height → ∃ p, out.getPixel i j = .ok p ∧ b.getPixel (x + i) (y + j) = .ok p := by
  obtain ⟨b', e1, ib, e3, e4, e5, -⟩ := C133_rgba8 d h hs
  rw [hb] at e1; cases e1
  have wd : widthOf d = d.width := rfl
  have hd : heightOf d = d.height := rfl
  obtain ⟨v, v1, v2, v3, v4, v5, -, v7⟩ := C10_crop d h x y w k
  rw [wd] at v4
  rw [hd] at v5
  obtain ⟨out, o1, o2, o3, o4, o5⟩ := C09_to_image 0 v v2 (by decide) (by
    refine Nat.lt_of_le_of_lt (Nat.mul_le_mul_right 4 (Nat.mul_le_mul ?_ ?_)) hs <;> omega)
  refine ⟨out, by rw [v1, ok_bind, o1], by omega, by omega, fun i j hi hj => ?_⟩
  obtain ⟨q, k1, k2⟩ := e5 (x + i) (y + j) (by omega) (by omega)
  refine ⟨q, ?_, k2⟩
  rw [o5 i j (by omega) (by omega), ← k1, ← v7 i j (by omega) (by omega)]
  exact (SubImage.getPixel_eq v2 (by omega) (by omega)).symm

/-! ## Writing -/

/-- What `get_pixel` shows after `pixel` was stored in an image of colour type `c`: the pixel itself, its luminance if the image is grey, and full alpha
if the image has none. -/
def Shown (c : ColorType) (pixel q : Pix Nat 4) : Prop :=
  (∀ i : Fin 4, i ≠ 3 → q i = if c.hasColor then pixel i else (2126 * pixel 0 + 7152 * pixel 1 + 722 * pixel 2) / 10000) ∧
  q 3 = if c.hasAlpha then pixel 3 else 255

theorem putPixel_int {d : DynamicImage} {S : Prim} {m : PixelType} {b : ImageBuffer Nat m.ch} (h : IntBuf d S m b) (pixel : Pix Nat 4)
    (hp : ∀ c, pixel c ≤ 255) :
    ∃ q, IsConverted .u8 S .rgba m pixel q ∧ ∀ x y b', b.putPixel x y q = .ok b' →
      ∃ d', d.putPixel storeBits x y pixel = .ok d' ∧ IntBuf d' S m b' ∧ d'.color = d.color := by
  obtain ⟨r, h1, hr⟩ : ∃ q, fromColor .u8 .u8 .rgba m pixel = .ok q ∧ IsConverted .u8 .u8 .rgba m pixel q :=
    fromColor_converted (.inl rfl) hp
  obtain ⟨r2, k1, hr2⟩ : ∃ q, fromColor .u8 .u16 m m r = .ok q ∧ IsConverted .u8 .u16 .rgba m pixel q := by
    obtain ⟨h2, h3, h4, h5⟩ := hr
    obtain ⟨q, k1, k2, k3, k4, k5⟩ := fromColor_converted (S := .u8) (T := .u16) (s := m) (d := m) (.inr (.inl ⟨rfl, rfl⟩)) h2
    refine ⟨q, k1, k2, fun hc i => ?_, fun hc i => ?_, ?_⟩
    · rw [k3 hc, h3 hc]; rfl
    · rw [k4 hc, lumaOf, if_neg (by simp [hc]), h4 hc]; rfl
    · rw [k5, h5]; cases m <;> rfl
  obtain ⟨r4, l1, hr4⟩ : ∃ q, fromColor .u8 .u16 .rgba .rgba pixel = .ok q ∧ IsConverted .u8 .u16 .rgba .rgba pixel q :=
    fromColor_converted (.inr (.inl ⟨rfl, rfl⟩)) hp
  have hsame : IsConverted .u8 .u8 .rgba .rgba pixel pixel := ⟨hp, fun _ _ => rfl, nofun, rfl⟩
  cases h
  case rgba8 => exact ⟨pixel, hsame, fun x y b' e => ⟨.rgba8 b', by simp only [putPixel, e, ok_bind], .rgba8 b', rfl⟩⟩
  case rgba16 => exact ⟨r4, hr4, fun x y b' e => ⟨.rgba16 b', by simp only [putPixel, l1, e, ok_bind], .rgba16 b', rfl⟩⟩
  case luma8 => exact ⟨r, hr, fun x y b' e => ⟨.luma8 b', by simp only [putPixel, h1, e, ok_bind], .luma8 b', rfl⟩⟩
  case lumaA8 => exact ⟨r, hr, fun x y b' e => ⟨.lumaA8 b', by simp only [putPixel, h1, e, ok_bind], .lumaA8 b', rfl⟩⟩
  case rgb8 => exact ⟨r, hr, fun x y b' e => ⟨.rgb8 b', by simp only [putPixel, h1, e, ok_bind], .rgb8 b', rfl⟩⟩
  case luma16 => exact ⟨r2, hr2, fun x y b' e => ⟨.luma16 b', by simp only [putPixel, h1, k1, e, ok_bind], .luma16 b', rfl⟩⟩
  case lumaA16 => exact ⟨r2, hr2, fun x y b' e => ⟨.lumaA16 b', by simp only [putPixel, h1, k1, e, ok_bind], .lumaA16 b', rfl⟩⟩
  case rgb16 => exact ⟨r2, hr2, fun x y b' e => ⟨.rgb16 b', by simp only [putPixel, h1, k1, e, ok_bind], .rgb16 b', rfl⟩⟩

theorem rescale_back {S : Prim} (hS : S = .u8 ∨ S = .u16) (v : Nat) : rescale S .u8 (rescale .u8 S v) = v := by
  rcases hS with rfl | rfl
  · rfl
  · simp only [rescale]; omega

theorem _root_.Verif.IntBuf.color {d : DynamicImage} {S : Prim} {m : PixelType} {b : ImageBuffer Nat m.ch} (h : IntBuf d S m b) :
    d.color.hasColor = m.isColor ∧ d.color.hasAlpha = m.hasAlpha := by cases h <;> exact ⟨rfl, rfl⟩

theorem shown_int {S : Prim} (hS : S = .u8 ∨ S = .u16) {m : PixelType} {c : ColorType} (h1 : c.hasColor = m.isColor) (h2 : c.hasAlpha = m.hasAlpha)
    {pixel : Pix Nat 4} {s : Pix Nat m.ch} {q : Pix Nat 4} (hs : IsConverted .u8 S .rgba m pixel s) (hq : IsConverted S .u8 m .rgba s q) :
    Shown c pixel q := by
  have e := hq.2.1 rfl
  have a := hq.2.2.2
  have hmax : rescale S .u8 S.max = 255 := by rcases hS with rfl | rfl <;> rfl
  constructor
  · intro i hi
    have key : ∀ j : Fin 3, rgbOf .rgba q j = if c.hasColor then rgbOf .rgba pixel j else (2126 * pixel 0 + 7152 * pixel 1 + 722 * pixel 2) / 10000 := by
      intro j
      rw [e j, h1]
      cases hc : m.isColor with
      | true => rw [hs.2.1 hc j, rescale_back hS]; rfl
      | false => rw [hs.2.2.1 hc j, rescale_back hS]; rfl
    match i with
    | 0 => exact key 0
    | 1 => exact key 1
    | 2 => exact key 2
    | 3 => exact absurd rfl hi
  · have b := hs.2.2.2
    rw [h2]
    cases hm : m.hasAlpha with
    | true =>
      rw [hm] at b
      simp only [if_true] at b
      rw [b] at a
      simp only [alphaOf, PixelType.hasAlpha, if_true, Option.some.injEq] at a
      rw [a, rescale_back hS]; rfl
    | false =>
      rw [hm] at b
      simp only [Bool.false_eq_true, if_false] at b
      rw [b] at a
      simp only [alphaOf, PixelType.hasAlpha, if_true, Option.some.injEq] at a
      rw [a]; rfl

theorem map_toList_inj {ch : Nat} {a b : R (Pix Nat ch)} (h : a.map Pix.toList = b.map Pix.toList) : a = b := by
  cases a <;> cases b <;> simp only [Except.map, reduceCtorEq, Except.ok.injEq, Except.error.injEq] at h ⊢
  · exact h
  · exact toList_inj h

/-- The view shows nothing but the samples. -/
theorem view_of_samples {d d' : DynamicImage} (hc : d'.color = d.color) {i j : Nat} (h : d'.samplesAt i j = d.samplesAt i j) :
    GenericImageView.getPixel d' i j = GenericImageView.getPixel d i j := by
  show d'.getPixel viewBits i j = d.getPixel viewBits i j
  cases d <;> cases d' <;> first
    | (cases hc; done)
    | (have := map_toList_inj h; simp only [DynamicImage.getPixel, this])

theorem mem_overwrite {α : Type} {l r : List α} {s : Nat} {v : α} (h : v ∈ overwrite l s r) : v ∈ l ∨ v ∈ r := by
  simp only [overwrite, List.mem_append] at h
  rcases h with (h | h) | h
  · exact .inl (List.mem_of_mem_take h)
  · exact .inr h
  · exact .inl (List.mem_of_mem_drop h)

/-- **C133: writing one pixel** of a `DynamicImage` of any type: it succeeds inside the image, keeps type and size, shows the pixel as far as the type can
hold it, and changes no sample of any other pixel. -/
theorem C133_put (d : DynamicImage) (h : Good d) (x y : Nat) (hx : x < d.width) (hy : y < d.height) (pixel : Pix Nat 4) (hp : ∀ c, pixel c ≤ 255) :
    ∃ d' q, GenericImage.putPixel d x y pixel = .ok d' ∧ Good d' ∧ d'.color = d.color ∧ d'.width = d.width ∧ d'.height = d.height ∧
      GenericImageView.getPixel d' x y = .ok q ∧ Shown d.color pixel q ∧
      ∀ i j, i < d.width → j < d.height → ¬(i = x ∧ j = y) → d'.samplesAt i j = d.samplesAt i j := by
  rcases h with ⟨S, m, b, h, hb, hr⟩ | ⟨m, b, h, hb⟩
  · obtain ⟨hw, hh⟩ := h.dims
    obtain ⟨s, hs, hd⟩ := putPixel_int h pixel hp
    obtain ⟨b', k1, k2, k3, k4, -, k5, k6⟩ := C02_put_get b hb x y (by omega) (by omega) s
    obtain ⟨d', l1, l2, l3⟩ := hd x y b' k1
    obtain ⟨hw', hh'⟩ := l2.dims
    obtain ⟨q, e1, e2⟩ := getPixel_view viewBits l2 k5 hs.1
    refine ⟨d', q, l1, .inl ⟨S, m, b', l2, k2, ?_⟩, l3, by omega, by omega, e1, shown_int h.small h.color.1 h.color.2 hs e2, fun i j hi hj hne => ?_⟩
    · rw [ImageBuffer.putPixel_ok hb (by omega) (by omega)] at k1
      cases k1
      intro v hv
      rcases mem_overwrite hv with hv | hv
      · exact hr v hv
      · obtain ⟨c, rfl⟩ := (List.mem_ofFn ..).1 hv
        exact hs.1 c
    · rw [l2.samplesAt, h.samplesAt, k6 i j (by omega) (by omega) hne]
  · obtain ⟨d', b', q, k1, k2, k3, k4, k5, k6, k7, q0, q1, q2, q3, k8⟩ := C130_put_get d m b h hb x y hx hy pixel hp
    refine ⟨d', q, k1, .inr ⟨m, b', k2, k3⟩, k4, k5, k6, k7, ⟨fun i hi => ?_, ?_⟩, k8⟩
    · rw [if_pos (by cases h <;> rfl)]
      match i with
      | 0 => exact q0
      | 1 => exact q1
      | 2 => exact q2
      | 3 => exact absurd rfl hi
    · rw [q3]
      cases h <;> rfl

/-- **C133: `replace`** onto a `DynamicImage` of any type, for every top image and offset: never fails, keeps type and size, shows the pixels of the top
image where it covers the image, and changes no sample elsewhere. -/
theorem C133_replace {I : Type} [GenericImageView I (Pix Nat 4)] [LawfulView I (Pix Nat 4)] (d : DynamicImage) (h : Good d) (top : I) (wt : WF top)
    (ht : ∀ x y p, x < widthOf top → y < heightOf top → GenericImageView.getPixel top x y = .ok p → ∀ c, p c ≤ 255)
    (x y : Int) (hx : -2 ^ 63 ≤ x ∧ x < 2 ^ 63) (hy : -2 ^ 63 ≤ y ∧ y < 2 ^ 63) :
    ∃ d', replace d top x y = .ok d' ∧ Good d' ∧ d'.color = d.color ∧ d'.width = d.width ∧ d'.height = d.height ∧
      ∀ i j, i < d.width → j < d.height →
        (Covered (dims top) x y i j → ∃ p q, GenericImageView.getPixel top (i - x).toNat (j - y).toNat = .ok p ∧
          GenericImageView.getPixel d' i j = .ok q ∧ Shown d.color p q) ∧
        (¬Covered (dims top) x y i j → d'.samplesAt i j = d.samplesAt i j) := by
  have wb1 : d.width < 2 ^ 32 := width_lt (i := d) h
  have wb2 : d.height < 2 ^ 32 := height_lt (i := d) h
  have wt1 : (dims top).1 < 2 ^ 32 := width_lt wt
  have wt2 : (dims top).2 < 2 ^ 32 := height_lt wt
  obtain ⟨o, ho, hc, hm, r1, r2, r3, r4⟩ := C11_overlay_bounds_ext (d.width, d.height) (dims top) x y wb1 wb2 wt1 wt2 hx hy
  simp only at r1 r2 hc
  obtain ⟨d', e, hK, hR, hU⟩ := rel_loop (w := o.rangeW) (h := o.rangeH)
    (body := fun x y bottom => do
      let p ← GenericImageView.getPixel top (← addC 32 o.topX x) (← addC 32 o.topY y)
      GenericImage.putPixel bottom (← addC 32 o.bottomX x) (← addC 32 o.bottomY y) p) (d0 := d)
    (fun d a b => (d.samplesAt a b, GenericImageView.getPixel d a b))
    (fun d' => Good d' ∧ d'.color = d.color ∧ d'.width = d.width ∧ d'.height = d.height)
    (fun a b => a < d.width ∧ b < d.height) o.bottomX o.bottomY
    (fun i k _ v => ∃ p q, GenericImageView.getPixel top (o.topX + i) (o.topY + k) = .ok p ∧ v.2 = .ok q ∧ Shown d.color p q)
    ⟨h, rfl, rfl, rfl⟩
    (fun i k hi hk => ⟨by omega, by omega⟩)
    (fun i k hi hk d1 ⟨g1, c1, w1, h1⟩ => by
      obtain ⟨p, hp⟩ := get_ok (i := top) (x := o.topX + i) (y := o.topY + k) wt (by show _ < (dims top).1; omega) (by show _ < (dims top).2; omega)
      have hp255 := ht _ _ p (by show _ < (dims top).1; omega) (by show _ < (dims top).2; omega) hp
      obtain ⟨d2, q, f1, f2, f3, f4, f5, f6, f7, f8⟩ := C133_put d1 g1 (o.bottomX + i) (o.bottomY + k) (by omega) (by omega) p hp255
      refine ⟨d2, ?_, ⟨f2, by rw [f3, c1], by omega, by omega⟩, ⟨p, q, hp, f6, by rw [← c1]; exact f7⟩, fun a c hac he => ?_⟩
      · rw [addC_ok (by omega), addC_ok (by omega)]
        simp only [ok_bind, hp]
        rw [addC_ok (by omega), addC_ok (by omega)]
        simp only [ok_bind, f1]
      · have := f8 a c (by omega) (by omega) he
        exact Prod.ext this (view_of_samples f3 this))
  obtain ⟨g', c', w', h'⟩ := hK
  refine ⟨d', ?_, g', c', w', h', fun i j hi hj => ⟨fun hcov => ?_, fun hcov => ?_⟩⟩
  · unfold replace
    have ho' : overlayBoundsExt (dims d) (dims top) x y = .ok o := ho
    rw [ho', ok_bind]
    exact e
  · have hcon := (hc i j).2 ⟨hi, hj, hcov⟩
    obtain ⟨m1, m2⟩ := hm i j hcon
    obtain ⟨n1, n2, n3, n4⟩ := hcon
    obtain ⟨p, q, t1, t2, t3⟩ := hR (i - o.bottomX) (j - o.bottomY) (by omega) (by omega)
    rw [show o.bottomX + (i - o.bottomX) = i by omega, show o.bottomY + (j - o.bottomY) = j by omega] at t2
    refine ⟨p, q, ?_, t2, t3⟩
    rw [← t1]
    congr 1 <;> omega
  · refine congrArg Prod.fst (hU i j ⟨hi, hj⟩ fun hin => hcov ?_)
    exact ((hc i j).1 ⟨by omega, by omega, by omega, by omega⟩).2.2

/-- **C133: `copy_from`** into a `DynamicImage` of any type: an error, and no change, exactly if the other image does not fit at that place (offsets whose
sum with the size exceeds `u32` panic, see C07); otherwise the other image is shown there and no sample changes elsewhere. -/
theorem C133_copy_from {I : Type} [GenericImageView I (Pix Nat 4)] [LawfulView I (Pix Nat 4)] (d : DynamicImage) (h : Good d) (src : I) (ws : WF src)
    (ht : ∀ x y p, x < widthOf src → y < heightOf src → GenericImageView.getPixel src x y = .ok p → ∀ c, p c ≤ 255)
    (x y : Nat) (hx : x + widthOf src < 2 ^ 32) (hy : y + heightOf src < 2 ^ 32) :
    if x + widthOf src ≤ d.width ∧ y + heightOf src ≤ d.height then
      ∃ d', copyFrom d src x y = .ok d' ∧ Good d' ∧ d'.color = d.color ∧ d'.width = d.width ∧ d'.height = d.height ∧
        (∀ i k, i < widthOf src → k < heightOf src → ∃ p q, GenericImageView.getPixel src i k = .ok p ∧
          GenericImageView.getPixel d' (x + i) (y + k) = .ok q ∧ Shown d.color p q) ∧
        ∀ a b, a < d.width → b < d.height → ¬(x ≤ a ∧ a < x + widthOf src ∧ y ≤ b ∧ b < y + heightOf src) → d'.samplesAt a b = d.samplesAt a b
    else copyFrom d src x y = .error (.err .dimensionMismatch) := by
  have wd : widthOf d = d.width := rfl
  have hd : heightOf d = d.height := rfl
  have wb1 : d.width < 2 ^ 32 := width_lt (i := d) h
  have wb2 : d.height < 2 ^ 32 := height_lt (i := d) h
  split
  · rename_i hf
    obtain ⟨d', e, ⟨g', c', w', h'⟩, hR, hU⟩ := rel_loop (w := widthOf src) (h := heightOf src)
      (body := fun i k dst => do
        let p ← GenericImageView.getPixel src i k
        GenericImage.putPixel dst (← addC 32 i x) (← addC 32 k y) p) (d0 := d)
      (fun d a b => (d.samplesAt a b, GenericImageView.getPixel d a b))
      (fun d' => Good d' ∧ d'.color = d.color ∧ d'.width = d.width ∧ d'.height = d.height)
      (fun a b => a < d.width ∧ b < d.height) x y
      (fun i k _ v => ∃ p q, GenericImageView.getPixel src i k = .ok p ∧ v.2 = .ok q ∧ Shown d.color p q)
      ⟨h, rfl, rfl, rfl⟩
      (fun i k hi hk => ⟨by omega, by omega⟩)
      (fun i k hi hk d1 ⟨g1, c1, w1, h1⟩ => by
        obtain ⟨p, hp⟩ := get_ok (i := src) (x := i) (y := k) ws hi hk
        obtain ⟨d2, q, f1, f2, f3, f4, f5, f6, f7, f8⟩ := C133_put d1 g1 (x + i) (y + k) (by omega) (by omega) p (ht _ _ p hi hk hp)
        refine ⟨d2, ?_, ⟨f2, by rw [f3, c1], by omega, by omega⟩, ⟨p, q, hp, f6, by rw [← c1]; exact f7⟩, fun a c hac he => ?_⟩
        · simp only [ok_bind, hp]
          rw [addC_ok (by omega), addC_ok (by omega)]
          simp only [ok_bind]
          rw [Nat.add_comm i, Nat.add_comm k, f1]
        · have := f8 a c (by omega) (by omega) he
          exact Prod.ext this (view_of_samples f3 this))
    refine ⟨d', ?_, g', c', w', h', fun i k hi hk => hR i k hi hk, fun a c ha hc' hn => congrArg Prod.fst (hU a c ⟨ha, hc'⟩ hn)⟩
    unfold copyFrom
    rw [addC_ok (by omega), addC_ok (by omega)]
    simp only [ok_bind]
    rw [if_neg (by omega), if_neg (by omega)]
    exact e
  · rename_i hf
    unfold copyFrom
    rw [addC_ok (by omega), addC_ok (by omega)]
    simp only [ok_bind]
    split
    · rfl
    · rw [if_pos (by omega)]; rfl

/-- `q` composed over `p` as 8-bit RGBA and stored in an image of colour type `c` shows as `s`. -/
def ShownOver (c : ColorType) (p q s : Pix Nat 4) : Prop := ∃ r, ComposedInt .u8 .rgba p q r ∧ Shown c r s

/-- **C133: `overlay`** onto a `DynamicImage` of any type, for every top image and offset: never fails, keeps type and size; where the top image covers the
image its pixel is composed over the one that was shown before; no sample changes elsewhere. -/
theorem C133_overlay {I : Type} [GenericImageView I (Pix Nat 4)] [LawfulView I (Pix Nat 4)] (d : DynamicImage) (h : Good d) (top : I) (wt : WF top)
    (ht : ∀ x y p, x < widthOf top → y < heightOf top → GenericImageView.getPixel top x y = .ok p → ∀ c, p c ≤ 255)
    (x y : Int) (hx : -2 ^ 63 ≤ x ∧ x < 2 ^ 63) (hy : -2 ^ 63 ≤ y ∧ y < 2 ^ 63) :
    ∃ d', d.overlayOn top x y = .ok d' ∧ Good d' ∧ d'.color = d.color ∧ d'.width = d.width ∧ d'.height = d.height ∧
      ∀ i j, i < d.width → j < d.height →
        (Covered (dims top) x y i j → ∃ p q s, GenericImageView.getPixel d i j = .ok p ∧
          GenericImageView.getPixel top (i - x).toNat (j - y).toNat = .ok q ∧ GenericImageView.getPixel d' i j = .ok s ∧ ShownOver d.color p q s) ∧
        (¬Covered (dims top) x y i j → d'.samplesAt i j = d.samplesAt i j) := by
  have wb1 : d.width < 2 ^ 32 := width_lt (i := d) h
  have wb2 : d.height < 2 ^ 32 := height_lt (i := d) h
  have wt1 : (dims top).1 < 2 ^ 32 := width_lt wt
  have wt2 : (dims top).2 < 2 ^ 32 := height_lt wt
  obtain ⟨o, ho, hc, hm, r1, r2, r3, r4⟩ := C11_overlay_bounds_ext (d.width, d.height) (dims top) x y wb1 wb2 wt1 wt2 hx hy
  simp only at r1 r2 hc
  obtain ⟨d', e, hK, hR, hU⟩ := rel_loop (w := o.rangeW) (h := o.rangeH)
    (body := fun x y bottom => do
      let p ← GenericImageView.getPixel top (← addC 32 o.topX x) (← addC 32 o.topY y)
      let b ← GenericImageView.getPixel bottom (← addC 32 o.bottomX x) (← addC 32 o.bottomY y)
      let b ← blendRgba .u8 b p
      GenericImage.putPixel bottom (← addC 32 o.bottomX x) (← addC 32 o.bottomY y) b) (d0 := d)
    (fun d a b => (d.samplesAt a b, GenericImageView.getPixel d a b))
    (fun d' => Good d' ∧ d'.color = d.color ∧ d'.width = d.width ∧ d'.height = d.height)
    (fun a b => a < d.width ∧ b < d.height) o.bottomX o.bottomY
    (fun i k u v => ∃ p q s, u.2 = .ok p ∧ GenericImageView.getPixel top (o.topX + i) (o.topY + k) = .ok q ∧ v.2 = .ok s ∧ ShownOver d.color p q s)
    ⟨h, rfl, rfl, rfl⟩
    (fun i k hi hk => ⟨by omega, by omega⟩)
    (fun i k hi hk d1 ⟨g1, c1, w1, h1⟩ => by
      obtain ⟨q, hq⟩ := get_ok (i := top) (x := o.topX + i) (y := o.topY + k) wt (by show _ < (dims top).1; omega) (by show _ < (dims top).2; omega)
      have hq255 := ht _ _ q (by show _ < (dims top).1; omega) (by show _ < (dims top).2; omega) hq
      obtain ⟨p, hp, hp255⟩ := good_get g1 (x := o.bottomX + i) (y := o.bottomY + k) (by omega) (by omega)
      obtain ⟨r, er, rr, hcomp⟩ := blendPixel_composed (S := .u8) (.inl rfl) .rgba p q hp255 hq255
      obtain ⟨d2, s, f1, f2, f3, f4, f5, f6, f7, f8⟩ := C133_put d1 g1 (o.bottomX + i) (o.bottomY + k) (by omega) (by omega) r rr
      refine ⟨d2, ?_, ⟨f2, by rw [f3, c1], by omega, by omega⟩, ⟨p, q, s, hp, hq, f6, r, hcomp, by rw [← c1]; exact f7⟩, fun a c hac he => ?_⟩
      · rw [addC_ok (by omega), addC_ok (by omega)]
        simp only [ok_bind, hq]
        rw [addC_ok (by omega), addC_ok (by omega)]
        simp only [ok_bind]
        have hp' : GenericImageView.getPixel d1 (o.bottomX + i) (o.bottomY + k) = .ok p := hp
        have er' : blendRgba .u8 p q = .ok r := er
        rw [hp', ok_bind, er', ok_bind, f1]
      · have := f8 a c (by omega) (by omega) he
        exact Prod.ext this (view_of_samples f3 this))
  obtain ⟨g', c', w', h'⟩ := hK
  refine ⟨d', ?_, g', c', w', h', fun i j hi hj => ⟨fun hcov => ?_, fun hcov => ?_⟩⟩
  · show overlay _ d top x y = _
    unfold overlay
    have ho' : overlayBoundsExt (dims d) (dims top) x y = .ok o := ho
    rw [ho', ok_bind]
    exact e
  · have hcon := (hc i j).2 ⟨hi, hj, hcov⟩
    obtain ⟨m1, m2⟩ := hm i j hcon
    obtain ⟨n1, n2, n3, n4⟩ := hcon
    obtain ⟨p, q, s, t0, t1, t2, t3⟩ := hR (i - o.bottomX) (j - o.bottomY) (by omega) (by omega)
    rw [show o.bottomX + (i - o.bottomX) = i by omega, show o.bottomY + (j - o.bottomY) = j by omega] at t0 t2
    refine ⟨p, q, s, t0, ?_, t2, t3⟩
    rw [← t1]
    congr 1 <;> omega
  · refine congrArg Prod.fst (hU i j ⟨hi, hj⟩ fun hin => hcov ?_)
    exact ((hc i j).1 ⟨by omega, by omega, by omega, by omega⟩).2.2

/-- **C133: `tile`** onto a `DynamicImage` of any type: every pixel is composed exactly once with the pixel of the top image at its coordinates modulo the
size of the top image. -/
theorem C133_tile {I : Type} [GenericImageView I (Pix Nat 4)] [LawfulView I (Pix Nat 4)] (d : DynamicImage) (h : Good d) (top : I) (wt : WF top)
    (ht : ∀ x y p, x < widthOf top → y < heightOf top → GenericImageView.getPixel top x y = .ok p → ∀ c, p c ≤ 255)
    (ht1 : 0 < widthOf top) (ht2 : 0 < heightOf top) :
    ∃ d', tile (blendRgba .u8) d top = .ok d' ∧ Good d' ∧ d'.color = d.color ∧ d'.width = d.width ∧ d'.height = d.height ∧
      ∀ a b, a < d.width → b < d.height → ∃ p q s, GenericImageView.getPixel d a b = .ok p ∧
        GenericImageView.getPixel top (a % widthOf top) (b % heightOf top) = .ok q ∧ GenericImageView.getPixel d' a b = .ok s ∧
        ShownOver d.color p q s := by
  have wb1 : d.width < 2 ^ 32 := width_lt (i := d) h
  have wb2 : d.height < 2 ^ 32 := height_lt (i := d) h
  have e1 : (widthOf top != 0) = true := by simp; omega
  have e2 : (heightOf top != 0) = true := by simp; omega
  let Inv : Nat → Nat → DynamicImage → Prop := fun i j d' =>
    Good d' ∧ d'.color = d.color ∧ d'.width = d.width ∧ d'.height = d.height ∧ ∀ a b, a < d.width → b < d.height →
      ((a / widthOf top < i ∨ (a / widthOf top = i ∧ b / heightOf top < j)) →
        ∃ p q s, GenericImageView.getPixel d a b = .ok p ∧ GenericImageView.getPixel top (a % widthOf top) (b % heightOf top) = .ok q ∧
          GenericImageView.getPixel d' a b = .ok s ∧ ShownOver d.color p q s) ∧
      (¬(a / widthOf top < i ∨ (a / widthOf top = i ∧ b / heightOf top < j)) →
        GenericImageView.getPixel d' a b = GenericImageView.getPixel d a b)
  have step : ∀ i j, i < stepCount d.width (widthOf top) → j < stepCount d.height (heightOf top) → ∀ d1, Inv i j d1 →
      ∃ d', overlay (blendRgba .u8) d1 top (i * widthOf top : Nat) (j * heightOf top : Nat) = .ok d' ∧ Inv i (j + 1) d' := by
    intro i j hi hj d1 ⟨w1, w2, w3, w4, w5⟩
    have hi' := stepCount_le ht1 hi
    have hj' := stepCount_le ht2 hj
    obtain ⟨d', o1, o2, o3, o4, o5, o6⟩ := C133_overlay d1 w1 top wt ht ((i * widthOf top : Nat) : Int) ((j * heightOf top : Nat) : Int)
      (by omega) (by omega)
    refine ⟨d', o1, o2, o3.trans w2, o4.trans w3, o5.trans w4, ?_⟩
    intro a b ha hb
    obtain ⟨c1, c2⟩ := o6 a b (by omega) (by omega)
    obtain ⟨v1, v2⟩ := w5 a b ha hb
    have hcov : Covered (dims top) ((i * widthOf top : Nat) : Int) ((j * heightOf top : Nat) : Int) a b ↔
        i = a / widthOf top ∧ j = b / heightOf top := by
      rw [← step_cover ht1, ← step_cover ht2]
      unfold Covered
      change _ ≤ _ ∧ _ < _ + ((widthOf top : Nat) : Int) ∧ _ ≤ _ ∧ _ < _ + ((heightOf top : Nat) : Int) ↔ _
      omega
    by_cases hcv : i = a / widthOf top ∧ j = b / heightOf top
    · constructor
      · intro _
        obtain ⟨p, q, s, t1, t2, t3, t4⟩ := c1 (hcov.2 hcv)
        refine ⟨p, q, s, ?_, ?_, t3, w2 ▸ t4⟩
        · rw [← v2 (by omega)]; exact t1
        · have m1 : (((a : Nat) : Int) - ((i * widthOf top : Nat) : Int)).toNat = a % widthOf top := by
            have := Nat.div_add_mod a (widthOf top)
            rw [← hcv.1, Nat.mul_comm] at this; omega
          have m2 : (((b : Nat) : Int) - ((j * heightOf top : Nat) : Int)).toNat = b % heightOf top := by
            have := Nat.div_add_mod b (heightOf top)
            rw [← hcv.2, Nat.mul_comm] at this; omega
          rw [← m1, ← m2]; exact t2
      · intro hn; omega
    · have same : GenericImageView.getPixel d' a b = GenericImageView.getPixel d1 a b :=
        view_of_samples o3 (c2 (fun h => hcv (hcov.1 h)))
      rw [same]
      constructor
      · intro h
        exact v1 (by omega)
      · intro h; exact v2 (by omega)
  have close : ∀ i d', Inv i (stepCount d.height (heightOf top)) d' → Inv (i + 1) 0 d' := by
    intro i d' ⟨w1, w2, w3, w4, w5⟩
    refine ⟨w1, w2, w3, w4, fun a b ha hb => ?_⟩
    obtain ⟨v1, v2⟩ := w5 a b ha hb
    have hbj := div_lt_stepCount ht2 hb
    have := Nat.zero_le (b / heightOf top)
    constructor
    · intro h; exact v1 (by omega)
    · intro h; exact v2 (by omega)
  obtain ⟨d', h1, h2, h3, h4, h5, h6⟩ := forRange_inv (n := stepCount d.width (widthOf top))
    (f := fun i bottom' => forRange (stepCount (heightOf bottom') (heightOf top)) (fun j bottom'' =>
      overlay (blendRgba .u8) bottom'' top (i * widthOf top : Nat) (j * heightOf top : Nat)) bottom')
    (fun i d => Inv i 0 d) (s := d)
    ⟨h, rfl, rfl, rfl, fun a b _ _ => ⟨fun h => by simp at h, fun _ => rfl⟩⟩ (by
      intro i hi d1 hd
      have hh : heightOf d1 = d.height := hd.2.2.2.1
      rw [hh]
      obtain ⟨d', e1, e2⟩ := forRange_inv (fun j d => Inv i j d) hd (fun j hj d h => step i j hi hj d h)
      exact ⟨d', e1, close i d' e2⟩)
  refine ⟨d', ?_, h2, h3, h4, h5, fun a b ha hb => (h6 a b ha hb).1 (Or.inl (div_lt_stepCount ht1 ha))⟩
  unfold tile
  rw [e1, e2]
  simp only [assertR_true, ok_bind]
  exact h1

/-- **A 16-bit image is not shown as it is**: copying a picture of the same type into an image through the generic traits loses the low bits. -/
theorem C133_exact_false : copyFrom (luma16 ⟨1, 1, [0]⟩) (luma16 ⟨1, 1, [4660]⟩) 0 0 = .ok (luma16 ⟨1, 1, [4626]⟩) := by decide +kernel

/-- **`copy_within` on a 16-bit `DynamicImage` does not copy the samples**: the copy has lost the low bits. -/
theorem C133_copy_within_false : copyWithin (luma16 ⟨2, 1, [4660, 0]⟩) 0 0 1 1 1 0 = .ok (true, luma16 ⟨2, 1, [4660, 4626]⟩) := by decide +kernel

example : Good (luma16 ⟨2, 1, [4660, 65535]⟩) :=
  .inl ⟨.u16, .luma, _, .luma16 _, ⟨by decide, by decide, by decide, by decide⟩, by decide⟩
example : Good (rgb32F ⟨1, 1, [0x7fc00000, 0xff800000, 0x3f800000]⟩) := .inr ⟨.rgb, _, .rgb _, ⟨by decide, by decide, by decide, by decide⟩⟩
example : replace (luma8 ⟨2, 1, [1, 2]⟩) (rgb8 ⟨1, 1, [255, 0, 0]⟩) 1 0 = .ok (luma8 ⟨2, 1, [1, 54]⟩) := by decide +kernel
example : tile (blendRgba .u8) (rgb8 ⟨3, 1, [1, 2, 3, 4, 5, 6, 7, 8, 9]⟩) (⟨2, 1, [9, 9, 9, 255, 0, 0, 0, 0]⟩ : ImageBuffer Nat 4) =
    .ok (rgb8 ⟨3, 1, [9, 9, 9, 4, 5, 6, 9, 9, 9]⟩) := by decide +kernel
example : copyFrom (rgb8 ⟨1, 1, [1, 2, 3]⟩) (rgb8 ⟨2, 1, [1, 2, 3, 4, 5, 6]⟩) 0 0 = .error (.err .dimensionMismatch) := by decide +kernel

end DynamicImage
end Verif
