import Verif.Model.Dynamic
import Verif.Props.Color
import Verif.Props.Metadata
import Verif.Props.Buffer

/-!
# `DynamicImage` (C16, C52)
-/

namespace Verif
open GenericImageView GenericImage LawfulView LawfulImage

namespace DynamicImage

/-- The container holds all pixels (true for every `DynamicImage`, by C01). -/
def Valid (d : DynamicImage) : Prop := d.useBuf fun b => b.Inv

/-- The samples of the pixel at `(x, y)`, in channel order, whatever the pixel type. -/
def samplesAt (d : DynamicImage) (x y : Nat) : R (List Nat) :=
  d.useBuf fun b => (b.getPixel x y).map Pix.toList

/-- `b` and `b'` are the buffers of two images of the same variant, related by `Q`. -/
inductive Lift (Q : {ch : Nat} → ImageBuffer Nat ch → ImageBuffer Nat ch → Prop) :
    DynamicImage → DynamicImage → Prop
  | luma8 {b b'} : Q b b' → Lift Q (luma8 b) (luma8 b')
  | lumaA8 {b b'} : Q b b' → Lift Q (lumaA8 b) (lumaA8 b')
  | rgb8 {b b'} : Q b b' → Lift Q (rgb8 b) (rgb8 b')
  | rgba8 {b b'} : Q b b' → Lift Q (rgba8 b) (rgba8 b')
  | luma16 {b b'} : Q b b' → Lift Q (luma16 b) (luma16 b')
  | lumaA16 {b b'} : Q b b' → Lift Q (lumaA16 b) (lumaA16 b')
  | rgb16 {b b'} : Q b b' → Lift Q (rgb16 b) (rgb16 b')
  | rgba16 {b b'} : Q b b' → Lift Q (rgba16 b) (rgba16 b')
  | rgb32F {b b'} : Q b b' → Lift Q (rgb32F b) (rgb32F b')
  | rgba32F {b b'} : Q b b' → Lift Q (rgba32F b) (rgba32F b')

theorem Lift.color_eq {Q : {ch : Nat} → ImageBuffer Nat ch → ImageBuffer Nat ch → Prop}
    {d d' : DynamicImage} (h : Lift Q d d') : d'.color = d.color := by cases h <;> rfl

theorem mapBuf_ok {f : {ch : Nat} → ImageBuffer Nat ch → R (ImageBuffer Nat ch)}
    {Q : {ch : Nat} → ImageBuffer Nat ch → ImageBuffer Nat ch → Prop} {d : DynamicImage} (hv : d.Valid)
    (h : ∀ {ch} (b : ImageBuffer Nat ch), 0 < ch → ch < 256 → b.Inv → b.width * b.height * ch < 2 ^ 64 →
      ∃ b', f b = .ok b' ∧ b'.Inv ∧ Q b b') :
    ∃ d', d.mapBuf f = .ok d' ∧ d'.Valid ∧ Lift Q d d' := by
  cases d <;> rename_i b <;>
  · obtain ⟨b', h1, h2, h3⟩ := h b (by decide) (by decide) hv
      (Nat.lt_of_le_of_lt (ImageBuffer.Inv.fits hv) (ImageBuffer.Inv.len64 hv))
    refine ⟨_, by simp only [mapBuf, h1, ok_bind]; rfl, ?_, ?_⟩
    · exact h2
    · constructor
      exact h3

/-- What a pixel-moving relation on buffers says about the dynamic images. -/
theorem Lift.moves {Q : {ch : Nat} → ImageBuffer Nat ch → ImageBuffer Nat ch → Prop}
    {d d' : DynamicImage} (h : Lift Q d d') {C : DynamicImage → DynamicImage → Prop}
    (f : ∀ {ch} (b b' : ImageBuffer Nat ch), Q b b' →
      (∀ d d' : DynamicImage, d.width = b.width → d.height = b.height → d'.width = b'.width →
        d'.height = b'.height → (∀ x y, d.samplesAt x y = (b.getPixel x y).map Pix.toList) →
        (∀ x y, d'.samplesAt x y = (b'.getPixel x y).map Pix.toList) → C d d')) : C d d' := by
  cases h <;> rename_i hq <;> exact f _ _ hq _ _ rfl rfl rfl rfl (fun _ _ => rfl) (fun _ _ => rfl)

end DynamicImage

/-! ## C16 -/

/-- The four sides of the displayed image. -/
inductive Side
  | top | bottom | left | right
  deriving DecidableEq

/-- Table of the Exif standard (tag 274, Orientation): at which side of the displayed image the 0th row and
the 0th column of the stored image are. -/
def exifSides : Nat → Side × Side
  | 1 => (.top, .left)
  | 2 => (.top, .right)
  | 3 => (.bottom, .right)
  | 4 => (.bottom, .left)
  | 5 => (.left, .top)
  | 6 => (.right, .top)
  | 7 => (.right, .bottom)
  | 8 => (.left, .bottom)
  | _ => (.top, .left)

/-- In a displayed image of size `W × H`, `(X, Y)` lies `n` steps from side `s`. -/
def StepsFrom (W H : Nat) (s : Side) (n X Y : Nat) : Prop :=
  match s with
  | .top => Y = n
  | .bottom => Y + n + 1 = H
  | .left => X = n
  | .right => X + n + 1 = W

/-- `d'` shows the stored image `d` as Exif orientation `n` demands: row `y` of `d` is `y` steps from the
side of the 0th row and column `x` is `x` steps from the side of the 0th column. -/
def ShownAs (n : Nat) (d d' : DynamicImage) : Prop :=
  ((d'.width, d'.height) = if (exifSides n).1 = .top ∨ (exifSides n).1 = .bottom then (d.width, d.height)
    else (d.height, d.width)) ∧
  ∀ x y X Y, x < d.width → y < d.height → X < d'.width → Y < d'.height →
    StepsFrom d'.width d'.height (exifSides n).1 y X Y →
    StepsFrom d'.width d'.height (exifSides n).2 x X Y →
    d'.samplesAt X Y = d.samplesAt x y

namespace DynamicImage

theorem rotate90_ok {d : DynamicImage} (hv : d.Valid) :
    ∃ d', d.rotate90 = .ok d' ∧ d'.Valid ∧ Lift (fun b b' => IsRot90 b b') d d' :=
  mapBuf_ok hv fun b _ hc hi hs => by
    obtain ⟨b', h1, h2, -, h4⟩ := C13_rotate90 0 b hi hc hs
    exact ⟨b', h1, h2, h4⟩

theorem rotate270_ok {d : DynamicImage} (hv : d.Valid) :
    ∃ d', d.rotate270 = .ok d' ∧ d'.Valid ∧ Lift (fun b b' => IsRot270 b b') d d' :=
  mapBuf_ok hv fun b _ hc hi hs => by
    obtain ⟨b', h1, h2, -, h4⟩ := C13_rotate270 0 b hi hc hs
    exact ⟨b', h1, h2, h4⟩

theorem rotate180_ok {d : DynamicImage} (hv : d.Valid) :
    ∃ d', d.rotate180 = .ok d' ∧ d'.Valid ∧ Lift (fun b b' => IsRot180 b b') d d' :=
  mapBuf_ok hv fun b _ hc hi hs => by
    obtain ⟨b', h1, h2, -, h4⟩ := C13_rotate180 0 b hi hc hs
    exact ⟨b', h1, h2, h4⟩

theorem fliph_ok {d : DynamicImage} (hv : d.Valid) :
    ∃ d', d.fliph = .ok d' ∧ d'.Valid ∧ Lift (fun b b' => IsFlipH b b') d d' :=
  mapBuf_ok hv fun b _ hc hi hs => by
    obtain ⟨b', h1, h2, -, h4⟩ := C13_flip_horizontal 0 b hi hc hs
    exact ⟨b', h1, h2, h4⟩

theorem flipv_ok {d : DynamicImage} (hv : d.Valid) :
    ∃ d', d.flipv = .ok d' ∧ d'.Valid ∧ Lift (fun b b' => IsFlipV b b') d d' :=
  mapBuf_ok hv fun b _ hc hi hs => by
    obtain ⟨b', h1, h2, -, h4⟩ := C13_flip_vertical 0 b hi hc hs
    exact ⟨b', h1, h2, h4⟩

theorem rotate180InPlace_ok {d : DynamicImage} (hv : d.Valid) :
    ∃ d', d.rotate180InPlace = .ok d' ∧ d'.Valid ∧ Lift (fun b b' => IsRot180 b b') d d' :=
  mapBuf_ok hv fun b _ _ hi _ => C14_rotate180_in_place_spec b hi

theorem fliphInPlace_ok {d : DynamicImage} (hv : d.Valid) :
    ∃ d', d.fliphInPlace = .ok d' ∧ d'.Valid ∧ Lift (fun b b' => IsFlipH b b') d d' :=
  mapBuf_ok hv fun b _ _ hi _ => C14_flip_horizontal_in_place_spec b hi

theorem flipvInPlace_ok {d : DynamicImage} (hv : d.Valid) :
    ∃ d', d.flipvInPlace = .ok d' ∧ d'.Valid ∧ Lift (fun b b' => IsFlipV b b') d d' :=
  mapBuf_ok hv fun b _ _ hi _ => C14_flip_vertical_in_place_spec b hi

theorem Lift.comp {Q R : {ch : Nat} → ImageBuffer Nat ch → ImageBuffer Nat ch → Prop}
    {a b c : DynamicImage} (h : Lift Q a b) (g : Lift R b c) :
    Lift (fun x z => ∃ y, Q x y ∧ R y z) a c := by
  cases h <;> cases g <;> (constructor; exact ⟨_, ‹_›, ‹_›⟩)

end DynamicImage
open DynamicImage

theorem shown_of {Q : {ch : Nat} → ImageBuffer Nat ch → ImageBuffer Nat ch → Prop}
    {d d' : DynamicImage} (h : Lift Q d d') (n : Nat)
    (hn : ¬ ((exifSides n).1 = .top ∨ (exifSides n).1 = .bottom) ↔ 5 ≤ n)
    (hQ : ∀ {ch} (b b' : ImageBuffer Nat ch), Q b b' →
      ((b'.width, b'.height) = if 5 ≤ n then (b.height, b.width) else (b.width, b.height)) ∧
      ∀ x y X Y, x < b.width → y < b.height → X < b'.width → Y < b'.height →
        StepsFrom b'.width b'.height (exifSides n).1 y X Y →
        StepsFrom b'.width b'.height (exifSides n).2 x X Y → b'.getPixel X Y = b.getPixel x y) :
    ShownAs n d d' ∧
      ((d'.width, d'.height) = if 5 ≤ n then (d.height, d.width) else (d.width, d.height)) := by
  refine h.moves (C := fun d d' => ShownAs n d d' ∧ ((d'.width, d'.height) = if 5 ≤ n then (d.height, d.width)
    else (d.width, d.height))) fun b b' hq d d' e1 e2 e3 e4 e5 e6 => ?_
  obtain ⟨g1, g2⟩ := hQ b b' hq
  have hd : (d'.width, d'.height) = if 5 ≤ n then (d.height, d.width) else (d.width, d.height) := by
    rw [e1, e2, e3, e4]; exact g1
  refine ⟨⟨?_, ?_⟩, hd⟩
  · rw [hd]
    by_cases h5 : 5 ≤ n
    · rw [if_pos h5, if_neg (hn.2 h5)]
    · have : (exifSides n).1 = .top ∨ (exifSides n).1 = .bottom := by
        false_or_by_contra; rename_i hc; exact h5 (hn.1 hc)
      rw [if_neg h5, if_pos this]
  · intro x y X Y hx hy hX hY k1 k2
    rw [e3, e4] at k1 k2
    rw [e5, e6, g2 x y X Y (by omega) (by omega) (by omega) (by omega) k1 k2]

/-- The orientation found for Exif code `n` displays the image as the Exif standard demands, keeps the
colour type, and swaps the dimensions exactly for codes 5 to 8. -/
theorem C16_apply_orientation (d : DynamicImage) (hv : d.Valid) (n : Nat) (o : Orientation)
    (ho : Orientation.fromExif n = some o) :
    ∃ d', d.applyOrientation o = .ok d' ∧ d'.Valid ∧ d'.color = d.color ∧ ShownAs n d d' ∧
      ((d'.width, d'.height) = if 5 ≤ n then (d.height, d.width) else (d.width, d.height)) := by
  have hn := (Orientation.C15_from_iff n o).1 ho
  subst hn
  cases o
  · refine ⟨d, rfl, hv, rfl, ⟨rfl, ?_⟩, rfl⟩
    intro x y X Y _ _ _ _ h1 h2
    obtain rfl : Y = y := h1
    obtain rfl : X = x := h2
    rfl
  · obtain ⟨d', h1, h2, h3⟩ := rotate90_ok hv
    refine ⟨d', h1, h2, h3.color_eq, shown_of h3 _ (by decide) fun b b' hq => ?_⟩
    obtain ⟨w', h', hp⟩ := hq.pull
    simp only [widthOf, heightOf, dims] at w' h' hp
    refine ⟨by simp [Orientation.toExif, w', h'], fun x y X Y hx hy hX hY k1 k2 => ?_⟩
    simp only [exifSides, Orientation.toExif, StepsFrom] at k1 k2
    refine (hp X Y (by omega) (by omega)).trans ?_
    show b.getPixel _ _ = b.getPixel _ _
    congr 1 <;> omega
  · obtain ⟨d', h1, h2, h3⟩ := rotate180InPlace_ok hv
    refine ⟨d', h1, h2, h3.color_eq, shown_of h3 _ (by decide) fun b b' hq => ?_⟩
    obtain ⟨w', h', hp⟩ := hq.pull
    simp only [widthOf, heightOf, dims] at w' h' hp
    refine ⟨by simp [Orientation.toExif, w', h'], fun x y X Y hx hy hX hY k1 k2 => ?_⟩
    simp only [exifSides, Orientation.toExif, StepsFrom] at k1 k2
    refine (hp X Y (by omega) (by omega)).trans ?_
    show b.getPixel _ _ = b.getPixel _ _
    congr 1 <;> omega
  · obtain ⟨d', h1, h2, h3⟩ := rotate270_ok hv
    refine ⟨d', h1, h2, h3.color_eq, shown_of h3 _ (by decide) fun b b' hq => ?_⟩
    obtain ⟨w', h', hp⟩ := hq.pull
    simp only [widthOf, heightOf, dims] at w' h' hp
    refine ⟨by simp [Orientation.toExif, w', h'], fun x y X Y hx hy hX hY k1 k2 => ?_⟩
    simp only [exifSides, Orientation.toExif, StepsFrom] at k1 k2
    refine (hp X Y (by omega) (by omega)).trans ?_
    show b.getPixel _ _ = b.getPixel _ _
    congr 1 <;> omega
  · obtain ⟨d', h1, h2, h3⟩ := fliphInPlace_ok hv
    refine ⟨d', h1, h2, h3.color_eq, shown_of h3 _ (by decide) fun b b' hq => ?_⟩
    obtain ⟨w', h', hp⟩ := hq.pull
    simp only [widthOf, heightOf, dims] at w' h' hp
    refine ⟨by simp [Orientation.toExif, w', h'], fun x y X Y hx hy hX hY k1 k2 => ?_⟩
    simp only [exifSides, Orientation.toExif, StepsFrom] at k1 k2
    refine (hp X Y (by omega) (by omega)).trans ?_
    show b.getPixel _ _ = b.getPixel _ _
    congr 1 <;> omega
  · obtain ⟨d', h1, h2, h3⟩ := flipvInPlace_ok hv
    refine ⟨d', h1, h2, h3.color_eq, shown_of h3 _ (by decide) fun b b' hq => ?_⟩
    obtain ⟨w', h', hp⟩ := hq.pull
    simp only [widthOf, heightOf, dims] at w' h' hp
    refine ⟨by simp [Orientation.toExif, w', h'], fun x y X Y hx hy hX hY k1 k2 => ?_⟩
    simp only [exifSides, Orientation.toExif, StepsFrom] at k1 k2
    refine (hp X Y (by omega) (by omega)).trans ?_
    show b.getPixel _ _ = b.getPixel _ _
    congr 1 <;> omega
  · obtain ⟨d1, h1, h2, h3⟩ := rotate90_ok hv
    obtain ⟨d', k1, k2, k3⟩ := fliphInPlace_ok h2
    refine ⟨d', ?_, k2, k3.color_eq.trans h3.color_eq, shown_of (h3.comp k3) _ (by decide) fun b b' hq => ?_⟩
    · simp only [applyOrientation, h1, ok_bind]; exact k1
    obtain ⟨c, hq1, hq2⟩ := hq
    obtain ⟨w1, h1, hp1⟩ := hq1.pull
    obtain ⟨w', h', hp⟩ := hq2.pull
    simp only [widthOf, heightOf, dims] at w' h' hp w1 h1 hp1
    refine ⟨by simp [Orientation.toExif, w', h', w1, h1], fun x y X Y hx hy hX hY k1 k2 => ?_⟩
    simp only [exifSides, Orientation.toExif, StepsFrom] at k1 k2
    refine (hp X Y (by omega) (by omega)).trans ((hp1 _ _ (by omega) (by omega)).trans ?_)
    show b.getPixel _ _ = b.getPixel _ _
    congr 1 <;> omega
  · obtain ⟨d1, h1, h2, h3⟩ := rotate270_ok hv
    obtain ⟨d', k1, k2, k3⟩ := fliphInPlace_ok h2
    refine ⟨d', ?_, k2, k3.color_eq.trans h3.color_eq, shown_of (h3.comp k3) _ (by decide) fun b b' hq => ?_⟩
    · simp only [applyOrientation, h1, ok_bind]; exact k1
    obtain ⟨c, hq1, hq2⟩ := hq
    obtain ⟨w1, h1, hp1⟩ := hq1.pull
    obtain ⟨w', h', hp⟩ := hq2.pull
    simp only [widthOf, heightOf, dims] at w' h' hp w1 h1 hp1
    refine ⟨by simp [Orientation.toExif, w', h', w1, h1], fun x y X Y hx hy hX hY k1 k2 => ?_⟩
    simp only [exifSides, Orientation.toExif, StepsFrom] at k1 k2
    refine (hp X Y (by omega) (by omega)).trans ((hp1 _ _ (by omega) (by omega)).trans ?_)
    show b.getPixel _ _ = b.getPixel _ _
    congr 1 <;> omega

-- a 3 × 2 image stored rotated: code 6 turns it clockwise
example : (luma8 ⟨3, 2, [1, 2, 3, 4, 5, 6]⟩).applyOrientation .Rotate90 =
    .ok (luma8 ⟨2, 3, [4, 1, 5, 2, 6, 3]⟩) := by rfl
example : (luma8 ⟨3, 2, [1, 2, 3, 4, 5, 6]⟩).applyOrientation .Rotate90FlipH =
    .ok (luma8 ⟨2, 3, [1, 4, 2, 5, 3, 6]⟩) := by rfl
example : (luma8 ⟨3, 2, [1, 2, 3, 4, 5, 6]⟩).Valid :=
  ⟨by decide, by decide, by decide, by decide⟩

/-! ## C52 -/

/-- `d'` has the colour type of `d`, size `w × h`, and its pixel at `(x, y)` is the pixel of `d` at
`f x y`. -/
def Rearranged (d d' : DynamicImage) (w h : Nat) (f : Nat → Nat → Nat × Nat) : Prop :=
  d'.color = d.color ∧ d'.width = w ∧ d'.height = h ∧
    ∀ x y, x < w → y < h → d'.samplesAt x y = d.samplesAt (f x y).1 (f x y).2

theorem rearranged_of {Q : {ch : Nat} → ImageBuffer Nat ch → ImageBuffer Nat ch → Prop}
    {d d' : DynamicImage} (h : Lift Q d d') (w hh : Nat → Nat → Nat)
    (f : Nat → Nat → Nat → Nat → Nat × Nat)
    (hQ : ∀ {ch} (b b' : ImageBuffer Nat ch), Q b b' → b'.width = w b.width b.height ∧
      b'.height = hh b.width b.height ∧ ∀ x y, x < w b.width b.height → y < hh b.width b.height →
      b'.getPixel x y = b.getPixel (f b.width b.height x y).1 (f b.width b.height x y).2) :
    Rearranged d d' (w d.width d.height) (hh d.width d.height) (f d.width d.height) := by
  refine ⟨h.color_eq, ?_⟩
  refine h.moves (C := fun d d' => d'.width = w d.width d.height ∧ d'.height = hh d.width d.height ∧
    ∀ x y, x < w d.width d.height → y < hh d.width d.height → d'.samplesAt x y =
      d.samplesAt (f d.width d.height x y).1 (f d.width d.height x y).2)
    fun b b' hq d d' e1 e2 e3 e4 e5 e6 => ?_
  obtain ⟨g1, g2, g3⟩ := hQ b b' hq
  rw [e1, e2, e3, e4]
  refine ⟨g1, g2, fun x y hx hy => ?_⟩
  rw [e5, e6, g3 x y hx hy]

theorem C52_rotate90 (d : DynamicImage) (hv : d.Valid) : ∃ d', d.rotate90 = .ok d' ∧ d'.Valid ∧
    Rearranged d d' d.height d.width (fun x y => (y, d.height - 1 - x)) := by
  obtain ⟨d', h1, h2, h3⟩ := rotate90_ok hv
  refine ⟨d', h1, h2, rearranged_of h3 (fun _ h => h) (fun w _ => w) (fun _ h x y => (y, h - 1 - x)) fun b b' hq => ?_⟩
  exact hq.pull

theorem C52_rotate180 (d : DynamicImage) (hv : d.Valid) : ∃ d', d.rotate180 = .ok d' ∧ d'.Valid ∧
    Rearranged d d' d.width d.height (fun x y => (d.width - 1 - x, d.height - 1 - y)) := by
  obtain ⟨d', h1, h2, h3⟩ := rotate180_ok hv
  refine ⟨d', h1, h2, rearranged_of h3 (fun w _ => w) (fun _ h => h) (fun w h x y => (w - 1 - x, h - 1 - y)) fun b b' hq => ?_⟩
  exact hq.pull

theorem C52_rotate270 (d : DynamicImage) (hv : d.Valid) : ∃ d', d.rotate270 = .ok d' ∧ d'.Valid ∧
    Rearranged d d' d.height d.width (fun x y => (d.width - 1 - y, x)) := by
  obtain ⟨d', h1, h2, h3⟩ := rotate270_ok hv
  refine ⟨d', h1, h2, rearranged_of h3 (fun _ h => h) (fun w _ => w) (fun w _ x y => (w - 1 - y, x)) fun b b' hq => ?_⟩
  exact hq.pull

theorem C52_fliph (d : DynamicImage) (hv : d.Valid) : ∃ d', d.fliph = .ok d' ∧ d'.Valid ∧
    Rearranged d d' d.width d.height (fun x y => (d.width - 1 - x, y)) := by
  obtain ⟨d', h1, h2, h3⟩ := fliph_ok hv
  refine ⟨d', h1, h2, rearranged_of h3 (fun w _ => w) (fun _ h => h) (fun w _ x y => (w - 1 - x, y)) fun b b' hq => ?_⟩
  exact hq.pull

theorem C52_flipv (d : DynamicImage) (hv : d.Valid) : ∃ d', d.flipv = .ok d' ∧ d'.Valid ∧
    Rearranged d d' d.width d.height (fun x y => (x, d.height - 1 - y)) := by
  obtain ⟨d', h1, h2, h3⟩ := flipv_ok hv
  refine ⟨d', h1, h2, rearranged_of h3 (fun w _ => w) (fun _ h => h) (fun _ h x y => (x, h - 1 - y)) fun b b' hq => ?_⟩
  exact hq.pull

theorem C52_rotate180_in_place (d : DynamicImage) (hv : d.Valid) : ∃ d', d.rotate180InPlace = .ok d' ∧ d'.Valid ∧
    Rearranged d d' d.width d.height (fun x y => (d.width - 1 - x, d.height - 1 - y)) := by
  obtain ⟨d', h1, h2, h3⟩ := rotate180InPlace_ok hv
  refine ⟨d', h1, h2, rearranged_of h3 (fun w _ => w) (fun _ h => h) (fun w h x y => (w - 1 - x, h - 1 - y)) fun b b' hq => ?_⟩
  exact hq.pull

theorem C52_fliph_in_place (d : DynamicImage) (hv : d.Valid) : ∃ d', d.fliphInPlace = .ok d' ∧ d'.Valid ∧
    Rearranged d d' d.width d.height (fun x y => (d.width - 1 - x, y)) := by
  obtain ⟨d', h1, h2, h3⟩ := fliphInPlace_ok hv
  refine ⟨d', h1, h2, rearranged_of h3 (fun w _ => w) (fun _ h => h) (fun w _ x y => (w - 1 - x, y)) fun b b' hq => ?_⟩
  exact hq.pull

theorem C52_flipv_in_place (d : DynamicImage) (hv : d.Valid) : ∃ d', d.flipvInPlace = .ok d' ∧ d'.Valid ∧
    Rearranged d d' d.width d.height (fun x y => (x, d.height - 1 - y)) := by
  obtain ⟨d', h1, h2, h3⟩ := flipvInPlace_ok hv
  refine ⟨d', h1, h2, rearranged_of h3 (fun w _ => w) (fun _ h => h) (fun _ h x y => (x, h - 1 - y)) fun b b' hq => ?_⟩
  exact hq.pull

/-- Cropping keeps the colour type and yields the part of the requested rectangle inside the image. -/
theorem C52_crop (d : DynamicImage) (hv : d.Valid) (x y w h : Nat) : ∃ d', d.crop x y w h = .ok d' ∧
    d'.Valid ∧ Rearranged d d' (min w (d.width - x)) (min h (d.height - y)) (fun i j => (x + i, y + j)) := by
  obtain ⟨d', h1, h2, h3⟩ := mapBuf_ok (d := d) (f := fun p => do (← cropImm p x y w h).toImage 0)
    (Q := fun b b' => b'.width = min w (b.width - x) ∧ b'.height = min h (b.height - y) ∧
      ∀ i j, i < min w (b.width - x) → j < min h (b.height - y) → b'.getPixel i j = b.getPixel (x + i) (y + j))
    hv (by
      intro ch b _ hc hi hs
      obtain ⟨v, g1, g2, g3, gw, gh, -, g5⟩ := C10_crop b hi x y w h
      simp only [widthOf, heightOf, dims] at gw gh
      have hs' : v.xstride * v.ystride * ch < 2 ^ 64 :=
        Nat.lt_of_le_of_lt (Nat.mul_le_mul_right _ (Nat.mul_le_mul (by omega) (by omega))) hs
      obtain ⟨o, k1, k2, k3, k4, k5⟩ := C09_to_image (0 : Nat) v g2 hc hs'
      refine ⟨o, by rw [g1]; exact k1, k2, k3.trans gw, k4.trans gh, fun i j hi hj => ?_⟩
      rw [k5 i j (by omega) (by omega), ← SubImage.getPixel_eq g2 (by omega) (by omega)]
      exact g5 i j (by omega) (by omega))
  exact ⟨d', h1, h2, rearranged_of h3 (fun a _ => min w (a - x)) (fun _ b => min h (b - y))
    (fun _ _ i j => (x + i, y + j)) fun b b' hq => hq⟩

/-- `d` holds integer samples of type `S` in pixels of type `m`; its buffer is `b`. -/
inductive IntBuf : DynamicImage → (S : Prim) → (m : PixelType) → ImageBuffer Nat m.ch → Prop
  | luma8 (b : ImageBuffer Nat 1) : IntBuf (luma8 b) .u8 .luma b
  | lumaA8 (b : ImageBuffer Nat 2) : IntBuf (lumaA8 b) .u8 .lumaA b
  | rgb8 (b : ImageBuffer Nat 3) : IntBuf (rgb8 b) .u8 .rgb b
  | rgba8 (b : ImageBuffer Nat 4) : IntBuf (rgba8 b) .u8 .rgba b
  | luma16 (b : ImageBuffer Nat 1) : IntBuf (luma16 b) .u16 .luma b
  | lumaA16 (b : ImageBuffer Nat 2) : IntBuf (lumaA16 b) .u16 .lumaA b
  | rgb16 (b : ImageBuffer Nat 3) : IntBuf (rgb16 b) .u16 .rgb b
  | rgba16 (b : ImageBuffer Nat 4) : IntBuf (rgba16 b) .u16 .rgba b

/-- `q` is the conversion of pixel `p`: equal colours (or the luminance for a grey target) rescaled to the
target depth, alpha kept or set to the maximum. -/
def IsConverted (S T : Prim) (s d : PixelType) (p : Pix Nat s.ch) (q : Pix Nat d.ch) : Prop :=
  (∀ c, q c ≤ T.max) ∧
  (d.isColor = true → ∀ i, rgbOf d q i = rescale S T (rgbOf s p i)) ∧
  (d.isColor = false → ∀ i, rgbOf d q i = rescale S T (lumaOf s p)) ∧
  alphaOf d q = (if d.hasAlpha then
    some (match alphaOf s p with
      | some a => rescale S T a
      | none => T.max) else none)

theorem fromColor_converted {S T : Prim} (hST : Convertible S T) {s d : PixelType} {p : Pix Nat s.ch}
    (h : ∀ c, p c ≤ S.max) : ∃ q, fromColor S T s d p = .ok q ∧ IsConverted S T s d p q :=
  C20_from_color S T hST s d p h

theorem getPixel_le {ch : Nat} {b : ImageBuffer Nat ch} (hb : b.Inv) {M x y : Nat}
    (hr : ∀ v ∈ b.data, v ≤ M) (hx : x < b.width) (hy : y < b.height) :
    ∃ p, b.getPixel x y = .ok p ∧ ∀ c, p c ≤ M := by
  obtain ⟨p, hp⟩ := ImageBuffer.getPixel_exists hb hx hy
  exact ⟨p, hp, fun c => hr _ (List.mem_of_getElem? ((ImageBuffer.getPixel_eq_ok hb hx hy p).1 hp c))⟩

/-- Inverting an integer image keeps the variant and complements every colour sample. -/
theorem C52_invert (finv : (m : PixelType) → Pix Nat m.ch → R (Pix Nat m.ch)) (d : DynamicImage)
    (S : Prim) (m : PixelType) (b : ImageBuffer Nat m.ch) (h : IntBuf d S m b) (hb : b.Inv)
    (hr : ∀ v ∈ b.data, v ≤ S.max) :
    ∃ d' b', d.invert finv = .ok d' ∧ IntBuf d' S m b' ∧ b'.Inv ∧ d'.color = d.color ∧
      IsInverted S m b b' := by
  obtain ⟨b', h1, h2, h3⟩ := C17_invert S m b hb (fun x y p hx hy hp => by
    obtain ⟨p', e, hp'⟩ := getPixel_le hb hr hx hy
    have : b.getPixel x y = .ok p := hp
    rw [e] at this; cases this; exact hp')
  cases h
  · exact ⟨.luma8 b', b', by simp only [DynamicImage.invert, h1, ok_bind], by constructor, h2, rfl, h3⟩
  · exact ⟨.lumaA8 b', b', by simp only [DynamicImage.invert, h1, ok_bind], by constructor, h2, rfl, h3⟩
  · exact ⟨.rgb8 b', b', by simp only [DynamicImage.invert, h1, ok_bind], by constructor, h2, rfl, h3⟩
  · exact ⟨.rgba8 b', b', by simp only [DynamicImage.invert, h1, ok_bind], by constructor, h2, rfl, h3⟩
  · exact ⟨.luma16 b', b', by simp only [DynamicImage.invert, h1, ok_bind], by constructor, h2, rfl, h3⟩
  · exact ⟨.lumaA16 b', b', by simp only [DynamicImage.invert, h1, ok_bind], by constructor, h2, rfl, h3⟩
  · exact ⟨.rgb16 b', b', by simp only [DynamicImage.invert, h1, ok_bind], by constructor, h2, rfl, h3⟩
  · exact ⟨.rgba16 b', b', by simp only [DynamicImage.invert, h1, ok_bind], by constructor, h2, rfl, h3⟩

/-- `to_rgb8` ... `to_luma_alpha16` convert every pixel of an integer image and keep the dimensions. -/
theorem C52_to (d : DynamicImage) (S T : Prim) (hT : T = .u8 ∨ T = .u16) (s m : PixelType)
    (fc : (s : PixelType) → Pix Nat s.ch → R (Pix Nat m.ch))
    (b : ImageBuffer Nat s.ch) (h : IntBuf d S s b) (hb : b.Inv) (hr : ∀ v ∈ b.data, v ≤ S.max)
    (hs : b.width * b.height * m.ch < 2 ^ 64) :
    ∃ b' : ImageBuffer Nat m.ch, d.toType T m fc = .ok b' ∧ b'.Inv ∧ b'.width = d.width ∧
      b'.height = d.height ∧
      ∀ x y, x < b.width → y < b.height →
        ∃ p q, b.getPixel x y = .ok p ∧ b'.getPixel x y = .ok q ∧ IsConverted S T s m p q := by
  have hST : Convertible S T := by
    cases h <;> rcases hT with rfl | rfl <;> first
      | exact .inl rfl
      | exact .inr (.inl ⟨rfl, rfl⟩)
      | exact .inr (.inr ⟨rfl, rfl⟩)
  obtain ⟨b', h1, h2, h3, h4, -, h6⟩ := C20_convert_buffer S T hST s m b hb hr hs
  have hpx : ∀ x y, x < b.width → y < b.height →
        ∃ p q, b.getPixel x y = .ok p ∧ b'.getPixel x y = .ok q ∧ IsConverted S T s m p q := by
    intro x y hx hy
    obtain ⟨p, e, hp⟩ := getPixel_le hb hr hx hy
    obtain ⟨q, k1, k2⟩ := h6 x y p hx hy e
    obtain ⟨q', k1', k3⟩ := fromColor_converted (d := m) hST hp
    rw [k1] at k1'; cases k1'
    exact ⟨p, q, e, k2, k3⟩
  cases h <;> exact ⟨b', h1, h2, h3, h4, hpx⟩

/-- `into_*8` return the buffer itself when the image already has that type, and convert otherwise. -/
theorem C52_into (fl : (s : PixelType) → Pix Nat s.ch → R (Pix Nat 1))
    (fa : (s : PixelType) → Pix Nat s.ch → R (Pix Nat 2))
    (fr : (s : PixelType) → Pix Nat s.ch → R (Pix Nat 3))
    (fra : (s : PixelType) → Pix Nat s.ch → R (Pix Nat 4)) (d : DynamicImage) :
    (d.intoLuma8 fl = match d with | .luma8 b => .ok b | d => d.toType .u8 .luma fl) ∧
    (d.intoLumaAlpha8 fa = match d with | .lumaA8 b => .ok b | d => d.toType .u8 .lumaA fa) ∧
    (d.intoRgb8 fr = match d with | .rgb8 b => .ok b | d => d.toType .u8 .rgb fr) ∧
    (d.intoRgba8 fra = match d with | .rgba8 b => .ok b | d => d.toType .u8 .rgba fra) := by
  refine ⟨?_, ?_, ?_, ?_⟩ <;> cases d <;> rfl

/-- `get_pixel` of an integer image yields the pixel as 8-bit RGBA. -/
theorem C52_get_pixel (ff : (s : PixelType) → Pix Nat s.ch → R (Pix Nat 4)) (d : DynamicImage) (S : Prim)
    (s : PixelType) (b : ImageBuffer Nat s.ch) (h : IntBuf d S s b) (hb : b.Inv)
    (hr : ∀ v ∈ b.data, v ≤ S.max) (x y : Nat) (hx : x < d.width) (hy : y < d.height) :
    ∃ p q, b.getPixel x y = .ok p ∧ d.getPixel ff x y = .ok q ∧
      (∀ i, rgbOf .rgba q i = rescale S .u8 (rgbOf s p i)) ∧
      alphaOf .rgba q = some (match alphaOf s p with | some a => rescale S .u8 a | none => 255) := by
  have hx' : x < b.width := by cases h <;> exact hx
  have hy' : y < b.height := by cases h <;> exact hy
  obtain ⟨p, e, hp⟩ := getPixel_le hb hr hx' hy'
  obtain ⟨r, k1, k2, k3, -, k5⟩ := fromColor_converted (S := S) (T := S) (d := .rgba) (.inl rfl) hp
  have hS : S = .u8 ∨ S = .u16 := by cases h <;> simp
  obtain ⟨q, l1, l2, l3, -, l5⟩ := fromColor_converted (S := S) (T := .u8) (d := .rgba)
    (by rcases hS with rfl | rfl; exact .inl rfl; exact .inr (.inr ⟨rfl, rfl⟩)) k2
  have hid : ∀ v, rescale S S v = v := by intro v; rcases hS with rfl | rfl <;> rfl
  refine ⟨p, q, e, ?_, ?_, ?_⟩
  · cases h <;> simp only [DynamicImage.getPixel, e, ok_bind, k1, l1]
  · intro i; rw [l3 rfl, k3 rfl, hid]
  · rw [l5, k5]
    rcases hS with rfl | rfl <;> cases s <;>
      first | rfl | simp [alphaOf, PixelType.hasAlpha, rescale, Prim.max, Prim.bits]

/-- `put_pixel` on an integer image stores the converted pixel and changes no other. -/
theorem C52_put_pixel (fp : (s : PixelType) → Pix Nat 4 → R (Pix Nat s.ch)) (d : DynamicImage) (S : Prim)
    (s : PixelType) (b : ImageBuffer Nat s.ch) (h : IntBuf d S s b) (hb : b.Inv) (x y : Nat)
    (hx : x < d.width) (hy : y < d.height) (pixel : Pix Nat 4) (hp : ∀ c, pixel c ≤ 255) :
    ∃ d' b' q, d.putPixel fp x y pixel = .ok d' ∧ IntBuf d' S s b' ∧ b'.Inv ∧ d'.color = d.color ∧
      d'.width = d.width ∧ d'.height = d.height ∧ b'.getPixel x y = .ok q ∧
      IsConverted .u8 S .rgba s pixel q ∧
      ∀ i j, i < d.width → j < d.height → ¬(i = x ∧ j = y) → d'.samplesAt i j = d.samplesAt i j := by
  have hx' : x < b.width := by cases h <;> exact hx
  have hy' : y < b.height := by cases h <;> exact hy
  -- the conversion the code applies for this variant
  have key : ∀ q, IsConverted .u8 S .rgba s pixel q →
      ∃ b', b.putPixel x y q = .ok b' ∧ b'.Inv ∧ b'.width = b.width ∧ b'.height = b.height ∧
        b'.getPixel x y = .ok q ∧ IsConverted .u8 S .rgba s pixel q ∧
        ∀ i j, i < b.width → j < b.height → ¬(i = x ∧ j = y) → b'.getPixel i j = b.getPixel i j := by
    intro q hq
    obtain ⟨b', k1, k2, k3, k4, -, k5, k6⟩ := C02_put_get b hb x y hx' hy' q
    exact ⟨b', k1, k2, k3, k4, k5, hq, k6⟩
  obtain ⟨r, h1, hr⟩ : ∃ q, fromColor .u8 .u8 .rgba s pixel = .ok q ∧ IsConverted .u8 .u8 .rgba s pixel q :=
    fromColor_converted (.inl rfl) hp
  obtain ⟨r2, k1, hr2⟩ : ∃ q, fromColor .u8 .u16 s s r = .ok q ∧ IsConverted .u8 .u16 .rgba s pixel q := by
    obtain ⟨h2, h3, h4, h5⟩ := hr
    obtain ⟨q, k1, k2, k3, k4, k5⟩ := fromColor_converted (S := .u8) (T := .u16) (s := s) (d := s)
      (.inr (.inl ⟨rfl, rfl⟩)) h2
    refine ⟨q, k1, k2, fun hc i => ?_, fun hc i => ?_, ?_⟩
    · rw [k3 hc, h3 hc]; rfl
    · rw [k4 hc, lumaOf, if_neg (by simp [hc]), h4 hc]; rfl
    · rw [k5, h5]; cases s <;> rfl
  obtain ⟨r4, l1, hr4⟩ : ∃ q, fromColor .u8 .u16 .rgba .rgba pixel = .ok q ∧
      IsConverted .u8 .u16 .rgba .rgba pixel q := fromColor_converted (.inr (.inl ⟨rfl, rfl⟩)) hp
  have hsame : IsConverted .u8 .u8 .rgba .rgba pixel pixel := ⟨hp, fun _ _ => rfl, nofun, rfl⟩
  cases h
  case rgba8 =>
    obtain ⟨b', e1, e2, e3, e4, e5, e6, e7⟩ := key _ hsame
    refine ⟨.rgba8 b', b', _, by simp only [DynamicImage.putPixel, e1, ok_bind], by constructor, e2, rfl,
      e3, e4, e5, e6, fun i j hi hj hn => ?_⟩
    show (b'.getPixel i j).map _ = _
    rw [e7 i j hi hj hn]; rfl
  case rgba16 =>
    obtain ⟨b', e1, e2, e3, e4, e5, e6, e7⟩ := key _ hr4
    refine ⟨.rgba16 b', b', _, by simp only [DynamicImage.putPixel, l1, e1, ok_bind], by constructor, e2, rfl,
      e3, e4, e5, e6, fun i j hi hj hn => ?_⟩
    show (b'.getPixel i j).map _ = _
    rw [e7 i j hi hj hn]; rfl
  case luma8 =>
    obtain ⟨b', e1, e2, e3, e4, e5, e6, e7⟩ := key _ hr
    refine ⟨.luma8 b', b', _, by simp only [DynamicImage.putPixel, h1, e1, ok_bind], by constructor, e2, rfl,
      e3, e4, e5, e6, fun i j hi hj hn => ?_⟩
    show (b'.getPixel i j).map _ = _
    rw [e7 i j hi hj hn]; rfl
  case lumaA8 =>
    obtain ⟨b', e1, e2, e3, e4, e5, e6, e7⟩ := key _ hr
    refine ⟨.lumaA8 b', b', _, by simp only [DynamicImage.putPixel, h1, e1, ok_bind], by constructor, e2, rfl,
      e3, e4, e5, e6, fun i j hi hj hn => ?_⟩
    show (b'.getPixel i j).map _ = _
    rw [e7 i j hi hj hn]; rfl
  case rgb8 =>
    obtain ⟨b', e1, e2, e3, e4, e5, e6, e7⟩ := key _ hr
    refine ⟨.rgb8 b', b', _, by simp only [DynamicImage.putPixel, h1, e1, ok_bind], by constructor, e2, rfl,
      e3, e4, e5, e6, fun i j hi hj hn => ?_⟩
    show (b'.getPixel i j).map _ = _
    rw [e7 i j hi hj hn]; rfl
  case luma16 =>
    obtain ⟨b', e1, e2, e3, e4, e5, e6, e7⟩ := key _ hr2
    refine ⟨.luma16 b', b', _, by simp only [DynamicImage.putPixel, h1, k1, e1, ok_bind], by constructor, e2, rfl,
      e3, e4, e5, e6, fun i j hi hj hn => ?_⟩
    show (b'.getPixel i j).map _ = _
    rw [e7 i j hi hj hn]; rfl
  case lumaA16 =>
    obtain ⟨b', e1, e2, e3, e4, e5, e6, e7⟩ := key _ hr2
    refine ⟨.lumaA16 b', b', _, by simp only [DynamicImage.putPixel, h1, k1, e1, ok_bind], by constructor, e2, rfl,
      e3, e4, e5, e6, fun i j hi hj hn => ?_⟩
    show (b'.getPixel i j).map _ = _
    rw [e7 i j hi hj hn]; rfl
  case rgb16 =>
    obtain ⟨b', e1, e2, e3, e4, e5, e6, e7⟩ := key _ hr2
    refine ⟨.rgb16 b', b', _, by simp only [DynamicImage.putPixel, h1, k1, e1, ok_bind], by constructor, e2, rfl,
      e3, e4, e5, e6, fun i j hi hj hn => ?_⟩
    show (b'.getPixel i j).map _ = _
    rw [e7 i j hi hj hn]; rfl

-- the hypotheses are met by a 16-bit image
example : IntBuf (rgb16 ⟨1, 2, [1, 2, 65535, 0, 300, 4]⟩) .u16 .rgb ⟨1, 2, [1, 2, 65535, 0, 300, 4]⟩ ∧
    (⟨1, 2, [1, 2, 65535, 0, 300, 4]⟩ : ImageBuffer Nat 3).Inv ∧
    ∀ v ∈ [1, 2, 65535, 0, 300, 4], v ≤ Prim.u16.max :=
  ⟨.rgb16 _, ⟨by decide, by decide, by decide, by decide⟩, by decide⟩
example : (rgb16 ⟨1, 2, [1, 2, 65535, 0, 300, 4]⟩).toType .u8 .luma (fun _ _ => panicR) =
    .ok ⟨1, 2, [18, 1]⟩ := by rfl
example : (luma8 ⟨3, 2, [1, 2, 3, 4, 5, 6]⟩).crop 1 0 7 1 = .ok (luma8 ⟨2, 1, [2, 3]⟩) := by rfl

end Verif
