import Verif.Spec.Color
import Verif.Proofs.Color

/-!
# Brighten, colour maps and dithering (C46, C47)
-/

namespace Verif
open GenericImageView GenericImage LawfulView LawfulImage

/-! ## C46 -/

/-- `v + value` cut off at 0 and MAX. -/
def brightened (T : Prim) (value : Int) (v : Nat) : Nat := (max 0 (min ((v : Int) + value) T.max)).toNat

theorem brightenSample_ok (T : Prim) (hT : T = .u8 ∨ T = .u16) (value : Int) (v : Nat) (hv : v ≤ T.max)
    (h1 : -2 ^ 31 ≤ value) (h2 : (v : Int) + value < 2 ^ 31) :
    brightenSample T value v = .ok (brightened T value v) := by
  have hm : T.max < 2 ^ 31 := by rcases hT with rfl | rfl <;> decide
  unfold brightenSample brightened
  rw [if_pos hm]
  simp only [ok_bind]
  rw [if_pos (by omega)]
  simp only [addI32]
  rw [if_pos (by omega)]
  simp only [ok_bind]
  have hcl : clampInt ((v : Int) + value) 0 T.max = max 0 (min ((v : Int) + value) T.max) := by
    unfold clampInt
    split
    · omega
    · split <;> omega
  rw [hcl, if_pos (by omega), Prim.castFrom_ok (by omega)]

/-- The result of brightening one pixel. -/
theorem mapWithAlpha_brighten (T : Prim) (hT : T = .u8 ∨ T = .u16) (m : PixelType) (value : Int)
    (h1 : -2 ^ 31 ≤ value) (h2 : (T.max : Int) + value < 2 ^ 31) (p : Pix Nat m.ch) (hp : ∀ c, p c ≤ T.max) :
    mapWithAlpha m.alphas (brightenSample T value) .ok p =
      .ok (fun c => if c.val < m.ch - m.alphas then brightened T value (p c) else p c) := by
  apply seqFin_ok
  intro c
  split
  · exact brightenSample_ok T hT value (p c) (hp c) h1 (by have := hp c; omega)
  · rfl

/-- `dst` is `src` brightened by `value`: every colour sample is `v + value` cut off at 0 and MAX, alpha is
kept. -/
def IsBrightened {I J : Type} (T : Prim) (m : PixelType) [GenericImageView I (Pix Nat m.ch)]
    [GenericImageView J (Pix Nat m.ch)] (value : Int) (src : I) (dst : J) : Prop :=
  dims dst = dims src ∧ ∀ x y p, x < widthOf src → y < heightOf src → getPixel src x y = .ok p →
    ∃ q, getPixel dst x y = .ok q ∧
      (∀ c : Fin m.ch, c.val < m.ch - m.alphas → q c = brightened T value (p c)) ∧
      (∀ c : Fin m.ch, m.ch - m.alphas ≤ c.val → q c = p c)

/-- `brighten_in_place` on 8- and 16-bit images, for every `value` with `MAX + value` inside `i32`. Missing:
larger values, for which the claim is false (`C46_brighten_false`). -/
theorem C46_brighten_in_place_partial {D : Type} (T : Prim) (hT : T = .u8 ∨ T = .u16) (m : PixelType)
    [GenericImage D (Pix Nat m.ch)] [LawfulImage D (Pix Nat m.ch)] (value : Int)
    (h1 : -2 ^ 31 ≤ value) (h2 : (T.max : Int) + value < 2 ^ 31) (img : D) (wf : WF img)
    (hr : ∀ x y p, x < widthOf img → y < heightOf img → getPixel img x y = .ok p → ∀ c, p c ≤ T.max) :
    ∃ img', brightenInPlace T m.alphas value img = .ok img' ∧ WF img' ∧
      IsBrightened T m value img img' := by
  obtain ⟨d, e1, e2, e3, e4⟩ := map_loop (d0 := img) (mapWithAlpha m.alphas (brightenSample T value) .ok)
    (fun p c => if c.val < m.ch - m.alphas then brightened T value (p c) else p c) wf
    (fun x y p hx hy hp => mapWithAlpha_brighten T hT m value h1 h2 p (hr x y p hx hy hp))
  refine ⟨d, ?_, e2, e3, fun x y p hx hy hp => ⟨_, e4 x y p hx hy hp, ?_, ?_⟩⟩
  · unfold brightenInPlace
    rw [if_pos (by rcases hT with rfl | rfl <;> decide)]
    exact e1
  · intro c hc; simp only [if_pos hc]
  · intro c hc; rw [if_neg (by omega)]

/-- `brighten` (copying), under the same restriction and for images the pixel iterator can enumerate. -/
theorem C46_brighten_partial {I : Type} (T : Prim) (hT : T = .u8 ∨ T = .u16) (m : PixelType)
    [GenericImageView I (Pix Nat m.ch)] [LawfulView I (Pix Nat m.ch)] (value : Int)
    (h1 : -2 ^ 31 ≤ value) (h2 : (T.max : Int) + value < 2 ^ 31) (img : I) (wf : WF img)
    (hw : 0 < widthOf img ∨ heightOf img ≤ 1) (hs : widthOf img * heightOf img * m.ch < 2 ^ 64)
    (hr : ∀ x y p, x < widthOf img → y < heightOf img → getPixel img x y = .ok p → ∀ c, p c ≤ T.max) :
    ∃ out : ImageBuffer Nat m.ch, brighten T m.alphas value img = .ok out ∧ out.Inv ∧
      IsBrightened T m value img out := by
  obtain ⟨o, e1, e2, e3, e4⟩ := overPixels_spec (img := img)
    (out := (⟨widthOf img, heightOf img, List.replicate (widthOf img * heightOf img * m.ch) 0⟩ :
      ImageBuffer Nat m.ch))
    (mapWithAlpha m.alphas (brightenSample T value) .ok)
    (fun p c => if c.val < m.ch - m.alphas then brightened T value (p c) else p c) wf
    (ImageBuffer.new_inv (width_lt wf) (height_lt wf) hs) hw rfl rfl
    (fun x y p hx hy hp => mapWithAlpha_brighten T hT m value h1 h2 p (hr x y p hx hy hp))
  refine ⟨o, ?_, e2, e3, fun x y p hx hy hp => ⟨_, e4 x y p hx hy hp, ?_, ?_⟩⟩
  · unfold brighten
    rw [ImageBuffer.new_ok (by cases m <;> decide) (width_lt wf) hs]
    simp only [ok_bind]
    rw [if_pos (by rcases hT with rfl | rfl <;> decide)]
    exact e1
  · intro c hc; simp only [if_pos hc]
  · intro c hc; rw [if_neg (by omega)]

/-- C46 is false of the code for huge values: `c + value` is computed in `i32`. -/
theorem C46_brighten_false :
    brightenInPlace .u8 0 (2 ^ 31 - 1) (⟨1, 1, [1]⟩ : ImageBuffer Nat 1) = .error .panic := rfl

example : brightenInPlace .u8 1 (-20) (⟨1, 2, [10, 200, 30, 40]⟩ : ImageBuffer Nat 2) =
    .ok ⟨1, 2, [0, 200, 10, 40]⟩ := by rfl

/-- `BiLevel` maps a grey to black or white at the threshold 127, `lookup (index_of c)` is what
`map_color` produces, and `lookup` knows exactly two colours. -/
theorem C46_bilevel (c : Pix Nat 1) :
    biLevelMapColor c = .ok (px1 (if 127 < c 0 then 255 else 0)) ∧
    biLevelLookup (biLevelIndexOf c) = some (px1 (if 127 < c 0 then 255 else 0)) ∧
    (∀ i, (biLevelLookup i).isSome ↔ i < 2) := by
  refine ⟨?_, ?_, ?_⟩
  · unfold biLevelMapColor biLevelIndexOf
    by_cases h : c 0 > 127
    · simp only [if_pos h]; rfl
    · simp only [if_neg h]; rfl
  · unfold biLevelIndexOf
    by_cases h : c 0 > 127
    · simp only [if_pos h]; rfl
    · simp only [if_neg h]; rfl
  · intro i
    match i with
    | 0 => simp [biLevelLookup]
    | 1 => simp [biLevelLookup]
    | n + 2 => simp [biLevelLookup]

/-- `index_colors`: an image of the same size holding the map index (as `u8`) of every pixel. -/
theorem C46_index_colors {ch : Nat} (h0 : 0 < ch) (hc : ch < 256) (indexOf : Pix Nat ch → Nat)
    (img : ImageBuffer Nat ch) (hi : img.Inv) (hs : img.width * img.height < 2 ^ 64) :
    ∃ out, indexColors indexOf img = .ok out ∧ out.Inv ∧ out.width = img.width ∧
      out.height = img.height ∧ out.data.length = img.width * img.height ∧
      ∀ x y p, x < img.width → y < img.height → img.getPixel x y = .ok p →
        out.getPixel x y = .ok (px1 (indexOf p % 256)) := by
  have hs1 : img.width * img.height * 1 < 2 ^ 64 := by omega
  have hn := ImageBuffer.new_inv (ch := 1) (z := 0) hi.w32 hi.h32 hs1
  obtain ⟨qs, q1, q2, -⟩ := ImageBuffer.pixels_ok hn (by decide) (by decide)
  obtain ⟨ps, p1, p2, p3⟩ := ImageBuffer.pixels_ok hi h0 hc
  simp only at q2
  obtain ⟨g1, g2, g3, g4, g5⟩ := ImageBuffer.setPixels_spec hn
    (ps := (ps.zip qs).map fun q => px1 (indexOf q.1 % 256))
    (by simp only [List.length_map, List.length_zip]; omega)
  refine ⟨_, ?_, g1, g2, g3, by rw [g4]; simp, ?_⟩
  · unfold indexColors
    rw [ImageBuffer.new_ok (by decide) hi.w32 hs1]; simp only [ok_bind]
    rw [p1]; simp only [ok_bind]
    rw [q1]; rfl
  · intro x y p hx hy hp
    apply g5 x y _ hx hy
    obtain ⟨p', e1, e2⟩ := p3 x y hx hy
    rw [hp] at e2; cases e2
    have hk : y * img.width + x < img.width * img.height := idx_lt hx hy
    rw [List.getElem?_map]
    show Option.map _ (ps.zip qs)[y * img.width + x]? = _
    have hq : y * img.width + x < qs.length := by omega
    have hz : (ps.zip qs)[y * img.width + x]? = some (p, qs[y * img.width + x]) :=
      List.getElem?_zip_eq_some.2 ⟨e1, List.getElem?_eq_getElem hq⟩
    rw [hz]; rfl

example : indexColors biLevelIndexOf (⟨3, 1, [3, 200, 127]⟩ : ImageBuffer Nat 1) = .ok ⟨3, 1, [0, 1, 0]⟩ := by
  rfl

/-! ## C47 -/

/-- The state between two steps of `dither`: an image of the original size with 8-bit samples, a difference
that fits, and palette colours at the visited coordinates `V`. -/
structure DitherInv {ch : Nat} (Pal : Pix Nat ch → Prop) (w h : Nat) (V : Nat → Nat → Prop)
    (st : ImageBuffer Nat ch × (Fin 3 → Int)) : Prop where
  inv : st.1.Inv
  dw : st.1.width = w
  dh : st.1.height = h
  range : ∀ x y p, x < w → y < h → st.1.getPixel x y = .ok p → ∀ c, p c ≤ 255
  err : ∀ i, -255 ≤ st.2 i ∧ st.2 i ≤ 255
  pal : ∀ x y p, x < w → y < h → V x y → st.1.getPixel x y = .ok p → Pal p

section
variable {ch : Nat} {Pal : Pix Nat ch → Prop} {w h : Nat} {V V' : Nat → Nat → Prop}
  {st : ImageBuffer Nat ch × (Fin 3 → Int)} {mapColor : Pix Nat ch → R (Pix Nat ch)}

theorem DitherInv.mono (hs : DitherInv Pal w h V st) (hV : ∀ x y, x < w → y < h → V' x y → V x y) :
    DitherInv Pal w h V' st :=
  ⟨hs.inv, hs.dw, hs.dh, hs.range, hs.err,
    fun x y p hx hy hv => hs.pal x y p hx hy (hV x y hx hy hv)⟩

theorem doDithering_inv (hm : ∀ p : Pix Nat ch, (∀ c, p c ≤ 255) →
      ∃ q, mapColor p = .ok q ∧ Pal q ∧ ∀ c, q c ≤ 255)
    (hs : DitherInv Pal w h V st) {x y : Nat} (hx : x < w) (hy : y < h) :
    ∃ st', doDithering mapColor x y st = .ok st' ∧
      DitherInv Pal w h (fun a b => V a b ∨ (a = x ∧ b = y)) st' := by
  obtain ⟨img, err⟩ := st
  obtain ⟨hi, dw, dh, hr, he, hp⟩ := hs
  dsimp only at hi dw dh hr he hp
  subst dw dh
  obtain ⟨p, hpx⟩ := ImageBuffer.getPixel_exists hi hx hy
  obtain ⟨q, hq, hpal, hqr⟩ := hm p (hr x y p hx hy hpx)
  obtain ⟨b, e1, e2, e3, e4, e5, e6, e7⟩ := ImageBuffer.put_spec hi hx hy q
  refine ⟨_, by simp only [doDithering, hpx, hq, e1, ok_bind]; rfl, e2, e3, e4, ?_, ?_, ?_⟩
  · intro a c p' ha hc hp'
    by_cases hac : a = x ∧ c = y
    · obtain ⟨rfl, rfl⟩ := hac
      rw [e6] at hp'; cases hp'; exact hqr
    · rw [e7 a c ha hc hac] at hp'; exact hr a c p' ha hc hp'
  · intro i
    dsimp only
    split
    · rename_i hic
      have h1 := hr x y p hx hy hpx ⟨i.val, hic⟩
      have h2 := hqr ⟨i.val, hic⟩
      omega
    · exact he i
  · intro a c p' ha hc hv hp'
    by_cases hac : a = x ∧ c = y
    · obtain ⟨rfl, rfl⟩ := hac
      rw [e6] at hp'; cases hp'; exact hpal
    · rw [e7 a c ha hc hac] at hp'
      rcases hv with hv | hv
      · exact hp a c p' ha hc hv hp'
      · exact absurd hv hac

theorem diffuseSample_ok {c : Nat} {e f : Int} (hc : c ≤ 255) (he : -255 ≤ e ∧ e ≤ 255)
    (hf : 0 ≤ f ∧ f ≤ 7) : ∃ v, diffuseSample c e f = .ok v ∧ v ≤ 255 := by
  have hp1 : e * f ≤ 255 * 7 := by
    rcases hf with ⟨hf1, hf2⟩
    calc e * f ≤ 255 * f := Int.mul_le_mul_of_nonneg_right he.2 hf1
      _ ≤ 255 * 7 := Int.mul_le_mul_of_nonneg_left hf2 (by omega)
  have hp2 : -(255 * 7) ≤ e * f := by
    rcases hf with ⟨hf1, hf2⟩
    have : (-255) * f ≤ e * f := Int.mul_le_mul_of_nonneg_right he.1 hf1
    omega
  unfold diffuseSample
  dsimp only
  generalize e * f = m at hp1 hp2
  have ht1 : m.tdiv 16 ≤ 255 * 7 := by
    rcases Int.le_total 0 m with h | h
    · rw [Int.tdiv_eq_ediv_of_nonneg h]; omega
    · have : m.tdiv 16 = -((-m) / 16) := by
        rw [← Int.tdiv_eq_ediv_of_nonneg (by omega), Int.neg_tdiv, Int.neg_neg]
      omega
  have ht2 : -(255 * 7) ≤ m.tdiv 16 := by
    rcases Int.le_total 0 m with h | h
    · rw [Int.tdiv_eq_ediv_of_nonneg h]; omega
    · have : m.tdiv 16 = -((-m) / 16) := by
        rw [← Int.tdiv_eq_ediv_of_nonneg (by omega), Int.neg_tdiv, Int.neg_neg]
      omega
  generalize m.tdiv 16 = k at ht1 ht2
  rw [if_neg (by omega), if_neg (by omega)]
  split
  · exact ⟨0, rfl, by omega⟩
  · split
    · exact ⟨255, rfl, by omega⟩
    · exact ⟨_, rfl, by omega⟩

theorem seqFin_exists {α : Type} {Q : α → Prop} : ∀ {n : Nat} {f : Fin n → R α},
    (∀ i, ∃ a, f i = .ok a ∧ Q a) → ∃ g, seqFin f = .ok g ∧ ∀ i, Q (g i) := by
  intro n f hf
  have hc : ∃ g : Fin n → α, ∀ i, f i = .ok (g i) ∧ Q (g i) :=
    ⟨fun i => Classical.choose (hf i), fun i => Classical.choose_spec (hf i)⟩
  obtain ⟨g, hg⟩ := hc
  exact ⟨g, seqFin_ok (fun i => (hg i).1), fun i => (hg i).2⟩

theorem diffuseAt_inv (hs : DitherInv Pal w h V st) {x y : Nat} {f : Int} (hf : 0 ≤ f ∧ f ≤ 7)
    (hx : x < w) (hy : y < h) (hV : ¬ V x y) :
    ∃ st', diffuseAt x y f st = .ok st' ∧ DitherInv Pal w h V st' := by
  obtain ⟨img, err⟩ := st
  obtain ⟨hi, dw, dh, hr, he, hp⟩ := hs
  dsimp only at hi dw dh hr he hp
  subst dw dh
  obtain ⟨p, hpx⟩ := ImageBuffer.getPixel_exists hi hx hy
  have hpr := hr x y p hx hy hpx
  obtain ⟨q, hq, hqr⟩ := seqFin_exists (Q := fun v => v ≤ 255)
    (f := fun i : Fin ch => if h : i.val < 3 then diffuseSample (p i) (err ⟨i.val, h⟩) f else .ok (p i)) (by
      intro i
      split
      · exact diffuseSample_ok (hpr i) (he _) hf
      · exact ⟨_, rfl, hpr i⟩)
  obtain ⟨b, e1, e2, e3, e4, e5, e6, e7⟩ := ImageBuffer.put_spec hi hx hy q
  refine ⟨(b, err), ?_, e2, e3, e4, ?_, he, ?_⟩
  · simp only [diffuseAt, modifyPixel, hpx, ok_bind, diffuseErr]
    rw [hq]; simp only [ok_bind, e1]
  · intro a c p' ha hc hp'
    by_cases hac : a = x ∧ c = y
    · obtain ⟨rfl, rfl⟩ := hac
      rw [e6] at hp'; cases hp'; exact hqr
    · rw [e7 a c ha hc hac] at hp'; exact hr a c p' ha hc hp'
  · intro a c p' ha hc hv hp'
    have hac : ¬(a = x ∧ c = y) := by rintro ⟨rfl, rfl⟩; exact hV hv
    rw [e7 a c ha hc hac] at hp'
    exact hp a c p' ha hc hv hp'
end

/-- C47 for images at least two pixels wide and one high: `dither` succeeds (so it accesses no pixel
outside), keeps the size, and every pixel ends up a colour `map_color` produced. Missing: width 0 or 1 and
height 0, where it panics (`C47_dither_false`). -/
theorem C47_dither_partial {ch : Nat} (Pal : Pix Nat ch → Prop) (mapColor : Pix Nat ch → R (Pix Nat ch))
    (hm : ∀ p : Pix Nat ch, (∀ c, p c ≤ 255) → ∃ q, mapColor p = .ok q ∧ Pal q ∧ ∀ c, q c ≤ 255)
    (img : ImageBuffer Nat ch) (hi : img.Inv) (hr : ∀ v ∈ img.data, v ≤ 255)
    (hw : 2 ≤ img.width) (hh : 1 ≤ img.height) :
    ∃ out, dither mapColor img = .ok out ∧ out.Inv ∧ out.width = img.width ∧ out.height = img.height ∧
      ∀ x y, x < img.width → y < img.height → ∃ p, out.getPixel x y = .ok p ∧ Pal p := by
  have h0 : DitherInv Pal img.width img.height (fun a b => Done 0 0 a b) (img, fun _ => 0) := by
    refine ⟨hi, rfl, rfl, ?_, fun i => by simp, fun x y p _ _ hd => by simp [Done] at hd⟩
    intro x y p hx hy hp c
    rw [ImageBuffer.getPixel_eq_ok hi hx hy] at hp
    exact hr _ (List.mem_of_getElem? (hp c))
  unfold dither
  dsimp only
  rw [subC_ok hh]; simp only [ok_bind]
  rw [subC_ok (show 1 ≤ img.width by omega)]; simp only [ok_bind]
  generalize img.width = w at *
  generalize img.height = h at *
  -- full rows
  obtain ⟨st, hst, hI⟩ := forRange_inv (n := h - 1)
    (f := fun y (st : ImageBuffer Nat ch × (Fin 3 → Int)) => (do
      let st ← doDithering mapColor 0 y st
      let st ← diffuseAt (0 + 1) y 7 st
      let st ← diffuseAt 0 (y + 1) 5 st
      let st ← diffuseAt (0 + 1) (y + 1) 1 st
      let st ← forRange (w - 1 - 1) (fun k st => do
        let x := k + 1
        let st ← doDithering mapColor x y st
        let st ← diffuseAt (x + 1) y 7 st
        let st ← diffuseAt (x - 1) (y + 1) 3 st
        let st ← diffuseAt x (y + 1) 5 st
        diffuseAt (x + 1) (y + 1) 1 st) st
      let st ← doDithering mapColor (w - 1) y st
      let st ← diffuseAt (← subC (w - 1) 1) (y + 1) 3 st
      diffuseAt (w - 1) (y + 1) 5 st : R _))
    (fun y st => DitherInv Pal w h (fun a b => Done y 0 a b) st) h0 (by
      intro y hy st hs
      obtain ⟨s1, e1, i1⟩ := doDithering_inv hm hs (x := 0) (y := y) (by omega) (by omega)
      replace i1 : DitherInv Pal w h (fun a b => Done y 1 a b) s1 :=
        i1.mono (fun a b _ _ hd => by simp only [Done] at *; omega)
      obtain ⟨s2, e2, i2⟩ := diffuseAt_inv i1 (x := 0 + 1) (y := y) (f := 7) (by omega) (by omega) (by omega)
        (by simp only [Done]; omega)
      obtain ⟨s3, e3, i3⟩ := diffuseAt_inv i2 (x := 0) (y := y + 1) (f := 5) (by omega) (by omega) (by omega)
        (by simp only [Done]; omega)
      obtain ⟨s4, e4, i4⟩ := diffuseAt_inv i3 (x := 0 + 1) (y := y + 1) (f := 1) (by omega) (by omega)
        (by omega) (by simp only [Done]; omega)
      obtain ⟨s5, e5, i5⟩ := forRange_inv (n := w - 1 - 1)
        (f := fun k (st : ImageBuffer Nat ch × (Fin 3 → Int)) => (do
          let x := k + 1
          let st ← doDithering mapColor x y st
          let st ← diffuseAt (x + 1) y 7 st
          let st ← diffuseAt (x - 1) (y + 1) 3 st
          let st ← diffuseAt x (y + 1) 5 st
          diffuseAt (x + 1) (y + 1) 1 st : R _))
        (fun k st => DitherInv Pal w h (fun a b => Done y (k + 1) a b) st) i4 (by
          intro k hk st hs
          dsimp only
          obtain ⟨t1, a1, j1⟩ := doDithering_inv hm hs (x := k + 1) (y := y) (by omega) (by omega)
          replace j1 : DitherInv Pal w h (fun a b => Done y (k + 1 + 1) a b) t1 :=
            j1.mono (fun a b _ _ hd => by simp only [Done] at *; omega)
          obtain ⟨t2, a2, j2⟩ := diffuseAt_inv j1 (x := k + 1 + 1) (y := y) (f := 7) (by omega) (by omega)
            (by omega) (by simp only [Done]; omega)
          obtain ⟨t3, a3, j3⟩ := diffuseAt_inv j2 (x := k + 1 - 1) (y := y + 1) (f := 3) (by omega)
            (by omega) (by omega) (by simp only [Done]; omega)
          obtain ⟨t4, a4, j4⟩ := diffuseAt_inv j3 (x := k + 1) (y := y + 1) (f := 5) (by omega)
            (by omega) (by omega) (by simp only [Done]; omega)
          obtain ⟨t5, a5, j5⟩ := diffuseAt_inv j4 (x := k + 1 + 1) (y := y + 1) (f := 1) (by omega)
            (by omega) (by omega) (by simp only [Done]; omega)
          exact ⟨t5, by simp only [a1, a2, a3, a4, a5, ok_bind], j5⟩)
      replace i5 : DitherInv Pal w h (fun a b => Done y (w - 1) a b) s5 :=
        i5.mono (fun a b _ _ hd => by simp only [Done] at *; omega)
      obtain ⟨s6, e6, i6⟩ := doDithering_inv hm i5 (x := w - 1) (y := y) (by omega) (by omega)
      replace i6 : DitherInv Pal w h (fun a b => Done (y + 1) 0 a b) s6 :=
        i6.mono (fun a b _ _ hd => by simp only [Done] at *; omega)
      obtain ⟨s7, e7, i7⟩ := diffuseAt_inv i6 (x := w - 1 - 1) (y := y + 1) (f := 3) (by omega) (by omega)
        (by omega) (by simp only [Done]; omega)
      obtain ⟨s8, e8, i8⟩ := diffuseAt_inv i7 (x := w - 1) (y := y + 1) (f := 5) (by omega) (by omega)
        (by omega) (by simp only [Done]; omega)
      refine ⟨s8, ?_, i8⟩
      simp only [e1, e2, e3, e4, ok_bind]
      rw [e5]; simp only [e6, ok_bind]
      rw [subC_ok (by omega)]; simp only [e7, e8, ok_bind])
  -- last row
  obtain ⟨s1, e1, i1⟩ := doDithering_inv hm hI (x := 0) (y := h - 1) (by omega) (by omega)
  replace i1 : DitherInv Pal w h (fun a b => Done (h - 1) 1 a b) s1 :=
    i1.mono (fun a b _ _ hd => by simp only [Done] at *; omega)
  obtain ⟨s2, e2, i2⟩ := diffuseAt_inv i1 (x := 0 + 1) (y := h - 1) (f := 7) (by omega) (by omega) (by omega)
    (by simp only [Done]; omega)
  obtain ⟨s5, e5, i5⟩ := forRange_inv (n := w - 1 - 1)
    (f := fun k (st : ImageBuffer Nat ch × (Fin 3 → Int)) => (do
      let x := k + 1
      let st ← doDithering mapColor x (h - 1) st
      diffuseAt (x + 1) (h - 1) 7 st : R _))
    (fun k st => DitherInv Pal w h (fun a b => Done (h - 1) (k + 1) a b) st) i2 (by
      intro k hk st hs
      dsimp only
      obtain ⟨t1, a1, j1⟩ := doDithering_inv hm hs (x := k + 1) (y := h - 1) (by omega) (by omega)
      replace j1 : DitherInv Pal w h (fun a b => Done (h - 1) (k + 1 + 1) a b) t1 :=
        j1.mono (fun a b _ _ hd => by simp only [Done] at *; omega)
      obtain ⟨t2, a2, j2⟩ := diffuseAt_inv j1 (x := k + 1 + 1) (y := h - 1) (f := 7) (by omega) (by omega)
        (by omega) (by simp only [Done]; omega)
      exact ⟨t2, by simp only [a1, a2, ok_bind], j2⟩)
  obtain ⟨s6, e6, i6⟩ := doDithering_inv hm i5 (x := w - 1) (y := h - 1) (by omega) (by omega)
  rw [hst]; simp only [ok_bind, e1, e2]
  rw [e5]; simp only [ok_bind, e6]
  refine ⟨s6.1, rfl, i6.inv, i6.dw, i6.dh, fun x y hx hy => ?_⟩
  obtain ⟨p, hp⟩ := ImageBuffer.getPixel_exists i6.inv (by rw [i6.dw]; exact hx) (by rw [i6.dh]; exact hy)
  exact ⟨p, hp, i6.pal x y p hx hy (by simp only [Done]; omega) hp⟩

/-- C47 instantiated: dithering a grey image with `BiLevel` leaves only black and white. -/
theorem C47_dither_bilevel_partial (img : ImageBuffer Nat 1) (hi : img.Inv) (hr : ∀ v ∈ img.data, v ≤ 255)
    (hw : 2 ≤ img.width) (hh : 1 ≤ img.height) :
    ∃ out, dither biLevelMapColor img = .ok out ∧ out.width = img.width ∧ out.height = img.height ∧
      ∀ x y, x < img.width → y < img.height →
        out.getPixel x y = .ok (px1 0) ∨ out.getPixel x y = .ok (px1 255) := by
  obtain ⟨out, h1, -, h3, h4, h5⟩ := C47_dither_partial (fun p => p = px1 0 ∨ p = px1 255) biLevelMapColor
    (by
      intro p _
      refine ⟨_, (C46_bilevel p).1, ?_, ?_⟩
      · split
        · exact Or.inr rfl
        · exact Or.inl rfl
      · intro c
        show (if 127 < p 0 then 255 else 0) ≤ 255
        split <;> omega) img hi hr hw hh
  refine ⟨out, h1, h3, h4, fun x y hx hy => ?_⟩
  obtain ⟨p, hp, hq⟩ := h5 x y hx hy
  rcases hq with rfl | rfl
  · exact Or.inl hp
  · exact Or.inr hp

example : dither biLevelMapColor (⟨2, 2, [100, 100, 100, 100]⟩ : ImageBuffer Nat 1) =
    .ok ⟨2, 2, [0, 255, 0, 0]⟩ := by rfl

/-- C47 is false of the code: a one-pixel-wide image panics. -/
theorem C47_dither_false :
    dither biLevelMapColor (⟨1, 1, [100]⟩ : ImageBuffer Nat 1) = .error .panic ∧
    dither biLevelMapColor (⟨0, 0, []⟩ : ImageBuffer Nat 1) = .error .panic := ⟨rfl, rfl⟩

end Verif
