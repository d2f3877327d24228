import Verif.Spec.Color
import Verif.Proofs.Color
import Verif.Props.Affine

/-!
# Colour properties (C17 - C21)
-/

set_option linter.unusedSimpArgs false

namespace Verif
open GenericImageView GenericImage LawfulView LawfulImage

/-! ## C17 -/

/-- The claim of C17 on one image. -/
def IsInverted {I J : Type} (T : Prim) (m : PixelType) [GenericImageView I (Pix Nat m.ch)]
    [GenericImageView J (Pix Nat m.ch)] (src : I) (dst : J) : Prop :=
  dims dst = dims src ∧ ∀ x y p, x < widthOf src → y < heightOf src → getPixel src x y = .ok p →
    ∃ q, getPixel dst x y = .ok q ∧ (∀ c : Fin m.ch, c.val < m.ch - m.alphas → q c = T.max - p c) ∧
      alphaOf m q = alphaOf m p

theorem alphaOf_eq {m : PixelType} {p q : Pix Nat m.ch}
    (h : ∀ c : Fin m.ch, m.ch - m.alphas ≤ c.val → q c = p c) : alphaOf m q = alphaOf m p := by
  cases m
  · rfl
  · simp only [alphaOf]; rw [h 1 (by decide)]
  · rfl
  · simp only [alphaOf]; rw [h 3 (by decide)]

section
variable {D : Type} (T : Prim) (m : PixelType) [GenericImage D (Pix Nat m.ch)] [LawfulImage D (Pix Nat m.ch)]

/-- Inverting any image whose samples fit their type succeeds and complements exactly the colours. -/
theorem C17_invert (img : D) (wf : WF img)
    (hr : ∀ x y p, x < widthOf img → y < heightOf img → getPixel img x y = .ok p → ∀ c, p c ≤ T.max) :
    ∃ img', invert (invertPixel T m) img = .ok img' ∧ WF img' ∧ IsInverted T m img img' := by
  obtain ⟨d, h1, h2, h3, h4⟩ := map_loop (d0 := img) (invertPixel T m)
    (fun p c => if c.val < m.ch - m.alphas then T.max - p c else p c) wf
    (fun x y p hx hy hp => invertPixel_ok T m p (hr x y p hx hy hp))
  refine ⟨d, h1, h2, h3, fun x y p hx hy hp => ⟨_, h4 x y p hx hy hp, ?_, ?_⟩⟩
  · intro c hc; simp only [if_pos hc]
  · apply alphaOf_eq; intro c hc; rw [if_neg (by omega)]

theorem chan_alpha {p q : Pix Nat m.ch} (h : alphaOf m p = alphaOf m q) (c : Fin m.ch)
    (hc : ¬ c.val < m.ch - m.alphas) : p c = q c := by
  cases m
  · exfalso; exact hc c.isLt
  · match c with
    | 0 => exact absurd (by decide) hc
    | 1 => simpa [alphaOf] using h
  · exfalso; exact hc c.isLt
  · match c with
    | 0 => exact absurd (by decide) hc
    | 1 => exact absurd (by decide) hc
    | 2 => exact absurd (by decide) hc
    | 3 => simpa [alphaOf] using h

/-- Inverting twice restores every pixel. -/
theorem C17_invert_twice (img : D) (wf : WF img)
    (hr : ∀ x y p, x < widthOf img → y < heightOf img → getPixel img x y = .ok p → ∀ c, p c ≤ T.max) :
    ∃ img' img'', invert (invertPixel T m) img = .ok img' ∧ invert (invertPixel T m) img' = .ok img'' ∧
      WF img'' ∧ dims img'' = dims img ∧
      ∀ x y, x < widthOf img → y < heightOf img → getPixel img'' x y = getPixel img x y := by
  obtain ⟨a, h1, h2, h3, h4⟩ := C17_invert T m img wf hr
  have hw : widthOf a = widthOf img := by simp [widthOf, h3]
  have hh : heightOf a = heightOf img := by simp [heightOf, h3]
  have bound : ∀ {p q : Pix Nat m.ch}, (∀ c, p c ≤ T.max) →
      (∀ c : Fin m.ch, c.val < m.ch - m.alphas → q c = T.max - p c) → alphaOf m q = alphaOf m p →
      ∀ c, q c ≤ T.max := by
    intro p q hp hc ha c
    by_cases hcc : c.val < m.ch - m.alphas
    · rw [hc c hcc]; omega
    · rw [chan_alpha m ha c hcc]; exact hp c
  obtain ⟨b, g1, g2, g3, g4⟩ := C17_invert T m a h2 (by
    intro x y q hx hy hq
    rw [hw] at hx; rw [hh] at hy
    obtain ⟨p, hp⟩ := get_ok wf hx hy
    obtain ⟨q', e1, e2, e3⟩ := h4 x y p hx hy hp
    rw [hq] at e1; cases e1
    exact bound (hr x y p hx hy hp) e2 e3)
  refine ⟨a, b, h1, g1, g2, g3.trans h3, fun x y hx hy => ?_⟩
  obtain ⟨p, hp⟩ := get_ok wf hx hy
  obtain ⟨q, e1, e2, e3⟩ := h4 x y p hx hy hp
  obtain ⟨r, f1, f2, f3⟩ := g4 x y q (hw ▸ hx) (hh ▸ hy) e1
  rw [f1, hp]
  congr 1
  funext c
  by_cases hcc : c.val < m.ch - m.alphas
  · rw [f2 c hcc, e2 c hcc]; have := hr x y p hx hy hp c; omega
  · rw [chan_alpha m f3 c hcc, chan_alpha m e3 c hcc]
end

example : invert (invertPixel .u8 .lumaA) (⟨2, 1, [5, 6, 255, 8]⟩ : ImageBuffer Nat 2)
    = .ok ⟨2, 1, [250, 6, 0, 8]⟩ := by rfl

/-! ## C18 -/

/-- Widening multiplies by 257 (so that 0 and MAX are kept). -/
theorem C18_up (v : Nat) (h : v ≤ 255) : fromPrimitive .u8 .u16 v = .ok (v * 257) :=
  fromPrimitive_up (by omega)

/-- Narrowing yields the 8-bit value closest to `v * 255 / 65535`; distances are scaled by 65535. -/
theorem C18_down (v : Nat) (h : v ≤ 65535) :
    ∃ r, fromPrimitive .u16 .u8 v = .ok r ∧ r ≤ 255 ∧
      ∀ r' : Nat, r' ≤ 255 → r' ≠ r →
        (65535 * (r : Int) - 255 * v).natAbs < (65535 * (r' : Int) - 255 * v).natAbs := by
  refine ⟨_, fromPrimitive_down (by omega), by omega, ?_⟩
  intro r' hr' hne
  omega

/-- 8 bit to 16 bit and back is the identity. -/
theorem C18_round_trip (v : Nat) (h : v ≤ 255) :
    (fromPrimitive .u8 .u16 v >>= fromPrimitive .u16 .u8) = .ok v := by
  rw [fromPrimitive_up (by omega), ok_bind, fromPrimitive_down (by omega)]
  congr 1; omega

/-- Both conversions are monotone. -/
theorem C18_monotone (S T : Prim) (hST : Convertible S T) (a b : Nat) (hab : a ≤ b) (hb : b ≤ S.max) :
    ∃ a' b', fromPrimitive S T a = .ok a' ∧ fromPrimitive S T b = .ok b' ∧ a' ≤ b' ∧ b' ≤ T.max := by
  rcases hST with rfl | ⟨rfl, rfl⟩ | ⟨rfl, rfl⟩
  · exact ⟨a, b, fromPrimitive_same _ _, fromPrimitive_same _ _, hab, hb⟩
  · simp only [Prim.max, Prim.bits] at hb ⊢
    exact ⟨_, _, fromPrimitive_up (by omega), fromPrimitive_up (by omega), by omega, by omega⟩
  · simp only [Prim.max, Prim.bits] at hb ⊢
    exact ⟨_, _, fromPrimitive_down (by omega), fromPrimitive_down (by omega), by omega, by omega⟩

/-- The end points are kept. -/
theorem C18_endpoints (S T : Prim) (hST : Convertible S T) :
    fromPrimitive S T 0 = .ok 0 ∧ fromPrimitive S T S.max = .ok T.max := by
  rcases hST with rfl | ⟨rfl, rfl⟩ | ⟨rfl, rfl⟩
  · exact ⟨fromPrimitive_same _ _, fromPrimitive_same _ _⟩
  · exact ⟨rfl, rfl⟩
  · exact ⟨rfl, rfl⟩

example : fromPrimitive .u16 .u8 33000 = .ok 128 := rfl

/-! ## C19 -/

/-- Luma is the floor of the weighted mean; it is between the smallest and the largest channel, so no
clamping or overflow ever happens. -/
theorem C19_luma (T : Prim) (r g b : Nat) (hr : r ≤ T.max) (hg : g ≤ T.max) (hb : b ≤ T.max) :
    ∃ l, rgbToLuma T r g b = .ok l ∧
      10000 * l ≤ 2126 * r + 7152 * g + 722 * b ∧ 2126 * r + 7152 * g + 722 * b < 10000 * (l + 1) ∧
      min r (min g b) ≤ l ∧ l ≤ max r (max g b) := by
  refine ⟨_, rgbToLuma_ok T hr hg hb, ?_, ?_, ?_, ?_⟩ <;> omega

/-- Monotone in each channel. -/
theorem C19_monotone (T : Prim) (r g b r' g' b' : Nat) (hr : r ≤ r') (hg : g ≤ g') (hb : b ≤ b')
    (hr' : r' ≤ T.max) (hg' : g' ≤ T.max) (hb' : b' ≤ T.max) :
    ∃ l l', rgbToLuma T r g b = .ok l ∧ rgbToLuma T r' g' b' = .ok l' ∧ l ≤ l' :=
  ⟨_, _, rgbToLuma_ok T (by omega) (by omega) (by omega), rgbToLuma_ok T hr' hg' hb', by omega⟩

/-- A grey stays itself: grey to RGB(A) and back is the identity. -/
theorem C19_grey (T : Prim) (v : Nat) (h : v ≤ T.max) : rgbToLuma T v v v = .ok v := by
  rw [rgbToLuma_ok T h h h]; congr 1; omega

theorem C19_grey_round_trip (T : Prim) (d : PixelType) (p : Pix Nat 1) (h : p 0 ≤ T.max) :
    (fromColor T T .luma d p >>= fromColor T T d .luma) = .ok p := by
  cases d <;> simp only [fromColor, fromPrimitive_same, ok_bind, px1_0, px2_0, px3_0, px3_1, px3_2,
    px4_0, px4_1, px4_2, C19_grey T _ h, px1_eta]

example : rgbToLuma .u8 255 0 0 = .ok 54 := rfl

/-! ## C20 -/

theorem fromPrimitive_rescale {S T : Prim} (hST : Convertible S T) {v : Nat} (h : v ≤ S.max) :
    fromPrimitive S T v = .ok (rescale S T v) ∧ rescale S T v ≤ T.max := by
  rcases hST with rfl | ⟨rfl, rfl⟩ | ⟨rfl, rfl⟩
  · refine ⟨(fromPrimitive_same _ _).trans ?_, ?_⟩ <;> cases S <;> first | rfl | exact h
  · simp only [Prim.max, Prim.bits] at h
    refine ⟨fromPrimitive_up (by omega), ?_⟩
    simp only [Prim.max, Prim.bits, rescale]; omega
  · simp only [Prim.max, Prim.bits] at h
    refine ⟨(fromPrimitive_down (by omega)).trans ?_, ?_⟩
    · simp only [rescale]; congr 1; omega
    · simp only [Prim.max, Prim.bits, rescale]; omega

theorem lumaOf_le {S : Prim} {m : PixelType} {p : Pix Nat m.ch} (h : ∀ c, p c ≤ S.max) :
    lumaOf m p ≤ S.max := by
  cases m
  · exact h 0
  · exact h 0
  · have h0 := h 0; have h1 := h 1; have h2 := h 2
    show (2126 * p 0 + 7152 * p 1 + 722 * p 2) / 10000 ≤ S.max
    omega
  · have h0 := h 0; have h1 := h 1; have h2 := h 2
    show (2126 * p 0 + 7152 * p 1 + 722 * p 2) / 10000 ≤ S.max
    omega

/-- What a colour conversion does, for all sixteen pairs of pixel types and all convertible sample
types: it succeeds, stays in range, colours are rescaled (a grey target gets the rescaled luminance), alpha
is rescaled or becomes MAX when the source has none. -/
theorem C20_from_color (S T : Prim) (hST : Convertible S T) (s d : PixelType) (p : Pix Nat s.ch)
    (h : ∀ c, p c ≤ S.max) :
    ∃ q, fromColor S T s d p = .ok q ∧ (∀ c, q c ≤ T.max) ∧
      (d.isColor = true → ∀ i, rgbOf d q i = rescale S T (rgbOf s p i)) ∧
      (d.isColor = false → ∀ i, rgbOf d q i = rescale S T (lumaOf s p)) ∧
      alphaOf d q = (if d.hasAlpha then
        some (match alphaOf s p with
          | some a => rescale S T a
          | none => T.max) else none) := by
  have H : ∀ {v}, v ≤ S.max → _ := fun hv => fromPrimitive_rescale (v := _) hST hv
  cases s
  · obtain ⟨e0, r0⟩ := H (h 0)
    cases d <;> simp only [fromColor, e0, ok_bind]
    · exact ⟨_, rfl, fun | 0 => r0, nofun, fun _ _ => rfl, rfl⟩
    · exact ⟨_, rfl, fun | 0 => r0 | 1 => Nat.le_refl _, nofun, fun _ _ => rfl, rfl⟩
    · exact ⟨_, rfl, fun | 0 => r0 | 1 => r0 | 2 => r0, fun _ => fun | 0 => rfl | 1 => rfl | 2 => rfl,
        nofun, rfl⟩
    · exact ⟨_, rfl, fun | 0 => r0 | 1 => r0 | 2 => r0 | 3 => Nat.le_refl _,
        fun _ => fun | 0 => rfl | 1 => rfl | 2 => rfl, nofun, rfl⟩
  · obtain ⟨e0, r0⟩ := H (h 0)
    obtain ⟨e1, r1⟩ := H (h 1)
    cases d <;> simp only [fromColor, e0, e1, ok_bind]
    · exact ⟨_, rfl, fun | 0 => r0, nofun, fun _ _ => rfl, rfl⟩
    · exact ⟨_, rfl, fun | 0 => r0 | 1 => r1, nofun, fun _ _ => rfl, rfl⟩
    · exact ⟨_, rfl, fun | 0 => r0 | 1 => r0 | 2 => r0, fun _ => fun | 0 => rfl | 1 => rfl | 2 => rfl,
        nofun, rfl⟩
    · exact ⟨_, rfl, fun | 0 => r0 | 1 => r0 | 2 => r0 | 3 => r1,
        fun _ => fun | 0 => rfl | 1 => rfl | 2 => rfl, nofun, rfl⟩
  · obtain ⟨e0, r0⟩ := H (h 0)
    obtain ⟨e1, r1⟩ := H (h 1)
    obtain ⟨e2, r2⟩ := H (h 2)
    obtain ⟨el, rl⟩ := H (lumaOf_le (m := .rgb) h)
    have hl : rgbToLuma S (p 0) (p 1) (p 2) = .ok (lumaOf .rgb p) := rgbToLuma_ok S (h 0) (h 1) (h 2)
    cases d <;> simp only [fromColor, e0, e1, e2, hl, el, ok_bind]
    · exact ⟨_, rfl, fun | 0 => rl, nofun, fun _ _ => rfl, rfl⟩
    · exact ⟨_, rfl, fun | 0 => rl | 1 => Nat.le_refl _, nofun, fun _ _ => rfl, rfl⟩
    · exact ⟨_, rfl, fun | 0 => r0 | 1 => r1 | 2 => r2, fun _ => fun | 0 => rfl | 1 => rfl | 2 => rfl,
        nofun, rfl⟩
    · exact ⟨_, rfl, fun | 0 => r0 | 1 => r1 | 2 => r2 | 3 => Nat.le_refl _,
        fun _ => fun | 0 => rfl | 1 => rfl | 2 => rfl, nofun, rfl⟩
  · obtain ⟨e0, r0⟩ := H (h 0)
    obtain ⟨e1, r1⟩ := H (h 1)
    obtain ⟨e2, r2⟩ := H (h 2)
    obtain ⟨e3, r3⟩ := H (h 3)
    obtain ⟨el, rl⟩ := H (lumaOf_le (m := .rgba) h)
    have hl : rgbToLuma S (p 0) (p 1) (p 2) = .ok (lumaOf .rgba p) := rgbToLuma_ok S (h 0) (h 1) (h 2)
    cases d <;> simp only [fromColor, e0, e1, e2, e3, hl, el, ok_bind]
    · exact ⟨_, rfl, fun | 0 => rl, nofun, fun _ _ => rfl, rfl⟩
    · exact ⟨_, rfl, fun | 0 => rl | 1 => r3, nofun, fun _ _ => rfl, rfl⟩
    · exact ⟨_, rfl, fun | 0 => r0 | 1 => r1 | 2 => r2, fun _ => fun | 0 => rfl | 1 => rfl | 2 => rfl,
        nofun, rfl⟩
    · exact ⟨_, rfl, fun | 0 => r0 | 1 => r1 | 2 => r2 | 3 => r3,
        fun _ => fun | 0 => rfl | 1 => rfl | 2 => rfl, nofun, rfl⟩

/-- Adding information and taking it away again: converting to a pixel type with at least the channels of
the source, at equal or greater depth, and back restores the pixel. -/
theorem C20_round_trip (S T : Prim) (hST : S = T ∨ (S = .u8 ∧ T = .u16)) (s d : PixelType)
    (hc : s.isColor = true → d.isColor = true) (ha : s.hasAlpha = true → d.hasAlpha = true)
    (p : Pix Nat s.ch) (h : ∀ c, p c ≤ S.max) :
    (fromColor S T s d p >>= fromColor T S d s) = .ok p := by
  rcases hST with rfl | ⟨rfl, rfl⟩
  · have hg : ∀ {v}, v ≤ S.max → rgbToLuma S v v v = .ok v := fun hv => C19_grey S _ hv
    cases s <;> cases d <;> first
      | (exfalso; exact absurd (hc rfl) (by decide))
      | (exfalso; exact absurd (ha rfl) (by decide))
      | simp only [fromColor, fromPrimitive_same, ok_bind, px1_0, px2_0, px2_1, px3_0, px3_1, px3_2,
          px4_0, px4_1, px4_2, px4_3, hg (h 0), px1_eta, px2_eta, px3_eta, px4_eta]
  · have hu : ∀ {c}, fromPrimitive .u8 .u16 (p c) = .ok (p c * 257) := fun {c} =>
      fromPrimitive_up (by have := h c; simp only [Prim.max, Prim.bits] at this; omega)
    have hdn : ∀ {c}, fromPrimitive .u16 .u8 (p c * 257) = .ok (p c) := fun {c} => by
      have := h c; simp only [Prim.max, Prim.bits] at this
      rw [fromPrimitive_down (by omega)]; congr 1; omega
    have hg : ∀ {c}, rgbToLuma .u16 (p c * 257) (p c * 257) (p c * 257) = .ok (p c * 257) := fun {c} => by
      have := h c; simp only [Prim.max, Prim.bits] at this
      exact C19_grey .u16 _ (by simp only [Prim.max, Prim.bits]; omega)
    cases s <;> cases d <;> first
      | (exfalso; exact absurd (hc rfl) (by decide))
      | (exfalso; exact absurd (ha rfl) (by decide))
      | simp only [fromColor, hu, ok_bind, px1_0, px2_0, px2_1, px3_0, px3_1, px3_2,
          px4_0, px4_1, px4_2, px4_3, hg, hdn, px1_eta, px2_eta, px3_eta, px4_eta]

/-- `ConvertBuffer::convert` converts every pixel independently, keeps the dimensions and allocates
exactly the needed container. -/
theorem C20_convert_buffer (S T : Prim) (hST : Convertible S T) (s d : PixelType)
    (b : ImageBuffer Nat s.ch) (hb : b.Inv) (hr : ∀ v ∈ b.data, v ≤ S.max)
    (hs : b.width * b.height * d.ch < 2 ^ 64) :
    ∃ b' : ImageBuffer Nat d.ch, b.convert 0 (fromColor S T s d) = .ok b' ∧ b'.Inv ∧
      b'.width = b.width ∧ b'.height = b.height ∧ b'.data.length = b.width * b.height * d.ch ∧
      ∀ x y p, x < b.width → y < b.height → b.getPixel x y = .ok p →
        ∃ q, fromColor S T s d p = .ok q ∧ b'.getPixel x y = .ok q := by
  have c1 : 0 < d.ch ∧ d.ch < 256 := by cases d <;> decide
  have c2 : 0 < s.ch ∧ s.ch < 256 := by cases s <;> decide
  have hi := ImageBuffer.new_inv (ch := d.ch) (z := 0) hb.w32 hb.h32 hs
  obtain ⟨qs, q1, q2, -⟩ := ImageBuffer.pixels_ok hi c1.1 c1.2
  obtain ⟨ps, p1, p2, p3⟩ := ImageBuffer.pixels_ok hb c2.1 c2.2
  have hrange : ∀ x y p, x < b.width → y < b.height → b.getPixel x y = .ok p → ∀ c, p c ≤ S.max := by
    intro x y p hx hy hp c
    rw [ImageBuffer.getPixel_eq_ok hb hx hy] at hp
    exact hr _ (List.mem_of_getElem? (hp c))
  have hget : ∀ k, k < b.width * b.height → ∃ p, ps[k]? = some p ∧ ∀ c, p c ≤ S.max := by
    intro k hk
    have hw : 0 < b.width := by
      rcases Nat.eq_zero_or_pos b.width with h | h
      · rw [h] at hk; simp at hk
      · exact h
    have hx := Nat.mod_lt k hw
    have hy : k / b.width < b.height := Nat.div_lt_of_lt_mul hk
    obtain ⟨p, e1, e2⟩ := p3 _ _ hx hy
    have : k / b.width * b.width + k % b.width = k := by rw [Nat.mul_comm]; exact Nat.div_add_mod _ _
    rw [this] at e1
    exact ⟨p, e1, hrange _ _ p hx hy e2⟩
  obtain ⟨rs, r1, r2, r3⟩ := mapM_ok
    (f := fun (q : Pix Nat d.ch × Pix Nat s.ch) => fromColor S T s d q.2) (l := qs.zip ps) (by
      intro q hq
      obtain ⟨k, hk, hkl⟩ := List.mem_iff_getElem.1 hq
      rw [List.length_zip] at hk
      obtain ⟨p, e1, e2⟩ := hget k (by omega)
      rw [List.getElem_zip] at hkl
      rw [List.getElem?_eq_getElem (by omega)] at e1
      obtain ⟨q', hq', -⟩ := C20_from_color S T hST s d p e2
      refine ⟨q', ?_⟩
      rw [← hkl, ← hq']
      simp only at e1 ⊢; congr 1; simpa using e1)
  have hzl : (qs.zip ps).length = b.width * b.height := by
    rw [List.length_zip, q2, p2]; simp
  rw [hzl] at r2
  obtain ⟨g1, g2, g3, g4, g5⟩ := ImageBuffer.setPixels_spec hi (ps := rs) r2
  refine ⟨_, ?_, g1, g2, g3, by rw [g4]; simp, ?_⟩
  · unfold ImageBuffer.convert
    rw [ImageBuffer.new_ok c1.2 hb.w32 hs]; simp only [ok_bind]
    rw [q1]; simp only [ok_bind]
    rw [p1]; simp only [ok_bind]
    rw [r1]; rfl
  · intro x y p hx hy hp
    obtain ⟨q, hq, -⟩ := C20_from_color S T hST s d p (hrange x y p hx hy hp)
    refine ⟨q, hq, g5 x y q hx hy ?_⟩
    obtain ⟨p', e1, e2⟩ := p3 x y hx hy
    rw [hp] at e2; cases e2
    have hk : y * b.width + x < b.width * b.height := idx_lt hx hy
    have h3 := r3 (y * b.width + x) (by omega) (by omega)
    rw [List.getElem_zip] at h3
    rw [List.getElem?_eq_getElem (by omega)] at e1
    simp only [Option.some.injEq] at e1
    rw [e1, hq] at h3
    rw [List.getElem?_eq_getElem (by simp only; omega)]
    simpa using h3.symm

example : (⟨1, 2, [10, 20, 30, 255, 255, 255]⟩ : ImageBuffer Nat 3).convert 0
    (fromColor .u8 .u16 .rgb .lumaA) = .ok (⟨1, 2, [4626, 65535, 65535, 65535]⟩ : ImageBuffer Nat 2) := by
  rfl

/-! ## C55 -/

/-- `grayscale` (`d = luma`) and `grayscale_alpha` (`d = lumaA`) produce the luminance of every pixel, keeping alpha
when there is one. Excluded: images of width 0 and height at least 2, on which the pixel iterator panics
(`C05_pixels_false`). -/
theorem C55_grayscale_partial {I : Type} (T : Prim) (m : PixelType) [GenericImageView I (Pix Nat m.ch)]
    [LawfulView I (Pix Nat m.ch)] (img : I) (wf : WF img) (hw : 0 < widthOf img ∨ heightOf img ≤ 1)
    (hs : widthOf img * heightOf img * 2 < 2 ^ 64)
    (hr : ∀ x y p, x < widthOf img → y < heightOf img → getPixel img x y = .ok p → ∀ c, p c ≤ T.max) :
    (∃ out : ImageBuffer Nat 1, grayscaleWithType T T m .luma img = .ok out ∧ out.Inv ∧
      out.width = widthOf img ∧ out.height = heightOf img ∧
      ∀ x y p, x < widthOf img → y < heightOf img → getPixel img x y = .ok p →
        out.getPixel x y = .ok (px1 (lumaOf m p))) ∧
    (∃ out : ImageBuffer Nat 2, grayscaleWithTypeAlpha T T m .lumaA img = .ok out ∧ out.Inv ∧
      out.width = widthOf img ∧ out.height = heightOf img ∧
      ∀ x y p, x < widthOf img → y < heightOf img → getPixel img x y = .ok p →
        out.getPixel x y = .ok (px2 (lumaOf m p) ((alphaOf m p).getD T.max))) := by
  have hl : ∀ p : Pix Nat m.ch, (∀ c, p c ≤ T.max) → fromColor T T m .luma p = .ok (px1 (lumaOf m p)) := by
    intro p h
    cases m
    · simp only [fromColor, fromPrimitive_same, ok_bind]; rfl
    · simp only [fromColor, fromPrimitive_same, ok_bind]; rfl
    · simp only [fromColor, fromPrimitive_same, ok_bind, rgbToLuma_ok T (h 0) (h 1) (h 2)]; rfl
    · simp only [fromColor, fromPrimitive_same, ok_bind, rgbToLuma_ok T (h 0) (h 1) (h 2)]; rfl
  have hla : ∀ p : Pix Nat m.ch, (∀ c, p c ≤ T.max) →
      fromColor T T m .lumaA p = .ok (px2 (lumaOf m p) ((alphaOf m p).getD T.max)) := by
    intro p h
    cases m
    · simp only [fromColor, fromPrimitive_same, ok_bind]; rfl
    · simp only [fromColor, fromPrimitive_same, ok_bind]; rfl
    · simp only [fromColor, fromPrimitive_same, ok_bind, rgbToLuma_ok T (h 0) (h 1) (h 2)]; rfl
    · simp only [fromColor, fromPrimitive_same, ok_bind, rgbToLuma_ok T (h 0) (h 1) (h 2)]; rfl
  have hs1 : widthOf img * heightOf img * 1 < 2 ^ 64 := by omega
  constructor
  · obtain ⟨o, h1, h2, h3, h4⟩ := overPixels_spec (img := img)
      (out := (⟨widthOf img, heightOf img, List.replicate (widthOf img * heightOf img * 1) 0⟩ : ImageBuffer Nat 1))
      (fun p => do fromColor T T .luma .luma (← fromColor T T m .luma p)) (fun p => px1 (lumaOf m p)) wf
      (ImageBuffer.new_inv (width_lt wf) (height_lt wf) hs1) hw rfl rfl (by
        intro x y p hx hy hp
        rw [hl p (hr x y p hx hy hp)]; simp only [ok_bind, fromColor, fromPrimitive_same, px1_0])
    refine ⟨o, ?_, h2, congrArg Prod.fst h3, congrArg Prod.snd h3, h4⟩
    unfold grayscaleWithType
    rw [ImageBuffer.new_ok (by decide) (width_lt wf) hs1]; exact h1
  · obtain ⟨o, h1, h2, h3, h4⟩ := overPixels_spec (img := img)
      (out := (⟨widthOf img, heightOf img, List.replicate (widthOf img * heightOf img * 2) 0⟩ : ImageBuffer Nat 2))
      (fun p => do fromColor T T .lumaA .lumaA (← fromColor T T m .lumaA p))
      (fun p => px2 (lumaOf m p) ((alphaOf m p).getD T.max)) wf
      (ImageBuffer.new_inv (width_lt wf) (height_lt wf) hs) hw rfl rfl (by
        intro x y p hx hy hp
        rw [hla p (hr x y p hx hy hp)]
        simp only [ok_bind, fromColor, fromPrimitive_same, px2_0, px2_1])
    refine ⟨o, ?_, h2, congrArg Prod.fst h3, congrArg Prod.snd h3, h4⟩
    unfold grayscaleWithTypeAlpha
    rw [ImageBuffer.new_ok (by decide) (width_lt wf) hs]; exact h1

example : grayscaleWithType .u8 .u8 .rgb .luma (⟨1, 2, [10, 20, 30, 255, 255, 255]⟩ : ImageBuffer Nat 3) =
    .ok (⟨1, 2, [18, 255]⟩ : ImageBuffer Nat 1) := by rfl

/-- C55 fails on an empty image of width 0 and height 2: the call panics. -/
theorem C55_grayscale_false :
    grayscaleWithType .u8 .u8 .luma .luma (⟨0, 2, []⟩ : ImageBuffer Nat 1) = .error .panic := rfl

/-! ## C21 -/

/-- The tables of `ColorType` and `ExtendedColorType` agree. -/
theorem C21_tables (c : ColorType) :
    c.bitsPerPixel = .ok (8 * c.bytesPerPixel) ∧
    c.toExtended.bitsPerPixel = 8 * c.bytesPerPixel ∧
    c.toExtended.channelCount = c.channelCount ∧
    c.channelCount = (if c.hasColor then 3 else 1) + (if c.hasAlpha then 1 else 0) ∧
    c.bytesPerPixel % c.channelCount = 0 := by
  cases c <;> exact ⟨rfl, by decide⟩

/-- Different colour types have different extended types, and every extended type has at least one bit per
channel. -/
theorem C21_extended (c d : ColorType) (h : c.toExtended = d.toExtended) : c = d := by
  cases c <;> cases d <;> first | rfl | cases h

/-- `buffer_size` is `ceil(w * bpp / 8) * h`, saturated, and its `u64` arithmetic never overflows. -/
theorem C21_buffer_size (c : ExtendedColorType) (w h : Nat) (hw : w < 2 ^ 32)
    (hc : ∀ bpp, c = .Unknown bpp → bpp < 256) :
    ∃ pitch n, c.bufferSize w h = .ok n ∧ 8 * pitch < w * c.bitsPerPixel + 8 ∧
      w * c.bitsPerPixel ≤ 8 * pitch ∧ n = min (pitch * h) (2 ^ 64 - 1) := by
  have hb : c.bitsPerPixel < 256 := by
    cases c <;> first | decide | exact hc _ rfl
  have h1 : w * c.bitsPerPixel ≤ 2 ^ 32 * 256 := Nat.mul_le_mul (by omega) (by omega)
  simp only [ExtendedColorType.bufferSize]
  rw [mulC_ok (by omega)]; simp only [ok_bind]
  rw [addC_ok (by omega)]; simp only [ok_bind]
  exact ⟨_, _, rfl, by omega, by omega, rfl⟩

example : ExtendedColorType.bufferSize .L1 9 2 = .ok 4 := rfl
example : ExtendedColorType.bufferSize .Rgba32F (2 ^ 32 - 1) (2 ^ 32 - 1) = .ok (2 ^ 64 - 1) := rfl

end Verif
