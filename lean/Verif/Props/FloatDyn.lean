import Verif.Proofs.FloatDyn
import Verif.Props.DynOps
import Verif.Props.FloatConv
import Verif.Props.FloatImage

/-!
# C130: the `f32` variants of `DynamicImage`

The samples of `ImageRgb32F` and `ImageRgba32F` are bit patterns, `ofBits32` gives the value of a pattern (IEEE 754 binary32). No assumption is made about
the patterns except where it is stated: there may be NaNs, infinities, negative and huge values.
-/

namespace Verif
open GenericImageView GenericImage LawfulView LawfulImage

/-- `d` is an `f32` image with pixels of type `m`, held in `b`. -/
inductive FloatBuf : DynamicImage → (m : PixelType) → ImageBuffer Nat m.ch → Prop
  | rgb (b : ImageBuffer Nat 3) : FloatBuf (.rgb32F b) .rgb b
  | rgba (b : ImageBuffer Nat 4) : FloatBuf (.rgba32F b) .rgba b

/-- The red, green and blue of an `f32` pixel. -/
def rgbF : (m : PixelType) → Pix Fl m.ch → Fin 3 → Fl
  | .luma, p, _ => p 0
  | .lumaA, p, _ => p 0
  | .rgb, p, i => p i
  | .rgba, p, i => p (i.castLE (by decide))

/-- The alpha of an `f32` pixel, if it has one. -/
def alphaF : (m : PixelType) → Pix Fl m.ch → Option Fl
  | .luma, _ => none
  | .lumaA, p => some (p 1)
  | .rgb, _ => none
  | .rgba, p => some (p 3)

/-- `n` is the value `v` as an integer sample: `v` is cut to `0 ..= 1` (a NaN counts as 1), multiplied by the maximum and rounded. -/
def Quantized (T : Prim) (v : Fl) (n : Nat) : Prop := n ≤ T.max ∧ |(n : ℚ) - v.unitClamped * T.max| ≤ 1 / 2 + 1 / 2 ^ 7

/-- `q` is the `f32` pixel `p` with integer samples: the colour samples of a colour target are those of `p`; a grey target holds the luminance, when the
samples are between 0 and 1; alpha is kept, or the maximum when `p` has none. -/
def QuantizedPix (T : Prim) (s m : PixelType) (p : Pix Fl s.ch) (q : Pix Nat m.ch) : Prop :=
  (m.isColor = true → ∀ i, Quantized T (rgbF s p i) (rgbOf m q i)) ∧
  (m.isColor = false → ∀ c : Fin 3 → ℚ, (∀ i, rgbF s p i = .fin (c i) ∧ 0 ≤ c i ∧ c i ≤ 1) →
    |(rgbOf m q 0 : ℚ) - (2126 * c 0 + 7152 * c 1 + 722 * c 2) / 10000 * T.max| ≤ 1 / 2 + 1 / 2 ^ 6) ∧
  (m.hasAlpha = true → ∃ a, alphaOf m q = some a ∧ match alphaF s p with
    | some v => Quantized T v a
    | none => a = T.max) ∧
  ∀ c, q c ≤ T.max

/-! ## Values -/

theorem isF32_ofRat (q : ℚ) : IsF32 (f32.ofRat q) := by
  unfold Fmt.ofRat
  split
  · rename_i h
    exact ⟨rnd_idem q, by simpa [f32] using h⟩
  · trivial

theorem isF32_int {n : ℕ} (h : n ≤ 2 ^ 24) : IsF32 (.fin n) :=
  ⟨rnd_nat32 h, by
    rw [abs_of_nonneg (by positivity)]
    calc (n : ℚ) ≤ 2 ^ 24 := by exact_mod_cast h
      _ < 2 ^ 128 := by norm_num⟩

theorem isF32_zero : IsF32 (.fin 0) := by simpa using isF32_int (n := 0) (by norm_num)
theorem isF32_one : IsF32 (.fin 1) := by simpa using isF32_int (n := 1) (by norm_num)

theorem isF32_div (a b : Fl) : IsF32 (a.div f32 b) := by
  cases a <;> cases b <;> simp only [Fl.div] <;> first
    | trivial
    | exact isF32_zero
    | (split
       · split <;> trivial
       · exact isF32_ofRat _)

theorem isF32_add (a b : Fl) : IsF32 (a.add f32 b) := by
  cases a <;> cases b <;> simp only [Fl.add] <;> first
    | trivial
    | exact isF32_ofRat _
    | (split <;> trivial)

theorem isF32_invert (v : Fl) : IsF32 (invertSampleF v) := isF32_add _ _

theorem isF32_ofUint (T : Prim) (x : Nat) : IsF32 (f32OfUint T x) := by
  unfold f32OfUint Fl.clamp
  simp only
  split <;> split <;> first
    | exact isF32_one
    | exact isF32_zero
    | exact isF32_div _ _

theorem isF32_toF32 (v : Fl) : IsF32 v.toF32 := by
  cases v <;> first | trivial | exact isF32_ofRat _

theorem isF32_max : IsF32 (.fin maxFinite32) ∧ IsF32 (.fin (-maxFinite32)) := by
  have h : f32.rnd maxFinite32 = maxFinite32 := rnd_dyadic (2 ^ 24 - 1) 104 (by norm_num [maxFinite32]) (by norm_num) (by norm_num)
  have h2 : |maxFinite32| < 2 ^ 128 := by rw [abs_of_nonneg (by norm_num [maxFinite32])]; norm_num [maxFinite32]
  exact ⟨⟨h, h2⟩, by rw [Fmt.rnd_neg, h], by rw [abs_neg]; exact h2⟩

theorem isF32_luma (r g b : Fl) : IsF32 (rgbToLumaF r g b) := by
  unfold rgbToLumaF clampFromF64
  simp only
  split
  · exact isF32_max.1
  · split
    · exact isF32_max.2
    · exact isF32_toF32 _

/-- **C130: the patterns.** Every value that an `f32` can hold has a 32-bit pattern with that value; a pattern that is neither a NaN nor the negative
zero is the one found for its value; the value of every pattern is one that an `f32` can hold. -/
theorem C130_patterns :
    (∀ x, IsF32 x → toBits32 x < 2 ^ 32 ∧ ofBits32 (toBits32 x) = x) ∧
    (∀ n, n < 2 ^ 32 → ofBits32 n ≠ .nan → n ≠ 2 ^ 31 → toBits32 (ofBits32 n) = n) ∧
    ∀ n, IsF32 (ofBits32 n) :=
  ⟨fun _ h => ⟨toBits32_lt h, ofBits32_toBits32 h⟩, fun _ h1 h2 h3 => toBits32_ofBits32 h1 h2 h3, ofBits32_isF32⟩

/-! ## Sizes -/

/-- **C130: sizes.** The assumption of C108 about `f32` buffers holds of the operations on them, so that C108 holds of all ten variants. -/
theorem C130_float_sizes (L : Libm) (trig : Trig) : FloatSizes (OpEnv.std L trig) := by
  intro op m b b' hb hw hh h
  obtain ⟨o, e1, e2⟩ := bind_eq_ok.1 h
  cases e2
  have := onFloat_post L trig op m (decodeBuf b) (decodeBuf_inv hb) (op.size b.width b.height).1 (op.size b.width b.height).2
    (by cases op <;> exact ⟨rfl, rfl⟩) hw hh o e1
  exact ⟨encodeBuf_inv this.1, this.2.1, this.2.2⟩

namespace DynamicImage

/-- **C130: sizes.** For every image, integer or `f32`, every operation, every filter and every argument, an operation that returns keeps the colour type
and gives the documented size. -/
theorem C130_size (L : Libm) (trig : Trig) (op : BufOp) (d d' : DynamicImage) (hv : d.Valid)
    (hw : (op.size d.width d.height).1 < 2 ^ 32) (hh : (op.size d.width d.height).2 < 2 ^ 32) (h : d.apply (OpEnv.std L trig) op = .ok d') :
    d'.color = d.color ∧ (d'.width, d'.height) = op.size d.width d.height ∧ d'.Valid :=
  C108_size _ (C130_float_sizes L trig) op d d' hv hw hh h

/-- **C130: operations.** On an `f32` image an operation is the function of `imageops` on the values of its samples: the result decodes to that
function's result wherever its samples are `f32` values; errors and panics are the same. -/
theorem C130_acts (L : Libm) (trig : Trig) (op : BufOp) (d : DynamicImage) (m : PixelType) (b : ImageBuffer Nat m.ch) (h : FloatBuf d m b) :
    (∀ o, op.onFloat L trig m (decodeBuf b) = .ok o → ∃ d' b', d.apply (OpEnv.std L trig) op = .ok d' ∧ FloatBuf d' m b' ∧
      b'.width = o.width ∧ b'.height = o.height ∧ ((∀ v ∈ o.data, IsF32 v) → decodeBuf b' = o)) ∧
    ∀ e, op.onFloat L trig m (decodeBuf b) = .error e → d.apply (OpEnv.std L trig) op = .error e := by
  have dec : ∀ {ch : Nat} (o : ImageBuffer Fl ch), (∀ v ∈ o.data, IsF32 v) → decodeBuf (encodeBuf o) = o := by
    intro ch o ho
    unfold decodeBuf encodeBuf
    rw [List.map_map]
    congr 1
    conv => rhs; rw [← List.map_id o.data]
    exact List.map_congr_left fun v hv => ofBits32_toBits32 (ho v hv)
  constructor
  · intro o ho
    cases h <;> refine ⟨_, encodeBuf o, by simp only [apply, OpEnv.std, ho, ok_bind]; rfl, by constructor, rfl, rfl, dec o⟩
  · intro e he
    cases h <;> (simp only [apply, OpEnv.std, he]; rfl)

end DynamicImage

/-! ## Conversion to integers -/

/-- A conversion that never fails. -/
theorem convert_total {α β : Type} {ch ch' : Nat} (z : β) (conv : Pix α ch → R (Pix β ch')) (hconv : ∀ p, ∃ q, conv p = .ok q)
    (b : ImageBuffer α ch) (hb : b.Inv) (c1 : 0 < ch' ∧ ch' < 256) (c2 : 0 < ch ∧ ch < 256) (hs : b.width * b.height * ch' < 2 ^ 64) :
    ∃ b' : ImageBuffer β ch', b.convert z conv = .ok b' ∧ b'.Inv ∧ b'.width = b.width ∧ b'.height = b.height ∧
      ∀ x y p, x < b.width → y < b.height → b.getPixel x y = .ok p → ∃ q, conv p = .ok q ∧ b'.getPixel x y = .ok q := by
  have hi := ImageBuffer.new_inv (ch := ch') (z := z) hb.w32 hb.h32 hs
  obtain ⟨qs, q1, q2, -⟩ := ImageBuffer.pixels_ok hi c1.1 c1.2
  obtain ⟨ps, p1, p2, p3⟩ := ImageBuffer.pixels_ok hb c2.1 c2.2
  obtain ⟨rs, r1, r2, r3⟩ := mapM_ok (f := fun (q : Pix β ch' × Pix α ch) => conv q.2) (l := qs.zip ps) fun q _ => hconv q.2
  have hzl : (qs.zip ps).length = b.width * b.height := by
    rw [List.length_zip, q2, p2]; simp
  rw [hzl] at r2
  obtain ⟨g1, g2, g3, g4, g5⟩ := ImageBuffer.setPixels_spec hi (ps := rs) r2
  refine ⟨_, ?_, g1, g2, g3, ?_⟩
  · unfold ImageBuffer.convert
    rw [ImageBuffer.new_ok c1.2 hb.w32 hs]; simp only [ok_bind]
    rw [q1]; simp only [ok_bind]
    rw [p1]; simp only [ok_bind]
    rw [r1]; rfl
  · intro x y p hx hy hp
    obtain ⟨q, hq⟩ := hconv p
    refine ⟨q, hq, g5 x y q hx hy ?_⟩
    obtain ⟨p', e1, e2⟩ := p3 x y hx hy
    rw [hp] at e2; cases e2
    have hk : y * b.width + x < b.width * b.height := idx_lt hx hy
    have h3 := r3 (y * b.width + x) (by omega) (by omega)
    rw [List.getElem_zip] at h3
    rw [List.getElem?_eq_getElem (by omega)] at e1
    simp only [Option.some.injEq] at e1
    rw [e1, hq] at h3
    rw [List.getElem?_eq_getElem (by simp only; omega)]
    simpa using h3.symm

theorem quantized_of (T : Prim) (hT : T = .u8 ∨ T = .u16) (v : Fl) : ∃ n, uintOfF32 T v = .ok n ∧ Quantized T v n := by
  obtain ⟨n, h1, h2⟩ := C51_nearest T hT v
  obtain ⟨n', h3, h4⟩ := C51_total T hT v
  rw [h1] at h3
  cases h3
  exact ⟨n, h1, h4, h2⟩

theorem luma_quantized {T : Prim} (hT : T = .u8 ∨ T = .u16) {r g b : Fl} {n : Nat} (hn : Quantized T (rgbToLumaF r g b) n) {r' g' b' : ℚ}
    (hr : r = .fin r' ∧ 0 ≤ r' ∧ r' ≤ 1) (hg : g = .fin g' ∧ 0 ≤ g' ∧ g' ≤ 1) (hb : b = .fin b' ∧ 0 ≤ b' ∧ b' ≤ 1) :
    |(n : ℚ) - (2126 * r' + 7152 * g' + 722 * b') / 10000 * T.max| ≤ 1 / 2 + 1 / 2 ^ 6 := by
  obtain ⟨rfl, hr⟩ := hr
  obtain ⟨rfl, hg⟩ := hg
  obtain ⟨rfl, hb⟩ := hb
  obtain ⟨l, e, l0, l1, hl⟩ := luma_float_near hr hg hb
  unfold Quantized at hn
  rw [e] at hn
  have hc : (Fl.fin l).unitClamped = l := by simp only [Fl.unitClamped]; rw [min_eq_left l1, max_eq_right l0]
  rw [hc] at hn
  have hm : (0 : ℚ) ≤ T.max ∧ (T.max : ℚ) ≤ 2 ^ 16 := by rcases hT with rfl | rfl <;> norm_num [Prim.max, Prim.bits]
  unfold exactLuma at hl
  have h2 : |l * T.max - (2126 * r' + 7152 * g' + 722 * b') / 10000 * T.max| ≤ 1 / 2 ^ 7 := by
    rw [← sub_mul, abs_mul, abs_of_nonneg hm.1]
    calc _ ≤ (1 / 2 ^ 23) * (2 ^ 16 : ℚ) := mul_le_mul hl hm.2 hm.1 (by norm_num)
      _ = 1 / 2 ^ 7 := by norm_num
  have h3 := abs_le.1 hn.2
  have h4 := abs_le.1 h2
  rw [abs_le]
  constructor <;> linarith [h3.1, h3.2, h4.1, h4.2]

/-- The conversion of an `f32` pixel never fails. -/
theorem fromColorFloat_ok (T : Prim) (hT : T = .u8 ∨ T = .u16) (s m : PixelType) (hs : s = .rgb ∨ s = .rgba) (p : Pix Fl s.ch) :
    ∃ q, fromColorFloat T s m p = .ok q ∧ QuantizedPix T s m p q := by
  have q1 := quantized_of T hT
  rcases hs with rfl | rfl
  · obtain ⟨n0, e0, h0⟩ := q1 (p 0)
    obtain ⟨n1, e1, h1⟩ := q1 (p 1)
    obtain ⟨n2, e2, h2⟩ := q1 (p 2)
    obtain ⟨l, el, hl⟩ := q1 (rgbToLumaF (p 0) (p 1) (p 2))
    cases m with
    | luma =>
      refine ⟨px1 l, by simp only [fromColorFloat, el, ok_bind], fun h => (by cases h), fun _ c hc => ?_, fun h => (by cases h), ?_⟩
      · exact luma_quantized hT hl (hc 0) (hc 1) (hc 2)
      · intro c; match c with | 0 => exact hl.1
    | lumaA =>
      refine ⟨px2 l T.max, by simp only [fromColorFloat, el, ok_bind], fun h => (by cases h), fun _ c hc => ?_, fun _ => ⟨T.max, rfl, rfl⟩, ?_⟩
      · exact luma_quantized hT hl (hc 0) (hc 1) (hc 2)
      · intro c; match c with | 0 => exact hl.1 | 1 => exact le_rfl
    | rgb =>
      refine ⟨px3 n0 n1 n2, by simp only [fromColorFloat, e0, e1, e2, ok_bind], fun _ i => ?_, fun h => (by cases h), fun h => (by cases h), ?_⟩
      · match i with | 0 => exact h0 | 1 => exact h1 | 2 => exact h2
      · intro c; match c with | 0 => exact h0.1 | 1 => exact h1.1 | 2 => exact h2.1
    | rgba =>
      refine ⟨px4 n0 n1 n2 T.max, by simp only [fromColorFloat, e0, e1, e2, ok_bind], fun _ i => ?_, fun h => (by cases h), fun _ => ⟨T.max, rfl, rfl⟩, ?_⟩
      · match i with | 0 => exact h0 | 1 => exact h1 | 2 => exact h2
      · intro c; match c with | 0 => exact h0.1 | 1 => exact h1.1 | 2 => exact h2.1 | 3 => exact le_rfl
  · obtain ⟨n0, e0, h0⟩ := q1 (p 0)
    obtain ⟨n1, e1, h1⟩ := q1 (p 1)
    obtain ⟨n2, e2, h2⟩ := q1 (p 2)
    obtain ⟨n3, e3, h3⟩ := q1 (p 3)
    obtain ⟨l, el, hl⟩ := q1 (rgbToLumaF (p 0) (p 1) (p 2))
    cases m with
    | luma =>
      refine ⟨px1 l, by simp only [fromColorFloat, el, ok_bind], fun h => (by cases h), fun _ c hc => ?_, fun h => (by cases h), ?_⟩
      · exact luma_quantized hT hl (hc 0) (hc 1) (hc 2)
      · intro c; match c with | 0 => exact hl.1
    | lumaA =>
      refine ⟨px2 l n3, by simp only [fromColorFloat, el, e3, ok_bind], fun h => (by cases h), fun _ c hc => ?_, fun _ => ⟨n3, rfl, h3⟩, ?_⟩
      · exact luma_quantized hT hl (hc 0) (hc 1) (hc 2)
      · intro c; match c with | 0 => exact hl.1 | 1 => exact h3.1
    | rgb =>
      refine ⟨px3 n0 n1 n2, by simp only [fromColorFloat, e0, e1, e2, ok_bind], fun _ i => ?_, fun h => (by cases h), fun h => (by cases h), ?_⟩
      · match i with | 0 => exact h0 | 1 => exact h1 | 2 => exact h2
      · intro c; match c with | 0 => exact h0.1 | 1 => exact h1.1 | 2 => exact h2.1
    | rgba =>
      refine ⟨px4 n0 n1 n2 n3, by simp only [fromColorFloat, e0, e1, e2, e3, ok_bind], fun _ i => ?_, fun h => (by cases h), fun _ => ⟨n3, rfl, h3⟩, ?_⟩
      · match i with | 0 => exact h0 | 1 => exact h1 | 2 => exact h2
      · intro c; match c with | 0 => exact h0.1 | 1 => exact h1.1 | 2 => exact h2.1 | 3 => exact h3.1

theorem FloatBuf.type {d : DynamicImage} {s : PixelType} {b : ImageBuffer Nat s.ch} (h : FloatBuf d s b) : s = .rgb ∨ s = .rgba := by
  cases h <;> simp

theorem ch_range (m : PixelType) : 0 < m.ch ∧ m.ch < 256 := by cases m <;> decide

namespace DynamicImage

/-- **C130: to integers.** `to_rgb8`, …, `to_luma_alpha16` of an `f32` image return, whatever the samples are, an image of the same size whose pixels are
the converted pixels. -/
theorem C130_to_integers (d : DynamicImage) (T : Prim) (hT : T = .u8 ∨ T = .u16) (s m : PixelType) (b : ImageBuffer Nat s.ch) (h : FloatBuf d s b)
    (hb : b.Inv) (hs : b.width * b.height * m.ch < 2 ^ 64) :
    ∃ b' : ImageBuffer Nat m.ch, d.toType T m (convertBits T m) = .ok b' ∧ b'.Inv ∧ b'.width = d.width ∧ b'.height = d.height ∧
      ∀ x y, x < b.width → y < b.height → ∃ p q, b.getPixel x y = .ok p ∧ b'.getPixel x y = .ok q ∧
        QuantizedPix T s m (fun k => ofBits32 (p k)) q := by
  obtain ⟨b', e1, e2, e3, e4, e5⟩ := convert_total 0 (convertBits T m s) (fun p => by
    obtain ⟨q, hq, -⟩ := fromColorFloat_ok T hT s m h.type fun k => ofBits32 (p k)
    exact ⟨q, hq⟩) b hb (ch_range m) (ch_range s) hs
  have hpx : ∀ x y, x < b.width → y < b.height → ∃ p q, b.getPixel x y = .ok p ∧ b'.getPixel x y = .ok q ∧
      QuantizedPix T s m (fun k => ofBits32 (p k)) q := by
    intro x y hx hy
    obtain ⟨p, hp⟩ := ImageBuffer.getPixel_exists hb hx hy
    obtain ⟨q, k1, k2⟩ := e5 x y p hx hy hp
    obtain ⟨q', k3, k4⟩ := fromColorFloat_ok T hT s m h.type fun k => ofBits32 (p k)
    unfold convertBits at k1
    rw [k1] at k3; cases k3
    exact ⟨p, q, hp, k2, k4⟩
  cases h <;> exact ⟨b', e1, e2, e3, e4, hpx⟩

/-! ## Conversion from integers -/

/-- `q` is the pixel `p` as an `f32` pixel: every sample `v` is within `2^-24` of `v / MAX` (relative error), and alpha is 1 when `p` has none. -/
def Floated (S : Prim) (s m : PixelType) (p : Pix Nat s.ch) (q : Pix Fl m.ch) : Prop :=
  (∀ i, ∃ v : ℚ, rgbF m q i = .fin v ∧ 0 ≤ v ∧ v ≤ 1 ∧ |v - rgbOf s p i / S.max| ≤ rgbOf s p i / S.max / 2 ^ 24) ∧
  (m.hasAlpha = true → ∃ v : ℚ, alphaF m q = some (.fin v) ∧ 0 ≤ v ∧ v ≤ 1 ∧ match alphaOf s p with
    | some a => |v - a / S.max| ≤ a / S.max / 2 ^ 24
    | none => v = 1)

theorem dec_enc (T : Prim) (x : Nat) : ofBits32 (toBits32 (f32OfUint T x)) = f32OfUint T x := ofBits32_toBits32 (isF32_ofUint T x)
theorem dec_one : ofBits32 (toBits32 (.fin 1)) = .fin 1 := ofBits32_toBits32 isF32_one

theorem floatOfColor_ok (S : Prim) (hS : S = .u8 ∨ S = .u16) (s m : PixelType) (hm : m = .rgb ∨ m = .rgba) (p : Pix Nat s.ch) (hp : ∀ c, p c ≤ S.max) :
    ∃ q, floatOfColor S s m p = .ok q ∧ Floated S s m p (fun k => ofBits32 (q k)) ∧
      ((s.hasAlpha = true → m = .rgba) → fromColorFloat S m s (fun k => ofBits32 (q k)) = .ok p) := by
  have fl := fun x hx => C51_to_float S hS x hx
  have rt := fun x hx => C51_round_trip S hS x hx
  have grey : ∀ x, x ≤ S.max → rgbToLumaF (f32OfUint S x) (f32OfUint S x) (f32OfUint S x) = f32OfUint S x := by
    intro x hx
    have h := isF32_ofUint S x
    obtain ⟨v, e, h0, h1, -⟩ := fl x hx
    rw [e] at h ⊢
    exact luma_float_grey h.1 (by rw [abs_of_nonneg h0]; exact h1.trans (by norm_num))
  have mx : uintOfF32 S (.fin 1) = .ok S.max := (C51_special S hS).2.2.2.2 1 le_rfl
  rcases hm with rfl | rfl <;> cases s
  · refine ⟨_, rfl, ⟨fun i => ?_, fun h => (by cases h)⟩, fun _ => ?_⟩
    · obtain ⟨v, e, h⟩ := fl (p 0) (hp 0)
      match i with
      | 0 => exact ⟨v, (dec_enc S _).trans e, h⟩
      | 1 => exact ⟨v, (dec_enc S _).trans e, h⟩
      | 2 => exact ⟨v, (dec_enc S _).trans e, h⟩
    · simp only [fromColorFloat, px3_0, px3_1, px3_2, dec_enc, grey _ (hp 0), rt _ (hp 0), ok_bind, px1_eta]
  · refine ⟨_, rfl, ⟨fun i => ?_, fun h => (by cases h)⟩, fun h => (by cases h rfl)⟩
    obtain ⟨v, e, h⟩ := fl (p 0) (hp 0)
    match i with
    | 0 => exact ⟨v, (dec_enc S _).trans e, h⟩
    | 1 => exact ⟨v, (dec_enc S _).trans e, h⟩
    | 2 => exact ⟨v, (dec_enc S _).trans e, h⟩
  · refine ⟨_, rfl, ⟨fun i => ?_, fun h => (by cases h)⟩, fun _ => ?_⟩
    · match i with
      | 0 => obtain ⟨v, e, h⟩ := fl (p 0) (hp 0); exact ⟨v, (dec_enc S _).trans e, h⟩
      | 1 => obtain ⟨v, e, h⟩ := fl (p 1) (hp 1); exact ⟨v, (dec_enc S _).trans e, h⟩
      | 2 => obtain ⟨v, e, h⟩ := fl (p 2) (hp 2); exact ⟨v, (dec_enc S _).trans e, h⟩
    · simp only [fromColorFloat, px3_0, px3_1, px3_2, dec_enc, rt _ (hp 0), rt _ (hp 1), rt _ (hp 2), ok_bind, px3_eta]
  · refine ⟨_, rfl, ⟨fun i => ?_, fun h => (by cases h)⟩, fun h => (by cases h rfl)⟩
    match i with
    | 0 => obtain ⟨v, e, h⟩ := fl (p 0) (hp 0); exact ⟨v, (dec_enc S _).trans e, h⟩
    | 1 => obtain ⟨v, e, h⟩ := fl (p 1) (hp 1); exact ⟨v, (dec_enc S _).trans e, h⟩
    | 2 => obtain ⟨v, e, h⟩ := fl (p 2) (hp 2); exact ⟨v, (dec_enc S _).trans e, h⟩
  · refine ⟨_, rfl, ⟨fun i => ?_, fun _ => ⟨1, congrArg some dec_one, by norm_num, le_rfl, rfl⟩⟩, fun _ => ?_⟩
    · obtain ⟨v, e, h⟩ := fl (p 0) (hp 0)
      match i with
      | 0 => exact ⟨v, (dec_enc S _).trans e, h⟩
      | 1 => exact ⟨v, (dec_enc S _).trans e, h⟩
      | 2 => exact ⟨v, (dec_enc S _).trans e, h⟩
    · simp only [fromColorFloat, px4_0, px4_1, px4_2, dec_enc, grey _ (hp 0), rt _ (hp 0), ok_bind, px1_eta]
  · obtain ⟨a, ea, h0, h1, h2⟩ := fl (p 1) (hp 1)
    refine ⟨_, rfl, ⟨fun i => ?_, fun _ => ⟨a, congrArg some ((dec_enc S _).trans ea), h0, h1, h2⟩⟩, fun _ => ?_⟩
    · obtain ⟨v, e, h⟩ := fl (p 0) (hp 0)
      match i with
      | 0 => exact ⟨v, (dec_enc S _).trans e, h⟩
      | 1 => exact ⟨v, (dec_enc S _).trans e, h⟩
      | 2 => exact ⟨v, (dec_enc S _).trans e, h⟩
    · simp only [fromColorFloat, px4_0, px4_1, px4_2, px4_3, dec_enc, grey _ (hp 0), rt _ (hp 0), rt _ (hp 1), ok_bind, px2_eta]
  · refine ⟨_, rfl, ⟨fun i => ?_, fun _ => ⟨1, congrArg some dec_one, by norm_num, le_rfl, rfl⟩⟩, fun _ => ?_⟩
    · match i with
      | 0 => obtain ⟨v, e, h⟩ := fl (p 0) (hp 0); exact ⟨v, (dec_enc S _).trans e, h⟩
      | 1 => obtain ⟨v, e, h⟩ := fl (p 1) (hp 1); exact ⟨v, (dec_enc S _).trans e, h⟩
      | 2 => obtain ⟨v, e, h⟩ := fl (p 2) (hp 2); exact ⟨v, (dec_enc S _).trans e, h⟩
    · simp only [fromColorFloat, px4_0, px4_1, px4_2, dec_enc, rt _ (hp 0), rt _ (hp 1), rt _ (hp 2), ok_bind, px3_eta]
  · obtain ⟨a, ea, h0, h1, h2⟩ := fl (p 3) (hp 3)
    refine ⟨_, rfl, ⟨fun i => ?_, fun _ => ⟨a, congrArg some ((dec_enc S _).trans ea), h0, h1, h2⟩⟩, fun _ => ?_⟩
    · match i with
      | 0 => obtain ⟨v, e, h⟩ := fl (p 0) (hp 0); exact ⟨v, (dec_enc S _).trans e, h⟩
      | 1 => obtain ⟨v, e, h⟩ := fl (p 1) (hp 1); exact ⟨v, (dec_enc S _).trans e, h⟩
      | 2 => obtain ⟨v, e, h⟩ := fl (p 2) (hp 2); exact ⟨v, (dec_enc S _).trans e, h⟩
    · simp only [fromColorFloat, px4_0, px4_1, px4_2, px4_3, dec_enc, rt _ (hp 0), rt _ (hp 1), rt _ (hp 2), rt _ (hp 3), ok_bind, px4_eta]

/-- **C130: from integers and back.** `to_rgb32f` and `to_rgba32f` of an integer image return an image of the same size with the converted pixels.
Converted back to the type it came from it is the image again, exactly, except that alpha is lost when the `f32` image has none. -/
theorem C130_from_integers (d : DynamicImage) (S : Prim) (s m : PixelType) (hm : m = .rgb ∨ m = .rgba) (b : ImageBuffer Nat s.ch) (h : IntBuf d S s b)
    (hb : b.Inv) (hr : ∀ v ∈ b.data, v ≤ S.max) (hs : b.width * b.height * m.ch < 2 ^ 64) :
    ∃ f : ImageBuffer Nat m.ch, d.toFloat m = .ok f ∧ f.Inv ∧ f.width = d.width ∧ f.height = d.height ∧
      (∀ x y, x < b.width → y < b.height → ∃ p q, b.getPixel x y = .ok p ∧ f.getPixel x y = .ok q ∧ Floated S s m p fun k => ofBits32 (q k)) ∧
      ((s.hasAlpha = true → m = .rgba) → ∀ df, FloatBuf df m f → ∃ b' : ImageBuffer Nat s.ch, df.toType S s (convertBits S s) = .ok b' ∧ b'.Inv ∧
        b'.width = b.width ∧ b'.height = b.height ∧ ∀ x y, x < b.width → y < b.height → b'.getPixel x y = b.getPixel x y) := by
  have hS : S = .u8 ∨ S = .u16 := by cases h <;> simp
  obtain ⟨f, e1, e2, e3, e4, e5⟩ := convert_total 0 (floatOfColor S s m) (fun p => by
    rcases hm with rfl | rfl <;> cases s <;> exact ⟨_, rfl⟩) b hb (ch_range m) (ch_range s) hs
  have hpx : ∀ x y, x < b.width → y < b.height → ∃ p q, b.getPixel x y = .ok p ∧ f.getPixel x y = .ok q ∧
      Floated S s m p (fun k => ofBits32 (q k)) ∧ ((s.hasAlpha = true → m = .rgba) → fromColorFloat S m s (fun k => ofBits32 (q k)) = .ok p) := by
    intro x y hx hy
    obtain ⟨p, hp, hle⟩ := getPixel_le hb hr hx hy
    obtain ⟨q, k1, k2⟩ := e5 x y p hx hy hp
    obtain ⟨q', k3, k4, k5⟩ := floatOfColor_ok S hS s m hm p hle
    rw [k1] at k3; cases k3
    exact ⟨p, q, hp, k2, k4, k5⟩
  have back : (s.hasAlpha = true → m = .rgba) → ∀ df, FloatBuf df m f → ∃ b' : ImageBuffer Nat s.ch, df.toType S s (convertBits S s) = .ok b' ∧ b'.Inv ∧
        b'.width = b.width ∧ b'.height = b.height ∧ ∀ x y, x < b.width → y < b.height → b'.getPixel x y = b.getPixel x y := by
    intro ha df hdf
    obtain ⟨b', g1, g2, g3, g4, g5⟩ := convert_total 0 (convertBits S s m) (fun p => by
      obtain ⟨q, hq, -⟩ := fromColorFloat_ok S hS m s hm fun k => ofBits32 (p k)
      exact ⟨q, hq⟩) f e2 (ch_range s) (ch_range m) (by rw [e3, e4]; exact Nat.lt_of_le_of_lt hb.fits hb.len64)
    have hpx' : ∀ x y, x < b.width → y < b.height → b'.getPixel x y = b.getPixel x y := by
      intro x y hx hy
      obtain ⟨p, q, h1, h2, -, h3⟩ := hpx x y hx hy
      obtain ⟨r, k1, k2⟩ := g5 x y q (by rw [e3]; exact hx) (by rw [e4]; exact hy) h2
      unfold convertBits at k1
      rw [h3 ha] at k1
      cases k1
      rw [k2, h1]
    cases hdf <;> exact ⟨b', g1, g2, g3.trans e3, g4.trans e4, hpx'⟩
  have fin : ∀ x y, x < b.width → y < b.height → ∃ p q, b.getPixel x y = .ok p ∧ f.getPixel x y = .ok q ∧ Floated S s m p fun k => ofBits32 (q k) := by
    intro x y hx hy
    obtain ⟨p, q, h1, h2, h3, -⟩ := hpx x y hx hy
    exact ⟨p, q, h1, h2, h3⟩
  cases h <;> exact ⟨f, e1, e2, e3, e4, fin, back⟩

/-- **C130: between the `f32` types.** `to_rgb32f` and `to_rgba32f` of an `f32` image keep the bit patterns of the colours and of alpha; a missing alpha is
1.0, the pattern `0x3f800000`. -/
theorem C130_between_floats (d : DynamicImage) (s m : PixelType) (hm : m = .rgb ∨ m = .rgba) (b : ImageBuffer Nat s.ch) (h : FloatBuf d s b) (hb : b.Inv)
    (hs : b.width * b.height * m.ch < 2 ^ 64) :
    ∃ f : ImageBuffer Nat m.ch, d.toFloat m = .ok f ∧ f.Inv ∧ f.width = d.width ∧ f.height = d.height ∧
      ∀ x y, x < b.width → y < b.height → ∃ p q, b.getPixel x y = .ok p ∧ f.getPixel x y = .ok q ∧ (∀ i, rgbOf m q i = rgbOf s p i) ∧
        alphaOf m q = if m.hasAlpha then some ((alphaOf s p).getD 0x3f800000) else none := by
  have hone : toBits32 (.fin 1) = 0x3f800000 := by decide +kernel
  obtain ⟨f, e1, e2, e3, e4, e5⟩ := convert_total 0 (floatOfFloat s m) (fun p => by
    rcases hm with rfl | rfl <;> rcases h.type with rfl | rfl <;> exact ⟨_, rfl⟩) b hb (ch_range m) (ch_range s) hs
  have hpx : ∀ x y, x < b.width → y < b.height → ∃ p q, b.getPixel x y = .ok p ∧ f.getPixel x y = .ok q ∧ (∀ i, rgbOf m q i = rgbOf s p i) ∧
        alphaOf m q = if m.hasAlpha then some ((alphaOf s p).getD 0x3f800000) else none := by
    intro x y hx hy
    obtain ⟨p, hp⟩ := ImageBuffer.getPixel_exists hb hx hy
    obtain ⟨q, k1, k2⟩ := e5 x y p hx hy hp
    refine ⟨p, q, hp, k2, ?_⟩
    rcases hm with rfl | rfl <;> rcases h.type with rfl | rfl <;> cases k1
    · exact ⟨fun i => by match i with | 0 => rfl | 1 => rfl | 2 => rfl, rfl⟩
    · exact ⟨fun i => by match i with | 0 => rfl | 1 => rfl | 2 => rfl, rfl⟩
    · exact ⟨fun i => by match i with | 0 => rfl | 1 => rfl | 2 => rfl, congrArg some hone⟩
    · exact ⟨fun i => by match i with | 0 => rfl | 1 => rfl | 2 => rfl, rfl⟩
  cases h <;> exact ⟨f, e1, e2, e3, e4, hpx⟩

/-! ## Single pixels -/

/-- **C130: `get_pixel`** of an `f32` image gives the pixel with 8 bits, whatever the samples are. -/
theorem C130_get_pixel (d : DynamicImage) (s : PixelType) (b : ImageBuffer Nat s.ch) (h : FloatBuf d s b) (hb : b.Inv) (x y : Nat) (hx : x < d.width)
    (hy : y < d.height) :
    ∃ p q, b.getPixel x y = .ok p ∧ d.getPixel viewBits x y = .ok q ∧ QuantizedPix .u8 s .rgba (fun k => ofBits32 (p k)) q := by
  cases h with
  | rgb b =>
    obtain ⟨p, hp⟩ := ImageBuffer.getPixel_exists (b := b) hb hx hy
    obtain ⟨q, k1, k2, k3, k4, k5⟩ := fromColorFloat_ok .u8 (.inl rfl) .rgba .rgba (.inr rfl) (toRgbaFloat .rgb fun k => ofBits32 (p k))
    obtain ⟨a, ha, hq⟩ := k4 rfl
    have ha1 : uintOfF32 .u8 (.fin 1) = .ok 255 := (C51_special .u8 (.inl rfl)).2.2.2.2 1 le_rfl
    have h3 : q 3 = 255 := by
      simp only [fromColorFloat, toRgbaFloat, px4_3, ha1] at k1
      obtain ⟨v0, -, k1⟩ := bind_eq_ok.1 k1
      obtain ⟨v1, -, k1⟩ := bind_eq_ok.1 k1
      obtain ⟨v2, -, k1⟩ := bind_eq_ok.1 k1
      simp only [ok_bind] at k1
      cases k1; rfl
    refine ⟨p, q, hp, by simp only [getPixel, hp, ok_bind]; exact k1, fun _ i => ?_, fun h => (by cases h), fun _ => ⟨255, congrArg some h3, rfl⟩, k5⟩
    have := k2 rfl i
    match i with
    | 0 => exact this
    | 1 => exact this
    | 2 => exact this
  | rgba b =>
    obtain ⟨p, hp⟩ := ImageBuffer.getPixel_exists (b := b) hb hx hy
    obtain ⟨q, k1, k2⟩ := fromColorFloat_ok .u8 (.inl rfl) .rgba .rgba (.inr rfl) (toRgbaFloat .rgba fun k => ofBits32 (p k))
    exact ⟨p, q, hp, by simp only [getPixel, hp, ok_bind]; exact k1, k2⟩

/-- **C130: `put_pixel`** into an `f32` image changes that pixel only, and `get_pixel` gives back the pixel that was put, except that alpha reads as 255
when the image has none. -/
theorem C130_put_get (d : DynamicImage) (s : PixelType) (b : ImageBuffer Nat s.ch) (h : FloatBuf d s b) (hb : b.Inv) (x y : Nat) (hx : x < d.width)
    (hy : y < d.height) (pixel : Pix Nat 4) (hp : ∀ c, pixel c ≤ 255) :
    ∃ d' b' q, d.putPixel storeBits x y pixel = .ok d' ∧ FloatBuf d' s b' ∧ b'.Inv ∧ d'.color = d.color ∧ d'.width = d.width ∧ d'.height = d.height ∧
      d'.getPixel viewBits x y = .ok q ∧ q 0 = pixel 0 ∧ q 1 = pixel 1 ∧ q 2 = pixel 2 ∧ q 3 = (if s.hasAlpha then pixel 3 else 255) ∧
      ∀ i j, i < d.width → j < d.height → ¬(i = x ∧ j = y) → d'.samplesAt i j = d.samplesAt i j := by
  have rt := fun c => C51_round_trip .u8 (.inl rfl) (pixel c) (hp c)
  have ha1 : uintOfF32 .u8 (.fin 1) = .ok 255 := (C51_special .u8 (.inl rfl)).2.2.2.2 1 le_rfl
  cases h with
  | rgb b =>
    obtain ⟨b', k1, k2, k3, k4, -, k5, k6⟩ := C02_put_get b hb x y hx hy
      (px3 (toBits32 (f32OfUint .u8 (pixel 0))) (toBits32 (f32OfUint .u8 (pixel 1))) (toBits32 (f32OfUint .u8 (pixel 2))))
    refine ⟨rgb32F b', b', px4 (pixel 0) (pixel 1) (pixel 2) 255, by simp only [putPixel, storeBits, ok_bind, k1], .rgb b', k2, rfl, k3, k4, ?_, rfl, rfl, rfl,
      rfl, fun i j hi hj hne => congrArg (Except.map Pix.toList) (k6 i j hi hj hne)⟩
    simp only [getPixel, k5, ok_bind, viewBits, toRgbaFloat, fromColorFloat, px3_0, px3_1, px3_2, px4_0, px4_1, px4_2, px4_3, dec_enc, rt, ha1]
  | rgba b =>
    obtain ⟨b', k1, k2, k3, k4, -, k5, k6⟩ := C02_put_get b hb x y hx hy
      (px4 (toBits32 (f32OfUint .u8 (pixel 0))) (toBits32 (f32OfUint .u8 (pixel 1))) (toBits32 (f32OfUint .u8 (pixel 2)))
        (toBits32 (f32OfUint .u8 (pixel 3))))
    refine ⟨rgba32F b', b', px4 (pixel 0) (pixel 1) (pixel 2) (pixel 3), by simp only [putPixel, storeBits, ok_bind, k1], .rgba b', k2, rfl, k3, k4, ?_, rfl, rfl,
      rfl, rfl, fun i j hi hj hne => congrArg (Except.map Pix.toList) (k6 i j hi hj hne)⟩
    simp only [getPixel, k5, ok_bind, viewBits, toRgbaFloat, fromColorFloat, px4_0, px4_1, px4_2, px4_3, dec_enc, rt]

/-! ## Negative and luminance -/

/-- The samples of an `f32` image are between 0 and 1. -/
def UnitSamples {ch : Nat} (b : ImageBuffer Nat ch) : Prop := ∀ v ∈ b.data, ∃ q : ℚ, ofBits32 v = .fin q ∧ 0 ≤ q ∧ q ≤ 1

theorem unitImage_decode {ch : Nat} {b : ImageBuffer Nat ch} (hb : b.Inv) (hu : UnitSamples b) : UnitImage (decodeBuf b) := by
  intro x y p hx hy hp
  obtain ⟨p', hp'⟩ := ImageBuffer.getPixel_exists (b := b) hb hx hy
  have h2 : (decodeBuf b).getPixel x y = .ok p := hp
  rw [decodeBuf_getPixel hb hx hy hp'] at h2
  cases h2
  intro k
  obtain ⟨q, e, h0, h1⟩ := hu _ (List.mem_of_getElem? ((ImageBuffer.getPixel_eq_ok hb hx hy p').1 hp' k))
  have hf := ofBits32_isF32 (p' k)
  rw [e] at hf
  exact ⟨q, e, hf.1, h0, h1⟩

/-- **C130: `invert`** of an `f32` image with samples between 0 and 1 keeps the type and the size; each colour sample `v` becomes `1 - v` rounded to an
`f32`, and alpha keeps its value. -/
theorem C130_invert (d : DynamicImage) (m : PixelType) (b : ImageBuffer Nat m.ch) (h : FloatBuf d m b) (hb : b.Inv) (hu : UnitSamples b) :
    ∃ d' b', d.invert invertBits = .ok d' ∧ FloatBuf d' m b' ∧ b'.Inv ∧ d'.color = d.color ∧ PixelRel (Negative m) (decodeBuf b) (decodeBuf b') := by
  obtain ⟨b', e1, e2, e3, e4⟩ := map_loop (d0 := b) (invertBits m)
    (fun p k => if k.val < m.ch - m.alphas then invertBits32 (p k) else p k) hb (fun x y p _ _ _ => by
      cases m <;> simp only [invertBits] <;> congr 1 <;> funext i
      · match i with | 0 => rfl
      · match i with | 0 => rfl | 1 => rfl
      · match i with | 0 => rfl | 1 => rfl | 2 => rfl
      · match i with | 0 => rfl | 1 => rfl | 2 => rfl | 3 => rfl)
  have e2 : b'.Inv := e2
  have w : b'.width = b.width := congrArg Prod.fst e3
  have hh : b'.height = b.height := congrArg Prod.snd e3
  obtain ⟨o, g1, g2, -, g3, g4⟩ := C120_invert m (decodeBuf b) (decodeBuf_inv hb) (unitImage_decode hb hu)
  have rel : PixelRel (Negative m) (decodeBuf b) (decodeBuf b') := by
    refine ⟨Prod.ext w hh, fun x y p hx hy hp => ?_⟩
    obtain ⟨p', hp'⟩ := ImageBuffer.getPixel_exists (b := b) hb hx hy
    have h2 : (decodeBuf b).getPixel x y = .ok p := hp
    rw [decodeBuf_getPixel hb hx hy hp'] at h2
    cases h2
    refine ⟨_, decodeBuf_getPixel e2 (by rw [w]; exact hx) (by rw [hh]; exact hy) (e4 x y p' hx hy hp'), ?_⟩
    have hup := unitImage_decode hb hu x y _ hx hy hp
    refine ⟨fun k hk v hv => ?_, fun k hk => ?_⟩
    · obtain ⟨v', h, hr, h0, h1⟩ := hup k
      simp only at hv h
      rw [hv, Fl.fin.injEq] at h
      subst h
      simp only [if_pos hk, invertBits32]
      rw [ofBits32_toBits32 (isF32_invert _), hv]
      exact ⟨invertSampleF_fin h0 h1, rnd_unit_err (by rw [abs_of_nonneg (by linarith)]; linarith), fun h => sub_one_exact hr h h1⟩
    · simp only [if_neg (show ¬ k.val < m.ch - m.alphas by omega)]
  have e1' : Verif.invert (invertBits m) b = .ok b' := e1
  cases h with
  | rgb b => exact ⟨rgb32F b', b', by simp only [DynamicImage.invert, e1', ok_bind], .rgb b', e2, rfl, rel⟩
  | rgba b => exact ⟨rgba32F b', b', by simp only [DynamicImage.invert, e1', ok_bind], .rgba b', e2, rfl, rel⟩

/-- What a pixel-wise map leaves in the buffer when its results are `f32` values. -/
theorem pixelRel_encode {ch : Nat} {b : ImageBuffer Nat ch} {o : ImageBuffer Fl ch} (ho : o.Inv) {rel : Pix Fl ch → Pix Fl ch → Prop}
    (h : PixelRel rel (decodeBuf b) o)
    (hf : ∀ x y p q, x < b.width → y < b.height → (decodeBuf b).getPixel x y = .ok p → o.getPixel x y = .ok q → ∀ k, IsF32 (q k)) :
    PixelRel rel (decodeBuf b) (decodeBuf (encodeBuf o)) := by
  obtain ⟨h1, h2⟩ := h
  have w : o.width = b.width := congrArg Prod.fst h1
  have hh : o.height = b.height := congrArg Prod.snd h1
  refine ⟨h1, fun x y p hx hy hp => ?_⟩
  obtain ⟨q, k1, k2⟩ := h2 x y p hx hy hp
  have hx' : x < o.width := by rw [w]; exact hx
  have hy' : y < o.height := by rw [hh]; exact hy
  refine ⟨_, decodeBuf_getPixel (encodeBuf_inv ho) hx' hy' (encodeBuf_getPixel ho hx' hy' k1), ?_⟩
  have : (fun k => ofBits32 (toBits32 (q k))) = q := funext fun k => ofBits32_toBits32 (hf x y p q hx hy hp k1 k)
  rw [this]
  exact k2

/-- **C130: `grayscale`** of an `f32` image with samples between 0 and 1 keeps the type and the size; the colour samples of each pixel become its
luminance, alpha keeps its value. Excluded: images of width 0 and height at least 2 (`C05_pixels_false`). -/
theorem C130_grayscale_partial (L : Libm) (trig : Trig) (d : DynamicImage) (m : PixelType) (b : ImageBuffer Nat m.ch) (h : FloatBuf d m b) (hb : b.Inv)
    (hu : UnitSamples b) (hw : 0 < b.width ∨ b.height ≤ 1) :
    ∃ d' b', d.grayscale (OpEnv.std L trig) = .ok d' ∧ FloatBuf d' m b' ∧ b'.Inv ∧ d'.color = d.color ∧
      PixelRel GrayOf (decodeBuf b) (decodeBuf b') := by
  have wf := decodeBuf_inv hb
  have hui := unitImage_decode hb hu
  have h64 : b.width * b.height * m.ch < 2 ^ 64 := Nat.lt_of_le_of_lt hb.fits hb.len64
  cases h with
  | rgb b =>
    obtain ⟨o, e1, e2, e3⟩ := C120_gray_rgb (decodeBuf b) wf hw h64 hui
    obtain ⟨o', g1, -, -, g4⟩ := overPixels_spec (img := decodeBuf b)
      (out := (⟨b.width, b.height, List.replicate (b.width * b.height * 3) (.fin 0)⟩ : ImageBuffer Fl 3))
      (fun p => .ok (grayPixelRgbF p)) grayPixelRgbF wf (ImageBuffer.new_inv hb.w32 hb.h32 h64) hw rfl rfl (fun x y p _ _ _ => rfl)
    have heq : o' = o := by
      have : grayscaleRgbF (decodeBuf b) = .ok o' := by
        unfold grayscaleRgbF
        rw [show ImageBuffer.new 3 (Fl.fin 0) (widthOf (decodeBuf b)) (heightOf (decodeBuf b)) = _ from ImageBuffer.new_ok (by norm_num) hb.w32 h64]
        exact g1
      rw [e1] at this
      cases this; rfl
    subst heq
    refine ⟨rgb32F (encodeBuf o'), encodeBuf o', by simp only [grayscale, OpEnv.std, grayFloat, e1, ok_bind], .rgb _, encodeBuf_inv e2, rfl,
      pixelRel_encode e2 e3 fun x y p q hx hy hp hq k => ?_⟩
    have := g4 x y p hx hy hp
    have hq' : GenericImageView.getPixel o' x y = .ok q := hq
    rw [hq'] at this
    cases this
    match k with
    | 0 => exact isF32_luma _ _ _
    | 1 => exact isF32_luma _ _ _
    | 2 => exact isF32_luma _ _ _
  | rgba b =>
    obtain ⟨o, e1, e2, e3⟩ := C120_gray_rgba (decodeBuf b) wf hw h64 hui
    obtain ⟨o', g1, -, -, g4⟩ := overPixels_spec (img := decodeBuf b)
      (out := (⟨b.width, b.height, List.replicate (b.width * b.height * 4) (.fin 0)⟩ : ImageBuffer Fl 4))
      (fun p => .ok (grayPixelRgbaF p)) grayPixelRgbaF wf (ImageBuffer.new_inv hb.w32 hb.h32 h64) hw rfl rfl (fun x y p _ _ _ => rfl)
    have heq : o' = o := by
      have : grayscaleRgbaF (decodeBuf b) = .ok o' := by
        unfold grayscaleRgbaF
        rw [show ImageBuffer.new 4 (Fl.fin 0) (widthOf (decodeBuf b)) (heightOf (decodeBuf b)) = _ from ImageBuffer.new_ok (by norm_num) hb.w32 h64]
        exact g1
      rw [e1] at this
      cases this; rfl
    subst heq
    refine ⟨rgba32F (encodeBuf o'), encodeBuf o', by simp only [grayscale, OpEnv.std, grayFloat, e1, ok_bind], .rgba _, encodeBuf_inv e2, rfl,
      pixelRel_encode e2 e3 fun x y p q hx hy hp hq k => ?_⟩
    have := g4 x y p hx hy hp
    have hq' : GenericImageView.getPixel o' x y = .ok q := hq
    rw [hq'] at this
    cases this
    match k with
    | 0 => exact isF32_luma _ _ _
    | 1 => exact isF32_luma _ _ _
    | 2 => exact isF32_luma _ _ _
    | 3 =>
      obtain ⟨v, e, hr, h0, h1⟩ := hui x y p hx hy hp 3
      show IsF32 (p 3)
      rw [e]
      exact ⟨hr, by rw [abs_of_nonneg h0]; exact lt_of_le_of_lt h1 (by norm_num)⟩

/-! ## The hypotheses are met -/

/-- A pixel of 1.0, 0.5, 0.0 with alpha 0.25, and one of NaN, infinity, -1.0 and the negative zero. -/
def exFloat : ImageBuffer Nat 4 := ⟨2, 1, [0x3f800000, 0x3f000000, 0, 0x3e800000, 0x7fc00000, 0x7f800000, 0xbf800000, 0x80000000]⟩

example : exFloat.data.map ofBits32 = [.fin 1, .fin (1 / 2), .fin 0, .fin (1 / 4), .nan, .inf false, .fin (-1), .fin 0] := by decide +kernel
example : (rgba32F exFloat).Valid := ⟨by decide, by decide, by decide, by decide⟩
example : (rgba32F exFloat).toType .u8 .rgba (convertBits .u8 .rgba) = .ok ⟨2, 1, [255, 128, 0, 64, 255, 255, 0, 0]⟩ := by decide +kernel
example : (rgba32F exFloat).toType .u16 .luma (convertBits .u16 .luma) = .ok ⟨2, 1, [37368, 65535]⟩ := by decide +kernel
example : UnitSamples (⟨1, 1, [0x3f800000, 0x3f000000, 0, 0x3e800000]⟩ : ImageBuffer Nat 4) := by
  have : ∀ v ∈ [0x3f800000, 0x3f000000, 0, 0x3e800000], ofBits32 v = .fin 1 ∨ ofBits32 v = .fin (1 / 2) ∨ ofBits32 v = .fin 0 ∨
      ofBits32 v = .fin (1 / 4) := by decide +kernel
  intro v hv
  rcases this v hv with h | h | h | h <;> exact ⟨_, h, by norm_num, by norm_num⟩
example : (rgba32F ⟨1, 1, [0x3f800000, 0x3f000000, 0, 0x3e800000]⟩).invert invertBits = .ok (rgba32F ⟨1, 1, [0, 0x3f000000, 0x3f800000, 0x3e800000]⟩) := by
  decide +kernel
example : (rgb32F ⟨1, 1, [0x3f000000, 0x3f000000, 0x3f000000]⟩).grayscale (OpEnv.std ⟨id, id, id, .fin 3⟩ ⟨id, id, id⟩) =
    .ok (rgb32F ⟨1, 1, [0x3f000000, 0x3f000000, 0x3f000000]⟩) := by decide +kernel
example : (lumaA8 ⟨1, 1, [255, 0]⟩).toFloat .rgba = .ok ⟨1, 1, [0x3f800000, 0x3f800000, 0x3f800000, 0]⟩ := by decide +kernel
example : (rgb32F ⟨2, 1, [1, 2, 3, 4, 5, 6]⟩).resizeExact (OpEnv.std ⟨id, id, id, .fin 3⟩ ⟨id, id, id⟩) 2 1 .nearest = .ok (rgb32F ⟨2, 1, [1, 2, 3, 4, 5, 6]⟩) := by
  decide +kernel

end DynamicImage
end Verif
