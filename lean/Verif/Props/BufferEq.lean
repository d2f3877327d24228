import Verif.Model.BufferEq
import Verif.Model.DynamicNew
import Verif.Proofs.Buffer
import Verif.Props.Buffer

/-!
# Equality of images (C139)
-/

namespace Verif
namespace BufferEq
variable {α : Type} {ch : Nat}

/-- Two images show the same: the same dimensions, and at every coordinate pixels with equal samples. -/
def ShowSame (eq : α → α → Bool) (a b : ImageBuffer α ch) : Prop :=
  a.width = b.width ∧ a.height = b.height ∧ ∀ x y, x < a.width → y < a.height →
    ∃ p q, a.getPixel x y = .ok p ∧ b.getPixel x y = .ok q ∧ ∀ c, eq (p c) (q c) = true

/-- The container holds the pixels and nothing else. -/
def Exact (b : ImageBuffer α ch) : Prop := b.data.length = b.width * b.height * ch

theorem sliceEq_iff (eq : α → α → Bool) (l r : List α) :
    sliceEq eq l r = true ↔ l.length = r.length ∧ ∀ (i : Nat) s t, l[i]? = some s → r[i]? = some t → eq s t = true := by
  unfold sliceEq
  rw [Bool.and_eq_true, beq_iff_eq, List.all_eq_true]
  refine and_congr_right fun hl => ⟨fun h i s t hs ht => ?_, fun h p hp => ?_⟩
  · exact h (s, t) (List.mem_of_getElem? (i := i) (List.getElem?_zip_eq_some.2 ⟨hs, ht⟩))
  · obtain ⟨i, hi⟩ := List.getElem?_of_mem hp
    obtain ⟨hs, ht⟩ := List.getElem?_zip_eq_some.1 hi
    exact h i _ _ hs ht

theorem eqR_iff (eq : α → α → Bool) (a b : ImageBuffer α ch) :
    ImageBuffer.eqR eq a b = true ↔ a.width = b.width ∧ a.height = b.height ∧ sliceEq eq a.data b.data = true := by
  unfold ImageBuffer.eqR
  rw [Bool.and_eq_true, Bool.and_eq_true, beq_iff_eq, beq_iff_eq, and_assoc]

/-- **C139**: equal images show the same, whatever their containers hold behind the picture. -/
theorem C139_equal_shows_same (eq : α → α → Bool) (a b : ImageBuffer α ch) (ha : a.Inv) (hb : b.Inv) (h : ImageBuffer.eqR eq a b = true) :
    ShowSame eq a b := by
  obtain ⟨hw, hh, hs⟩ := (eqR_iff eq a b).1 h
  obtain ⟨-, hs⟩ := (sliceEq_iff eq _ _).1 hs
  refine ⟨hw, hh, fun x y hx hy => ?_⟩
  have hx' : x < b.width := hw ▸ hx
  have hy' : y < b.height := hh ▸ hy
  obtain ⟨p, hp⟩ := ImageBuffer.getPixel_exists ha hx hy
  obtain ⟨q, hq⟩ := ImageBuffer.getPixel_exists hb hx' hy'
  refine ⟨p, q, hp, hq, fun c => ?_⟩
  have h1 := (ImageBuffer.getPixel_eq_ok ha hx hy p).1 hp c
  have h2 := (ImageBuffer.getPixel_eq_ok hb hx' hy' q).1 hq c
  rw [← hw] at h2
  exact hs _ _ _ h1 h2

/-- **C139**: images whose containers hold nothing but the picture are equal exactly if they show the same. -/
theorem C139_equal_iff_shows_same (eq : α → α → Bool) (a b : ImageBuffer α ch) (ha : a.Inv) (hb : b.Inv) (ea : Exact a) (eb : Exact b) :
    ImageBuffer.eqR eq a b = true ↔ ShowSame eq a b := by
  refine ⟨C139_equal_shows_same eq a b ha hb, fun ⟨hw, hh, h⟩ => (eqR_iff eq a b).2 ⟨hw, hh, (sliceEq_iff eq _ _).2 ⟨?_, ?_⟩⟩⟩
  · rw [ea, eb, hw, hh]
  intro i s t hs ht
  have hi : i < a.width * a.height * ch := ea ▸ (List.getElem?_eq_some_iff.1 hs).1
  have hc : 0 < ch := Nat.pos_of_mul_pos_left (Nat.zero_lt_of_lt hi)
  have hk : i / ch < a.width * a.height := Nat.div_lt_of_lt_mul (by rw [Nat.mul_comm ch]; exact hi)
  have hw0 : 0 < a.width := Nat.pos_of_mul_pos_right (Nat.zero_lt_of_lt hk)
  have hx : i / ch % a.width < a.width := Nat.mod_lt _ hw0
  have hy : i / ch / a.width < a.height := Nat.div_lt_of_lt_mul hk
  obtain ⟨p, q, hp, hq, e⟩ := h _ _ hx hy
  have hidx : (i / ch / a.width * a.width + i / ch % a.width) * ch + i % ch = i := by
    rw [Nat.mul_comm (i / ch / a.width), Nat.div_add_mod, Nat.mul_comm, Nat.div_add_mod]
  have h1 := (ImageBuffer.getPixel_eq_ok ha hx hy p).1 hp ⟨i % ch, Nat.mod_lt _ hc⟩
  have h2 := (ImageBuffer.getPixel_eq_ok hb (hw ▸ hx) (hh ▸ hy) q).1 hq ⟨i % ch, Nat.mod_lt _ hc⟩
  rw [← hw] at h2
  simp only [hidx] at h1 h2
  rw [hs] at h1
  rw [ht] at h2
  cases h1
  cases h2
  exact e _

/-- **C139 is false of larger containers**: `from_raw` accepts them, `get_pixel` does not see the rest, and `==` compares it. -/
theorem C139_larger_false : ∃ a b : ImageBuffer Nat 1,
    ImageBuffer.fromRaw 1 1 1 [7] = some a ∧ ImageBuffer.fromRaw 1 1 1 [7, 0] = some b ∧ a.Inv ∧ b.Inv ∧
    ShowSame (· == ·) a b ∧ ImageBuffer.eqR (· == ·) a b = false := by
  refine ⟨⟨1, 1, [7]⟩, ⟨1, 1, [7, 0]⟩, rfl, rfl, ⟨by decide, by decide, by decide, by decide⟩, ⟨by decide, by decide, by decide, by decide⟩,
    ⟨rfl, rfl, fun x y hx hy => ?_⟩, rfl⟩
  have hx0 : x = 0 := Nat.lt_one_iff.1 hx
  have hy0 : y = 0 := Nat.lt_one_iff.1 hy
  subst hx0 hy0
  refine ⟨fun _ => 7, fun _ => 7, ?_, ?_, fun _ => rfl⟩
  · exact (ImageBuffer.getPixel_eq_ok ⟨by decide, by decide, by decide, by decide⟩ hx hy _).2 fun c => by
      obtain rfl : c = 0 := Subsingleton.elim _ _
      rfl
  · exact (ImageBuffer.getPixel_eq_ok ⟨by decide, by decide, by decide, by decide⟩ hx hy _).2 fun c => by
      obtain rfl : c = 0 := Subsingleton.elim _ _
      rfl

/-- **C139**: the containers of new images hold nothing but the picture, and writing pixels keeps it so. -/
theorem C139_exact (z : α) (w h : Nat) (hc : ch < 256) (hw : w < 2 ^ 32) :
    (∀ b, ImageBuffer.new ch z w h = .ok b → Exact b)
    ∧ (∀ (b b' : ImageBuffer α ch) x y p, b.Inv → Exact b → b.putPixel x y p = .ok b' → Exact b') := by
  refine ⟨fun b hb => ?_, fun b b' x y p hi he hp => ?_⟩
  · by_cases hs : w * h * ch < 2 ^ 64
    · rw [ImageBuffer.new_ok hc hw hs] at hb
      cases hb
      exact List.length_replicate
    · unfold ImageBuffer.new at hb
      rw [ImageBuffer.imageBufferLen_eq hc hw, if_neg hs] at hb
      cases hb
  · by_cases hxy : x < b.width ∧ y < b.height
    · obtain ⟨b'', h1, -, h2, h3, h4, -⟩ := ImageBuffer.put_spec hi hxy.1 hxy.2 p
      rw [h1] at hp
      cases hp
      unfold Exact at *
      rw [h4, he, h2, h3]
    · rw [ImageBuffer.putPixel_oob p hxy] at hp
      cases hp

/-- **C139**: an image is equal to `from_fn(w, h, f)` exactly if it has these dimensions and the samples of `f` at every coordinate. -/
theorem C139_from_fn (eq : α → α → Bool) (z : α) (w h : Nat) (f : Nat → Nat → Pix α ch) (h0 : 0 < ch) (hc : ch < 256) (hw : w < 2 ^ 32) (hh : h < 2 ^ 32)
    (hs : w * h * ch < 2 ^ 64) :
    ∃ b, ImageBuffer.fromFn z w h f = .ok b ∧ ∀ a : ImageBuffer α ch, a.Inv → Exact a → (ImageBuffer.eqR eq a b = true ↔
      a.width = w ∧ a.height = h ∧ ∀ x y, x < w → y < h → ∃ p, a.getPixel x y = .ok p ∧ ∀ c, eq (p c) (f x y c) = true) := by
  obtain ⟨b, h1, h2, h3, h4, h5, h6⟩ := C06_from_fn z w h f h0 hc hw hh hs
  refine ⟨b, h1, fun a ha ea => ?_⟩
  rw [C139_equal_iff_shows_same eq a b ha h2 ea (by unfold Exact; rw [h5, h3, h4])]
  unfold ShowSame
  rw [h3, h4]
  constructor
  · rintro ⟨k1, k2, k3⟩
    refine ⟨k1, k2, fun x y hx hy => ?_⟩
    obtain ⟨p, q, hp, hq, e⟩ := k3 x y (k1 ▸ hx) (k2 ▸ hy)
    rw [h6 x y hx hy] at hq
    cases hq
    exact ⟨p, hp, e⟩
  · rintro ⟨k1, k2, k3⟩
    refine ⟨k1, k2, fun x y hx hy => ?_⟩
    obtain ⟨p, hp, e⟩ := k3 x y (k1 ▸ hx) (k2 ▸ hy)
    exact ⟨p, f x y, hp, h6 x y (k1 ▸ hx) (k2 ▸ hy), e⟩

/-- **C139**: an image is equal to itself, and to its clone, exactly if each of its samples is equal to itself. -/
theorem C139_refl (eq : α → α → Bool) (b : ImageBuffer α ch) : ImageBuffer.eqR eq b b = true ↔ ∀ s ∈ b.data, eq s s = true := by
  rw [eqR_iff, sliceEq_iff]
  refine ⟨fun ⟨_, _, _, h⟩ s hs => ?_, fun h => ⟨rfl, rfl, rfl, fun i s t hs ht => ?_⟩⟩
  · obtain ⟨i, hi⟩ := List.getElem?_of_mem hs
    exact h i s s hi hi
  · rw [hs] at ht
    cases ht
    exact h s (List.mem_of_getElem? hs)

/-- **C139**: equality of images is symmetric and transitive if that of samples is. -/
theorem C139_symm_trans (eq : α → α → Bool) (hs : ∀ s t, eq s t = true → eq t s = true) (ht : ∀ s t u, eq s t = true → eq t u = true → eq s u = true)
    (a b c : ImageBuffer α ch) :
    (ImageBuffer.eqR eq a b = true → ImageBuffer.eqR eq b a = true)
    ∧ (ImageBuffer.eqR eq a b = true → ImageBuffer.eqR eq b c = true → ImageBuffer.eqR eq a c = true) := by
  simp only [eqR_iff, sliceEq_iff]
  refine ⟨fun ⟨h1, h2, h3, h4⟩ => ⟨h1.symm, h2.symm, h3.symm, fun i s t e1 e2 => hs _ _ (h4 i t s e2 e1)⟩,
    fun ⟨h1, h2, h3, h4⟩ ⟨k1, k2, k3, k4⟩ => ⟨h1.trans k1, h2.trans k2, h3.trans k3, fun i s t e1 e2 => ?_⟩⟩
  have hi : i < b.data.length := h3 ▸ (List.getElem?_eq_some_iff.1 e1).1
  exact ht _ _ _ (h4 i s _ e1 (List.getElem?_eq_getElem hi)) (k4 i _ t (List.getElem?_eq_getElem hi) e2)

/-- **C139**: images with integer samples are equal exactly if they feed the same to every hasher, so equal images have equal hashes. -/
theorem C139_hash [DecidableEq α] (a b : ImageBuffer α ch) : ImageBuffer.eqR (fun s t => decide (s = t)) a b = true ↔ a.hashInput = b.hashInput := by
  have inj : Function.Injective (HashWord.sample (α := α)) := fun s t h => by cases h; rfl
  have hd : sliceEq (fun s t : α => decide (s = t)) a.data b.data = true ↔ a.data = b.data := by
    rw [sliceEq_iff]
    refine ⟨fun ⟨hl, h⟩ => List.ext_getElem hl fun i h1 h2 => ?_, fun h => ⟨by rw [h], fun i s t hs ht => ?_⟩⟩
    · exact of_decide_eq_true (h i _ _ (List.getElem?_eq_getElem h1) (List.getElem?_eq_getElem h2))
    · rw [h, ht] at hs
      cases hs
      exact decide_eq_true rfl
  rw [eqR_iff, hd]
  unfold ImageBuffer.hashInput
  constructor
  · rintro ⟨h1, h2, h3⟩
    rw [h1, h2, h3]
  · intro h
    simp only [List.cons_append, List.nil_append, List.cons.injEq, HashWord.u32.injEq, HashWord.usize.injEq] at h
    exact ⟨h.1, h.2.1, List.map_inj_right (fun _ _ e => inj e) |>.1 h.2.2.2⟩

/-- **C139, `f32`**: a sample is equal to itself exactly if it is a number; the two zeros are equal; other bit patterns are equal only to themselves. -/
theorem C139_f32 (a b : Nat) (ha : a < 2 ^ 32) (hb : b < 2 ^ 32) :
    (f32Eq a a = true ↔ ¬ (2 ^ 31 - 2 ^ 23 < a % 2 ^ 31)) ∧ f32Eq 0 (2 ^ 31) = true
    ∧ (f32Eq a b = true → a = b ∨ (a = 0 ∧ b = 2 ^ 31) ∨ (a = 2 ^ 31 ∧ b = 0)) := by
  refine ⟨by simp [f32Eq], by decide, fun h => ?_⟩
  simp only [f32Eq, Bool.and_eq_true, Bool.or_eq_true, beq_iff_eq] at h
  omega

/-- **C139**: equal dynamic images have the same colour type, and images of one type compare like their buffers; in particular a float picture with a NaN in
it is not equal to itself, nor to its clone. -/
theorem C139_dynamic (x y : DynamicImage) :
    (x.eqR y = true → x.color = y.color)
    ∧ (∀ a b, DynamicImage.eqR (.rgb8 a) (.rgb8 b) = ImageBuffer.eqR (· == ·) a b)
    ∧ (∀ a b, DynamicImage.eqR (.rgba8 a) (.rgba8 b) = ImageBuffer.eqR (· == ·) a b)
    ∧ (∀ a b, DynamicImage.eqR (.luma8 a) (.luma8 b) = ImageBuffer.eqR (· == ·) a b)
    ∧ (∀ a b, DynamicImage.eqR (.lumaA8 a) (.lumaA8 b) = ImageBuffer.eqR (· == ·) a b)
    ∧ (∀ a b, DynamicImage.eqR (.rgb16 a) (.rgb16 b) = ImageBuffer.eqR (· == ·) a b)
    ∧ (∀ a b, DynamicImage.eqR (.rgba16 a) (.rgba16 b) = ImageBuffer.eqR (· == ·) a b)
    ∧ (∀ a b, DynamicImage.eqR (.luma16 a) (.luma16 b) = ImageBuffer.eqR (· == ·) a b)
    ∧ (∀ a b, DynamicImage.eqR (.lumaA16 a) (.lumaA16 b) = ImageBuffer.eqR (· == ·) a b)
    ∧ (∀ a b, DynamicImage.eqR (.rgb32F a) (.rgb32F b) = ImageBuffer.eqR f32Eq a b)
    ∧ (∀ a b, DynamicImage.eqR (.rgba32F a) (.rgba32F b) = ImageBuffer.eqR f32Eq a b)
    ∧ (∀ a, DynamicImage.eqR (.rgb32F a) (.rgb32F a) = true ↔ ∀ s ∈ a.data, f32Eq s s = true) := by
  refine ⟨fun h => ?_, fun _ _ => rfl, fun _ _ => rfl, fun _ _ => rfl, fun _ _ => rfl, fun _ _ => rfl, fun _ _ => rfl, fun _ _ => rfl, fun _ _ => rfl,
    fun _ _ => rfl, fun _ _ => rfl, fun a => C139_refl f32Eq a⟩
  cases x <;> cases y <;> first | rfl | cases h

/-- Two pictures of one pixel that show the same are equal. -/
example : ImageBuffer.eqR (· == ·) (⟨1, 1, [7]⟩ : ImageBuffer Nat 1) ⟨1, 1, [7]⟩ = true := rfl

/-- Two by one is not one by two, although the samples are the same. -/
example : ImageBuffer.eqR (· == ·) (⟨2, 1, [7, 8]⟩ : ImageBuffer Nat 1) ⟨1, 2, [7, 8]⟩ = false := rfl

/-- A NaN. -/
example : DynamicImage.eqR (.rgb32F ⟨1, 1, [0, 0, 0x7FC00000]⟩) (.rgb32F ⟨1, 1, [0, 0, 0x7FC00000]⟩) = false := rfl

example : ShowSame (fun s t : Nat => decide (s = t)) (⟨1, 1, [7]⟩ : ImageBuffer Nat 1) ⟨1, 1, [7]⟩ :=
  C139_equal_shows_same _ _ _ ⟨by decide, by decide, by decide, by decide⟩ ⟨by decide, by decide, by decide, by decide⟩ rfl

/-- `from_fn` of a constant. -/
example : ∃ b, ImageBuffer.fromFn (ch := 1) 0 1 1 (fun _ _ _ => 7) = .ok b ∧ ImageBuffer.eqR (· == ·) (⟨1, 1, [7]⟩ : ImageBuffer Nat 1) b = true := by
  obtain ⟨b, h1, h2⟩ := C139_from_fn (α := Nat) (ch := 1) (· == ·) 0 1 1 (fun _ _ _ => 7) (by decide) (by decide) (by decide) (by decide) (by decide)
  have hi : (⟨1, 1, [7]⟩ : ImageBuffer Nat 1).Inv := ⟨by decide, by decide, by decide, by decide⟩
  refine ⟨b, h1, (h2 _ hi rfl).2 ⟨rfl, rfl, fun x y hx hy => ?_⟩⟩
  have hx0 : x = 0 := Nat.lt_one_iff.1 hx
  have hy0 : y = 0 := Nat.lt_one_iff.1 hy
  subst hx0 hy0
  refine ⟨fun _ => 7, (ImageBuffer.getPixel_eq_ok hi hx hy _).2 fun c => ?_, fun _ => rfl⟩
  obtain rfl : c = 0 := Subsingleton.elim _ _
  rfl

end BufferEq
end Verif
