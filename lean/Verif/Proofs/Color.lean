import Verif.Model.Color
import Verif.Proofs.Loops
import Verif.Proofs.Buffer
import Verif.Proofs.GenericOps
import Verif.Props.Generic

/-!
# Lemmas about samples, pixels and per-pixel loops
-/

namespace Verif
open GenericImageView GenericImage LawfulView LawfulImage

/-- The samples of a pixel fit the sample type. -/
def InRange {n : Nat} (T : Prim) (p : Pix Nat n) : Prop := ∀ c, p c ≤ T.max

theorem Prim.castFrom_ok {T : Prim} {n : Nat} (h : n ≤ T.max) : T.castFrom n = .ok n := by
  simp [Prim.castFrom, h]

theorem or_shift8 {v : Nat} (h : v < 256) : (v <<< 8) ||| v = v * 257 := by
  have h2 : (v <<< 8) ||| v = 2 ^ 8 * v + v := by
    rw [Nat.shiftLeft_eq, Nat.mul_comm]
    exact (Nat.two_pow_add_eq_or_of_lt (i := 8) (by omega) v).symm
  omega

theorem fromPrimitive_same (T : Prim) (v : Nat) : fromPrimitive T T v = .ok v := by
  simp [fromPrimitive]

theorem fromPrimitive_up {v : Nat} (h : v < 256) : fromPrimitive .u8 .u16 v = .ok (v * 257) := by
  simp only [fromPrimitive]
  rw [if_neg (by decide), or_shift8 h]
  exact Prim.castFrom_ok (by simp only [Prim.max, Prim.bits]; omega)

theorem fromPrimitive_down {v : Nat} (h : v < 65536) :
    fromPrimitive .u16 .u8 v = .ok ((v + 128) / 257) := by
  simp only [fromPrimitive]
  rw [if_neg (by decide), addC_ok (by omega)]
  exact Prim.castFrom_ok (by simp only [Prim.max, Prim.bits]; omega)

theorem rgbToLuma_ok (T : Prim) {r g b : Nat} (hr : r ≤ T.max) (hg : g ≤ T.max) (hb : b ≤ T.max) :
    rgbToLuma T r g b = .ok ((2126 * r + 7152 * g + 722 * b) / 10000) := by
  have key : (2126 * r + 7152 * g + 722 * b) / 10000 ≤ T.max := by omega
  have hL : 10000 * T.max < 2 ^ T.largerBits := by cases T <;> decide
  simp only [rgbToLuma]
  rw [mulC_ok (by omega)]; simp only [ok_bind]
  rw [mulC_ok (by omega)]; simp only [ok_bind]
  rw [addC_ok (by omega)]; simp only [ok_bind]
  rw [mulC_ok (by omega)]; simp only [ok_bind]
  rw [addC_ok (by omega)]; simp only [ok_bind]
  simp only [Prim.clampFrom]
  rw [if_neg (by omega), if_neg (by omega)]
  exact Prim.castFrom_ok key

@[simp] theorem px1_0 {α : Type} (a : α) : px1 a 0 = a := rfl
@[simp] theorem px2_0 {α : Type} (a b : α) : px2 a b 0 = a := rfl
@[simp] theorem px2_1 {α : Type} (a b : α) : px2 a b 1 = b := rfl
@[simp] theorem px3_0 {α : Type} (a b c : α) : px3 a b c 0 = a := rfl
@[simp] theorem px3_1 {α : Type} (a b c : α) : px3 a b c 1 = b := rfl
@[simp] theorem px3_2 {α : Type} (a b c : α) : px3 a b c 2 = c := rfl
@[simp] theorem px4_0 {α : Type} (a b c d : α) : px4 a b c d 0 = a := rfl
@[simp] theorem px4_1 {α : Type} (a b c d : α) : px4 a b c d 1 = b := rfl
@[simp] theorem px4_2 {α : Type} (a b c d : α) : px4 a b c d 2 = c := rfl
@[simp] theorem px4_3 {α : Type} (a b c d : α) : px4 a b c d 3 = d := rfl

theorem px1_eta {α : Type} (p : Pix α 1) : px1 (p 0) = p := by
  funext i; match i with | 0 => rfl
theorem px2_eta {α : Type} (p : Pix α 2) : px2 (p 0) (p 1) = p := by
  funext i; match i with | 0 => rfl | 1 => rfl
theorem px3_eta {α : Type} (p : Pix α 3) : px3 (p 0) (p 1) (p 2) = p := by
  funext i; match i with | 0 => rfl | 1 => rfl | 2 => rfl
theorem px4_eta {α : Type} (p : Pix α 4) : px4 (p 0) (p 1) (p 2) (p 3) = p := by
  funext i; match i with | 0 => rfl | 1 => rfl | 2 => rfl | 3 => rfl

theorem seqFin_ok {α : Type} : ∀ {n : Nat} {f : Fin n → R α} {g : Fin n → α},
    (∀ i, f i = .ok (g i)) → seqFin f = .ok g := by
  intro n
  induction n with
  | zero => intro f g _; simp only [seqFin]; congr 1; funext i; exact i.elim0
  | succ n ih =>
    intro f g h
    simp only [seqFin]
    rw [h 0]; simp only [ok_bind]
    rw [ih (g := fun i => g i.succ) (fun i => h i.succ)]; simp only [ok_bind]
    congr 1; funext i
    exact Fin.cases rfl (fun _ => rfl) i

/-- Colour of an inverted pixel. -/
theorem invertPixel_ok (T : Prim) (m : PixelType) (p : Pix Nat m.ch) (h : InRange T p) :
    invertPixel T m p =
      .ok (fun c => if c.val < m.ch - m.alphas then T.max - p c else p c) := by
  cases m
  · simp only [invertPixel]; rw [subC_ok (h 0)]; simp only [ok_bind]
    congr 1; funext i; match i with | 0 => rfl
  · simp only [invertPixel]; rw [subC_ok (h 0)]; simp only [ok_bind]
    congr 1; funext i; match i with | 0 => rfl | 1 => rfl
  · simp only [invertPixel]
    rw [subC_ok (h 0), subC_ok (h 1), subC_ok (h 2)]; simp only [ok_bind]
    congr 1; funext i; match i with | 0 => rfl | 1 => rfl | 2 => rfl
  · simp only [invertPixel]
    rw [subC_ok (h 0), subC_ok (h 1), subC_ok (h 2)]; simp only [ok_bind]
    congr 1; funext i; match i with | 0 => rfl | 1 => rfl | 2 => rfl | 3 => rfl

/-- Effect of `for (x, y, p) in image.pixels() { out.put_pixel(x, y, f(p)) }`. -/
theorem overPixels_spec {I D P Q : Type} [GenericImageView I P] [LawfulView I P] [GenericImage D Q]
    [LawfulImage D Q] {img : I} {out : D} (f : P → R Q) (g : P → Q) (wi : WF img) (wo : WF out)
    (hw : 0 < widthOf img ∨ heightOf img ≤ 1)
    (hd1 : widthOf out = widthOf img) (hd2 : heightOf out = heightOf img)
    (hf : ∀ x y p, x < widthOf img → y < heightOf img → getPixel img x y = .ok p → f p = .ok (g p)) :
    ∃ out', overPixels img f out = .ok out' ∧ WF out' ∧ dims out' = dims out ∧
      ∀ x y p, x < widthOf img → y < heightOf img → getPixel img x y = .ok p →
        getPixel out' x y = .ok (g p) := by
  obtain ⟨items, h1, h2, h3⟩ := C05_pixels_partial img wi hw (widthOf img * heightOf img + 1) (by omega)
  simp only [overPixels, h1, ok_bind]
  obtain ⟨out', e1, e2, e3, e4⟩ := forList_inv (xs := items)
    (f := fun (q : Nat × Nat × P) (out : D) => (do putPixel out q.1 q.2.1 (← f q.2.2) : R D))
    (fun pre _ d => WF d ∧ dims d = dims out ∧ ∀ x y p, x < widthOf img → y < heightOf img →
      y * widthOf img + x < pre.length → getPixel img x y = .ok p → getPixel d x y = .ok (g p))
    (s := out) ⟨wo, rfl, fun x y p _ _ h => by simp at h⟩ (by
      intro pre q post hq d ⟨hw1, hd, hg⟩
      have hk : pre.length < widthOf img * heightOf img := by
        rw [← h2, ← hq]; simp
      have hwpos : 0 < widthOf img := by
        rcases Nat.eq_zero_or_pos (widthOf img) with h | h
        · rw [h] at hk; simp at hk
        · exact h
      have hx : pre.length % widthOf img < widthOf img := Nat.mod_lt _ hwpos
      have hy : pre.length / widthOf img < heightOf img := Nat.div_lt_of_lt_mul hk
      obtain ⟨p, hp1, hp2⟩ := h3 _ _ hx hy
      have hidx : pre.length / widthOf img * widthOf img + pre.length % widthOf img = pre.length := by
        rw [Nat.mul_comm]; exact Nat.div_add_mod _ _
      rw [hidx, ← hq] at hp1
      have hqe : q = (pre.length % widthOf img, pre.length / widthOf img, p) := by simpa using hp1
      subst hqe
      dsimp only
      rw [hf _ _ p hx hy hp2]; simp only [ok_bind]
      have hwd : widthOf d = widthOf img := by rw [← hd1]; simp [widthOf, hd]
      have hhd : heightOf d = heightOf img := by rw [← hd2]; simp [heightOf, hd]
      obtain ⟨d', e1, e2, e3, e4, e5⟩ := put_ok (g p) hw1 (x := pre.length % widthOf img)
        (y := pre.length / widthOf img) (by rw [hwd]; exact hx) (by rw [hhd]; exact hy)
      refine ⟨d', e1, e2, e3.trans hd, ?_⟩
      intro x y p' hx' hy' hlt hp'
      by_cases hxy : x = pre.length % widthOf img ∧ y = pre.length / widthOf img
      · obtain ⟨rfl, rfl⟩ := hxy
        rw [hp2] at hp'; cases hp'; exact e4
      · rw [e5 x y (hwd ▸ hx') (hhd ▸ hy') hxy]
        apply hg x y p' hx' hy' _ hp'
        rw [List.length_append, List.length_singleton] at hlt
        have : y * widthOf img + x ≠ pre.length := by
          intro he
          rw [← hidx] at he
          exact hxy (by have := idx_inj hx' hx he; exact ⟨this.1, this.2⟩)
        omega)
  exact ⟨out', e1, e2, e3, fun x y p hx hy hp => e4 x y p hx hy (h2 ▸ idx_lt hx hy) hp⟩

end Verif
