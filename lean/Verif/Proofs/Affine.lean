import Verif.Proofs.GenericOps
import Verif.Model.Affine
import Verif.Spec.Affine

/-!
# Lemmas about rotations and flips
-/

namespace Verif
open GenericImageView GenericImage LawfulView LawfulImage

variable {I D P : Type}

/-- A property kept by the body of a nested loop is kept by the loop. -/
theorem forRange_pres {σ : Type} {n : Nat} {f : Nat → σ → R σ} (K : σ → Prop)
    (hf : ∀ i s s', K s → f i s = .ok s' → K s') {s s' : σ} (h0 : K s)
    (h : forRange n f s = .ok s') : K s' := by
  induction n generalizing s' with
  | zero => cases h; exact h0
  | succ n ih =>
    rw [forRange_succ, bind_eq_ok] at h
    obtain ⟨t, h1, h2⟩ := h
    exact hf n t s' (ih h1) h2

theorem ImageBuffer.putPixel_length {α : Type} {ch : Nat} {b b' : ImageBuffer α ch} {x y : Nat}
    {p : Pix α ch} (h : b.putPixel x y p = .ok b') : b'.data.length = b.data.length := by
  unfold putPixel at h
  rw [bind_eq_ok] at h
  obtain ⟨o, h1, h2⟩ := h
  cases o with
  | none => cases h2
  | some se =>
    obtain ⟨s, e⟩ := se
    simp only at h2
    rw [bind_eq_ok] at h2
    obtain ⟨l, h3, h4⟩ := h2
    rw [bind_eq_ok] at h4
    obtain ⟨q, h5, h6⟩ := h4
    have : l.length = ch := by
      unfold fromSlice at h5; split at h5
      · assumption
      · cases h5
    unfold sliceR at h3
    split at h3
    · rename_i hse
      simp only [Except.ok.injEq] at h3 h6
      subst h3 h6
      simp only [List.length_take, List.length_drop] at this
      apply length_overwrite
      simp [Pix.toList]; omega
    · cases h3

/-- Buffers without slack are equal when their pixels are. -/
theorem ImageBuffer.ext_exact {α : Type} {ch : Nat} {a b : ImageBuffer α ch} (ha : a.Inv) (hb : b.Inv)
    (la : a.data.length = a.width * a.height * ch) (lb : b.data.length = b.width * b.height * ch)
    (h : SameImage a b) : b = a := by
  obtain ⟨aw, ah, ad⟩ := a
  obtain ⟨bw, bh, bd⟩ := b
  obtain ⟨h1, h2⟩ := h
  have e1 : bw = aw := congrArg Prod.fst h1
  have e2 : bh = ah := congrArg Prod.snd h1
  subst e1 e2
  congr 1
  simp only at la lb
  apply List.ext_getElem?
  intro i
  by_cases hi : i < bw * bh * ch
  · have hch : 0 < ch := by
      rcases Nat.eq_zero_or_pos ch with h | h
      · subst h; simp at hi
      · exact h
    have hw : 0 < bw := by
      rcases Nat.eq_zero_or_pos bw with h | h
      · subst h; simp at hi
      · exact h
    have hq : i / ch < bw * bh := (Nat.div_lt_iff_lt_mul hch).2 hi
    have hy : i / ch / bw < bh := (Nat.div_lt_iff_lt_mul hw).2 (by rw [Nat.mul_comm]; exact hq)
    have hx : i / ch % bw < bw := Nat.mod_lt _ hw
    obtain ⟨p, hp⟩ := getPixel_exists ha (x := i / ch % bw) (y := i / ch / bw) hx hy
    have hp' := (h2 (i / ch % bw) (i / ch / bw) hx hy).trans hp
    have c1 := (getPixel_eq_ok ha hx hy p).1 hp ⟨i % ch, Nat.mod_lt _ hch⟩
    have c2 := (getPixel_eq_ok hb hx hy p).1 hp' ⟨i % ch, Nat.mod_lt _ hch⟩
    simp only at c1 c2
    have : (i / ch / bw * bw + i / ch % bw) * ch + i % ch = i := by
      rw [Nat.mul_comm (i / ch / bw), Nat.div_add_mod, Nat.mul_comm, Nat.div_add_mod]
    rw [this] at c1 c2
    rw [c1, c2]
  · rw [List.getElem?_eq_none (by omega), List.getElem?_eq_none (by omega)]

section
variable [GenericImage D P] [LawfulImage D P]

/-- Effect of a row-major loop whose body swaps the pixels `φ x y` and `ψ x y`, where all these
positions are different. -/
theorem swap_loop {w h : Nat} {body : Nat → Nat → D → R D} {d0 : D}
    (φ ψ : Nat → Nat → Nat × Nat) (wf : WF d0)
    (φ_in : ∀ x y, x < w → y < h → (φ x y).1 < widthOf d0 ∧ (φ x y).2 < heightOf d0)
    (ψ_in : ∀ x y, x < w → y < h → (ψ x y).1 < widthOf d0 ∧ (ψ x y).2 < heightOf d0)
    (φ_inj : ∀ x y x' y', x < w → y < h → x' < w → y' < h → φ x y = φ x' y' → x = x' ∧ y = y')
    (ψ_inj : ∀ x y x' y', x < w → y < h → x' < w → y' < h → ψ x y = ψ x' y' → x = x' ∧ y = y')
    (disj : ∀ x y x' y', x < w → y < h → x' < w → y' < h → φ x y ≠ ψ x' y')
    (hbody : ∀ x y, x < w → y < h → ∀ d, WF d → dims d = dims d0 → ∀ p q,
      getPixel d (φ x y).1 (φ x y).2 = .ok p → getPixel d (ψ x y).1 (ψ x y).2 = .ok q →
      ∃ d', body x y d = .ok d' ∧ WF d' ∧ dims d' = dims d ∧
        getPixel d' (φ x y).1 (φ x y).2 = .ok q ∧ getPixel d' (ψ x y).1 (ψ x y).2 = .ok p ∧
        ∀ a b, a < widthOf d → b < heightOf d → (a, b) ≠ φ x y → (a, b) ≠ ψ x y →
          getPixel d' a b = getPixel d a b) :
    ∃ d', forRange h (fun y d => forRange w (fun x d => body x y d) d) d0 = .ok d' ∧
      WF d' ∧ dims d' = dims d0 ∧
      (∀ x y, x < w → y < h →
        getPixel d' (φ x y).1 (φ x y).2 = getPixel d0 (ψ x y).1 (ψ x y).2 ∧
        getPixel d' (ψ x y).1 (ψ x y).2 = getPixel d0 (φ x y).1 (φ x y).2) ∧
      (∀ a b, a < widthOf d0 → b < heightOf d0 →
        (∀ x y, x < w → y < h → φ x y ≠ (a, b) ∧ ψ x y ≠ (a, b)) →
        getPixel d' a b = getPixel d0 a b) := by
  let Inv : Nat → Nat → D → Prop := fun y x d =>
    WF d ∧ dims d = dims d0 ∧
    (∀ x' y', x' < w → y' < h → Done y x x' y' →
        getPixel d (φ x' y').1 (φ x' y').2 = getPixel d0 (ψ x' y').1 (ψ x' y').2 ∧
        getPixel d (ψ x' y').1 (ψ x' y').2 = getPixel d0 (φ x' y').1 (φ x' y').2) ∧
    (∀ a b, a < widthOf d0 → b < heightOf d0 →
        (∀ x' y', x' < w → y' < h → Done y x x' y' → φ x' y' ≠ (a, b) ∧ ψ x' y' ≠ (a, b)) →
        getPixel d a b = getPixel d0 a b)
  have key := forRange2_inv (w := w) (h := h) (body := body) Inv (s := d0)
    ⟨wf, rfl, fun x' y' _ _ hd => by simp [Done] at hd, fun a b _ _ _ => rfl⟩ ?_ ?_
  · obtain ⟨d', he, h1, h2, h3, h4⟩ := key
    exact ⟨d', he, h1, h2, fun x y hx hy => h3 x y hx hy (Or.inl hy),
      fun a b ha hb hn => h4 a b ha hb (fun x' y' hx hy _ => hn x' y' hx hy)⟩
  · intro y x hy hx d ⟨hw, hd, hdone, hrest⟩
    have e1 := widthOf_eq hd
    have e2 := heightOf_eq hd
    obtain ⟨i1, i2⟩ := φ_in x y hx hy
    obtain ⟨j1, j2⟩ := ψ_in x y hx hy
    have fresh : ∀ x' y', Done y x x' y' → ¬(x' = x ∧ y' = y) := by
      intro x' y' hD; unfold Done at hD; omega
    have oldφ : getPixel d (φ x y).1 (φ x y).2 = getPixel d0 (φ x y).1 (φ x y).2 :=
      hrest _ _ i1 i2 (fun x' y' hx' hy' hD => ⟨fun he => fresh x' y' hD (φ_inj x' y' x y hx' hy' hx hy he),
        fun he => disj x y x' y' hx hy hx' hy' he.symm⟩)
    have oldψ : getPixel d (ψ x y).1 (ψ x y).2 = getPixel d0 (ψ x y).1 (ψ x y).2 :=
      hrest _ _ j1 j2 (fun x' y' hx' hy' hD => ⟨fun he => disj x' y' x y hx' hy' hx hy he,
        fun he => fresh x' y' hD (ψ_inj x' y' x y hx' hy' hx hy he)⟩)
    obtain ⟨p, hp⟩ := get_ok (i := d) (x := (φ x y).1) (y := (φ x y).2) hw (by omega) (by omega)
    obtain ⟨q, hq⟩ := get_ok (i := d) (x := (ψ x y).1) (y := (ψ x y).2) hw (by omega) (by omega)
    obtain ⟨d', b1, b2, b3, b4, b5, b6⟩ := hbody x y hx hy d hw hd p q hp hq
    refine ⟨d', b1, b2, b3.trans hd, ?_, ?_⟩
    · intro x' y' hx' hy' hD
      by_cases hxy : x' = x ∧ y' = y
      · obtain ⟨rfl, rfl⟩ := hxy
        exact ⟨by rw [b4, ← oldψ, hq], by rw [b5, ← oldφ, hp]⟩
      · have hD' : Done y x x' y' := by unfold Done at *; omega
        obtain ⟨k1, k2⟩ := φ_in x' y' hx' hy'
        obtain ⟨l1, l2⟩ := ψ_in x' y' hx' hy'
        obtain ⟨m1, m2⟩ := hdone x' y' hx' hy' hD'
        constructor
        · rw [b6 _ _ (by omega) (by omega) (fun he => hxy (φ_inj x' y' x y hx' hy' hx hy he))
            (fun he => disj x' y' x y hx' hy' hx hy he)]
          exact m1
        · rw [b6 _ _ (by omega) (by omega) (fun he => disj x y x' y' hx hy hx' hy' he.symm)
            (fun he => hxy (ψ_inj x' y' x y hx' hy' hx hy he))]
          exact m2
    · intro a b ha hb hn
      have hn' := hn x y hx hy (by unfold Done; omega)
      rw [b6 a b (by omega) (by omega) (fun he => hn'.1 he.symm) (fun he => hn'.2 he.symm)]
      exact hrest a b ha hb (fun x' y' hx' hy' hD => hn x' y' hx' hy' (by unfold Done at *; omega))
  · intro y hy d ⟨hw, hd, hdone, hrest⟩
    refine ⟨hw, hd, ?_, ?_⟩
    · intro x' y' hx' hy' hD
      exact hdone x' y' hx' hy' (by unfold Done at *; omega)
    · intro a b ha hb hn
      exact hrest a b ha hb (fun x' y' hx' hy' hD => hn x' y' hx' hy' (by unfold Done at *; omega))

/-- Two writes to different positions. -/
theorem put_put {d : D} (hw : WF d) {x y x2 y2 : Nat} (hx : x < widthOf d) (hy : y < heightOf d)
    (hx2 : x2 < widthOf d) (hy2 : y2 < heightOf d) (hne : ¬(x = x2 ∧ y = y2)) (p q : P) :
    ∃ d', (putPixel d x y p >>= fun d => putPixel d x2 y2 q) = .ok d' ∧ WF d' ∧ dims d' = dims d ∧
      getPixel d' x y = .ok p ∧ getPixel d' x2 y2 = .ok q ∧
      ∀ a b, a < widthOf d → b < heightOf d → ¬(a = x ∧ b = y) → ¬(a = x2 ∧ b = y2) →
        getPixel d' a b = getPixel d a b := by
  obtain ⟨d1, p1, p2, p3, p4, p5⟩ := put_ok (i := d) (x := x) (y := y) p hw hx hy
  have e1 := widthOf_eq p3
  have e2 := heightOf_eq p3
  obtain ⟨d2, q1, q2, q3, q4, q5⟩ := put_ok (i := d1) (x := x2) (y := y2) q p2 (by omega) (by omega)
  refine ⟨d2, by rw [p1]; exact q1, q2, q3.trans p3, ?_, q4, ?_⟩
  · rw [q5 x y (by omega) (by omega) hne]; exact p4
  · intro a b ha hb h1 h2
    rw [q5 a b (by omega) (by omega) h2, p5 a b ha hb h1]
end

/-! ## The same relations, read from the result -/

section
variable {I J P : Type} [GenericImageView I P] [GenericImageView J P] {s : I} {d : J}

theorem IsRot90.pull (h : IsRot90 s d) : widthOf d = heightOf s ∧ heightOf d = widthOf s ∧
    ∀ a b, a < heightOf s → b < widthOf s → getPixel d a b = getPixel s b (heightOf s - 1 - a) := by
  refine ⟨congrArg Prod.fst h.1, congrArg Prod.snd h.1, fun a b ha hb => ?_⟩
  have e := h.2 b (heightOf s - 1 - a) (by omega) (by omega)
  rw [show heightOf s - 1 - (heightOf s - 1 - a) = a by omega] at e
  exact e

theorem IsRot90.of_pull (hw : widthOf d = heightOf s) (hh : heightOf d = widthOf s)
    (h : ∀ a b, a < heightOf s → b < widthOf s → getPixel d a b = getPixel s b (heightOf s - 1 - a)) : IsRot90 s d := by
  refine ⟨Prod.ext hw hh, fun x y hx hy => ?_⟩
  rw [h _ _ (by omega) (by omega)]
  congr 1 <;> omega

theorem IsRot180.pull (h : IsRot180 s d) : widthOf d = widthOf s ∧ heightOf d = heightOf s ∧
    ∀ a b, a < widthOf s → b < heightOf s → getPixel d a b = getPixel s (widthOf s - 1 - a) (heightOf s - 1 - b) := by
  refine ⟨congrArg Prod.fst h.1, congrArg Prod.snd h.1, fun a b ha hb => ?_⟩
  have e := h.2 (widthOf s - 1 - a) (heightOf s - 1 - b) (by omega) (by omega)
  rw [show widthOf s - 1 - (widthOf s - 1 - a) = a by omega, show heightOf s - 1 - (heightOf s - 1 - b) = b by omega] at e
  exact e

theorem IsRot180.of_pull (hw : widthOf d = widthOf s) (hh : heightOf d = heightOf s)
    (h : ∀ a b, a < widthOf s → b < heightOf s → getPixel d a b = getPixel s (widthOf s - 1 - a) (heightOf s - 1 - b)) : IsRot180 s d := by
  refine ⟨Prod.ext hw hh, fun x y hx hy => ?_⟩
  rw [h _ _ (by omega) (by omega)]
  congr 1 <;> omega

theorem IsRot270.pull (h : IsRot270 s d) : widthOf d = heightOf s ∧ heightOf d = widthOf s ∧
    ∀ a b, a < heightOf s → b < widthOf s → getPixel d a b = getPixel s (widthOf s - 1 - b) a := by
  refine ⟨congrArg Prod.fst h.1, congrArg Prod.snd h.1, fun a b ha hb => ?_⟩
  have e := h.2 (widthOf s - 1 - b) a (by omega) (by omega)
  rw [show widthOf s - 1 - (widthOf s - 1 - b) = b by omega] at e
  exact e

theorem IsRot270.of_pull (hw : widthOf d = heightOf s) (hh : heightOf d = widthOf s)
    (h : ∀ a b, a < heightOf s → b < widthOf s → getPixel d a b = getPixel s (widthOf s - 1 - b) a) : IsRot270 s d := by
  refine ⟨Prod.ext hw hh, fun x y hx hy => ?_⟩
  rw [h _ _ (by omega) (by omega)]
  congr 1 <;> omega

theorem IsFlipH.pull (h : IsFlipH s d) : widthOf d = widthOf s ∧ heightOf d = heightOf s ∧
    ∀ a b, a < widthOf s → b < heightOf s → getPixel d a b = getPixel s (widthOf s - 1 - a) b := by
  refine ⟨congrArg Prod.fst h.1, congrArg Prod.snd h.1, fun a b ha hb => ?_⟩
  have e := h.2 (widthOf s - 1 - a) b (by omega) (by omega)
  rw [show widthOf s - 1 - (widthOf s - 1 - a) = a by omega] at e
  exact e

theorem IsFlipH.of_pull (hw : widthOf d = widthOf s) (hh : heightOf d = heightOf s)
    (h : ∀ a b, a < widthOf s → b < heightOf s → getPixel d a b = getPixel s (widthOf s - 1 - a) b) : IsFlipH s d := by
  refine ⟨Prod.ext hw hh, fun x y hx hy => ?_⟩
  rw [h _ _ (by omega) (by omega)]
  congr 1 <;> omega

theorem IsFlipV.pull (h : IsFlipV s d) : widthOf d = widthOf s ∧ heightOf d = heightOf s ∧
    ∀ a b, a < widthOf s → b < heightOf s → getPixel d a b = getPixel s a (heightOf s - 1 - b) := by
  refine ⟨congrArg Prod.fst h.1, congrArg Prod.snd h.1, fun a b ha hb => ?_⟩
  have e := h.2 a (heightOf s - 1 - b) (by omega) (by omega)
  rw [show heightOf s - 1 - (heightOf s - 1 - b) = b by omega] at e
  exact e

theorem IsFlipV.of_pull (hw : widthOf d = widthOf s) (hh : heightOf d = heightOf s)
    (h : ∀ a b, a < widthOf s → b < heightOf s → getPixel d a b = getPixel s a (heightOf s - 1 - b)) : IsFlipV s d := by
  refine ⟨Prod.ext hw hh, fun x y hx hy => ?_⟩
  rw [h _ _ (by omega) (by omega)]
  congr 1 <;> omega

theorem IsTranspose.pull (h : IsTranspose s d) : widthOf d = heightOf s ∧ heightOf d = widthOf s ∧
    ∀ a b, a < heightOf s → b < widthOf s → getPixel d a b = getPixel s b a := by
  refine ⟨congrArg Prod.fst h.1, congrArg Prod.snd h.1, fun a b ha hb => ?_⟩
  have e := h.2 b a (by omega) (by omega)
  exact e

theorem IsTranspose.of_pull (hw : widthOf d = heightOf s) (hh : heightOf d = widthOf s)
    (h : ∀ a b, a < heightOf s → b < widthOf s → getPixel d a b = getPixel s b a) : IsTranspose s d := by
  refine ⟨Prod.ext hw hh, fun x y hx hy => ?_⟩
  rw [h _ _ (by omega) (by omega)]

theorem IsAntiTranspose.pull (h : IsAntiTranspose s d) : widthOf d = heightOf s ∧ heightOf d = widthOf s ∧
    ∀ a b, a < heightOf s → b < widthOf s → getPixel d a b = getPixel s (widthOf s - 1 - b) (heightOf s - 1 - a) := by
  refine ⟨congrArg Prod.fst h.1, congrArg Prod.snd h.1, fun a b ha hb => ?_⟩
  have e := h.2 (widthOf s - 1 - b) (heightOf s - 1 - a) (by omega) (by omega)
  rw [show heightOf s - 1 - (heightOf s - 1 - a) = a by omega, show widthOf s - 1 - (widthOf s - 1 - b) = b by omega] at e
  exact e

theorem IsAntiTranspose.of_pull (hw : widthOf d = heightOf s) (hh : heightOf d = widthOf s)
    (h : ∀ a b, a < heightOf s → b < widthOf s → getPixel d a b = getPixel s (widthOf s - 1 - b) (heightOf s - 1 - a)) : IsAntiTranspose s d := by
  refine ⟨Prod.ext hw hh, fun x y hx hy => ?_⟩
  rw [h _ _ (by omega) (by omega)]
  congr 1 <;> omega

end

end Verif
