import Verif.Model.Image

/-!
# Loop rules for pixel loops
-/

namespace Verif
open GenericImageView GenericImage LawfulView LawfulImage

/-- Invariant rule for `for y in 0..h { for x in 0..w { body } }`. -/
theorem forRange2_inv {σ : Type} {w h : Nat} {body : Nat → Nat → σ → R σ}
    (Inv : Nat → Nat → σ → Prop) {s : σ} (h0 : Inv 0 0 s)
    (step : ∀ y x, y < h → x < w → ∀ s, Inv y x s → ∃ s', body x y s = .ok s' ∧ Inv y (x + 1) s')
    (row : ∀ y, y < h → ∀ s, Inv y w s → Inv (y + 1) 0 s) :
    ∃ s', forRange h (fun y s => forRange w (fun x s => body x y s) s) s = .ok s' ∧ Inv h 0 s' := by
  apply forRange_inv (fun y s => Inv y 0 s) h0
  intro y hy s hs
  obtain ⟨s', h1, h2⟩ := forRange_inv (n := w) (f := fun x s => body x y s) (fun x s => Inv y x s) hs
    (fun x hx s hi => step y x hy hx s hi)
  exact ⟨s', h1, row y hy s' h2⟩

variable {D P : Type} [GenericImage D P] [LawfulImage D P]

/-- The pixels `(x', y')` already visited by a row-major loop standing at `(x, y)`. -/
def Done (y x x' y' : Nat) : Prop := y' < y ∨ (y' = y ∧ x' < x)

/-- Effect of a row-major loop whose body updates exactly the pixel `φ x y`, by a function of its
old value; `φ` must be injective and in bounds. -/
theorem update_loop' {w h : Nat} {body : Nat → Nat → D → R D} {d0 : D}
    (φ : Nat → Nat → Nat × Nat) (g : Nat → Nat → P → P)
    (wf : WF d0)
    (φ_in : ∀ x y, x < w → y < h → (φ x y).1 < widthOf d0 ∧ (φ x y).2 < heightOf d0)
    (φ_inj : ∀ x y x' y', x < w → y < h → x' < w → y' < h → φ x y = φ x' y' → x = x' ∧ y = y')
    (hbody : ∀ x y, x < w → y < h → ∀ d, WF d → dims d = dims d0 → ∀ p,
      getPixel d (φ x y).1 (φ x y).2 = .ok p → getPixel d0 (φ x y).1 (φ x y).2 = .ok p →
      ∃ d', body x y d = .ok d' ∧ WF d' ∧ dims d' = dims d ∧
        getPixel d' (φ x y).1 (φ x y).2 = .ok (g x y p) ∧
        ∀ a b, a < widthOf d → b < heightOf d → (a, b) ≠ φ x y → getPixel d' a b = getPixel d a b) :
    ∃ d', forRange h (fun y d => forRange w (fun x d => body x y d) d) d0 = .ok d' ∧
      WF d' ∧ dims d' = dims d0 ∧
      (∀ x y p, x < w → y < h → getPixel d0 (φ x y).1 (φ x y).2 = .ok p →
        getPixel d' (φ x y).1 (φ x y).2 = .ok (g x y p)) ∧
      (∀ a b, a < widthOf d0 → b < heightOf d0 → (∀ x y, x < w → y < h → φ x y ≠ (a, b)) →
        getPixel d' a b = getPixel d0 a b) := by
  let Inv : Nat → Nat → D → Prop := fun y x d =>
    WF d ∧ dims d = dims d0 ∧
    (∀ x' y' p, x' < w → y' < h → Done y x x' y' → getPixel d0 (φ x' y').1 (φ x' y').2 = .ok p →
        getPixel d (φ x' y').1 (φ x' y').2 = .ok (g x' y' p)) ∧
    (∀ a b, a < widthOf d0 → b < heightOf d0 →
        (∀ x' y', x' < w → y' < h → Done y x x' y' → φ x' y' ≠ (a, b)) →
        getPixel d a b = getPixel d0 a b)
  have key := forRange2_inv (w := w) (h := h) (body := body) Inv (s := d0)
    ⟨wf, rfl, fun x' y' p _ _ hd => by simp [Done] at hd, fun a b _ _ _ => rfl⟩ ?_ ?_
  · obtain ⟨d', he, h1, h2, h3, h4⟩ := key
    refine ⟨d', he, h1, h2, ?_, ?_⟩
    · intro x y p hx hy hp
      exact h3 x y p hx hy (Or.inl hy) hp
    · intro a b ha hb hn
      exact h4 a b ha hb (fun x' y' hx hy _ => hn x' y' hx hy)
  · intro y x hy hx d ⟨hw, hd, hdone, hrest⟩
    obtain ⟨hin1, hin2⟩ := φ_in x y hx hy
    obtain ⟨p, hp⟩ := get_ok wf hin1 hin2
    have hcur : getPixel d (φ x y).1 (φ x y).2 = .ok p := by
      rw [hrest _ _ hin1 hin2, hp]
      intro x' y' hx' hy' hdn heq
      have := φ_inj x' y' x y hx' hy' hx hy heq
      simp only [Done] at hdn; omega
    obtain ⟨d', he, hw', hd', hg, ho⟩ := hbody x y hx hy d hw hd p hcur hp
    have hwid : widthOf d = widthOf d0 := by simp [widthOf, hd]
    have hhei : heightOf d = heightOf d0 := by simp [heightOf, hd]
    refine ⟨d', he, hw', hd'.trans hd, ?_, ?_⟩
    · intro x' y' q hx' hy' hdn hq
      by_cases heq : φ x' y' = φ x y
      · obtain ⟨rfl, rfl⟩ := φ_inj x' y' x y hx' hy' hx hy heq
        rw [hp] at hq; cases hq; exact hg
      · obtain ⟨hi1, hi2⟩ := φ_in x' y' hx' hy'
        rw [ho _ _ (by rw [hwid]; exact hi1) (by rw [hhei]; exact hi2) heq]
        apply hdone x' y' q hx' hy' _ hq
        simp only [Done] at *
        rcases hdn with h1 | ⟨h1, h2⟩
        · exact Or.inl h1
        · have : x' ≠ x := by rintro rfl; subst h1; exact heq rfl
          exact Or.inr ⟨h1, by omega⟩
    · intro a b ha hb hn
      have hne : (a, b) ≠ φ x y := by
        intro heq
        exact hn x y hx hy (Or.inr ⟨rfl, by omega⟩) heq.symm
      rw [ho a b (by rw [hwid]; exact ha) (by rw [hhei]; exact hb) hne]
      apply hrest a b ha hb
      intro x' y' hx' hy' hdn
      apply hn x' y' hx' hy'
      simp only [Done] at *; omega
  · intro y hy d ⟨hw, hd, hdone, hrest⟩
    refine ⟨hw, hd, ?_, ?_⟩
    · intro x' y' p hx' hy' hdn hp
      exact hdone x' y' p hx' hy' (by simp only [Done] at *; omega) hp
    · intro a b ha hb hn
      exact hrest a b ha hb (fun x' y' hx' hy' hdn => hn x' y' hx' hy' (by simp only [Done] at *; omega))

/-- `update_loop'` for a body that does not depend on the original pixel. -/
theorem update_loop {w h : Nat} {body : Nat → Nat → D → R D} {d0 : D}
    (φ : Nat → Nat → Nat × Nat) (g : Nat → Nat → P → P)
    (wf : WF d0)
    (φ_in : ∀ x y, x < w → y < h → (φ x y).1 < widthOf d0 ∧ (φ x y).2 < heightOf d0)
    (φ_inj : ∀ x y x' y', x < w → y < h → x' < w → y' < h → φ x y = φ x' y' → x = x' ∧ y = y')
    (hbody : ∀ x y, x < w → y < h → ∀ d, WF d → dims d = dims d0 → ∀ p,
      getPixel d (φ x y).1 (φ x y).2 = .ok p →
      ∃ d', body x y d = .ok d' ∧ WF d' ∧ dims d' = dims d ∧
        getPixel d' (φ x y).1 (φ x y).2 = .ok (g x y p) ∧
        ∀ a b, a < widthOf d → b < heightOf d → (a, b) ≠ φ x y → getPixel d' a b = getPixel d a b) :
    ∃ d', forRange h (fun y d => forRange w (fun x d => body x y d) d) d0 = .ok d' ∧
      WF d' ∧ dims d' = dims d0 ∧
      (∀ x y p, x < w → y < h → getPixel d0 (φ x y).1 (φ x y).2 = .ok p →
        getPixel d' (φ x y).1 (φ x y).2 = .ok (g x y p)) ∧
      (∀ a b, a < widthOf d0 → b < heightOf d0 → (∀ x y, x < w → y < h → φ x y ≠ (a, b)) →
        getPixel d' a b = getPixel d0 a b) :=
  update_loop' φ g wf φ_in φ_inj (fun x y hx hy d h1 h2 p h3 _ => hbody x y hx hy d h1 h2 p h3)

/-- A row-major loop that replaces every pixel by a function of its old value. -/
theorem map_loop {d0 : D} (f : P → R P) (g : P → P) (wf : WF d0)
    (hf : ∀ x y p, x < widthOf d0 → y < heightOf d0 → getPixel d0 x y = .ok p → f p = .ok (g p)) :
    ∃ d', forRange (heightOf d0) (fun y d => forRange (widthOf d0) (fun x d => do
        let p ← getPixel d x y
        putPixel d x y (← f p)) d) d0 = .ok d' ∧
      WF d' ∧ dims d' = dims d0 ∧
      (∀ x y p, x < widthOf d0 → y < heightOf d0 → getPixel d0 x y = .ok p →
        getPixel d' x y = .ok (g p)) := by
  obtain ⟨d', h1, h2, h3, h4, -⟩ := update_loop' (w := widthOf d0) (h := heightOf d0)
    (body := fun x y d => do
        let p ← getPixel d x y
        putPixel d x y (← f p)) (d0 := d0) (fun x y => (x, y)) (fun _ _ p => g p) wf
    (fun x y hx hy => ⟨hx, hy⟩) (fun x y x' y' _ _ _ _ h => by simpa using h)
    (by
      intro x y hx hy d hw hd p hp hp0
      have hwd : widthOf d = widthOf d0 := by simp [widthOf, hd]
      have hhd : heightOf d = heightOf d0 := by simp [heightOf, hd]
      obtain ⟨d', e1, e2, e3, e4, e5⟩ := put_ok (g p) hw (hwd ▸ hx) (hhd ▸ hy)
      refine ⟨d', ?_, e2, e3, e4, fun a b ha hb hne => e5 a b ha hb (fun h => hne (by simp [h]))⟩
      show (do let p ← getPixel d x y; putPixel d x y (← f p)) = _
      simp only at hp hp0
      rw [hp]; simp only [ok_bind]
      rw [hf x y p hx hy hp0]; exact e1)
  exact ⟨d', h1, h2, h3, fun x y p hx hy hp => h4 x y p hx hy hp⟩

end Verif
