import Verif.Model.Gif
import Verif.Proofs.Buffer
import Verif.Proofs.Loops

/-!
# Loops over the pixels of a buffer that change another one
-/

namespace Verif
namespace Gif
open ImageBuffer

variable {α σ : Type} {ch : Nat}

theorem items_loop {w : Nat} {ps : List (Pix α ch)} {f : Nat → Nat → Pix α ch → σ → R (Pix α ch × σ)} (I : Nat → σ → Prop) (g : Nat → Nat → Pix α ch)
    (step : ∀ k p, ps[k]? = some p → ∀ s, I k s → ∃ s', f (k % w) (k / w) p s = .ok (g (k % w) (k / w), s') ∧ I (k + 1) s') :
    ∀ (l : List (Pix α ch)) (k : Nat) (acc : List (Pix α ch)) (s : σ), ps.drop k = l → k ≤ ps.length → I k s →
      acc = (List.range k).map (fun j => g (j % w) (j / w)) →
      ∃ s', forList ((l.zipIdx k).map fun q => (q.2 % w, q.2 / w, q.1)) (fun (x, y, p) (st : List (Pix α ch) × σ) => do
        let (p, s) ← f x y p st.2
        .ok (st.1 ++ [p], s)) (acc, s) = .ok ((List.range ps.length).map (fun j => g (j % w) (j / w)), s') ∧ I ps.length s' := by
  intro l
  induction l with
  | nil =>
    intro k acc s hl hk hs hacc
    have : k = ps.length := by
      have := congrArg List.length hl
      rw [List.length_drop] at this
      simp only [List.length_nil] at this
      omega
    subst this
    exact ⟨s, by rw [hacc]; rfl, hs⟩
  | cons p l ih =>
    intro k acc s hl hk hs hacc
    have hlt : k < ps.length := by
      have := congrArg List.length hl
      rw [List.length_drop] at this
      simp only [List.length_cons] at this
      omega
    have hp : ps[k]? = some p := by
      have : (ps.drop k)[0]? = some p := by rw [hl]; rfl
      rw [List.getElem?_drop] at this
      simpa using this
    obtain ⟨s', e, hs'⟩ := step k p hp s hs
    have hl' : ps.drop (k + 1) = l := by
      rw [← List.drop_drop, hl]; rfl
    obtain ⟨s'', e2, hs''⟩ := ih (k + 1) (acc ++ [g (k % w) (k / w)]) s' hl' hlt hs' (by
      rw [hacc, List.range_succ, List.map_append]; rfl)
    refine ⟨s'', ?_, hs''⟩
    rw [List.zipIdx_cons, List.map_cons]
    show (do
      let st ← (do
        let (p, s) ← f (k % w) (k / w) p s
        Except.ok (acc ++ [p], s))
      forList _ _ st) = _
    rw [e]
    exact e2

/-- The loop visits every pixel once, row by row; `I k` is the state after `k` pixels. -/
theorem enumerateMut_spec {b : ImageBuffer α ch} (hb : b.Inv) (h0 : 0 < ch) (hc : ch < 256) {f : Nat → Nat → Pix α ch → σ → R (Pix α ch × σ)}
    (I : Nat → σ → Prop) (g : Nat → Nat → Pix α ch) {s : σ} (hs : I 0 s)
    (step : ∀ x y p, x < b.width → y < b.height → b.getPixel x y = .ok p → ∀ s, I (y * b.width + x) s →
      ∃ s', f x y p s = .ok (g x y, s') ∧ I (y * b.width + x + 1) s') :
    ∃ b' s', enumerateMut b f s = .ok (b', s') ∧ b'.Inv ∧ b'.width = b.width ∧ b'.height = b.height ∧ b'.data.length = b.data.length ∧
      (∀ x y, x < b.width → y < b.height → b'.getPixel x y = .ok (g x y)) ∧ I (b.width * b.height) s' := by
  obtain ⟨ps, e1, hl, hp⟩ := pixels_ok hb h0 hc
  unfold enumerateMut enumeratePixels
  rw [e1, ok_bind, ok_bind]
  dsimp only
  have hd : drain EnumeratePixels.next (ps.length + 1) (⟨ps, 0, 0, b.width⟩ : EnumeratePixels α ch) =
      .ok ((ps.zipIdx 0).map fun q => (q.2 % b.width, q.2 / b.width, q.1)) := by
    by_cases hw : b.width = 0
    · have hps : ps = [] := List.eq_nil_of_length_eq_zero (by rw [hl, hw, Nat.zero_mul])
      rw [hps, hw]
      rfl
    · have hw0 : 0 < b.width := Nat.pos_of_ne_zero hw
      have := drain_enumerate b.width hw0 hb.w32 ps 0 0 (ps.length + 1) (Nat.zero_le _) (Nat.lt_succ_self _) (by
        rw [Nat.zero_mul, Nat.zero_add, hl, Nat.mul_comm, Nat.mul_div_cancel _ hw0]; exact hb.h32)
      rw [this]
      simp
  rw [hd, ok_bind]
  have hk : ∀ k p, ps[k]? = some p → k % b.width < b.width ∧ k / b.width < b.height ∧ k / b.width * b.width + k % b.width = k ∧
      b.getPixel (k % b.width) (k / b.width) = .ok p := by
    intro k p hkp
    have hlt : k < b.width * b.height := by
      rw [← hl]
      false_or_by_contra
      rename_i h
      rw [List.getElem?_eq_none (by omega)] at hkp
      cases hkp
    have hw0 : 0 < b.width := by
      rcases Nat.eq_zero_or_pos b.width with h | h
      · rw [h, Nat.zero_mul] at hlt; omega
      · exact h
    have h1 := Nat.mod_lt k hw0
    have h2 : k / b.width < b.height := (Nat.div_lt_iff_lt_mul hw0).2 (by rw [Nat.mul_comm]; exact hlt)
    have h3 : k / b.width * b.width + k % b.width = k := by rw [Nat.mul_comm]; exact Nat.div_add_mod ..
    obtain ⟨p', e2, e3⟩ := hp _ _ h1 h2
    rw [h3, hkp] at e2
    cases e2
    exact ⟨h1, h2, h3, e3⟩
  obtain ⟨s', e4, hs'⟩ := items_loop (w := b.width) (ps := ps) (f := f) I g (by
    intro k p hkp s hI
    obtain ⟨h1, h2, h3, h4⟩ := hk k p hkp
    obtain ⟨s', e5, h5⟩ := step _ _ p h1 h2 h4 s (by rw [h3]; exact hI)
    rw [h3] at h5
    exact ⟨s', e5, h5⟩) ps 0 [] s rfl (Nat.zero_le _) hs rfl
  rw [e4, ok_bind]
  dsimp only
  obtain ⟨i1, i2, i3, i4, i5⟩ := setPixels_spec hb (ps := (List.range ps.length).map fun j => g (j % b.width) (j / b.width)) (by
    rw [List.length_map, List.length_range, hl])
  refine ⟨_, s', rfl, i1, i2, i3, i4, ?_, by rw [← hl]; exact hs'⟩
  intro x y hx hy
  have hidx := idx_lt hx hy
  refine i5 x y _ hx hy ?_
  rw [List.getElem?_map, List.getElem?_range (by omega), Option.map_some, Nat.add_comm (y * b.width), Nat.add_mul_mod_self_right, Nat.mod_eq_of_lt hx,
    Nat.add_mul_div_right _ _ (by omega), Nat.div_eq_of_lt hx, Nat.zero_add]

end Gif
end Verif
