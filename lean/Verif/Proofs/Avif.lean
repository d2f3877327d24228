import Verif.Spec.Avif
import Verif.Proofs.Pbm
import Verif.Proofs.Buffer

/-!
# AVIF: the loops over rows and pixels
-/

namespace Verif
namespace Avif

theorem ite_ok {α : Type} {p : Prop} [Decidable p] {x y : R α} (h : p) : (if p then x else y) = x := if_pos h

theorem assert_ok {b : Bool} (h : b = true) : assertR b = .ok () := by subst h; rfl

/-- A loop over pairs of a source and a destination. -/
theorem zipWrite_ok {ρ β : Type} {f : ρ → β → R β} (g : Nat → β) : ∀ (rs : List ρ) (bs : List β) (_ : rs.length ≤ bs.length)
    (_ : ∀ k r b, rs[k]? = some r → bs[k]? = some b → f r b = .ok (g k)),
    zipWrite f rs bs = .ok ((List.range rs.length).map g ++ bs.drop rs.length)
  | [], bs, _, _ => by simp [zipWrite]
  | r :: rs, [], h, _ => by simp at h
  | r :: rs, b :: bs, h, hf => by
    have ih := zipWrite_ok (f := f) (fun k => g (k + 1)) rs bs (by simpa using h)
      (fun k r' b' h1 h2 => hf (k + 1) r' b' (by simpa using h1) (by simpa using h2))
    rw [zipWrite, hf 0 r b (by simp) (by simp), ok_bind, ih, ok_bind]
    simp [List.range_succ_eq_map, List.map_map, Function.comp_def]

/-- A loop over pairs where the destination ends first. -/
theorem zipWrite_all {ρ β : Type} {f : ρ → β → R β} (g : Nat → β) (rs : List ρ) (bs : List β) (hl : bs.length ≤ rs.length)
    (hf : ∀ k r b, rs[k]? = some r → bs[k]? = some b → f r b = .ok (g k)) :
    zipWrite f rs bs = .ok ((List.range bs.length).map g) := by
  have h1 : zipWrite f rs bs = zipWrite f (rs.take bs.length) bs := by
    clear hf g
    induction bs generalizing rs with
    | nil => cases rs <;> simp [zipWrite]
    | cons b bs ih =>
      cases rs with
      | nil => simp at hl
      | cons r rs =>
        rw [List.length_cons, List.take_succ_cons, zipWrite, zipWrite, ih rs (by simpa using hl)]
  rw [h1, zipWrite_ok g _ _ (by simp) (fun k r b hr hb => hf k r b (by
    rw [List.getElem?_take] at hr
    split at hr
    · exact hr
    · simp at hr) hb)]
  have hlen : (rs.take bs.length).length = bs.length := by simp [hl]
  rw [hlen, List.drop_length, List.append_nil]

theorem flatten_map_range {α : Type} (n : Nat) (g : Nat → List α) : ((List.range n).map g).flatten = (List.range n).flatMap g := by
  rw [List.flatMap_def]

/-- A loop over the chunks of a buffer that has exactly `cnt` of them. -/
theorem zipChunks_ok {ρ : Type} {f : ρ → List Nat → R (List Nat)} {n cnt : Nat} (hn : 0 < n) (g : Nat → List Nat) (srcs : List ρ) (buf : List Nat)
    (hb : buf.length = n * cnt) (hs : cnt ≤ srcs.length)
    (hf : ∀ k r b, k < cnt → srcs[k]? = some r → b.length = n → f r b = .ok (g k)) :
    zipChunks n f srcs buf = .ok ((List.range cnt).flatMap g) := by
  have hdiv : buf.length / n = cnt := by rw [hb, Nat.mul_div_cancel_left _ hn]
  have hlen : (chunksExact n buf).length = cnt := by rw [length_chunksExact, hdiv]
  unfold zipChunks
  rw [assert_ok (by simpa using Nat.ne_of_gt hn), ok_bind, zipWrite_all g srcs _ (by rw [hlen]; exact hs), ok_bind, hlen, hdiv, flatten_map_range,
    List.drop_eq_nil_of_le (by rw [hb, Nat.mul_comm]), List.append_nil]
  intro k r b hr hbk
  obtain ⟨hk, -⟩ := List.getElem?_eq_some_iff.mp hbk
  rw [hlen] at hk
  rw [getElem?_chunksExact (by rw [hdiv]; exact hk)] at hbk
  apply hf k r b hk hr
  rw [← Option.some.inj hbk, List.length_take, List.length_drop, hb]
  have : (k + 1) * n ≤ n * cnt := by rw [Nat.mul_comm n]; exact Nat.mul_le_mul_right _ hk
  have : (k + 1) * n = k * n + n := by ring
  omega

/-- A loop over the first `cnt` chunks of a longer buffer. -/
theorem zipChunks_prefix {ρ : Type} {f : ρ → List Nat → R (List Nat)} {n cnt : Nat} (hn : 0 < n) (g : Nat → List Nat) (srcs : List ρ)
    (buf : List Nat) (hb : buf.length / n = cnt) (hs : cnt ≤ srcs.length)
    (hf : ∀ k r b, k < cnt → srcs[k]? = some r → b.length = n → f r b = .ok (g k)) :
    zipChunks n f srcs buf = .ok ((List.range cnt).flatMap g ++ buf.drop (cnt * n)) := by
  have hlen : (chunksExact n buf).length = cnt := by rw [length_chunksExact, hb]
  unfold zipChunks
  rw [assert_ok (by simpa using Nat.ne_of_gt hn), ok_bind, zipWrite_all g srcs _ (by rw [hlen]; exact hs), ok_bind, hlen, hb, flatten_map_range]
  intro k r b hr hbk
  obtain ⟨hk, -⟩ := List.getElem?_eq_some_iff.mp hbk
  rw [hlen] at hk
  rw [getElem?_chunksExact (by rw [hb]; exact hk)] at hbk
  apply hf k r b hk hr
  rw [← Option.some.inj hbk, List.length_take, List.length_drop]
  have h1 : cnt * n ≤ buf.length := by rw [← hb]; exact Nat.div_mul_le_self _ _
  have : (k + 1) * n ≤ cnt * n := Nat.mul_le_mul_right _ hk
  have : (k + 1) * n = k * n + n := by ring
  omega

theorem rowsOf_ok {n : Nat} (hn : 0 < n) (l : List Nat) : rowsOf n l = .ok (chunksExact n l) := by
  unfold rowsOf
  rw [assert_ok (by simpa using Nat.ne_of_gt hn), ok_bind]

/-- Rows of a plane. -/
theorem row_get {n h k : Nat} (hn : 0 < n) {l : List Nat} (hl : l.length = n * h) (hk : k < h) :
    (chunksExact n l)[k]? = some ((l.drop (k * n)).take n) := by
  apply getElem?_chunksExact
  rw [hl, Nat.mul_div_cancel_left _ hn]
  exact hk

theorem row_length {n h k : Nat} {l : List Nat} (hl : l.length = n * h) (hk : k < h) : ((l.drop (k * n)).take n).length = n := by
  rw [List.length_take, List.length_drop, hl]
  have : (k + 1) * n ≤ n * h := by rw [Nat.mul_comm n]; exact Nat.mul_le_mul_right _ hk
  have : (k + 1) * n = k * n + n := by ring
  omega

theorem row_getD {n k x : Nat} {l : List Nat} (hx : x < n) : ((l.drop (k * n)).take n).getD x 0 = l.getD (k * n + x) 0 := by
  simp [List.getD_eq_getElem?_getD, hx]

theorem checkPlane_ok {plane : List Nat} {stride height : Nat} (hl : plane.length = stride * height) (hf : stride * height < 2 ^ 64) :
    checkPlane plane stride height = .ok () := by
  unfold checkPlane
  rw [mulC_ok hf, ok_bind, if_neg (by omega)]

theorem zip_getElem? {α β : Type} {a : List α} {b : List β} {k : Nat} {r : α × β} (h : (a.zip b)[k]? = some r) : a[k]? = some r.1 ∧ b[k]? = some r.2 := by
  rw [List.getElem?_zip_eq_some] at h
  exact h

theorem getD_of_some {l : List Nat} {k a : Nat} (h : l[k]? = some a) : l.getD k 0 = a := by simp [List.getD_eq_getElem?_getD, h]

/-- A row of 4:4:4 samples. -/
theorem fullRow_ok {px : Nat → Nat → Nat → R (List Nat)} {w : Nat} (g : Nat → List Nat) (y u v rgb : List Nat) (hy : w ≤ y.length) (hu : w ≤ u.length)
    (hv : w ≤ v.length) (hr : rgb.length = 4 * w) (hp : ∀ x < w, px (y.getD x 0) (u.getD x 0) (v.getD x 0) = .ok (g x)) :
    fullRow px ((y, u), v) rgb = .ok ((List.range w).flatMap g) := by
  unfold fullRow
  apply zipChunks_ok (by omega) g _ _ hr (by simp; omega)
  intro k r b hk hr _
  obtain ⟨h1, h2⟩ := zip_getElem? hr
  obtain ⟨h3, h4⟩ := zip_getElem? h1
  have := hp k hk
  rw [getD_of_some h3, getD_of_some h4, getD_of_some h2] at this
  exact this

/-- The pixels of a row in pairs. -/
theorem flatMap_pairs (g : Nat → List Nat) (w : Nat) : (List.range w).flatMap g =
    (List.range (w / 2)).flatMap (fun k => g (2 * k) ++ g (2 * k + 1)) ++ (if w % 2 = 0 then [] else g (w - 1)) := by
  have even : ∀ m, (List.range (2 * m)).flatMap g = (List.range m).flatMap (fun k => g (2 * k) ++ g (2 * k + 1)) := by
    intro m
    induction m with
    | zero => rfl
    | succ m ih =>
      rw [show 2 * (m + 1) = 2 * m + 1 + 1 by ring, List.range_succ, List.range_succ, List.range_succ]
      simp [ih]
  rcases Nat.mod_two_eq_zero_or_one w with h | h
  · rw [if_pos h, List.append_nil, ← even]
    congr 2
    omega
  · rw [if_neg (by omega), ← even]
    have hw : w = 2 * (w / 2) + 1 := by omega
    conv_lhs => rw [hw, List.range_succ]
    rw [List.flatMap_append, show w - 1 = 2 * (w / 2) by omega]
    simp

theorem sliceTo_ok {n : Nat} {l : List Nat} (h : n ≤ l.length) : sliceTo n l = .ok (l.take n) := by unfold sliceTo; rw [if_pos h]

theorem getD_take {n k : Nat} {l : List Nat} (h : k < n) : (l.take n).getD k 0 = l.getD k 0 := by
  simp [List.getD_eq_getElem?_getD, h]

theorem length_flatMap_range (g : Nat → List Nat) (n c : Nat) (h : ∀ k < n, (g k).length = c) : ((List.range n).flatMap g).length = n * c := by
  induction n with
  | zero => simp
  | succ n ih =>
    rw [List.range_succ, List.flatMap_append, List.length_append, ih (fun k hk => h k (by omega))]
    simp [h n (by omega)]
    ring

/-- A row with chroma samples of half the resolution. -/
theorem halvedRow_ok {depth w : Nat} {t : Transform} {cr : ChromaRange} (g : Nat → List Nat) (y u v rgba : List Nat) (hy : w ≤ y.length)
    (hu : (w + 1) / 2 ≤ u.length) (hv : (w + 1) / 2 ≤ v.length) (hr : rgba.length = 4 * w)
    (hp : ∀ x < w, pixel depth t cr (y.getD x 0) (u.getD (x / 2) 0) (v.getD (x / 2) 0) = .ok (g x)) (hg : ∀ x < w, (g x).length = 4) :
    halvedRow depth w t cr y u v rgba = .ok ((List.range w).flatMap g) := by
  have hlen : ((List.range (w / 2)).flatMap fun k => g (2 * k) ++ g (2 * k + 1)).length = w / 2 * 8 :=
    length_flatMap_range _ _ _ (fun k hk => by rw [List.length_append, hg _ (by omega), hg _ (by omega)])
  unfold halvedRow
  rw [sliceTo_ok hy, ok_bind, sliceTo_ok hu, ok_bind, sliceTo_ok hv, ok_bind, sliceTo_ok (by omega), ok_bind]
  have hz := zipChunks_prefix (n := 8) (cnt := w / 2) (f := fun (yuv : (List Nat × Nat) × Nat) _ => do
      let y0 ← unwrapR yuv.1.1[0]?
      let y1 ← unwrapR yuv.1.1[1]?
      let p ← pixel depth t cr y0 yuv.1.2 yuv.2
      let q ← pixel depth t cr y1 yuv.1.2 yuv.2
      .ok (p ++ q)) (by omega) (fun k => g (2 * k) ++ g (2 * k + 1))
    (((chunksExact 2 (y.take w)).zip (u.take ((w + 1) / 2))).zip (v.take ((w + 1) / 2))) (rgba.take (w * 4)) (by simp [hr]; omega)
    (by simp; omega) (by
      intro k r b hk hr _
      obtain ⟨h1, h2⟩ := zip_getElem? hr
      obtain ⟨h3, h4⟩ := zip_getElem? h1
      have hyl : (y.take w).length / 2 = w / 2 := by simp [hy]
      rw [getElem?_chunksExact (by rw [hyl]; exact hk)] at h3
      have e3 := Option.some.inj h3
      have hy0 : r.1.1[0]? = some (y.getD (2 * k) 0) := by
        rw [← e3]
        simp [List.getElem?_take, List.getD_eq_getElem?_getD]
        refine ⟨by omega, ?_⟩
        rw [Nat.mul_comm k 2, List.getElem?_eq_getElem (by omega)]
        rfl
      have hy1 : r.1.1[1]? = some (y.getD (2 * k + 1) 0) := by
        rw [← e3]
        simp [List.getElem?_take, List.getD_eq_getElem?_getD]
        refine ⟨by omega, ?_⟩
        rw [Nat.mul_comm k 2, List.getElem?_eq_getElem (by omega)]
        rfl
      have hu0 := getD_of_some h4
      have hv0 := getD_of_some h2
      rw [getD_take (by omega)] at hu0 hv0
      have p0 := hp (2 * k) (by omega)
      have p1 := hp (2 * k + 1) (by omega)
      rw [show 2 * k / 2 = k by omega, hu0, hv0] at p0
      rw [show (2 * k + 1) / 2 = k by omega, hu0, hv0] at p1
      rw [hy0, hy1]
      show (pixel depth t cr _ _ _ >>= fun p => pixel depth t cr _ _ _ >>= fun q => Except.ok (p ++ q)) = _
      rw [p0, ok_bind, p1, ok_bind])
  rw [hz, ok_bind]
  have hdrop : rgba.drop (w * 4) = [] := List.drop_eq_nil_of_le (by omega)
  rw [hdrop]
  rcases Nat.mod_two_eq_zero_or_one w with h | h
  · rw [if_neg (by omega), flatMap_pairs g w, if_pos h]
    rw [List.drop_eq_nil_of_le (by simp; omega), List.append_nil]
  · rw [if_pos (by omega)]
    have hn : (((List.range (w / 2)).flatMap fun k => g (2 * k) ++ g (2 * k + 1)) ++ (rgba.take (w * 4)).drop (w / 2 * 8)).length / 8 * 8 = w / 2 * 8 := by
      rw [List.length_append, hlen, List.length_drop, List.length_take, hr]
      omega
    simp only []
    rw [hn]
    have hl := zipChunks_ok (n := 4) (cnt := 1) (f := fun (yuv : (Nat × Nat) × Nat) _ => pixel depth t cr yuv.1.1 yuv.1.2 yuv.2) (by omega)
      (fun _ => g (w - 1))
      ((((y.take w).drop ((y.take w).length / 2 * 2)).zip (u.take ((w + 1) / 2)).reverse).zip (v.take ((w + 1) / 2)).reverse)
      ((((List.range (w / 2)).flatMap fun k => g (2 * k) ++ g (2 * k + 1)) ++ (rgba.take (w * 4)).drop (w / 2 * 8)).drop (w / 2 * 8))
      (by rw [List.length_drop, List.length_append, hlen, List.length_drop, List.length_take, hr]; omega)
      (by simp; omega) (by
        intro k r b hk hr _
        obtain rfl : k = 0 := by omega
        obtain ⟨h1, h2⟩ := zip_getElem? hr
        obtain ⟨h3, h4⟩ := zip_getElem? h1
        have hyl : (y.take w).length = w := by simp [hy]
        rw [hyl, List.getElem?_drop] at h3
        have hul : (u.take ((w + 1) / 2)).length = (w + 1) / 2 := by simp [hu]
        have hvl : (v.take ((w + 1) / 2)).length = (w + 1) / 2 := by simp [hv]
        rw [List.getElem?_reverse (by omega), hul] at h4
        rw [List.getElem?_reverse (by omega), hvl] at h2
        have e3 := getD_of_some h3
        have e4 := getD_of_some h4
        have e2 := getD_of_some h2
        rw [getD_take (by omega)] at e3 e4 e2
        have p0 := hp (w - 1) (by omega)
        rw [show w - 1 = w / 2 * 2 + 0 by omega, e3, show (w / 2 * 2 + 0) / 2 = (w + 1) / 2 - 1 - 0 by omega, e4, e2,
          show w / 2 * 2 + 0 = w - 1 by omega] at p0
        exact p0)
    rw [hl, ok_bind, List.append_nil, flatMap_pairs g w, if_neg (by omega), List.take_append_of_le_length (by rw [hlen]), List.take_of_length_le (by rw [hlen])]
    simp

/-- The samples of an image, row by row. -/
def canvas (w h : Nat) (g : Nat → Nat → List Nat) : List Nat := (List.range h).flatMap fun y => (List.range w).flatMap fun x => g x y

end Avif
end Verif
