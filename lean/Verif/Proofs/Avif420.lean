import Verif.Proofs.AvifPlanes

/-!
# AVIF: 4:2:0, pairs of rows and the last row of an odd height
-/

namespace Verif
namespace Avif

theorem flatten_chunksExact {α : Type} {n : Nat} (hn : 0 < n) : ∀ (c : Nat) (l : List α), l.length = n * c → (chunksExact n l).flatten = l
  | 0, l, h => by
    have : l = [] := List.eq_nil_of_length_eq_zero (by simpa using h)
    subst this
    simp [chunksExact_nil]
  | c + 1, l, h => by
    have e : n * (c + 1) = n * c + n := by ring
    have h1 : (l.take n).length = n := by rw [List.length_take]; omega
    have h2 : (l.drop n).length = n * c := by rw [List.length_drop]; omega
    have := chunksExact_append hn h1 (l.drop n)
    rw [List.take_append_drop] at this
    rw [this, List.flatten_cons, flatten_chunksExact hn c _ h2, List.take_append_drop]

theorem chunksExact_snoc {α : Type} {n : Nat} (hn : 0 < n) : ∀ (c : Nat) (l t : List α), l.length = n * c → t.length = n →
    chunksExact n (l ++ t) = chunksExact n l ++ [t]
  | 0, l, t, h, ht => by
    have : l = [] := List.eq_nil_of_length_eq_zero (by simpa using h)
    subst this
    have := chunksExact_append hn ht []
    rw [List.append_nil] at this
    rw [List.nil_append, this, chunksExact_nil, List.nil_append]
  | c + 1, l, t, h, ht => by
    have e : n * (c + 1) = n * c + n := by ring
    have h1 : (l.take n).length = n := by rw [List.length_take]; omega
    have h2 : (l.drop n).length = n * c := by rw [List.length_drop]; omega
    have a := chunksExact_append hn h1 (l.drop n)
    have b := chunksExact_append hn h1 (l.drop n ++ t)
    rw [List.take_append_drop] at a
    rw [← List.append_assoc, List.take_append_drop] at b
    rw [b, a, chunksExact_snoc hn c _ t h2 ht, List.cons_append]

theorem yuv420_ok {d : Nat} (hd : d = 8 ∨ d = 10 ∨ d = 12) {i : Planar} {r : Range} {m : Matrix} (hm : m ≠ .identity) (hw : 0 < i.width)
    (hs : i.width * 4 * i.height < 2 ^ 64) (hw64 : i.width * 4 < 2 ^ 64) (y : Samples d i.y i.yStride i.width i.height)
    (u : Samples d i.u i.uStride ((i.width + 1) / 2) ((i.height + 1) / 2)) (v : Samples d i.v i.vStride ((i.width + 1) / 2) ((i.height + 1) / 2))
    (rgba : List Nat) (hl : rgba.length = i.width * 4 * i.height) :
    ∃ g, yuv420 d i rgba r m = .ok (canvas i.width i.height g) ∧ ∀ a < i.width, ∀ b < i.height,
      Shown d (m.colours r d (i.y.getD (b * i.yStride + a) 0) (i.u.getD (b / 2 * i.uStride + a / 2) 0) (i.v.getD (b / 2 * i.vStride + a / 2) 0)) (g a b) := by
  have hw2 : 0 < (i.width + 1) / 2 := by omega
  have ys : 0 < i.yStride := lt_of_lt_of_le hw y.row
  have us : 0 < i.uStride := lt_of_lt_of_le hw2 u.row
  have vs : 0 < i.vStride := lt_of_lt_of_le hw2 v.row
  obtain ⟨t, ht, hg⟩ := transform_ok m r d hm hd
  obtain ⟨k, hk, ht⟩ := transform_steps ht
  have hpx : ∀ a < i.width, ∀ b < i.height, _ := fun a ha b hb => value_shown (pixel_shown hd (weights_ne hm) hg (y.bits a ha b hb)
    (u.bits (a / 2) (by omega) (b / 2) (by omega)) (v.bits (a / 2) (by omega) (b / 2) (by omega)))
  let g : Nat → Nat → List Nat := fun a b => value (pixel d t (r.yuvRange d) (i.y.getD (b * i.yStride + a) 0) (i.u.getD (b / 2 * i.uStride + a / 2) 0)
    (i.v.getD (b / 2 * i.vStride + a / 2) 0))
  refine ⟨g, ?_, fun a ha b hb => by
      simp only [Matrix.colours, if_neg hm]
      exact (hpx a ha b hb).2⟩
  let rowF : Nat → List Nat := fun b => (List.range i.width).flatMap fun a => g a b
  have hrowF : ∀ b < i.height, (rowF b).length = i.width * 4 := fun b hb => length_flatMap_range _ _ _ (fun a ha => (hpx a ha b hb).2.length)
  -- a row of luma samples with its row of chroma samples
  have hrow : ∀ b < i.height, ∀ yr ur vr rgb : List Nat, (i.width ≤ yr.length) → (∀ x < i.width, yr.getD x 0 = i.y.getD (b * i.yStride + x) 0) →
      (chunksExact i.uStride i.u)[b / 2]? = some ur → (chunksExact i.vStride i.v)[b / 2]? = some vr → rgb.length = i.width * 4 →
      halvedRow d i.width t (r.yuvRange d) yr ur vr rgb = .ok (rowF b) := by
    intro b hb yr ur vr rgb hy hyx hu hv hr
    obtain ⟨u1, u2⟩ := u.get hw2 (by omega) hu
    obtain ⟨v1, v2⟩ := v.get hw2 (by omega) hv
    refine halvedRow_ok _ yr ur vr rgb hy (by rw [u1]; exact u.row) (by rw [v1]; exact v.row) (by rw [hr, Nat.mul_comm]) ?_
      (fun x hx => (hpx x hx b hb).2.length)
    intro x hx
    rw [hyx x hx, u2 _ (by omega), v2 _ (by omega)]
    exact (hpx x hx b hb).1
  have hst : 0 < i.width * 4 := by omega
  have hylen2 : i.y.length / (i.yStride * 2) = i.height / 2 := by rw [y.len, Nat.mul_div_mul_left _ _ ys]
  unfold yuv420
  rw [assert_ok (by simpa using hm), ok_bind]
  simp only []
  rw [y.check, ok_bind, u.check, ok_bind, v.check, ok_bind, mulC_ok hw64, ok_bind, checkPlane_ok hl hs, ok_bind, hk, ok_bind, ht, ok_bind,
    rowsOf_ok (by omega), ok_bind, rowsOf_ok us, ok_bind, rowsOf_ok vs, ok_bind]
  rw [zipChunks_prefix (n := i.width * 4 * 2) (cnt := i.height / 2) (by omega) (fun k => rowF (2 * k) ++ rowF (2 * k + 1)) _ rgba
    (by rw [hl, Nat.mul_div_mul_left _ _ hst])
    (by rw [List.length_zip, List.length_zip, length_chunksExact, hylen2, u.rows hw2, v.rows hw2]; omega), ok_bind]
  · rw [rowsOf_ok ys, ok_bind, hylen2]
    have hP : ((List.range (i.height / 2)).flatMap fun k => rowF (2 * k) ++ rowF (2 * k + 1)).length = i.height / 2 * (i.width * 4 * 2) :=
      length_flatMap_range _ _ _ (fun k hk => by rw [List.length_append, hrowF _ (by omega), hrowF _ (by omega)]; ring)
    generalize hPd : ((List.range (i.height / 2)).flatMap fun k => rowF (2 * k) ++ rowF (2 * k + 1)) = P at hP
    have hcanvas : canvas i.width i.height g = P ++ (if i.height % 2 = 0 then [] else rowF (i.height - 1)) := by
      rw [← hPd]
      exact flatMap_pairs rowF i.height
    rcases Nat.mod_two_eq_zero_or_one i.height with h | h
    · have hd2 : i.height / 2 * 2 = i.height := by omega
      have e1 : i.y.drop (i.height / 2 * (i.yStride * 2)) = [] := List.drop_eq_nil_of_le (by
        rw [y.len, Nat.mul_comm i.yStride 2, ← Nat.mul_assoc, hd2, Nat.mul_comm])
      have e2 : rgba.drop (i.height / 2 * (i.width * 4 * 2)) = [] := List.drop_eq_nil_of_le (by
        rw [hl, Nat.mul_comm (i.width * 4) 2, ← Nat.mul_assoc, hd2, Nat.mul_comm])
      have hPl : P.length = i.width * 4 * i.height := by
        rw [hP, Nat.mul_comm (i.width * 4) 2, ← Nat.mul_assoc, hd2, Nat.mul_comm]
      rw [e1, e2, chunksExact_nil, List.append_nil, hcanvas, if_pos h, List.append_nil]
      simp only [List.zip_nil_left, zipWrite]
      rw [ok_bind, List.reverse_reverse, flatten_chunksExact hst _ _ hPl, hPl, Nat.mul_div_cancel_left _ hst, Nat.mul_comm, ← hPl,
        List.drop_length, List.append_nil]
    · have hd2 : i.height / 2 * 2 = i.height - 1 := by omega
      have hPl : P.length = i.width * 4 * (i.height - 1) := by
        rw [hP, Nat.mul_comm (i.width * 4) 2, ← Nat.mul_assoc, hd2, Nat.mul_comm]
      have hh : i.height = (i.height - 1) + 1 := by omega
      have e2 : (rgba.drop (i.height / 2 * (i.width * 4 * 2))).length = i.width * 4 := by
        rw [List.length_drop, hl, Nat.mul_comm (i.width * 4) 2, ← Nat.mul_assoc, hd2]
        conv_lhs => rw [hh]
        rw [Nat.mul_add, Nat.mul_comm, Nat.mul_one, Nat.add_sub_cancel, Nat.add_sub_cancel_left]
      have e1 : (i.y.drop (i.height / 2 * (i.yStride * 2))).length = i.yStride := by
        rw [List.length_drop, y.len, Nat.mul_comm i.yStride 2, ← Nat.mul_assoc, hd2]
        conv_lhs => rw [hh]
        rw [Nat.mul_add, Nat.mul_comm, Nat.mul_one, Nat.add_sub_cancel, Nat.add_sub_cancel_left]
      generalize hT : rgba.drop (i.height / 2 * (i.width * 4 * 2)) = T at e2
      have hleft := chunksExact_append ys e1 []
      rw [List.append_nil, chunksExact_nil] at hleft
      have hlen : (P ++ T).length = i.width * 4 * i.height := by
        rw [List.length_append, hPl, e2]
        conv_rhs => rw [hh]
        rw [Nat.mul_add, Nat.mul_one]
      have hzip : (([i.y.drop (i.height / 2 * (i.yStride * 2))].zip (chunksExact i.uStride i.u).reverse).zip (chunksExact i.vStride i.v).reverse).length = 1 := by
        rw [List.length_zip, List.length_zip, List.length_reverse, List.length_reverse, u.rows hw2, v.rows hw2, List.length_singleton]
        omega
      rw [hleft, zipWrite_ok (fun _ => rowF (i.height - 1)) _ _ (by
        rw [hzip, List.length_reverse, length_chunksExact, hlen, Nat.mul_div_cancel_left _ hst]
        omega), ok_bind]
      · have hrev : ((chunksExact (i.width * 4) P ++ [T]).reverse.drop 1).reverse = chunksExact (i.width * 4) P := by simp
        rw [hzip, chunksExact_snoc hst _ P T hPl e2, List.reverse_append, hrev, hlen, Nat.mul_div_cancel_left _ hst, List.flatten_append,
          flatten_chunksExact hst _ P hPl, hcanvas, if_neg (by omega), List.drop_eq_nil_of_le (as := P ++ T) (by rw [hlen, Nat.mul_comm]), List.append_nil]
        simp
      · intro k yuv b hk hb
        obtain ⟨hk1, -⟩ := List.getElem?_eq_some_iff.mp hk
        rw [hzip] at hk1
        obtain rfl : k = 0 := by omega
        obtain ⟨h1, hv⟩ := zip_getElem? hk
        obtain ⟨hy, hu⟩ := zip_getElem? h1
        have hy : yuv.1.1 = i.y.drop (i.height / 2 * (i.yStride * 2)) := by simpa using hy.symm
        rw [List.getElem?_reverse (by rw [u.rows hw2]; omega), u.rows hw2] at hu
        rw [List.getElem?_reverse (by rw [v.rows hw2]; omega), v.rows hw2] at hv
        rw [chunksExact_snoc hst _ P T hPl e2, List.reverse_append] at hb
        have hb : T = b := by simpa using hb
        apply hrow (i.height - 1) (by omega)
        · rw [hy, e1]; exact y.row
        · intro x hx
          rw [hy]
          simp only [List.getD_eq_getElem?_getD, List.getElem?_drop]
          rw [Nat.mul_comm i.yStride 2, ← Nat.mul_assoc, hd2]
        · rw [← hu]; congr 1; omega
        · rw [← hv]; congr 1; omega
        · rw [← hb]; exact e2
  · intro k yuv rgb hk hyuv hrgb
    obtain ⟨h1, hv⟩ := zip_getElem? hyuv
    obtain ⟨hy, hu⟩ := zip_getElem? h1
    rw [getElem?_chunksExact (by rw [hylen2]; exact hk)] at hy
    have hy : (i.y.drop (k * (i.yStride * 2))).take (i.yStride * 2) = yuv.1.1 := Option.some.inj hy
    have hyl : yuv.1.1.length = i.yStride * 2 := by
      rw [← hy, List.length_take, List.length_drop, y.len]
      have : (k + 1) * 2 ≤ i.height := by omega
      have h2 : i.yStride * ((k + 1) * 2) ≤ i.yStride * i.height := Nat.mul_le_mul_left _ this
      have h3 : i.yStride * ((k + 1) * 2) = k * (i.yStride * 2) + i.yStride * 2 := by ring
      omega
    rw [rowsOf_ok ys, ok_bind]
    have := zipChunks_ok (n := i.width * 4) (cnt := 2) (f := fun y rgba => halvedRow d i.width t (r.yuvRange d) y yuv.1.2 yuv.2 rgba) hst
      (fun j => rowF (2 * k + j)) (chunksExact i.yStride yuv.1.1) rgb hrgb (by rw [length_chunksExact, hyl, Nat.mul_div_cancel_left _ ys]) (by
        intro j yr b hj hyr hb
        rw [row_get ys hyl hj] at hyr
        have hyr := Option.some.inj hyr
        apply hrow (2 * k + j) (by omega)
        · rw [← hyr, row_length hyl hj]; exact y.row
        · intro x hx
          have hx' : x < i.yStride := lt_of_lt_of_le hx y.row
          rw [← hyr, row_getD hx', ← hy]
          have h1 : j * i.yStride + x < i.yStride * 2 := by
            have : (j + 1) * i.yStride ≤ 2 * i.yStride := Nat.mul_le_mul_right _ (by omega)
            have : (j + 1) * i.yStride = j * i.yStride + i.yStride := by ring
            omega
          simp only [List.getD_eq_getElem?_getD, List.getElem?_take, if_pos h1, List.getElem?_drop]
          congr 2
          ring
        · rw [show (2 * k + j) / 2 = k by omega]; exact hu
        · rw [show (2 * k + j) / 2 = k by omega]; exact hv
        · exact hb)
    rw [this]
    simp [List.range_succ]

end Avif
end Verif
