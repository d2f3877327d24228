import Verif.Proofs.Avif420
import Verif.Props.DecoderToImage

/-!
# AVIF: 16-bit planes, alpha and the output buffer
-/

namespace Verif
namespace Avif

/-- Element `j` of piece `k` in the concatenation of pieces of the same length. -/
theorem flatMap_getElem? {α : Type} (f : Nat → List α) {n c k j : Nat} (hf : ∀ k < n, (f k).length = c) (hk : k < n) (hj : j < c) :
    ((List.range n).flatMap f)[k * c + j]? = (f k)[j]? := by
  induction n with
  | zero => omega
  | succ n ih =>
    have hl : ((List.range n).flatMap f).length = n * c := by
      rw [length_flatMap_const (n := c) f _ (fun b hb => hf b (by have := List.mem_range.mp hb; omega)), List.length_range]
    rw [List.range_succ, List.flatMap_append]
    rcases Nat.lt_or_ge k n with h | h
    · have : (k + 1) * c ≤ n * c := Nat.mul_le_mul_right _ h
      have e : (k + 1) * c = k * c + c := by ring
      rw [List.getElem?_append_left (by omega)]
      exact ih (fun k hk => hf k (by omega)) h
    · obtain rfl : k = n := by omega
      rw [List.getElem?_append_right (by omega), hl, Nat.add_sub_cancel_left]
      simp

theorem flatMap_piece {α : Type} (f : Nat → List α) {n c k : Nat} (hf : ∀ k < n, (f k).length = c) (hk : k < n) :
    (((List.range n).flatMap f).drop (k * c)).take c = f k := by
  apply List.ext_getElem?
  intro j
  rcases Nat.lt_or_ge j c with h | h
  · rw [List.getElem?_take, if_pos h, List.getElem?_drop, flatMap_getElem? f hf hk h]
  · rw [List.getElem?_eq_none (by rw [List.length_take]; omega), List.getElem?_eq_none (by rw [hf k hk]; exact h)]

/-- Loops over chunks whose old contents matter. -/
theorem zipChunks_old {ρ : Type} {f : ρ → List Nat → R (List Nat)} {n cnt : Nat} (hn : 0 < n) (g : Nat → List Nat) (srcs : List ρ) (buf : List Nat)
    (hb : buf.length = n * cnt) (hs : cnt ≤ srcs.length)
    (hf : ∀ k r, k < cnt → srcs[k]? = some r → f r ((buf.drop (k * n)).take n) = .ok (g k)) :
    zipChunks n f srcs buf = .ok ((List.range cnt).flatMap g) := by
  have hdiv : buf.length / n = cnt := by rw [hb, Nat.mul_div_cancel_left _ hn]
  have hlen : (chunksExact n buf).length = cnt := by rw [length_chunksExact, hdiv]
  unfold zipChunks
  rw [assert_ok (by simpa using Nat.ne_of_gt hn), ok_bind, zipWrite_all g srcs _ (by rw [hlen]; exact hs), ok_bind, hlen, hdiv, flatten_map_range,
    List.drop_eq_nil_of_le (by rw [hb, Nat.mul_comm]), List.append_nil]
  intro k r b hr hbk
  obtain ⟨hk, -⟩ := List.getElem?_eq_some_iff.mp hbk
  rw [hlen] at hk
  rw [getElem?_chunksExact (by rw [hdiv]; exact hk)] at hbk
  rw [← Option.some.inj hbk]
  exact hf k r hk hr

theorem canvas_length {w h : Nat} {g : Nat → Nat → List Nat} (hg : ∀ x < w, ∀ y < h, (g x y).length = 4) : (canvas w h g).length = w * 4 * h := by
  unfold canvas
  rw [length_flatMap_range _ _ (w * 4) (fun y hy => length_flatMap_range _ _ _ (fun x hx => hg x hx y hy)), Nat.mul_comm]

theorem canvas_getElem? {w h : Nat} {g : Nat → Nat → List Nat} (hg : ∀ x < w, ∀ y < h, (g x y).length = 4) {x y c : Nat} (hx : x < w) (hy : y < h)
    (hc : c < 4) : (canvas w h g)[(y * w + x) * 4 + c]? = (g x y)[c]? := by
  unfold canvas
  have h1 : x * 4 + c < w * 4 := by omega
  rw [show (y * w + x) * 4 + c = y * (w * 4) + (x * 4 + c) by ring,
    flatMap_getElem? _ (fun y hy => length_flatMap_range _ _ _ (fun x hx => hg x hx y hy)) hy h1, flatMap_getElem? _ (fun x hx => hg x hx y hy) hx hc]

theorem canvas_mem {w h : Nat} {g : Nat → Nat → List Nat} {v : Nat} (hv : v ∈ canvas w h g) : ∃ x < w, ∃ y < h, v ∈ g x y := by
  unfold canvas at hv
  obtain ⟨y, hy, hv⟩ := List.mem_flatMap.mp hv
  obtain ⟨x, hx, hv⟩ := List.mem_flatMap.mp hv
  exact ⟨x, List.mem_range.mp hx, y, List.mem_range.mp hy, hv⟩

/-- The alpha values put into the pixels. -/
theorem squash_ok {d w h stride : Nat} {alpha : List Nat} (hw : 0 < w) (a : Samples d alpha stride w h) {g : Nat → Nat → List Nat}
    (hg : ∀ x < w, ∀ y < h, (g x y).length = 4) :
    squash w (chunksExact stride alpha) (canvas w h g) = .ok (canvas w h fun x y => (g x y).set 3 (alpha.getD (y * stride + x) 0)) := by
  unfold squash
  refine zipChunks_old (by omega) _ _ _ (canvas_length hg) (by rw [a.rows hw]) ?_
  intro y row hy hrow
  obtain ⟨h1, h2⟩ := a.get hw hy hrow
  have hrow : ((canvas w h g).drop (y * (w * 4))).take (w * 4) = (List.range w).flatMap fun x => g x y :=
    flatMap_piece _ (fun y hy => length_flatMap_range _ _ _ (fun x hx => hg x hx y hy)) hy
  rw [hrow]
  refine zipChunks_old (by omega) _ _ _ (by rw [length_flatMap_range _ _ _ (fun x hx => hg x hx y hy), Nat.mul_comm]) (by rw [h1]; exact a.row) ?_
  intro x s hx hs
  have e := h2 x hx
  rw [getD_of_some hs] at e
  rw [flatMap_piece _ (fun x hx => hg x hx y hy) hx, e]

theorem samplesOf_getD (le : Bool) (l : List UInt8) {i : Nat} (hi : 2 * i + 1 < l.length) : (samplesOf le 2 l).getD i 0 =
    if le then (l.getD (2 * i) 0).toNat + 256 * (l.getD (2 * i + 1) 0).toNat else 256 * (l.getD (2 * i) 0).toNat + (l.getD (2 * i + 1) 0).toNat := by
  unfold samplesOf
  rw [List.getD_eq_getElem?_getD, List.getElem?_map, getElem?_chunksExact (by omega)]
  have e : (l.drop (i * 2)).take 2 = [l.getD (2 * i) 0, l.getD (2 * i + 1) 0] := by
    have h1 : l.drop (i * 2) = l[2 * i] :: l[2 * i + 1] :: l.drop (2 * i + 2) := by
      rw [Nat.mul_comm i 2, List.drop_eq_getElem_cons (by omega), List.drop_eq_getElem_cons (by omega)]
    rw [h1, List.getD_eq_getElem?_getD, List.getElem?_eq_getElem (by omega), List.getD_eq_getElem?_getD, List.getElem?_eq_getElem (by omega)]
    rfl
  rw [e]
  cases le
  · simp [beNat]; try omega
  · simp [leNat]; try omega

/-- Planes of 16-bit numbers: the samples are the same whether the plane is used in place or copied. -/
theorem transmute_ok (m : Machine) {p : Plane} {d w h : Nat} (hd : d ≠ 8) (hp : p.Holds m.le d w h) (hw : 0 < w) :
    ∃ s stride, transmute m p w h = .ok (s, stride) ∧ Samples d s stride w h ∧ ∀ x < w, ∀ y < h, s.getD (y * stride + x) 0 = p.sample m.le d x y := by
  obtain ⟨hlen, hfit, hrow, hbits⟩ := hp
  have hsb : sampleBytes d = 2 := by unfold sampleBytes; rw [if_neg hd]
  rw [hsb] at hrow
  unfold transmute
  split
  · next hc =>
    have hstr : p.stride / 2 * 2 = p.stride := by omega
    have hget : ∀ x < w, ∀ y < h, (samplesOf m.le 2 p.bytes).getD (y * (p.stride / 2) + x) 0 = p.sample m.le d x y := by
      intro x hx y hy
      have h1 : (y + 1) * p.stride ≤ p.stride * h := by rw [Nat.mul_comm p.stride]; exact Nat.mul_le_mul_right _ hy
      have h2 : (y + 1) * p.stride = y * p.stride + p.stride := by ring
      have h3 : 2 * (y * (p.stride / 2) + x) = y * p.stride + 2 * x := by
        conv_rhs => rw [← hstr]
        ring
      rw [samplesOf_getD _ _ (by omega), h3]
      simp only [Plane.sample, if_neg hd]
      rfl
    refine ⟨_, _, rfl, ⟨?_, ?_, by omega, fun x hx y hy => by rw [hget x hx y hy]; exact hbits x hx y hy⟩, hget⟩
    · rw [DynamicImage.length_samplesOf m.le (n := p.stride / 2 * h) (by omega) (by rw [hlen, Nat.mul_right_comm, hstr])]
    · have : p.stride / 2 * h ≤ p.stride * h := Nat.mul_le_mul_right _ (by omega)
      omega
  · have hwh : w * h < 2 ^ 64 := by
      have : w * h ≤ p.stride * h := Nat.mul_le_mul_right _ (by omega)
      omega
    have hstr : 0 < p.stride := by omega
    have e : reshapePlane m p.bytes p.stride w h = .ok ((List.range h).flatMap fun y => (List.range w).map fun x => p.sample m.le d x y) := by
      unfold reshapePlane
      rw [mulC_ok hwh, ok_bind, assert_ok (by simpa using Nat.ne_of_gt hw), ok_bind, assert_ok (by simpa using Nat.ne_of_gt hstr), ok_bind]
      have hl1 : (chunksExact w (List.replicate (w * h) 0)).length = h := by
        rw [length_chunksExact, List.length_replicate, Nat.mul_div_cancel_left _ hw]
      have hl2 : (chunksExact p.stride p.bytes).length = h := by rw [length_chunksExact, hlen, Nat.mul_div_cancel_left _ hstr]
      rw [zipWrite_all (fun y => (List.range w).map fun x => p.sample m.le d x y) _ _ (by rw [hl1, hl2]), ok_bind, hl1, flatten_map_range]
      intro y src row hsrc hrow'
      obtain ⟨hy, -⟩ := List.getElem?_eq_some_iff.mp hrow'
      rw [hl1] at hy
      rw [getElem?_chunksExact (by rw [List.length_replicate, Nat.mul_div_cancel_left _ hw]; exact hy)] at hrow'
      rw [getElem?_chunksExact (by rw [hlen, Nat.mul_div_cancel_left _ hstr]; exact hy)] at hsrc
      have hsrc := Option.some.inj hsrc
      have hy1 : (y + 1) * p.stride ≤ p.stride * h := by rw [Nat.mul_comm p.stride]; exact Nat.mul_le_mul_right _ hy
      have hy2 : (y + 1) * p.stride = y * p.stride + p.stride := by ring
      have hsl : src.length = p.stride := by
        rw [← hsrc, List.length_take, List.length_drop, hlen]
        omega
      have hrl : row.length = w := by
        rw [← Option.some.inj hrow', List.length_take, List.length_drop, List.length_replicate]
        have : (y + 1) * w ≤ w * h := by rw [Nat.mul_comm w]; exact Nat.mul_le_mul_right _ hy
        have : (y + 1) * w = y * w + w := by ring
        omega
      have hsm : (samplesOf m.le 2 src).length = p.stride / 2 := by
        unfold samplesOf
        rw [List.length_map, length_chunksExact, hsl]
      rw [zipWrite_all (fun x => p.sample m.le d x y) _ _ (by rw [hrl, hsm]; omega), hrl]
      intro x s b hs hb
      obtain ⟨hx, -⟩ := List.getElem?_eq_some_iff.mp hb
      rw [hrl] at hx
      have es := getD_of_some hs
      rw [samplesOf_getD _ _ (by omega), ← hsrc] at es
      congr 1
      rw [← es]
      have g1 : ∀ j < p.stride, ((p.bytes.drop (y * p.stride)).take p.stride).getD j 0 = p.bytes.getD (y * p.stride + j) 0 := by
        intro j hj
        simp [List.getD_eq_getElem?_getD, hj]
      rw [g1 _ (by omega), g1 _ (by omega)]
      simp only [Plane.sample, if_neg hd]
    have hget : ∀ x < w, ∀ y < h, ((List.range h).flatMap fun y => (List.range w).map fun x => p.sample m.le d x y).getD (y * w + x) 0 = p.sample m.le d x y := by
      intro x hx y hy
      rw [List.getD_eq_getElem?_getD, flatMap_getElem? _ (by simp) hy hx]
      simp [hx]
    rw [e, ok_bind]
    refine ⟨_, _, rfl, ⟨?_, hwh, le_refl _, fun x hx y hy => by rw [hget x hx y hy]; exact hbits x hx y hy⟩, hget⟩
    rw [length_flatMap_range _ _ w (by simp), Nat.mul_comm]

/-- Planes of bytes. -/
theorem bytes_ok {le : Bool} {p : Plane} {w h : Nat} (hp : p.Holds le 8 w h) :
    Samples 8 (samples8 p.bytes) p.stride w h ∧ ∀ x y, (samples8 p.bytes).getD (y * p.stride + x) 0 = p.sample le 8 x y := by
  obtain ⟨hlen, hfit, hrow, hbits⟩ := hp
  have hget : ∀ x y, (samples8 p.bytes).getD (y * p.stride + x) 0 = p.sample le 8 x y := by
    intro x y
    simp only [samples8, Plane.sample, if_pos, List.getD_eq_getElem?_getD, List.getElem?_map]
    cases p.bytes[y * p.stride + x]? <;> rfl
  refine ⟨⟨by simpa [samples8] using hlen, by omega, by simpa [sampleBytes] using hrow, fun x hx y hy => by rw [hget]; exact hbits x hx y hy⟩, hget⟩

theorem expand_eq {d s : Nat} (hd : d = 10 ∨ d = 12) (hs : s < 2 ^ d) : expand d s = s * 2 ^ (16 - d) := by
  unfold expand
  rw [Nat.shiftLeft_eq, Nat.shiftRight_eq_div_pow]
  rcases hd with rfl | rfl
  · rw [Nat.div_eq_of_lt (by omega), Nat.or_zero, Nat.mod_eq_of_lt (by omega)]
  · rw [Nat.div_eq_of_lt (by omega), Nat.or_zero, Nat.mod_eq_of_lt (by omega)]

end Avif
end Verif
