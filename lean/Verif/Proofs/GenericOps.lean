import Verif.Model.GenericOps
import Verif.Proofs.Loops
import Verif.Proofs.Buffer

/-!
# Lemmas about the generic image operations
-/

namespace Verif
open GenericImageView GenericImage LawfulView LawfulImage

/-! ### Loops as loops over lists -/

theorem forList_append {σ β : Type} (l l' : List β) (f : β → σ → R σ) (s : σ) :
    forList (l ++ l') f s = (forList l f s >>= forList l' f) := by
  induction l generalizing s with
  | nil => rfl
  | cons a l ih =>
    simp only [List.cons_append, forList]
    cases f a s <;> simp [ih]

theorem forRange_eq_forList {σ : Type} (n : Nat) (f : Nat → σ → R σ) (s : σ) :
    forRange n f s = forList (List.range n) f s := by
  induction n with
  | zero => rfl
  | succ n ih =>
    rw [List.range_succ, forList_append, ← ih, forRange_succ]
    cases forRange n f s
    · rfl
    · simp only [ok_bind, forList]
      rename_i a; cases f n a <;> rfl

theorem forRangeRev_eq_forList {σ : Type} (n : Nat) (f : Nat → σ → R σ) (s : σ) :
    forRangeRev n f s = forList (List.range n).reverse f s := by
  induction n generalizing s with
  | zero => rfl
  | succ n ih =>
    rw [List.range_succ, List.reverse_append]
    simp only [forRangeRev, List.reverse_singleton, List.singleton_append, forList]
    cases f n s
    · rfl
    · simp [ih]

theorem forList_flatMap {σ β γ : Type} (l : List β) (g : β → List γ) (f : γ → σ → R σ) (s : σ) :
    forList (l.flatMap g) f s = forList l (fun a s => forList (g a) f s) s := by
  induction l generalizing s with
  | nil => rfl
  | cons a l ih =>
    rw [List.flatMap_cons, forList_append]
    simp only [forList]
    cases forList (g a) f s <;> simp [ih]

theorem forList_map {σ β γ : Type} (l : List β) (g : β → γ) (f : γ → σ → R σ) (s : σ) :
    forList (l.map g) f s = forList l (fun a s => f (g a) s) s := by
  induction l generalizing s with
  | nil => rfl
  | cons a l ih =>
    simp only [List.map_cons, forList]
    cases f (g a) s <;> simp [ih]

theorem forList_congr {σ β : Type} {l : List β} {f g : β → σ → R σ} {s : σ}
    (h : ∀ a ∈ l, ∀ s, f a s = g a s) : forList l f s = forList l g s := by
  induction l generalizing s with
  | nil => rfl
  | cons a l ih =>
    simp only [forList]
    rw [h a (by simp)]
    cases g a s
    · rfl
    · simp only [ok_bind]; exact ih (fun b hb => h b (by simp [hb]))

variable {I D P : Type}

theorem widthOf_eq [GenericImageView D P] {d d' : D} (h : dims d' = dims d) : widthOf d' = widthOf d := by
  simp [widthOf, h]
theorem heightOf_eq [GenericImageView D P] {d d' : D} (h : dims d' = dims d) : heightOf d' = heightOf d := by
  simp [heightOf, h]

variable [GenericImage D P] [LawfulImage D P]

/-- A loop which copies pixel `src c` to `dst c` for each `c` of a list, in an order in which no
destination is the source of a later copy. -/
theorem move_loop {β : Type} {cs : List β} {body : β → D → R D} {d0 : D}
    (src dst : β → Nat × Nat) (wf : WF d0)
    (src_in : ∀ c ∈ cs, (src c).1 < widthOf d0 ∧ (src c).2 < heightOf d0)
    (dst_in : ∀ c ∈ cs, (dst c).1 < widthOf d0 ∧ (dst c).2 < heightOf d0)
    (order : cs.Pairwise (fun c c' => dst c ≠ dst c' ∧ dst c ≠ src c'))
    (hbody : ∀ c ∈ cs, ∀ d, WF d → dims d = dims d0 → ∀ p,
      getPixel d (src c).1 (src c).2 = .ok p → body c d = putPixel d (dst c).1 (dst c).2 p) :
    ∃ d', forList cs body d0 = .ok d' ∧ WF d' ∧ dims d' = dims d0 ∧
      (∀ c ∈ cs, getPixel d' (dst c).1 (dst c).2 = getPixel d0 (src c).1 (src c).2) ∧
      (∀ a b, a < widthOf d0 → b < heightOf d0 → (∀ c ∈ cs, dst c ≠ (a, b)) →
        getPixel d' a b = getPixel d0 a b) := by
  have := forList_inv (xs := cs) (f := body) (s := d0) (fun pre _ d =>
    WF d ∧ dims d = dims d0 ∧
    (∀ c ∈ pre, getPixel d (dst c).1 (dst c).2 = getPixel d0 (src c).1 (src c).2) ∧
    (∀ a b, a < widthOf d0 → b < heightOf d0 → (∀ c ∈ pre, dst c ≠ (a, b)) →
        getPixel d a b = getPixel d0 a b))
    ⟨wf, rfl, fun c hc => by simp at hc, fun a b _ _ _ => rfl⟩ ?_
  · exact this
  · intro pre c post he d ⟨hw, hd, hdone, hrest⟩
    have hc : c ∈ cs := by rw [← he]; simp
    obtain ⟨s1, s2⟩ := src_in c hc
    obtain ⟨t1, t2⟩ := dst_in c hc
    have hpw : ∀ c' ∈ pre, dst c' ≠ dst c ∧ dst c' ≠ src c := by
      intro c' hc'
      rw [← he, List.pairwise_append] at order
      exact order.2.2 c' hc' c (by simp)
    obtain ⟨p, hp⟩ := get_ok wf s1 s2
    have hcur : getPixel d (src c).1 (src c).2 = .ok p := by
      rw [hrest _ _ s1 s2 (fun c' hc' => (hpw c' hc').2), hp]
    have hw1 := widthOf_eq hd
    have hh1 := heightOf_eq hd
    obtain ⟨d', he', hw', hd', hg, ho⟩ := put_ok (i := d) (x := (dst c).1) (y := (dst c).2) p hw
      (by omega) (by omega)
    refine ⟨d', by rw [hbody c hc d hw hd p hcur]; exact he', hw', hd'.trans hd, ?_, ?_⟩
    · intro c' hc'
      rcases List.mem_append.1 hc' with h | h
      · have hin := dst_in c' (by rw [← he]; simp [h])
        rw [ho _ _ (by omega) (by omega) (fun h2 => (hpw c' h).1 (Prod.ext h2.1 h2.2)),
          hdone c' h]
      · have : c' = c := by simpa using h
        subst this
        rw [hg, hp]
    · intro a b ha hb hn
      have hne := hn c (by simp)
      rw [ho a b (by omega) (by omega) (fun h2 => hne (Prod.ext h2.1.symm h2.2.symm))]
      exact hrest a b ha hb (fun c' hc' => hn c' (by simp [hc']))

/-- The order `copy_within` visits offsets in; `rx`/`ry` tell whether the axis runs backwards. -/
def visit (rx ry : Bool) (w h : Nat) : List (Nat × Nat) :=
  (if ry then (List.range h).reverse else List.range h).flatMap fun y =>
    (if rx then (List.range w).reverse else List.range w).map fun x => (x, y)

theorem mem_visit {rx ry : Bool} {w h : Nat} {c : Nat × Nat} :
    c ∈ visit rx ry w h ↔ c.1 < w ∧ c.2 < h := by
  obtain ⟨x, y⟩ := c
  cases rx <;> cases ry <;> simp [visit] <;> constructor <;>
    first
    | (rintro ⟨_, h1, _, h2, rfl, rfl⟩; exact ⟨h2, h1⟩)
    | (rintro ⟨h1, h2⟩; exact ⟨y, h2, x, h1, rfl, rfl⟩)

theorem pairwise_dir (r : Bool) (n : Nat) :
    (if r then (List.range n).reverse else List.range n).Pairwise
      (fun a b => if r then b < a else a < b) := by
  cases r
  · simpa using List.pairwise_lt_range
  · simpa [List.pairwise_reverse] using List.pairwise_lt_range

theorem pairwise_visit (rx ry : Bool) (w h : Nat) :
    (visit rx ry w h).Pairwise (fun c c' =>
      (if ry then c'.2 < c.2 else c.2 < c'.2) ∨
      (c.2 = c'.2 ∧ (if rx then c'.1 < c.1 else c.1 < c'.1))) := by
  unfold visit
  rw [List.pairwise_flatMap]
  constructor
  · intro y _
    rw [List.pairwise_map]
    exact (pairwise_dir rx w).imp (fun h => Or.inr ⟨rfl, h⟩)
  · refine (pairwise_dir ry h).imp ?_
    intro a b hab c hc c' hc'
    simp only [List.mem_map] at hc hc'
    obtain ⟨_, _, rfl⟩ := hc
    obtain ⟨_, _, rfl⟩ := hc'
    exact Or.inl hab

/-- Effect of the loops of `copy_within`. -/
theorem copyWithin_loops {d : D} (wf : WF d) {sx sy w h dx dy : Nat}
    (h1 : sx + w ≤ widthOf d) (h2 : dx + w ≤ widthOf d)
    (h3 : sy + h ≤ heightOf d) (h4 : dy + h ≤ heightOf d) :
    ∃ d', forList (visit (decide (sx < dx)) (decide (sy < dy)) w h)
        (fun c d => copyWithinBody sx (sy + c.2) dx (dy + c.2) c.1 d) d = .ok d' ∧
      WF d' ∧ dims d' = dims d ∧
      (∀ i k, i < w → k < h → getPixel d' (dx + i) (dy + k) = getPixel d (sx + i) (sy + k)) ∧
      (∀ a b, a < widthOf d → b < heightOf d → ¬(dx ≤ a ∧ a < dx + w ∧ dy ≤ b ∧ b < dy + h) →
        getPixel d' a b = getPixel d a b) := by
  have hw32 := width_lt wf
  have hh32 := height_lt wf
  obtain ⟨d', g1, g2, g3, g4, g5⟩ := move_loop (cs := visit (decide (sx < dx)) (decide (sy < dy)) w h)
    (body := fun c d => copyWithinBody sx (sy + c.2) dx (dy + c.2) c.1 d) (d0 := d)
    (fun c => (sx + c.1, sy + c.2)) (fun c => (dx + c.1, dy + c.2)) wf
    (fun c hc => by rw [mem_visit] at hc; exact ⟨by omega, by omega⟩)
    (fun c hc => by rw [mem_visit] at hc; exact ⟨by omega, by omega⟩)
    ((pairwise_visit _ _ w h).imp (by
      rintro ⟨x, y⟩ ⟨x', y'⟩ hd
      simp only [ne_eq, Prod.mk.injEq, decide_eq_true_eq] at *
      split at hd <;> split at hd <;> omega))
    (fun c hc d1 hw1 hd1 p hp => by
      rw [mem_visit] at hc
      unfold copyWithinBody
      rw [addC_ok (by omega), addC_ok (by omega)]
      simp only [ok_bind] at hp ⊢
      rw [hp]; rfl)
  refine ⟨d', g1, g2, g3, ?_, ?_⟩
  · intro i k hi hk
    exact g4 (i, k) (mem_visit.2 ⟨hi, hk⟩)
  · intro a b ha hb hn
    apply g5 a b ha hb
    rintro ⟨x, y⟩ hc heq
    rw [mem_visit] at hc
    simp only [Prod.mk.injEq] at heq hc
    omega

/-- `copy_within` on any lawful image, corners in bounds: `false` without effect if a rectangle does
not fit, else memmove. -/
theorem copyWithin_spec {d : D} (wf : WF d) {sx sy w h dx dy : Nat}
    (h1 : sx < widthOf d) (h2 : dx < widthOf d) (h3 : sy < heightOf d) (h4 : dy < heightOf d) :
    if sx + w ≤ widthOf d ∧ dx + w ≤ widthOf d ∧ sy + h ≤ heightOf d ∧ dy + h ≤ heightOf d then
      ∃ d', copyWithin d sx sy w h dx dy = .ok (true, d') ∧ WF d' ∧ dims d' = dims d ∧
        (∀ i k, i < w → k < h → getPixel d' (dx + i) (dy + k) = getPixel d (sx + i) (sy + k)) ∧
        (∀ a b, a < widthOf d → b < heightOf d →
          ¬(dx ≤ a ∧ a < dx + w ∧ dy ≤ b ∧ b < dy + h) → getPixel d' a b = getPixel d a b)
    else copyWithin d sx sy w h dx dy = .ok (false, d) := by
  have hw32 := width_lt wf
  have hh32 := height_lt wf
  split
  · rename_i hf
    obtain ⟨d', g1, g2⟩ := copyWithin_loops wf hf.1 hf.2.1 hf.2.2.1 hf.2.2.2
    refine ⟨d', ?_, g2⟩
    have key : ∀ rx ry : Bool,
        forList (visit rx ry w h) (fun c d => copyWithinBody sx (sy + c.2) dx (dy + c.2) c.1 d) d =
        forList (if ry then (List.range h).reverse else List.range h)
          (copyWithinRow (fun f s => forList (if rx then (List.range w).reverse else List.range w) f s)
            sx sy dx dy) d := by
      intro rx ry
      rw [visit, forList_flatMap]
      apply forList_congr
      intro y hy s
      have hy : y < h := by cases ry <;> simpa using hy
      rw [forList_map, copyWithinRow, addC_ok (by omega), addC_ok (by omega)]
      rfl
    rw [key] at g1
    unfold copyWithin
    simp only [h1, h2, h3, h4, decide_true, Bool.and_self, assertR_true, ok_bind]
    rw [if_neg (by omega)]
    cases hx : decide (sx < dx) <;> cases hy : decide (sy < dy) <;> rw [hx, hy] at g1 <;>
      simp only [Bool.false_eq_true, if_true, if_false] at g1 <;>
      simp only [forRange_eq_forList, forRangeRev_eq_forList, g1, ok_bind]
  · rename_i hf
    unfold copyWithin
    simp only [h1, h2, h3, h4, decide_true, Bool.and_self, assertR_true, ok_bind]
    rw [if_pos (by omega)]

/-- Effect of a row-major loop which stores `src x y` at `φ x y`. -/
theorem copy_loop {w h : Nat} {body : Nat → Nat → D → R D} {d0 : D}
    (src : Nat → Nat → R P) (φ : Nat → Nat → Nat × Nat) (wf : WF d0)
    (src_ok : ∀ x y, x < w → y < h → ∃ p, src x y = .ok p)
    (φ_in : ∀ x y, x < w → y < h → (φ x y).1 < widthOf d0 ∧ (φ x y).2 < heightOf d0)
    (φ_inj : ∀ x y x' y', x < w → y < h → x' < w → y' < h → φ x y = φ x' y' → x = x' ∧ y = y')
    (hbody : ∀ x y, x < w → y < h → ∀ d, WF d → dims d = dims d0 → ∀ p,
      src x y = .ok p → body x y d = putPixel d (φ x y).1 (φ x y).2 p) :
    ∃ d', forRange h (fun y d => forRange w (fun x d => body x y d) d) d0 = .ok d' ∧
      WF d' ∧ dims d' = dims d0 ∧
      (∀ x y, x < w → y < h → getPixel d' (φ x y).1 (φ x y).2 = src x y) ∧
      (∀ a b, a < widthOf d0 → b < heightOf d0 → (∀ x y, x < w → y < h → φ x y ≠ (a, b)) →
        getPixel d' a b = getPixel d0 a b) := by
  obtain ⟨d', g1, g2, g3, g4, g5⟩ := update_loop (w := w) (h := h) (body := body) (d0 := d0) φ
    (fun x y old => match src x y with | .ok q => q | .error _ => old) wf φ_in φ_inj (by
      intro x y hx hy d hw hd p hp
      obtain ⟨q, hq⟩ := src_ok x y hx hy
      obtain ⟨i1, i2⟩ := φ_in x y hx hy
      have e1 := widthOf_eq hd
      have e2 := heightOf_eq hd
      obtain ⟨d', p1, p2, p3, p4, p5⟩ := put_ok (i := d) (x := (φ x y).1) (y := (φ x y).2) q hw
        (by omega) (by omega)
      refine ⟨d', by rw [hbody x y hx hy d hw hd q hq]; exact p1, p2, p3, by simp only [hq]; exact p4, ?_⟩
      intro a b ha hb hne
      exact p5 a b ha hb (fun h => hne (Prod.ext h.1 h.2)))
  refine ⟨d', g1, g2, g3, ?_, g5⟩
  intro x y hx hy
  obtain ⟨q, hq⟩ := src_ok x y hx hy
  obtain ⟨i1, i2⟩ := φ_in x y hx hy
  obtain ⟨p, hp⟩ := get_ok wf i1 i2
  rw [g4 x y p hx hy hp]
  simp only [hq]

/-! ### Sub-images -/

/-- A sub-image is well formed when its rectangle lies inside the image. -/
instance {I P : Type} [GenericImageView I P] [LawfulView I P] : LawfulView (SubImage I) P where
  WF s := WF s.image ∧ s.xoffset + s.xstride ≤ widthOf s.image ∧
    s.yoffset + s.ystride ≤ heightOf s.image
  width_lt := fun {i} h => by
    have := width_lt h.1
    show i.xstride < _
    omega
  height_lt := fun {i} h => by
    have := height_lt h.1
    show i.ystride < _
    omega
  get_ok := fun {i} {x y} h hx hy => by
    have := width_lt h.1
    have := height_lt h.1
    change x < i.xstride at hx
    change y < i.ystride at hy
    show ∃ p, (do GenericImageView.getPixel i.image (← addC 32 x i.xoffset) (← addC 32 y i.yoffset)) = _
    rw [addC_ok (by omega), addC_ok (by omega)]
    exact get_ok h.1 (by omega) (by omega)

theorem SubImage.getPixel_eq {I P : Type} [GenericImageView I P] [LawfulView I P] {s : SubImage I}
    (h : WF s) {x y : Nat} (hx : x < s.xstride) (hy : y < s.ystride) :
    getPixel s x y = getPixel s.image (s.xoffset + x) (s.yoffset + y) := by
  have := width_lt h.1
  have := height_lt h.1
  have := h.2
  show (do GenericImageView.getPixel s.image (← addC 32 x s.xoffset) (← addC 32 y s.yoffset)) = _
  rw [addC_ok (by omega), addC_ok (by omega)]
  simp only [ok_bind]
  rw [Nat.add_comm x, Nat.add_comm y]

/-- The full effect of a write through a sub-image, in terms of the parent. -/
theorem SubImage.put_spec {s : SubImage D} (h : WF s) {x y : Nat} (hx : x < s.xstride)
    (hy : y < s.ystride) (p : P) :
    ∃ s', putPixel s x y p = .ok s' ∧ WF s' ∧ s'.xoffset = s.xoffset ∧ s'.yoffset = s.yoffset ∧
      s'.xstride = s.xstride ∧ s'.ystride = s.ystride ∧ dims s'.image = dims s.image ∧
      getPixel s'.image (s.xoffset + x) (s.yoffset + y) = .ok p ∧
      ∀ a b, a < widthOf s.image → b < heightOf s.image →
        ¬(a = s.xoffset + x ∧ b = s.yoffset + y) → getPixel s'.image a b = getPixel s.image a b := by
  have hw := width_lt h.1
  have hh := height_lt h.1
  obtain ⟨h0, h1, h2⟩ := h
  obtain ⟨i', p1, p2, p3, p4, p5⟩ := put_ok (i := s.image) (x := s.xoffset + x) (y := s.yoffset + y) p
    h0 (by omega) (by omega)
  refine ⟨{ s with image := i' }, ?_, ⟨p2, ?_, ?_⟩, rfl, rfl, rfl, rfl, p3, p4, p5⟩
  · show (do
      let a ← addC 32 x s.xoffset
      let b ← addC 32 y s.yoffset
      let j ← GenericImage.putPixel s.image a b p
      .ok { s with image := j }) = _
    rw [addC_ok (by omega), addC_ok (by omega)]
    simp only [ok_bind]
    rw [Nat.add_comm x, Nat.add_comm y, p1]; rfl
  · show s.xoffset + s.xstride ≤ widthOf i'
    rw [widthOf_eq p3]; exact h1
  · show s.yoffset + s.ystride ≤ heightOf i'
    rw [heightOf_eq p3]; exact h2

instance : LawfulImage (SubImage D) P where
  put_ok := fun {i} {x y} p h hx hy => by
    obtain ⟨s', h1, h2, h3, h4, h5, h6, h7, h8, h9⟩ := SubImage.put_spec (s := i) h hx hy p
    refine ⟨s', h1, h2, ?_, ?_, ?_⟩
    · show (s'.xstride, s'.ystride) = (i.xstride, i.ystride)
      rw [h5, h6]
    · rw [SubImage.getPixel_eq h2 (by rw [h5]; exact hx) (by rw [h6]; exact hy), h3, h4]
      exact h8
    · intro a b ha hb hne
      have hb1 := h.2
      change a < i.xstride at ha
      change b < i.ystride at hb
      rw [SubImage.getPixel_eq h2 (by rw [h5]; exact ha) (by rw [h6]; exact hb), h3, h4,
        SubImage.getPixel_eq h ha hb]
      exact h9 _ _ (by omega) (by omega) (by omega)

/-! ### `ImageBuffer::copy_within` -/

namespace ImageBuffer
variable {α : Type} {ch : Nat}

theorem data_getElem? {b : ImageBuffer α ch} (hb : b.Inv) {x y : Nat} (hx : x < b.width)
    (hy : y < b.height) {p : Pix α ch} (h : b.getPixel x y = .ok p) (c : Fin ch) :
    b.data[(y * b.width + x) * ch + c.val]? = some (p c) :=
  (getPixel_eq_ok hb hx hy p).1 h c

/-- One row of the specialised `copy_within`. -/
theorem copyRow_spec {b : ImageBuffer α ch} (hb : b.Inv) {sx sy w dx dy y : Nat}
    (h0 : 0 < sx + w) (h1 : sx + w ≤ b.width) (h2 : dx + w ≤ b.width) (h2' : dx < b.width)
    (h1' : sx < b.width)
    (h3 : sy + y < b.height) (h4 : dy + y < b.height) :
    ∃ b', copyRow sx sy w dx dy y b = .ok b' ∧ b'.Inv ∧ b'.width = b.width ∧ b'.height = b.height ∧
      b'.data.length = b.data.length ∧
      (∀ i, i < w → b'.getPixel (dx + i) (dy + y) = b.getPixel (sx + i) (sy + y)) ∧
      (∀ u v, u < b.width → v < b.height → ¬(v = dy + y ∧ dx ≤ u ∧ u < dx + w) →
        b'.getPixel u v = b.getPixel u v) := by
  have hw32 := hb.w32
  have hh32 := hb.h32
  have hlen64 := hb.len64
  have hfit := hb.fits
  -- linear indices
  have hSe : ((sy + y) * b.width + (sx + w - 1)) * ch + ch =
      ((sy + y) * b.width + sx) * ch + w * ch := by
    rw [← Nat.succ_mul, ← Nat.add_mul]; congr 1; omega
  have hSend : ((sy + y) * b.width + sx) * ch + w * ch ≤ b.data.length := by
    rw [← hSe]; exact end_le hb (by omega) h3
  have hDend : ((dy + y) * b.width + dx) * ch + w * ch ≤ b.data.length := by
    rcases Nat.eq_zero_or_pos w with rfl | hw
    · have := end_le hb h2' h4; omega
    · have := end_le hb (x := dx + w - 1) (by omega) h4
      have e : ((dy + y) * b.width + (dx + w - 1)) * ch + ch =
        ((dy + y) * b.width + dx) * ch + w * ch := by
        rw [← Nat.succ_mul, ← Nat.add_mul]; congr 1; omega
      omega
  generalize hS : ((sy + y) * b.width + sx) * ch = S at *
  generalize hDd : ((dy + y) * b.width + dx) * ch = T at *
  have hrow : copyRow sx sy w dx dy y b =
      .ok { b with data := overwrite b.data T ((b.data.drop S).take (w * ch)) } := by
    unfold copyRow
    rw [addC_ok (by omega)]; simp only [ok_bind]
    rw [addC_ok (by omega)]; simp only [ok_bind]
    rw [pixelIndicesUnchecked_ok hb h1' h3]; simp only [ok_bind]
    rw [addC_ok (by omega)]; simp only [ok_bind]
    rw [subC_ok (by omega)]; simp only [ok_bind]
    rw [pixelIndicesUnchecked_ok hb (by omega) h3]; simp only [ok_bind]
    rw [pixelIndicesUnchecked_ok hb h2' h4]; simp only [ok_bind]
    rw [hS, hDd, hSe]
    unfold sliceCopyWithin
    rw [if_pos ⟨by omega, hSend, by omega⟩]
    simp only [ok_bind, Nat.add_sub_cancel_left]
  have hl : ((b.data.drop S).take (w * ch)).length = w * ch := by simp; omega
  have hlen : (overwrite b.data T ((b.data.drop S).take (w * ch))).length = b.data.length :=
    length_overwrite (by rw [hl]; exact hDend)
  have hInv : Inv (α := α) (ch := ch)
      { b with data := overwrite b.data T ((b.data.drop S).take (w * ch)) } :=
    ⟨hw32, hh32, by rw [hlen]; exact hlen64, by rw [hlen]; exact hfit⟩
  refine ⟨_, hrow, hInv, rfl, rfl, hlen, ?_, ?_⟩
  · intro i hi
    obtain ⟨p, hp⟩ := getPixel_exists hb (x := sx + i) (y := sy + y) (by omega) h3
    rw [hp, getPixel_eq_ok hInv (by show dx + i < b.width; omega) h4]
    intro c
    have hc := c.isLt
    rw [← data_getElem? hb (by omega) h3 hp c]
    show (overwrite b.data T ((b.data.drop S).take (w * ch)))[((dy + y) * b.width + (dx + i)) * ch + c.val]? = _
    have e1 : ((dy + y) * b.width + (dx + i)) * ch + c.val = T + (i * ch + c.val) := by
      rw [← hDd, ← Nat.add_assoc, ← Nat.add_assoc, Nat.add_mul]
    have e2 : ((sy + y) * b.width + (sx + i)) * ch + c.val = S + (i * ch + c.val) := by
      rw [← hS, ← Nat.add_assoc, ← Nat.add_assoc, Nat.add_mul]
    have hi2 := chunk_end_le (ch := ch) hi
    rw [e1, e2, getElem?_overwrite (by rw [hl]; exact hDend), if_neg (by omega),
      if_pos (by rw [hl]; omega), Nat.add_sub_cancel_left, List.getElem?_take, if_pos (by omega),
      List.getElem?_drop]
  · intro u v hu hv hn
    obtain ⟨p, hp⟩ := getPixel_exists hb hu hv
    rw [hp, getPixel_eq_ok hInv hu hv]
    intro c
    have hc := c.isLt
    rw [← data_getElem? hb hu hv hp c]
    show (overwrite b.data T ((b.data.drop S).take (w * ch)))[(v * b.width + u) * ch + c.val]? = _
    rw [getElem?_overwrite (by rw [hl]; exact hDend), hl]
    -- the linear pixel index lies outside `[k0, k0 + w)`
    have hk : v * b.width + u < (dy + y) * b.width + dx ∨
        (dy + y) * b.width + dx + w ≤ v * b.width + u := by
      rcases Nat.lt_trichotomy v (dy + y) with h | h | h
      · left
        have := chunk_end_le (ch := b.width) h
        omega
      · subst h
        by_cases hu2 : dx ≤ u
        · right; omega
        · left; omega
      · right
        have := chunk_end_le (ch := b.width) h
        omega
    rcases hk with h | h
    · have := chunk_end_le (ch := ch) h
      rw [if_pos (by omega)]
    · have := Nat.mul_le_mul_right ch h
      rw [Nat.add_mul, hDd] at this
      rw [if_neg (by omega), if_neg (by omega)]

/-- The loop over the rows in one direction. -/
theorem copyRows_spec {b : ImageBuffer α ch} (hb : b.Inv) {sx sy w h dx dy : Nat}
    (h0 : 0 < sx + w) (h1 : sx + w ≤ b.width) (h2 : dx + w ≤ b.width) (h1' : sx < b.width)
    (h2' : dx < b.width) (h3 : sy + h ≤ b.height) (h4 : dy + h ≤ b.height) (ys : List Nat)
    (hys : ∀ y, y ∈ ys ↔ y < h)
    (order : ys.Pairwise fun y y' => y ≠ y' ∧ dy + y ≠ sy + y') :
    ∃ b', forList ys (copyRow sx sy w dx dy) b = .ok b' ∧ b'.Inv ∧ b'.width = b.width ∧
      b'.height = b.height ∧ b'.data.length = b.data.length ∧
      (∀ i k, i < w → k < h → b'.getPixel (dx + i) (dy + k) = b.getPixel (sx + i) (sy + k)) ∧
      (∀ u v, u < b.width → v < b.height → ¬(dx ≤ u ∧ u < dx + w ∧ dy ≤ v ∧ v < dy + h) →
        b'.getPixel u v = b.getPixel u v) := by
  have := forList_inv (xs := ys) (f := copyRow (α := α) (ch := ch) sx sy w dx dy) (s := b)
    (fun pre _ d => d.Inv ∧ d.width = b.width ∧ d.height = b.height ∧
      d.data.length = b.data.length ∧
      (∀ i k, i < w → k ∈ pre → d.getPixel (dx + i) (dy + k) = b.getPixel (sx + i) (sy + k)) ∧
      (∀ u v, u < b.width → v < b.height → (∀ k ∈ pre, ¬(v = dy + k ∧ dx ≤ u ∧ u < dx + w)) →
        d.getPixel u v = b.getPixel u v))
    ⟨hb, rfl, rfl, rfl, fun i k _ hk => by simp at hk, fun _ _ _ _ _ => rfl⟩ ?_
  · obtain ⟨b', e, i1, i2, i3, i4, i5, i6⟩ := this
    refine ⟨b', e, i1, i2, i3, i4, fun i k hi hk => i5 i k hi ((hys k).2 hk), ?_⟩
    intro u v hu hv hn
    apply i6 u v hu hv
    intro k hk
    have := (hys k).1 hk
    omega
  · intro pre y post he d ⟨i1, i2, i3, i4, i5, i6⟩
    have hy : y < h := (hys y).1 (by rw [← he]; simp)
    have hpw : ∀ k ∈ pre, k ≠ y ∧ dy + k ≠ sy + y := by
      intro k hk
      rw [← he, List.pairwise_append] at order
      exact order.2.2 k hk y (by simp)
    obtain ⟨d', g1, g2, g3, g4, g5, g6, g7⟩ := copyRow_spec i1 (sx := sx) (sy := sy) (w := w)
      (dx := dx) (dy := dy) (y := y) h0 (by omega) (by omega) (by omega) (by omega) (by omega)
      (by omega)
    refine ⟨d', g1, g2, by omega, by omega, by omega, ?_, ?_⟩
    · intro i k hi hk
      rcases List.mem_append.1 hk with h | h
      · have hkh : k < _ := (hys k).1 (by rw [← he]; simp [h])
        rw [g7 _ _ (by omega) (by omega) (by have := hpw k h; omega)]
        exact i5 i k hi h
      · have : k = y := by simpa using h
        subst this
        rw [g6 i hi]
        exact i6 _ _ (by omega) (by omega) (fun k' hk' => by have := hpw k' hk'; omega)
    · intro u v hu hv hn
      rw [g7 u v (by omega) (by omega) (hn y (by simp))]
      exact i6 u v hu hv (fun k hk => hn k (by simp [hk]))

/-- The specialised `copy_within`, corners in bounds and not `sx = width = 0`. -/
theorem copyWithin_spec {b : ImageBuffer α ch} (hb : b.Inv) {sx sy w h dx dy : Nat}
    (h0 : 0 < sx + w) (h1 : sx < b.width) (h2 : dx < b.width) (h3 : sy < b.height)
    (h4 : dy < b.height) :
    if sx + w ≤ b.width ∧ dx + w ≤ b.width ∧ sy + h ≤ b.height ∧ dy + h ≤ b.height then
      ∃ b', b.copyWithin sx sy w h dx dy = .ok (true, b') ∧ b'.Inv ∧ b'.width = b.width ∧
        b'.height = b.height ∧ b'.data.length = b.data.length ∧
        (∀ i k, i < w → k < h → b'.getPixel (dx + i) (dy + k) = b.getPixel (sx + i) (sy + k)) ∧
        (∀ u v, u < b.width → v < b.height → ¬(dx ≤ u ∧ u < dx + w ∧ dy ≤ v ∧ v < dy + h) →
          b'.getPixel u v = b.getPixel u v)
    else b.copyWithin sx sy w h dx dy = .ok (false, b) := by
  split
  · rename_i hf
    unfold copyWithin
    simp only [h1, h2, h3, h4, decide_true, Bool.and_self, assertR_true, ok_bind]
    rw [if_neg (by omega)]
    by_cases hsd : sy < dy
    · obtain ⟨b', e, r⟩ := copyRows_spec hb h0 hf.1 hf.2.1 h1 h2 hf.2.2.1 hf.2.2.2
        (List.range h).reverse (by simp) (by
          rw [List.pairwise_reverse]
          exact List.pairwise_lt_range.imp (fun h => by omega))
      refine ⟨b', ?_, r⟩
      rw [if_pos hsd, forRangeRev_eq_forList, e]; rfl
    · obtain ⟨b', e, r⟩ := copyRows_spec hb h0 hf.1 hf.2.1 h1 h2 hf.2.2.1 hf.2.2.2
        (List.range h) (by simp) (List.pairwise_lt_range.imp (fun h => by omega))
      refine ⟨b', ?_, r⟩
      rw [if_neg hsd, forRange_eq_forList, e]; rfl
  · rename_i hf
    unfold copyWithin
    simp only [h1, h2, h3, h4, decide_true, Bool.and_self, assertR_true, ok_bind]
    rw [if_pos (by omega)]

end ImageBuffer
end Verif
