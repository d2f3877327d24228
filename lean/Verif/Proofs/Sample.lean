import Verif.Model.Sample
import Verif.Proofs.FloatSigned
import Verif.Proofs.Loops
import Verif.Proofs.Buffer

/-!
# The structure of the sampling passes
-/

namespace Verif
open GenericImageView GenericImage LawfulView LawfulImage

variable {α : Type} {ch : Nat}

/-! ## Filling an image -/

/-- `b` is a `w`×`h` image whose pixels are given by `g`. -/
structure Pictures (b : ImageBuffer α ch) (w h : Nat) (g : Nat → Nat → Pix α ch) : Prop where
  inv : b.Inv
  width : b.width = w
  height : b.height = h
  pixel : ∀ x y, x < w → y < h → b.getPixel x y = .ok (g x y)

/-- A loop nest that writes each pixel once, in rows. -/
theorem fill_rows {z : α} {w h : Nat} (hc : ch < 256) (hw : w < 2 ^ 32) (hh : h < 2 ^ 32) (hs : w * h * ch < 2 ^ 64)
    (f : Nat → Nat → R (Pix α ch)) (g : Nat → Nat → Pix α ch)
    (hf : ∀ x y, x < w → y < h → f x y = .ok (g x y)) :
    ∃ b, (do
        let out ← ImageBuffer.new ch z w h
        forRange h (fun y out => forRange w (fun x (out : ImageBuffer α ch) => do
          out.putPixel x y (← f x y)) out) out) = .ok b ∧ Pictures b w h g := by
  rw [ImageBuffer.new_ok hc hw hs, ok_bind]
  have hi := ImageBuffer.new_inv (z := z) hw hh hs
  obtain ⟨b, e1, e2, e3, e4⟩ := forRange2_inv (w := w) (h := h)
    (body := fun x y (out : ImageBuffer α ch) => do out.putPixel x y (← f x y))
    (s := ⟨w, h, List.replicate (w * h * ch) z⟩)
    (fun y x (b : ImageBuffer α ch) => b.Inv ∧ b.width = w ∧ b.height = h ∧
      ∀ x' y', x' < w → y' < h → (y' < y ∨ y' = y ∧ x' < x) → b.getPixel x' y' = .ok (g x' y'))
    ⟨hi, rfl, rfl, by omega⟩
    (by
      intro y x hy hx s ⟨h1, h2, h3, h4⟩
      obtain ⟨s', p1, p2, p3, p4, -, p5, p6⟩ := ImageBuffer.put_spec h1 (x := x) (y := y) (by omega) (by omega) (g x y)
      refine ⟨s', by simp only [hf x y hx hy, ok_bind, p1], p2, by omega, by omega, ?_⟩
      intro x' y' hx' hy' hd
      by_cases he : x' = x ∧ y' = y
      · rw [he.1, he.2]; exact p5
      · rw [p6 x' y' (by omega) (by omega) he]; exact h4 x' y' hx' hy' (by omega))
    (by
      intro y hy s ⟨h1, h2, h3, h4⟩
      exact ⟨h1, h2, h3, fun x' y' hx' hy' hd => h4 x' y' hx' hy' (by omega)⟩)
  exact ⟨b, e1, e2, e3, e4.1, fun x y hx hy => e4.2 x y hx hy (by omega)⟩

/-- A loop nest that writes each pixel once, in columns. -/
theorem fill_columns {z : α} {w h : Nat} (hc : ch < 256) (hw : w < 2 ^ 32) (hh : h < 2 ^ 32)
    (hs : w * h * ch < 2 ^ 64) (f : Nat → Nat → R (Pix α ch)) (g : Nat → Nat → Pix α ch)
    (hf : ∀ x y, x < w → y < h → f x y = .ok (g x y)) :
    ∃ b, (do
        let out ← ImageBuffer.new ch z w h
        forRange w (fun x out => forRange h (fun y (out : ImageBuffer α ch) => do
          out.putPixel x y (← f x y)) out) out) = .ok b ∧ Pictures b w h g := by
  rw [ImageBuffer.new_ok hc hw hs, ok_bind]
  have hi := ImageBuffer.new_inv (z := z) hw hh hs
  obtain ⟨b, e1, e2, e3, e4⟩ := forRange2_inv (w := h) (h := w)
    (body := fun y x (out : ImageBuffer α ch) => do out.putPixel x y (← f x y))
    (s := ⟨w, h, List.replicate (w * h * ch) z⟩)
    (fun x y (b : ImageBuffer α ch) => b.Inv ∧ b.width = w ∧ b.height = h ∧
      ∀ x' y', x' < w → y' < h → (x' < x ∨ x' = x ∧ y' < y) → b.getPixel x' y' = .ok (g x' y'))
    ⟨hi, rfl, rfl, by omega⟩
    (by
      intro x y hx hy s ⟨h1, h2, h3, h4⟩
      obtain ⟨s', p1, p2, p3, p4, -, p5, p6⟩ := ImageBuffer.put_spec h1 (x := x) (y := y) (by omega) (by omega) (g x y)
      refine ⟨s', by simp only [hf x y hx hy, ok_bind, p1], p2, by omega, by omega, ?_⟩
      intro x' y' hx' hy' hd
      by_cases he : x' = x ∧ y' = y
      · rw [he.1, he.2]; exact p5
      · rw [p6 x' y' (by omega) (by omega) he]; exact h4 x' y' hx' hy' (by omega))
    (by
      intro y hy s ⟨h1, h2, h3, h4⟩
      exact ⟨h1, h2, h3, fun x' y' hx' hy' hd => h4 x' y' hx' hy' (by omega)⟩)
  exact ⟨b, e1, e2, e3, e4.1, fun x y hx hy => e4.2 x y hx hy (by omega)⟩

/-! ## Taps -/

/-- The float sum of products that `weightedSum` computes for one channel. -/
def dotF (ws : List Fl) (v : Nat → Fl) : Fl :=
  ws.zipIdx.foldl (fun t wi => t.add f32 ((v wi.2).mul f32 wi.1)) (.fin 0)

theorem weightedSum_ok {ws : List Fl} {px : Nat → R (Pix Fl 4)} {v : Nat → Pix Fl 4}
    (h : ∀ i, i < ws.length → px i = .ok (v i)) : weightedSum ws px = .ok fun c => dotF ws fun i => v i c := by
  unfold weightedSum dotF
  suffices H : ∀ (l : List (Fl × Nat)) (t : Pix Fl 4), (∀ wi ∈ l, wi.2 < ws.length) →
      forList l (fun wi t => do
        let vec ← px wi.2
        .ok fun c => (t c).add f32 ((vec c).mul f32 wi.1)) t =
      .ok fun c => l.foldl (fun t wi => t.add f32 ((v wi.2 c).mul f32 wi.1)) (t c) by
    refine H _ _ ?_
    rintro ⟨w, i⟩ hm
    have := List.snd_lt_add_of_mem_zipIdx hm
    simpa using this
  intro l
  induction l with
  | nil => intro t _; rfl
  | cons wi l ih =>
    intro t hl
    rw [forList, h _ (hl wi (by simp))]
    simp only [ok_bind]
    rw [ih _ (fun x hx => hl x (by simp [hx]))]
    rfl

theorem clampZ_range {a lo hi : Int} (h : lo ≤ hi) : lo ≤ clampZ a lo hi ∧ clampZ a lo hi ≤ hi := by
  unfold clampZ; split_ifs <;> omega

/-- The span of input indices is inside the axis and not empty, whatever the filter. -/
theorem sampleTaps_span (f : Filter) {len newLen o : Nat} (h0 : 0 < len) (h : len < 2 ^ 32) :
    (sampleTaps f len newLen o).1 + (sampleTaps f len newLen o).2.length ≤ len ∧
      0 < (sampleTaps f len newLen o).2.length := by
  unfold sampleTaps
  simp only [List.length_map, List.length_range]
  generalize (Fl.floor _).toISat 64 = a
  generalize (Fl.ceil _).toISat 64 = b
  have h1 := clampZ_range (a := a) (lo := 0) (hi := (len : Int) - 1) (by omega)
  have e1 : ((clampZ a 0 ((len : Int) - 1) % 2 ^ 32).toNat : Int) = clampZ a 0 ((len : Int) - 1) := by
    rw [Int.emod_eq_of_lt (by omega) (by omega)]; omega
  have h2 := clampZ_range (a := b) (lo := clampZ a 0 ((len : Int) - 1) + 1) (hi := len) (by omega)
  rw [e1]
  have e2 : ((clampZ b (clampZ a 0 ((len : Int) - 1) + 1) len % 2 ^ 32).toNat : Int)
      = clampZ b (clampZ a 0 ((len : Int) - 1) + 1) len := by
    rw [Int.emod_eq_of_lt (by omega) (by omega)]; omega
  generalize (clampZ b (clampZ a 0 ((len : Int) - 1) + 1) len % 2 ^ 32).toNat = r at *
  generalize (clampZ a 0 ((len : Int) - 1) % 2 ^ 32).toNat = l at *
  omega

/-! ## The two passes -/

/-- What the vertical pass computes at column `x`, output row `y`, channel `c`, for an image with pixels `pix`. -/
def colF (S : Samp α) (f : Filter) (height newHeight : Nat) (pix : Nat → Nat → Pix α ch) (x y : Nat) (c : Fin 4) : Fl :=
  dotF (sampleTaps f height newHeight y).2 fun i =>
    S.toF32 (channels4 S (pix x ((sampleTaps f height newHeight y).1 + i)) c)

/-- What the horizontal pass computes at output column `x`, row `y`, channel `c`, for intermediate values `v`. -/
def rowF (f : Filter) (width newWidth : Nat) (v : Nat → Nat → Pix Fl 4) (x y : Nat) (c : Fin 4) : Fl :=
  dotF (sampleTaps f width newWidth x).2 fun i => v ((sampleTaps f width newWidth x).1 + i) y c

theorem verticalSample_ok {I : Type} [GenericImageView I (Pix α ch)] {S : Samp α} {f : Filter} {img : I}
    {w h nh : Nat} {pix : Nat → Nat → Pix α ch} (hd : dims img = (w, h)) (hw : w < 2 ^ 32) (hh : h < 2 ^ 32)
    (hh0 : 0 < h) (hnh : nh < 2 ^ 32) (hs : w * nh * 4 < 2 ^ 64)
    (hp : ∀ x y, x < w → y < h → getPixel img x y = .ok (pix x y)) :
    ∃ b, verticalSample S img nh f = .ok b ∧ Pictures b w nh (colF S f h nh pix) := by
  have ew : widthOf img = w := by simp [widthOf, hd]
  have eh : heightOf img = h := by simp [heightOf, hd]
  unfold verticalSample
  simp only [ew, eh]
  rw [show (h != 0 || w == 0) = true by simp; omega]
  simp only [assertR_true, ok_bind]
  refine fill_rows (by omega) hw hnh hs (fun x y => weightedSum (sampleTaps f h nh y).2 fun i => do
        let p ← getPixel img x (← addC 32 (sampleTaps f h nh y).1 i)
        .ok fun c => S.toF32 (channels4 S p c)) _ ?_
  intro x y hx hy
  obtain ⟨t1, t2⟩ := sampleTaps_span f (newLen := nh) (o := y) hh0 hh
  refine weightedSum_ok (v := fun i c => S.toF32 (channels4 S (pix x ((sampleTaps f h nh y).1 + i)) c)) ?_
  intro i hi
  rw [addC_ok (by omega)]
  simp only [ok_bind]
  rw [hp _ _ hx (by omega)]
  rfl

theorem horizontalSample_ok {S : Samp α} {f : Filter} {img : ImageBuffer Fl 4} {w h nw : Nat}
    {v : Nat → Nat → Pix Fl 4} (hi : Pictures img w h v) (hc : ch ≤ 4) (hw0 : 0 < w) (hnw : nw < 2 ^ 32)
    (hs : nw * h * ch < 2 ^ 64) (g : Nat → Nat → Pix α 4)
    (hg : ∀ x y c, x < nw → y < h → nearestSample S (rowF f w nw v x y c) = .ok (g x y c)) :
    ∃ b, horizontalSample ch S img nw f = .ok b ∧ Pictures b nw h fun x y => fromChannels4 S (g x y) := by
  have hw := hi.inv.w32
  have hh := hi.inv.h32
  unfold horizontalSample
  simp only [hi.width, hi.height]
  rw [show (w != 0 || h == 0) = true by simp; omega]
  simp only [assertR_true, ok_bind]
  rw [hi.width] at hw
  rw [hi.height] at hh
  have key := fill_columns (z := S.zero) (by omega) hnw hh hs (fun x y => do
      let t ← weightedSum (sampleTaps f w nw x).2 fun i => do img.getPixel (← addC 32 (sampleTaps f w nw x).1 i) y
      let a ← nearestSample S (t 0)
      let b ← nearestSample S (t 1)
      let c ← nearestSample S (t 2)
      let d ← nearestSample S (t 3)
      .ok (fromChannels4 S (px4 a b c d))) (fun x y => fromChannels4 (ch := ch) S (g x y)) ?_
  · simpa only [bind_assoc, ok_bind] using key
  intro x y hx hy
  obtain ⟨t1, t2⟩ := sampleTaps_span f (newLen := nw) (o := x) hw0 hw
  rw [weightedSum_ok (v := fun i c => v ((sampleTaps f w nw x).1 + i) y c) (by
    intro i hi'
    rw [addC_ok (by omega)]
    simp only [ok_bind]
    exact hi.pixel _ _ (by omega) hy)]
  simp only [ok_bind]
  have := fun c => hg x y c hx hy
  unfold rowF at this
  rw [this 0, this 1, this 2, this 3]
  simp only [ok_bind]
  congr 2
  funext c
  match c with
  | 0 => rfl
  | 1 => rfl
  | 2 => rfl
  | 3 => rfl

/-- `resize` by sampling, when every rounded value fits. -/
theorem resize_ok {I : Type} [GenericImageView I (Pix α ch)] {L : Libm} {S : Samp α} {ft : FilterType} {img : I}
    {w h nw nh : Nat} {pix : Nat → Nat → Pix α ch} (hd : dims img = (w, h)) (hc : ch ≤ 4) (hw0 : 0 < w) (hh0 : 0 < h)
    (hw : w < 2 ^ 32) (hh : h < 2 ^ 32) (hnw : nw < 2 ^ 32) (hnh : nh < 2 ^ 32) (hne : (nw, nh) ≠ (w, h))
    (hs : w * nh * 4 < 2 ^ 64) (hs' : nw * nh * ch < 2 ^ 64)
    (hp : ∀ x y, x < w → y < h → getPixel img x y = .ok (pix x y)) (g : Nat → Nat → Pix α 4)
    (hg : ∀ x y c, x < nw → y < nh →
      nearestSample S (rowF (ft.method L) w nw (colF S (ft.method L) h nh pix) x y c) = .ok (g x y c)) :
    ∃ b, resize L S img nw nh ft = .ok b ∧ Pictures b nw nh fun x y => fromChannels4 S (g x y) := by
  have ew : widthOf img = w := by simp [widthOf, hd]
  have eh : heightOf img = h := by simp [heightOf, hd]
  obtain ⟨t, e1, e2⟩ := verticalSample_ok (S := S) (f := ft.method L) hd hw hh hh0 hnh hs hp
  obtain ⟨b, e3, e4⟩ := horizontalSample_ok (S := S) (f := ft.method L) e2 hc hw0 hnw hs' g hg
  refine ⟨b, ?_, e4⟩
  unfold resize
  rw [ew, eh, hd, if_neg (by omega), if_neg hne]
  simp only [e1, ok_bind, e3]

/-- `blur`, when every rounded value fits. -/
theorem blur_ok {I : Type} [GenericImageView I (Pix α ch)] {L : Libm} {S : Samp α} {sigma : Fl} {img : I}
    {w h : Nat} {pix : Nat → Nat → Pix α ch} (hd : dims img = (w, h)) (hc : ch ≤ 4) (hw0 : 0 < w) (hh0 : 0 < h)
    (hw : w < 2 ^ 32) (hh : h < 2 ^ 32) (hs : w * h * 4 < 2 ^ 64)
    (hp : ∀ x y, x < w → y < h → getPixel img x y = .ok (pix x y)) (g : Nat → Nat → Pix α 4)
    (hg : ∀ x y c, x < w → y < h →
      nearestSample S (rowF (blurFilter L sigma) w w (colF S (blurFilter L sigma) h h pix) x y c) = .ok (g x y c)) :
    ∃ b, blur L S img sigma = .ok b ∧ Pictures b w h fun x y => fromChannels4 S (g x y) := by
  have ew : widthOf img = w := by simp [widthOf, hd]
  have eh : heightOf img = h := by simp [heightOf, hd]
  obtain ⟨t, e1, e2⟩ := verticalSample_ok (S := S) (f := blurFilter L sigma) hd hw hh hh0 hh hs hp
  have : w * h * ch ≤ w * h * 4 := Nat.mul_le_mul_left _ hc
  obtain ⟨b, e3, e4⟩ := horizontalSample_ok (S := S) (f := blurFilter L sigma) e2 hc hw0 hw (by omega) g hg
  refine ⟨b, ?_, e4⟩
  unfold blur
  simp only [ew, eh]
  rw [if_neg (by omega)]
  simp only [e1, ok_bind, e3]

end Verif
