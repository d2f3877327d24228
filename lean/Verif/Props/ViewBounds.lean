import Verif.Props.Generic

/-!
# The bounds of views (C137)

The documentation of `get_pixel` and `put_pixel` (src/image.rs:910-915, 985-990): "Panics if `(x, y)` is out of bounds." A view made by `view`,
`sub_image` or `crop` does not look at its own bounds but at those of the image behind it.
-/

namespace Verif
open GenericImageView GenericImage LawfulView LawfulImage
variable {I D P : Type}

/-- The documented panics of `get_pixel`. -/
def GetPanics (I : Type) {P : Type} [GenericImageView I P] (img : I) : Prop :=
  ∀ x y, x < 2 ^ 32 → y < 2 ^ 32 → ¬ (x < widthOf img ∧ y < heightOf img) → getPixel img x y = (.error .panic : R P)

/-- The documented panics of `put_pixel`. -/
def PutPanics (D : Type) {P : Type} [GenericImage D P] (img : D) : Prop :=
  ∀ x y (p : P), x < 2 ^ 32 → y < 2 ^ 32 → ¬ (x < widthOf img ∧ y < heightOf img) → putPixel img x y p = (.error .panic : R D)

/-- **C137: what a view reads** at any coordinates, inside its bounds or not: the pixel of the image behind it at the translated coordinates; a panic
exactly when those are outside that image. -/
theorem C137_get [GenericImageView I P] [LawfulView I P] (s : SubImage I) (wf : WF s.image) (hb : GetPanics I s.image) (i j : Nat) :
    getPixel s i j = if s.xoffset + i < widthOf s.image ∧ s.yoffset + j < heightOf s.image
      then getPixel s.image (s.xoffset + i) (s.yoffset + j) else .error .panic := by
  have hw := width_lt wf
  have hh := height_lt wf
  show (do GenericImageView.getPixel s.image (← addC 32 i s.xoffset) (← addC 32 j s.yoffset)) = _
  by_cases h1 : i + s.xoffset < 2 ^ 32
  · rw [addC_ok h1, ok_bind]
    by_cases h2 : j + s.yoffset < 2 ^ 32
    · rw [addC_ok h2, ok_bind, Nat.add_comm i, Nat.add_comm j]
      split
      · rfl
      · rename_i hn
        exact hb _ _ (by omega) (by omega) hn
    · rw [if_neg (by omega)]
      unfold addC
      rw [if_neg h2]
      rfl
  · rw [if_neg (by omega)]
    unfold addC
    rw [if_neg h1]
    rfl

/-- **C137: a view whose rectangle reaches the right and bottom edge of the image panics as documented**; other views do not (`C137_bounds_false`). -/
theorem C137_get_panics [GenericImageView I P] [LawfulView I P] (img : I) (wf : WF img) (hb : GetPanics I img) (x y w h : Nat)
    (hx : x + w = widthOf img) (hy : y + h = heightOf img) :
    ∃ v, view img x y w h = .ok v ∧ GetPanics (SubImage I) v := by
  have e : view img x y w h = .ok ⟨img, x, y, w, h⟩ := by
    unfold view; rw [decide_eq_true (by omega), decide_eq_true (by omega)]; rfl
  refine ⟨_, e, fun i j _ _ hn => ?_⟩
  rw [C137_get _ wf hb, if_neg]
  intro hc
  apply hn
  have h1 : x + i < widthOf img := hc.1
  have h2 : y + j < heightOf img := hc.2
  exact ⟨show i < w by omega, show j < h by omega⟩

/-- **C137: image buffers panic as documented.** -/
theorem C137_buffer {α : Type} {ch : Nat} (b : ImageBuffer α ch) : GetPanics (ImageBuffer α ch) b ∧ PutPanics (ImageBuffer α ch) b :=
  ⟨fun _ _ _ _ h => ImageBuffer.getPixel_oob h, fun _ _ p _ _ h => ImageBuffer.putPixel_oob p h⟩

/-- The 2×1 image of the counterexamples. -/
def boundsDemo : ImageBuffer Nat 1 := ⟨2, 1, [10, 20]⟩

/-- **C137 is false of views**: the view of the left pixel of a 2×1 image reads and overwrites the right one when asked for its pixel (1, 0), although its
width is 1. -/
theorem C137_bounds_false :
    ∃ v, view boundsDemo 0 0 1 1 = .ok v ∧ dims v = (1, 1) ∧ ¬ GetPanics (SubImage (ImageBuffer Nat 1)) v ∧ ¬ PutPanics (SubImage (ImageBuffer Nat 1)) v
      ∧ getPixel v 1 0 = .ok (fun _ => 20)
      ∧ ∃ v', putPixel v 1 0 (fun _ => 99) = .ok v' ∧ v'.image = ⟨2, 1, [10, 99]⟩ := by
  have g : getPixel (⟨boundsDemo, 0, 0, 1, 1⟩ : SubImage (ImageBuffer Nat 1)) 1 0 = .ok (fun _ => 20) := by
    show Except.ok _ = _
    congr 1
    funext k
    match k with
    | 0 => rfl
  have p : putPixel (⟨boundsDemo, 0, 0, 1, 1⟩ : SubImage (ImageBuffer Nat 1)) 1 0 (fun _ => 99) = .ok ⟨⟨2, 1, [10, 99]⟩, 0, 0, 1, 1⟩ := rfl
  refine ⟨⟨boundsDemo, 0, 0, 1, 1⟩, rfl, rfl, fun h => ?_, fun h => ?_, g, _, p, rfl⟩
  · have := h 1 0 (by decide) (by decide) (by decide)
    rw [g] at this
    cases this
  · have := h 1 0 (fun _ => 99) (by decide) (by decide) (by decide)
    rw [p] at this
    cases this

/-- The pixel that a list of writes leaves at `(i, j)`: that of the last write there. -/
def lastPut (ws : List (Nat × Nat × P)) (i j : Nat) : Option P := (ws.reverse.find? fun w => decide (w.1 = i ∧ w.2.1 = j)).map fun w => w.2.2

/-- Writes one after the other. -/
def putEach [GenericImage D P] (s : D) (ws : List (Nat × Nat × P)) : R D := forList ws (fun w s => putPixel s w.1 w.2.1 w.2.2) s

/-- **C137: writes inside the bounds of a mutable view stay inside**: any sequence of `put_pixel` at coordinates inside the view succeeds, leaves every
pixel of the image outside the rectangle as it was, and inside the rectangle leaves the last value written, or the old one where nothing was written. -/
theorem C137_confined [GenericImage D P] [LawfulImage D P] (s : SubImage D) (wf : WF s) (ws : List (Nat × Nat × P))
    (hws : ∀ w ∈ ws, w.1 < s.xstride ∧ w.2.1 < s.ystride) :
    ∃ s', putEach s ws = .ok s' ∧ WF s' ∧ dims s'.image = dims s.image ∧ dims s' = dims s
      ∧ (∀ a b, a < widthOf s.image → b < heightOf s.image →
          ¬ (s.xoffset ≤ a ∧ a < s.xoffset + s.xstride ∧ s.yoffset ≤ b ∧ b < s.yoffset + s.ystride) → getPixel s'.image a b = getPixel s.image a b)
      ∧ ∀ i j, i < s.xstride → j < s.ystride →
          getPixel s' i j = match lastPut ws i j with
            | some p => .ok p
            | none => getPixel s i j := by
  obtain ⟨s', e, hi⟩ := forList_inv (xs := ws) (s := s) (f := fun w s => putPixel s w.1 w.2.1 w.2.2)
    (fun pre _ t => WF t ∧ t.xoffset = s.xoffset ∧ t.yoffset = s.yoffset ∧ t.xstride = s.xstride ∧ t.ystride = s.ystride ∧ dims t.image = dims s.image
      ∧ (∀ a b, a < widthOf s.image → b < heightOf s.image →
          ¬ (s.xoffset ≤ a ∧ a < s.xoffset + s.xstride ∧ s.yoffset ≤ b ∧ b < s.yoffset + s.ystride) → getPixel t.image a b = getPixel s.image a b)
      ∧ ∀ i j, i < s.xstride → j < s.ystride →
          getPixel t i j = match lastPut pre i j with
            | some p => .ok p
            | none => getPixel s i j)
    ⟨wf, rfl, rfl, rfl, rfl, rfl, fun _ _ _ _ _ => rfl, fun _ _ _ _ => rfl⟩ (by
      rintro pre ⟨x, y, p⟩ post hx t ⟨h1, h2, h3, h4, h5, h6, h7, h8⟩
      have hxy : x < s.xstride ∧ y < s.ystride := hws (x, y, p) (by rw [← hx]; simp)
      obtain ⟨t', g1, g2, g3, g4, g5, g6, g7, g8, g9⟩ := SubImage.put_spec h1 (x := x) (y := y) (by omega) (by omega) p
      have ew : widthOf t.image = widthOf s.image := congrArg Prod.fst h6
      have eh : heightOf t.image = heightOf s.image := congrArg Prod.snd h6
      have hin : s.xoffset + s.xstride ≤ widthOf s.image ∧ s.yoffset + s.ystride ≤ heightOf s.image := wf.2
      refine ⟨t', g1, g2, by omega, by omega, by omega, by omega, g7.trans h6, ?_, ?_⟩
      · intro a b ha hb hn
        rw [g9 a b (by omega) (by omega) (by omega), h7 a b ha hb hn]
      · intro i j hi hj
        rw [SubImage.getPixel_eq g2 (by omega) (by omega), g3, g4]
        unfold lastPut
        rw [List.reverse_append, List.reverse_singleton, List.singleton_append, List.find?_cons]
        by_cases hij : x = i ∧ y = j
        · rw [decide_eq_true (p := (x, y, p).1 = i ∧ (x, y, p).2.1 = j) hij]
          obtain ⟨rfl, rfl⟩ := hij
          exact g8
        · rw [decide_eq_false (p := (x, y, p).1 = i ∧ (x, y, p).2.1 = j) hij]
          rw [g9 _ _ (by omega) (by omega) (by omega)]
          rw [← SubImage.getPixel_eq h1 (by omega) (by omega)]
          exact h8 i j hi hj)
  obtain ⟨h1, h2, h3, h4, h5, h6, h7, h8⟩ := hi
  refine ⟨s', e, h1, h6, ?_, h7, h8⟩
  show (s'.xstride, s'.ystride) = (s.xstride, s.ystride)
  rw [h4, h5]

theorem forRange_dich {σ : Type} {n : Nat} {f : Nat → σ → R σ} (Inv : σ → Prop) {s : σ} (h0 : Inv s)
    (hs : ∀ i, i < n → ∀ s, Inv s → (∃ s', f i s = .ok s' ∧ Inv s') ∨ f i s = .error .panic) :
    (∃ s', forRange n f s = .ok s' ∧ Inv s') ∨ forRange n f s = .error .panic := by
  induction n with
  | zero => exact .inl ⟨s, rfl, h0⟩
  | succ n ih =>
    rw [forRange_succ]
    rcases ih (fun i hi => hs i (by omega)) with ⟨s', e, hi⟩ | e
    · rw [e, ok_bind]
      exact hs n (by omega) s' hi
    · rw [e]; exact .inr rfl

theorem forRange_panic {σ : Type} {n : Nat} {f : Nat → σ → R σ} (Inv : σ → Prop) {s : σ} (h0 : Inv s)
    (hs : ∀ i, i < n → ∀ s, Inv s → (∃ s', f i s = .ok s' ∧ Inv s') ∨ f i s = .error .panic)
    (hp : ∃ i, i < n ∧ ∀ s, Inv s → f i s = .error .panic) : forRange n f s = .error .panic := by
  induction n with
  | zero => obtain ⟨i, hi, -⟩ := hp; omega
  | succ n ih =>
    rw [forRange_succ]
    obtain ⟨i, hi, hp⟩ := hp
    by_cases hin : i = n
    · rcases forRange_dich (n := n) Inv h0 (fun i hi => hs i (by omega)) with ⟨s', e, hi'⟩ | e
      · rw [e, ok_bind, ← hin]
        exact hp s' hi'
      · rw [e]; rfl
    · rw [ih (fun i hi => hs i (by omega)) ⟨i, by omega, hp⟩]
      rfl

/-- **C137: `change_bounds` checks nothing**; `to_image` afterwards panics when the rectangle is not empty and does not fit the image. -/
theorem C137_change_bounds {α : Type} {ch : Nat} [GenericImageView I (Pix α ch)] [LawfulView I (Pix α ch)] (z : α) (s : SubImage I) (wf : WF s.image)
    (hb : GetPanics I s.image) (x y w h : Nat) (hc : ch < 256) (hw : w < 2 ^ 32) (hh : h < 2 ^ 32) (hs : w * h * ch < 2 ^ 64) :
    if w = 0 ∨ h = 0 ∨ (x + w ≤ widthOf s.image ∧ y + h ≤ heightOf s.image) then
      ∃ out, (s.changeBounds x y w h).toImage z = .ok out ∧ out.width = w ∧ out.height = h
        ∧ ∀ i j, i < w → j < h → out.getPixel i j = getPixel s.image (x + i) (y + j)
    else (s.changeBounds x y w h).toImage z = .error .panic := by
  have hW := width_lt wf
  have hH := height_lt wf
  split
  · rename_i hcase
    by_cases h0 : w = 0 ∨ h = 0
    · refine ⟨⟨w, h, List.replicate (w * h * ch) z⟩, ?_, rfl, rfl, fun i j hi hj => by omega⟩
      unfold SubImage.toImage SubImage.changeBounds
      rw [ImageBuffer.new_ok hc hw hs]
      simp only [ok_bind]
      rcases h0 with rfl | rfl
      · have : ∀ n (o : ImageBuffer α ch), forRange n (fun _ o => (.ok o : R (ImageBuffer α ch))) o = .ok o := by
          intro n o
          induction n with
          | zero => rfl
          | succ n ih => rw [forRange_succ, ih]; rfl
        exact this h _
      · rfl
    · have hin : x + w ≤ widthOf s.image ∧ y + h ≤ heightOf s.image := by
        rcases hcase with h1 | h1 | h1
        · exact absurd (.inl h1) h0
        · exact absurd (.inr h1) h0
        · exact h1
      obtain ⟨out, e, -, e1, e2, e3⟩ := C09_to_image z (s.changeBounds x y w h) ⟨wf, hin.1, hin.2⟩ hc hs
      exact ⟨out, e, e1, e2, e3⟩
  · rename_i hcase
    unfold SubImage.toImage
    have enew : ImageBuffer.new ch z (s.changeBounds x y w h).xstride (s.changeBounds x y w h).ystride
        = .ok ⟨w, h, List.replicate (w * h * ch) z⟩ := ImageBuffer.new_ok hc hw hs
    rw [enew, ok_bind]
    have body : ∀ (t : SubImage I) i j (o : ImageBuffer α ch), (addC 32 i t.xoffset >>= fun a => addC 32 j t.yoffset >>= fun b =>
          getPixel t.image a b >>= fun p => o.putPixel i j p) = (getPixel t i j >>= fun p => o.putPixel i j p) := by
      intro t i j o
      show _ = ((addC 32 i t.xoffset >>= fun a => addC 32 j t.yoffset >>= fun b => getPixel t.image a b) >>= fun p => o.putPixel i j p)
      cases addC 32 i t.xoffset with
      | error e => rfl
      | ok a =>
        cases addC 32 j t.yoffset with
        | error e => rfl
        | ok b => rfl
    simp only [body]
    have hget : ∀ i j, getPixel (s.changeBounds x y w h) i j = if x + i < widthOf s.image ∧ y + j < heightOf s.image
        then getPixel s.image (x + i) (y + j) else .error .panic := fun i j => C137_get (s.changeBounds x y w h) wf hb i j
    let Inv : ImageBuffer α ch → Prop := fun o => WF o ∧ dims o = (w, h)
    have step : ∀ i, i < w → ∀ j, j < h → ∀ o, Inv o →
        (∃ o', (getPixel (s.changeBounds x y w h) i j >>= fun p => o.putPixel i j p) = .ok o' ∧ Inv o')
          ∨ (getPixel (s.changeBounds x y w h) i j >>= fun p => o.putPixel i j p) = .error .panic := by
      intro i hi j hj o ho
      rw [hget]
      split
      · rename_i hin
        obtain ⟨p, hp⟩ := get_ok wf hin.1 hin.2
        rw [hp, ok_bind]
        obtain ⟨o', p1, p2, p3, -⟩ := put_ok (i := o) (x := i) (y := j) p ho.1 (by rw [show widthOf o = w from congrArg Prod.fst ho.2]; exact hi)
          (by rw [show heightOf o = h from congrArg Prod.snd ho.2]; exact hj)
        exact .inl ⟨o', p1, p2, p3.trans ho.2⟩
      · exact .inr rfl
    have h0 : Inv ⟨w, h, List.replicate (w * h * ch) z⟩ := by
      refine ⟨ImageBuffer.new_inv hw hh hs, rfl⟩
    refine forRange_panic Inv h0 (fun j hj o ho => forRange_dich Inv ho (fun i hi o ho => step i hi j hj o ho)) ?_
    by_cases hx : x + w ≤ widthOf s.image
    · refine ⟨h - 1, show h - 1 < h by omega, fun o ho => forRange_panic Inv ho (fun i hi o ho => step i hi (h - 1) (by omega) o ho) ⟨0, show 0 < w by omega, fun o _ => ?_⟩⟩
      rw [hget, if_neg (by omega)]
      rfl
    · refine ⟨0, show 0 < h by omega, fun o ho => forRange_panic Inv ho (fun i hi o ho => step i hi 0 (by omega) o ho) ⟨w - 1, show w - 1 < w by omega, fun o _ => ?_⟩⟩
      rw [hget, if_neg (by omega)]
      rfl

/-- Two writes to the right column of a 2×2 image through a view of that column; the last one stays. -/
example : ∃ s', putEach (⟨⟨2, 2, [1, 2, 3, 4]⟩, 1, 0, 1, 2⟩ : SubImage (ImageBuffer Nat 1)) [(0, 1, fun _ => 7), (0, 1, fun _ => 8)] = .ok s'
    ∧ s'.image = ⟨2, 2, [1, 2, 3, 8]⟩ := ⟨⟨⟨2, 2, [1, 2, 3, 8]⟩, 1, 0, 1, 2⟩, rfl, rfl⟩

example : lastPut [(0, 1, 7), (0, 1, 8), (0, 0, 9)] 0 1 = some 8 := rfl

example : ((⟨boundsDemo, 0, 0, 1, 1⟩ : SubImage (ImageBuffer Nat 1)).changeBounds 1 0 2 1).toImage 0 = .error .panic := rfl
example : ((⟨boundsDemo, 0, 0, 1, 1⟩ : SubImage (ImageBuffer Nat 1)).changeBounds 1 0 1 1).toImage 0 = .ok (⟨1, 1, [20]⟩ : ImageBuffer Nat 1) := rfl

end Verif
