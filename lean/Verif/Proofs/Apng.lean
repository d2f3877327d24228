import Verif.Model.Apng
import Verif.Spec.Apng
import Verif.Props.Generic
import Verif.Props.Blend
import Verif.Props.Dynamic

/-!
# APNG: the operations on the two canvases
-/

namespace Verif
namespace Apng
open GenericImageView GenericImage LawfulView LawfulImage ApngSpec
open ImageBuffer hiding getPixel putPixel

/-- A pixel of bytes. -/
def InRange (p : Pix Nat 4) : Prop := ∀ c, p c ≤ Prim.u8.max

/-- `b` is the part of the canvas `c` of the size `w`×`h`. -/
structure Shows (b : ImageBuffer Nat 4) (w h : Nat) (c : Canvas (Pix Nat 4)) : Prop where
  inv : b.Inv
  width : b.width = w
  height : b.height = h
  pixels : ∀ x y, x < w → y < h → b.getPixel x y = .ok (c x y)
  range : ∀ x y, x < w → y < h → InRange (c x y)

/-- Inside a rectangle. -/
def Within (px py w h x y : Nat) : Prop := px ≤ x ∧ x < px + w ∧ py ≤ y ∧ y < py + h

instance (px py w h x y : Nat) : Decidable (Within px py w h x y) := by unfold Within; infer_instance

/-- Puts of one pixel at many positions through a sub-image. -/
theorem clear_loop : ∀ (items : List (Nat × Nat × Pix Nat 4)) (s : SubImage (ImageBuffer Nat 4)), WF s →
    (∀ it ∈ items, it.1 < s.xstride ∧ it.2.1 < s.ystride) →
    ∃ s', forList items (fun (x, y, _) (region : SubImage (ImageBuffer Nat 4)) => putPixel region x y clear) s = .ok s' ∧ WF s' ∧
      dims s'.image = dims s.image ∧
      (∀ it ∈ items, getPixel s'.image (s.xoffset + it.1) (s.yoffset + it.2.1) = .ok clear) ∧
      ∀ a b, a < widthOf s.image → b < heightOf s.image → (∀ it ∈ items, ¬ (a = s.xoffset + it.1 ∧ b = s.yoffset + it.2.1)) →
        getPixel s'.image a b = getPixel s.image a b := by
  intro items
  induction items with
  | nil => intro s wf _; exact ⟨s, rfl, wf, rfl, fun it h => (by cases h), fun _ _ _ _ _ => rfl⟩
  | cons it items ih =>
    intro s wf hin
    obtain ⟨hx, hy⟩ := hin it List.mem_cons_self
    obtain ⟨s1, e1, w1, o1, o2, o3, o4, d1, g1, g2⟩ := SubImage.put_spec wf hx hy clear
    obtain ⟨s2, e2, w2, d2, k1, k2⟩ := ih s1 w1 (by rw [o3, o4]; exact fun it' h' => hin it' (List.mem_cons_of_mem _ h'))
    rw [o1, o2] at k1
    rw [o1, o2, widthOf_eq d1, heightOf_eq d1] at k2
    refine ⟨s2, ?_, w2, d2.trans d1, ?_, ?_⟩
    · show (do let s ← putPixel s it.1 it.2.1 clear; forList items _ s) = _
      rw [e1]
      exact e2
    · intro it' h'
      rcases List.mem_cons.1 h' with rfl | h'
      · by_cases hc : ∃ it'' ∈ items, it'.1 = it''.1 ∧ it'.2.1 = it''.2.1
        · obtain ⟨it'', m, c1, c2⟩ := hc
          rw [c1, c2]
          exact k1 it'' m
        · have := wf.2
          rw [k2 _ _ (by omega) (by omega) (fun it'' m h => hc ⟨it'', m, by omega, by omega⟩)]
          exact g1
      · exact k1 it' h'
    · intro a b ha hb hne
      rw [k2 a b ha hb (fun it' h' => hne it' (List.mem_cons_of_mem _ h'))]
      exact g2 a b ha hb (hne it List.mem_cons_self)

theorem clearRegion_spec {b : ImageBuffer Nat 4} {w h : Nat} {c : Canvas (Pix Nat 4)} (hb : Shows b w h c) {px py rw rh : Nat}
    (hx : px + rw ≤ w) (hy : py + rh ≤ h) (h0 : 0 < rw) :
    ∃ b', clearRegion b px py rw rh = .ok b' ∧ Shows b' w h fun x y => if Within px py rw rh x y then clear else c x y := by
  have hw := hb.width
  have hh := hb.height
  let s : SubImage (ImageBuffer Nat 4) := ⟨b, px, py, rw, rh⟩
  have hv : view b px py rw rh = .ok s := by
    have h1 : px + rw ≤ b.width := by omega
    have h2 : py + rh ≤ b.height := by omega
    unfold view
    rw [show widthOf b = b.width from rfl, show heightOf b = b.height from rfl, decide_eq_true h1, decide_eq_true h2]
    rfl
  have wf : WF s := ⟨hb.inv, by show px + rw ≤ b.width; omega, by show py + rh ≤ b.height; omega⟩
  obtain ⟨items, e1, hl, hi⟩ := C05_pixels_partial s wf (.inl h0) (rw * rh + 1) (Nat.lt_succ_self _)
  have hi' : ∀ x y, x < rw → y < rh → ∃ p, items[y * rw + x]? = some (x, y, p) := fun x y h1 h2 =>
    let ⟨p, h3, _⟩ := hi x y h1 h2
    ⟨p, h3⟩
  have hl' : items.length = rw * rh := hl
  have hin : ∀ it ∈ items, it.1 < rw ∧ it.2.1 < rh := by
    intro it hit
    obtain ⟨k, hk, he⟩ := List.mem_iff_getElem.1 hit
    rw [hl'] at hk
    have h1 := Nat.mod_lt k h0
    have h2 : k / rw < rh := (Nat.div_lt_iff_lt_mul h0).2 (by rw [Nat.mul_comm]; exact hk)
    obtain ⟨p, hp⟩ := hi' _ _ h1 h2
    rw [show k / rw * rw + k % rw = k by rw [Nat.mul_comm]; exact Nat.div_add_mod .., List.getElem?_eq_getElem (by omega), he] at hp
    cases hp
    exact ⟨h1, h2⟩
  obtain ⟨s', e2, w2, d2, k1, k2⟩ := clear_loop items s wf hin
  refine ⟨s'.image, ?_, w2.1, ?_, ?_, ?_, ?_⟩
  · unfold clearRegion
    rw [hv, ok_bind, e1, ok_bind, e2]
    rfl
  · have := congrArg Prod.fst d2
    exact this.trans hw
  · have := congrArg Prod.snd d2
    exact this.trans hh
  · intro x y h1 h2
    by_cases hc : Within px py rw rh x y
    · obtain ⟨c1, c2, c3, c4⟩ := id hc
      obtain ⟨p, hp⟩ := hi' (x - px) (y - py) (by omega) (by omega)
      have := k1 _ (List.mem_of_getElem? hp)
      dsimp only [s] at this
      rw [show px + (x - px) = x by omega, show py + (y - py) = y by omega] at this
      rw [if_pos hc]
      exact this
    · rw [if_neg hc, ← hb.pixels x y h1 h2]
      refine k2 x y (by show x < b.width; omega) (by show y < b.height; omega) ?_
      rintro it hit ⟨g1, g2⟩
      have := hin it hit
      dsimp only [s] at g1 g2
      exact hc ⟨by omega, by omega, by omega, by omega⟩
  · intro x y h1 h2
    split
    · intro i; exact Nat.le_trans (by unfold clear px4; split <;> exact Nat.le_refl 0) (Nat.zero_le _)
    · exact hb.range x y h1 h2

theorem clear_range : InRange clear := by
  intro i
  exact Nat.le_trans (by unfold clear px4; split <;> exact Nat.le_refl 0) (Nat.zero_le _)

theorem clearAll_spec {b : ImageBuffer Nat 4} {w h : Nat} {c : Canvas (Pix Nat 4)} (hb : Shows b w h c) :
    ∃ b', clearAll b = .ok b' ∧ Shows b' w h fun _ _ => clear := by
  obtain ⟨ps, e, hl, hp⟩ := pixels_ok hb.inv (by decide) (by decide)
  obtain ⟨i1, i2, i3, -, i5⟩ := setPixels_spec hb.inv (ps := ps.map fun _ => clear) (by rw [List.length_map]; exact hl)
  refine ⟨_, by unfold clearAll; rw [e]; rfl, i1, i2.trans hb.width, i3.trans hb.height, ?_, fun _ _ _ _ => clear_range⟩
  intro x y hx hy
  obtain ⟨p, hp1, -⟩ := hp x y (by rw [hb.width]; exact hx) (by rw [hb.height]; exact hy)
  exact i5 x y clear (by rw [hb.width]; exact hx) (by rw [hb.height]; exact hy) (by rw [List.getElem?_map, hp1]; rfl)

/-- `copy_from` of an image that fits. -/
theorem copyFrom_spec {b src : ImageBuffer Nat 4} {w h sw sh : Nat} {c cs : Canvas (Pix Nat 4)} (hb : Shows b w h c) (hs : Shows src sw sh cs)
    {px py : Nat} (hx : px + sw ≤ w) (hy : py + sh ≤ h) :
    ∃ b', copyFrom b src px py = .ok b' ∧ Shows b' w h fun x y => if Within px py sw sh x y then cs (x - px) (y - py) else c x y := by
  have hw := hb.width
  have hh := hb.height
  have hw' := hs.width
  have hh' := hs.height
  have := hb.inv.w32
  have := hb.inv.h32
  obtain ⟨d', g1, g2, g3, g4, g5⟩ := copy_loop (w := widthOf src) (h := heightOf src) (d0 := b)
    (body := fun i k dst => do
      let p ← getPixel src i k
      putPixel dst (← addC 32 i px) (← addC 32 k py) p)
    (fun i k => getPixel src i k) (fun i k => (px + i, py + k)) hb.inv
    (fun i k hi hk => get_ok (i := src) hs.inv hi hk)
    (fun i k hi hk => by
      change i < src.width at hi
      change k < src.height at hk
      exact ⟨by show px + i < b.width; omega, by show py + k < b.height; omega⟩)
    (fun i k i' k' _ _ _ _ h => by simp only [Prod.mk.injEq] at h; omega)
    (fun i k hi hk d _ _ p hp => by
      change i < src.width at hi
      change k < src.height at hk
      rw [hp]; simp only [ok_bind]
      rw [addC_ok (by omega), addC_ok (by omega)]; simp only [ok_bind]
      rw [Nat.add_comm i, Nat.add_comm k])
  refine ⟨d', ?_, g2, ?_, ?_, ?_, ?_⟩
  · unfold copyFrom
    rw [show widthOf src = src.width from rfl, show heightOf src = src.height from rfl, show widthOf b = b.width from rfl,
      show heightOf b = b.height from rfl, addC_ok (by omega)]
    simp only [ok_bind]
    rw [if_neg (by omega), addC_ok (by omega)]; simp only [ok_bind]
    rw [if_neg (by omega)]
    exact g1
  · exact (congrArg Prod.fst g3).trans hw
  · exact (congrArg Prod.snd g3).trans hh
  · intro x y h1 h2
    by_cases hc : Within px py sw sh x y
    · obtain ⟨c1, c2, c3, c4⟩ := id hc
      have := g4 (x - px) (y - py) (by show _ < src.width; omega) (by show _ < src.height; omega)
      dsimp only at this
      rw [show px + (x - px) = x by omega, show py + (y - py) = y by omega] at this
      rw [if_pos hc, ← hs.pixels (x - px) (y - py) (by omega) (by omega)]
      exact this
    · rw [if_neg hc, ← hb.pixels x y h1 h2]
      refine g5 x y (by show x < b.width; omega) (by show y < b.height; omega) ?_
      intro i k hi hk he
      change i < src.width at hi
      change k < src.height at hk
      simp only [Prod.mk.injEq] at he
      exact hc ⟨by omega, by omega, by omega, by omega⟩
  · intro x y h1 h2
    split
    · rename_i hc
      obtain ⟨c1, c2, c3, c4⟩ := hc
      exact hs.range _ _ (by omega) (by omega)
    · exact hb.range x y h1 h2

/-- The sub-image as an image. -/
theorem toImage_spec {b : ImageBuffer Nat 4} {w h : Nat} {c : Canvas (Pix Nat 4)} (hb : Shows b w h c) {px py rw rh : Nat}
    (hx : px + rw ≤ w) (hy : py + rh ≤ h) (hs : w * h * 4 < 2 ^ 64) :
    ∃ v src, view b px py rw rh = .ok v ∧ v.toImage 0 = .ok src ∧ Shows src rw rh fun x y => c (px + x) (py + y) := by
  have hw := hb.width
  have hh := hb.height
  have hv := C09_view b hb.inv px py rw rh
  rw [if_pos ⟨by show _ ≤ b.width; omega, by show _ ≤ b.height; omega⟩] at hv
  obtain ⟨v, v1, v2, v3, v4, -⟩ := hv
  have hv' : v = ⟨b, px, py, rw, rh⟩ := by
    have h1 : px + rw ≤ b.width := by omega
    have h2 : py + rh ≤ b.height := by omega
    unfold view at v1
    rw [show widthOf b = b.width from rfl, show heightOf b = b.height from rfl, decide_eq_true h1, decide_eq_true h2] at v1
    cases v1
    rfl
  have hsz : rw * rh ≤ w * h := Nat.mul_le_mul (by omega) (by omega)
  subst hv'
  obtain ⟨out, o1, o2, o3, o4, o5⟩ := C09_to_image (0 : Nat) (⟨b, px, py, rw, rh⟩ : SubImage (ImageBuffer Nat 4)) v2 (by decide) (by
    show rw * rh * 4 < 2 ^ 64
    omega)
  refine ⟨_, out, v1, o1, o2, o3, o4, ?_, ?_⟩
  · intro x y h1 h2
    rw [o5 x y h1 h2]
    exact hb.pixels (px + x) (py + y) (by omega) (by omega)
  · intro x y h1 h2
    exact hb.range (px + x) (py + y) (by omega) (by omega)

/-- The disposal of a frame by copying back the region of the other canvas. -/
theorem restore_spec {p b : ImageBuffer Nat 4} {w h : Nat} {cp c : Canvas (Pix Nat 4)} (hp : Shows p w h cp) (hb : Shows b w h c) {px py rw rh : Nat}
    (hx : px + rw ≤ w) (hy : py + rh ≤ h) (hs : w * h * 4 < 2 ^ 64) :
    ∃ b', disposeFrame .previous (some (px, py, rw, rh)) p b = .ok (p, b') ∧
      Shows b' w h fun x y => if Within px py rw rh x y then cp x y else c x y := by
  obtain ⟨v, src, e1, e2, hsrc⟩ := toImage_spec hp hx hy hs
  obtain ⟨b', e3, hb'⟩ := copyFrom_spec hb hsrc hx hy
  refine ⟨b', ?_, hb'.inv, hb'.width, hb'.height, ?_, ?_⟩
  · unfold disposeFrame
    dsimp only [unwrapR]
    rw [ok_bind]
    dsimp only
    rw [e1, ok_bind, e2, ok_bind, e3]
  · intro x y h1 h2
    rw [hb'.pixels x y h1 h2]
    congr 1
    split
    · rename_i hc
      rw [show px + (x - px) = x by have := hc.1; omega, show py + (y - py) = y by have := hc.2.2.1; omega]
    · rfl
  · intro x y h1 h2
    split
    · exact hp.range x y h1 h2
    · exact hb.range x y h1 h2

/-- Alpha blending of the crate (C49): bottom, top. -/
def over (bottom top : Pix Nat 4) : Pix Nat 4 :=
  match blendPixel .u8 .rgba bottom top with
  | .ok p => p
  | .error _ => bottom

theorem over_spec {bottom top : Pix Nat 4} (hb : InRange bottom) (ht : InRange top) :
    blendPixel .u8 .rgba bottom top = .ok (over bottom top) ∧ InRange (over bottom top) := by
  obtain ⟨out, e, h, -⟩ := C49_rgba .u8 (.inl rfl) bottom top hb ht
  unfold over
  rw [e]
  exact ⟨rfl, h⟩

/-- The pixels of an image with their positions. -/
theorem enumerate_items {b : ImageBuffer Nat 4} (hb : b.Inv) : ∃ items, (do
      let it ← b.enumeratePixels
      drain EnumeratePixels.next (it.pixels.length + 1) it) = .ok items ∧ items.length = b.width * b.height ∧
      ∀ k, k < b.width * b.height → ∃ p, items[k]? = some (k % b.width, k / b.width, p) ∧ k % b.width < b.width ∧ k / b.width < b.height ∧
        k / b.width * b.width + k % b.width = k ∧ b.getPixel (k % b.width) (k / b.width) = .ok p := by
  obtain ⟨ps, e1, hl, hp⟩ := pixels_ok hb (by decide) (by decide)
  have hd : drain EnumeratePixels.next (ps.length + 1) (⟨ps, 0, 0, b.width⟩ : EnumeratePixels Nat 4) =
      .ok ((ps.zipIdx 0).map fun q => (q.2 % b.width, q.2 / b.width, q.1)) := by
    by_cases hw : b.width = 0
    · have hps : ps = [] := List.eq_nil_of_length_eq_zero (by rw [hl, hw, Nat.zero_mul])
      rw [hps, hw]
      rfl
    · have hw0 : 0 < b.width := Nat.pos_of_ne_zero hw
      have := drain_enumerate b.width hw0 hb.w32 ps 0 0 (ps.length + 1) (Nat.zero_le _) (Nat.lt_succ_self _) (by
        rw [Nat.zero_mul, Nat.zero_add, hl, Nat.mul_comm, Nat.mul_div_cancel _ hw0]; exact hb.h32)
      rw [this]
      simp
  refine ⟨(ps.zipIdx 0).map fun q => (q.2 % b.width, q.2 / b.width, q.1), ?_, ?_, ?_⟩
  · unfold enumeratePixels
    rw [e1, ok_bind, ok_bind]
    exact hd
  · rw [List.length_map, List.length_zipIdx, hl]
  · intro k hk
    have hw0 : 0 < b.width := by
      rcases Nat.eq_zero_or_pos b.width with h | h
      · rw [h, Nat.zero_mul] at hk; omega
      · exact h
    have h1 := Nat.mod_lt k hw0
    have h2 : k / b.width < b.height := (Nat.div_lt_iff_lt_mul hw0).2 (by rw [Nat.mul_comm]; exact hk)
    have h3 : k / b.width * b.width + k % b.width = k := by rw [Nat.mul_comm]; exact Nat.div_add_mod ..
    obtain ⟨p, e2, e3⟩ := hp _ _ h1 h2
    rw [h3] at e2
    refine ⟨p, ?_, h1, h2, h3, e3⟩
    rw [List.getElem?_map, List.getElem?_zipIdx, e2]
    simp

/-- A loop over a list, with an invariant that knows the position. -/
theorem forList_index {σ β : Type} {l : List β} {f : β → σ → R σ} (I : Nat → σ → Prop) {s : σ} (h0 : I 0 s)
    (step : ∀ k a, l[k]? = some a → ∀ s, I k s → ∃ s', f a s = .ok s' ∧ I (k + 1) s') : ∃ s', forList l f s = .ok s' ∧ I l.length s' := by
  induction l generalizing I s with
  | nil => exact ⟨s, rfl, h0⟩
  | cons a l ih =>
    obtain ⟨s1, e1, h1⟩ := step 0 a rfl s h0
    obtain ⟨s2, e2, h2⟩ := ih (fun k => I (k + 1)) h1 (fun k b hb s hs => step (k + 1) b hb s hs)
    refine ⟨s2, ?_, h2⟩
    show (do let s ← f a s; forList l f s) = _
    rw [e1]
    exact e2

/-- Blending a frame over the canvas. -/
theorem overlay_spec {b src : ImageBuffer Nat 4} {w h sw sh : Nat} {c cs : Canvas (Pix Nat 4)} (hb : Shows b w h c) (hs : Shows src sw sh cs)
    {px py : Nat} (hx : px + sw ≤ w) (hy : py + sh ≤ h) :
    ∃ b', blendFrame .over b src px py = .ok b' ∧
      Shows b' w h fun x y => if Within px py sw sh x y then over (c x y) (cs (x - px) (y - py)) else c x y := by
  have hw := hb.width
  have hh := hb.height
  have hw' := hs.width
  have hh' := hs.height
  have w32 := hb.inv.w32
  have h32 := hb.inv.h32
  obtain ⟨items, e, hl, hit⟩ := enumerate_items hs.inv
  rw [hw', hh'] at hl
  rw [hw', hh'] at hit
  let upto : Nat → Canvas (Pix Nat 4) := fun k x y =>
    if Within px py sw sh x y ∧ (y - py) * sw + (x - px) < k then over (c x y) (cs (x - px) (y - py)) else c x y
  obtain ⟨b', e2, hb'⟩ := forList_index (l := items) (f := fun (x, y, p) (current : ImageBuffer Nat 4) => do
      let x' ← addC 32 x px
      let y' ← addC 32 y py
      let bottom ← current.getPixel x' y'
      let out ← blendPixel .u8 .rgba bottom p
      current.putPixel x' y' out) (fun k b => Shows b w h (upto k)) (s := b) (by
      refine ⟨hb.inv, hb.width, hb.height, ?_, ?_⟩
      · intro x y h1 h2
        rw [hb.pixels x y h1 h2]
        dsimp only [upto]
        rw [if_neg (fun h => absurd h.2 (Nat.not_lt_zero _))]
      · intro x y h1 h2
        dsimp only [upto]
        rw [if_neg (fun h => absurd h.2 (Nat.not_lt_zero _))]
        exact hb.range x y h1 h2) (by
      intro k a ha d hd
      have hk : k < sw * sh := by
        rw [← hl]
        false_or_by_contra
        rename_i hn
        rw [List.getElem?_eq_none (by omega)] at ha
        cases ha
      obtain ⟨p, q1, q2, q3, q4, q5⟩ := hit k hk
      rw [ha] at q1
      cases q1
      have hp : p = cs (k % sw) (k / sw) := by
        rw [hs.pixels _ _ q2 q3] at q5
        cases q5
        rfl
      subst hp
      have hX : k % sw + px < w := by omega
      have hY : k / sw + py < h := by omega
      have hold : upto k (k % sw + px) (k / sw + py) = c (k % sw + px) (k / sw + py) := by
        dsimp only [upto]
        rw [if_neg]
        rintro ⟨-, h⟩
        rw [Nat.add_sub_cancel, Nat.add_sub_cancel, q4] at h
        exact Nat.lt_irrefl _ h
      obtain ⟨o1, o2⟩ := over_spec (hb.range _ _ hX hY) (hs.range _ _ q2 q3)
      obtain ⟨d', f1, f2, f3, f4, -, f5, f6⟩ := put_spec hd.inv (x := k % sw + px) (y := k / sw + py) (by rw [hd.width]; exact hX) (by rw [hd.height]; exact hY)
        (over (c (k % sw + px) (k / sw + py)) (cs (k % sw) (k / sw)))
      refine ⟨d', ?_, ?_⟩
      · dsimp only
        rw [addC_ok (by omega), ok_bind, addC_ok (by omega), ok_bind, hd.pixels _ _ hX hY, ok_bind, hold, o1, ok_bind, f1]
      · have hnew : upto (k + 1) (k % sw + px) (k / sw + py) = over (c (k % sw + px) (k / sw + py)) (cs (k % sw) (k / sw)) := by
          dsimp only [upto]
          rw [if_pos, Nat.add_sub_cancel, Nat.add_sub_cancel]
          refine ⟨⟨Nat.le_add_left .., by omega, Nat.le_add_left .., by omega⟩, ?_⟩
          rw [Nat.add_sub_cancel, Nat.add_sub_cancel, q4]
          exact Nat.lt_succ_self _
        have hsame : ∀ x y, ¬ (x = k % sw + px ∧ y = k / sw + py) → upto (k + 1) x y = upto k x y := by
          intro x y hne
          dsimp only [upto]
          by_cases hc : Within px py sw sh x y
          · obtain ⟨c1, c2, c3, c4⟩ := id hc
            have : (y - py) * sw + (x - px) ≠ k := by
              intro he
              rw [← q4] at he
              have := idx_inj (by omega) q2 he
              exact hne ⟨by omega, by omega⟩
            by_cases hlt : (y - py) * sw + (x - px) < k
            · rw [if_pos ⟨hc, by omega⟩, if_pos ⟨hc, hlt⟩]
            · rw [if_neg (fun h => hlt (by have := h.2; omega)), if_neg (fun h => hlt h.2)]
          · rw [if_neg (fun h => hc h.1), if_neg (fun h => hc h.1)]
        refine ⟨f2, f3.trans hd.width, f4.trans hd.height, ?_, ?_⟩
        · intro x y h1 h2
          by_cases hne : x = k % sw + px ∧ y = k / sw + py
          · obtain ⟨rfl, rfl⟩ := hne
            rw [hnew]
            exact f5
          · rw [hsame x y hne, f6 x y (by rw [hd.width]; exact h1) (by rw [hd.height]; exact h2) hne]
            exact hd.pixels x y h1 h2
        · intro x y h1 h2
          by_cases hne : x = k % sw + px ∧ y = k / sw + py
          · obtain ⟨rfl, rfl⟩ := hne
            rw [hnew]
            exact o2
          · rw [hsame x y hne]
            exact hd.range x y h1 h2)
  have hend : ∀ x y, upto items.length x y = if Within px py sw sh x y then over (c x y) (cs (x - px) (y - py)) else c x y := by
    intro x y
    dsimp only [upto]
    by_cases hc : Within px py sw sh x y
    · obtain ⟨c1, c2, c3, c4⟩ := id hc
      have := idx_lt (w := sw) (h := sh) (x := x - px) (y := y - py) (by omega) (by omega)
      rw [if_pos ⟨hc, by omega⟩, if_pos hc]
    · rw [if_neg (fun h => hc h.1), if_neg hc]
  refine ⟨b', ?_, hb'.inv, hb'.width, hb'.height, ?_, ?_⟩
  · unfold blendFrame
    dsimp only
    rw [← e2]
    cases he : src.enumeratePixels with
    | error f => rw [he] at e; cases e
    | ok it =>
      rw [he, ok_bind] at e
      rw [ok_bind, e, ok_bind]
  · intro x y h1 h2
    rw [hb'.pixels x y h1 h2, hend]
  · intro x y h1 h2
    rw [← hend]
    exact hb'.range x y h1 h2

/-! ## The raw frame -/

/-- The pixel of a raw frame at a position, as red, green, blue and alpha. -/
def rgbaAt (colorType : ColorType) (w : Nat) (data : List Nat) : Canvas (Pix Nat 4) := fun x y =>
  let k := y * w + x
  match colorType with
  | .L8 => px4 (data.getD k 0) (data.getD k 0) (data.getD k 0) 255
  | .La8 => px4 (data.getD (k * 2) 0) (data.getD (k * 2) 0) (data.getD (k * 2) 0) (data.getD (k * 2 + 1) 0)
  | .Rgb8 => px4 (data.getD (k * 3) 0) (data.getD (k * 3 + 1) 0) (data.getD (k * 3 + 2) 0) 255
  | _ => px4 (data.getD (k * 4) 0) (data.getD (k * 4 + 1) 0) (data.getD (k * 4 + 2) 0) (data.getD (k * 4 + 3) 0)

/-- The four colour types of an animation. -/
def Animatable (c : ColorType) : Prop := c = .L8 ∨ c = .La8 ∨ c = .Rgb8 ∨ c = .Rgba8

theorem getPixel_raw {ch : Nat} {b : ImageBuffer Nat ch} (hb : b.Inv) {x y : Nat} (hx : x < b.width) (hy : y < b.height) :
    b.getPixel x y = .ok fun c => b.data.getD ((y * b.width + x) * ch + c.val) 0 := by
  rw [getPixel_eq_ok hb hx hy]
  intro c
  have := chunk_end_le (ch := ch) (idx_lt hx hy)
  have := hb.fits
  have := c.isLt
  rw [List.getD_eq_getElem?_getD, List.getElem?_eq_getElem (by omega)]
  rfl

theorem toRgba_spec {colorType : ColorType} (hc : Animatable colorType) {w h : Nat} {data : List Nat} (hw : w < 2 ^ 32) (hh : h < 2 ^ 32)
    (hs : w * h * 4 < 2 ^ 64) (hl : w * h * colorType.bytesPerPixel ≤ data.length) (hl' : data.length < 2 ^ 64) (hr : ∀ v ∈ data, v ≤ 255) :
    ∃ b, toRgba colorType w h data = .ok b ∧ Shows b w h (rgbaAt colorType w data) := by
  have hget : ∀ k, data.getD k 0 ≤ 255 := by
    intro k
    rw [List.getD_eq_getElem?_getD]
    cases hk : data[k]? with
    | none => exact Nat.zero_le _
    | some v => exact hr v (List.mem_of_getElem? hk)
  have hrange : ∀ x y, InRange (rgbaAt colorType w data x y) := by
    intro x y
    unfold rgbaAt InRange
    intro c
    dsimp only
    rcases hc with rfl | rfl | rfl | rfl <;> (dsimp only [px4]; split <;> first | exact hget _ | exact Nat.le_refl _)
  have raw : ∀ ch, ch < 256 → w * h * ch < 2 ^ 64 → w * h * ch ≤ data.length → fromRaw ch w h data = some ⟨w, h, data⟩ := by
    intro ch h1 h2 h3
    unfold fromRaw
    rw [if_pos ((checkImageFits_iff h1 hw).2 ⟨h2, h3⟩)]
  have inv : ∀ ch, w * h * ch ≤ data.length → (⟨w, h, data⟩ : ImageBuffer Nat ch).Inv := fun ch h3 => ⟨hw, hh, hl', h3⟩
  rcases hc with rfl | rfl | rfl | rfl
  · have hl : w * h * 1 ≤ data.length := hl
    obtain ⟨b', e, i1, i2, i3, -, i5⟩ := C20_convert_buffer .u8 .u8 (.inl rfl) .luma .rgba ⟨w, h, data⟩ (inv 1 hl) hr hs
    refine ⟨b', ?_, i1, i2, i3, ?_, fun x y _ _ => hrange x y⟩
    · unfold toRgba
      dsimp only
      rw [raw 1 (by decide) (by omega) hl]
      exact e
    · intro x y hx hy
      obtain ⟨q, q1, q2⟩ := i5 x y _ hx hy (getPixel_raw (inv 1 hl) hx hy)
      rw [q2, ← q1]
      simp [fromColor, fromPrimitive, rgbaAt, Prim.max, Prim.bits]
  · have hl : w * h * 2 ≤ data.length := hl
    obtain ⟨b', e, i1, i2, i3, -, i5⟩ := C20_convert_buffer .u8 .u8 (.inl rfl) .lumaA .rgba ⟨w, h, data⟩ (inv 2 hl) hr hs
    refine ⟨b', ?_, i1, i2, i3, ?_, fun x y _ _ => hrange x y⟩
    · unfold toRgba
      dsimp only
      rw [raw 2 (by decide) (by omega) hl]
      exact e
    · intro x y hx hy
      obtain ⟨q, q1, q2⟩ := i5 x y _ hx hy (getPixel_raw (inv 2 hl) hx hy)
      rw [q2, ← q1]
      simp [fromColor, fromPrimitive, rgbaAt]
  · have hl : w * h * 3 ≤ data.length := hl
    obtain ⟨b', e, i1, i2, i3, -, i5⟩ := C20_convert_buffer .u8 .u8 (.inl rfl) .rgb .rgba ⟨w, h, data⟩ (inv 3 hl) hr hs
    refine ⟨b', ?_, i1, i2, i3, ?_, fun x y _ _ => hrange x y⟩
    · unfold toRgba
      dsimp only
      rw [raw 3 (by decide) (by omega) hl]
      exact e
    · intro x y hx hy
      obtain ⟨q, q1, q2⟩ := i5 x y _ hx hy (getPixel_raw (inv 3 hl) hx hy)
      rw [q2, ← q1]
      simp [fromColor, fromPrimitive, rgbaAt, Prim.max, Prim.bits]
  · have hl : w * h * 4 ≤ data.length := hl
    refine ⟨⟨w, h, data⟩, ?_, inv 4 hl, rfl, rfl, ?_, fun x y _ _ => hrange x y⟩
    · unfold toRgba
      dsimp only
      rw [raw 4 (by decide) (by omega) hl]
      rfl
    · intro x y hx hy
      rw [getPixel_raw (inv 4 hl) hx hy]
      congr 1
      funext c
      match c with
      | 0 => rfl
      | 1 => rfl
      | 2 => rfl
      | 3 => rfl

end Apng
end Verif
