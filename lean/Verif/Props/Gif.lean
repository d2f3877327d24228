import Verif.Proofs.Gif
import Verif.Spec.Gif
import Verif.Props.Limits

/-!
# C76: GIF animations are composited as the format says

The specification is `Verif.Spec.Gif`.
-/

namespace Verif
namespace Gif
open ImageBuffer GifSpec

/-- The pixel with a colour. -/
def toPix (c : Colour) : Pix UInt8 4 := fun i => match i with
  | 0 => c.1
  | 1 => c.2.1
  | 2 => c.2.2.1
  | 3 => c.2.2.2

/-- `b` is the part of the canvas `c` of the size `w`×`h`, in a container of exactly that size. -/
structure Shows (b : ImageBuffer UInt8 4) (w h : Nat) (c : Canvas) : Prop where
  inv : b.Inv
  width : b.width = w
  height : b.height = h
  tight : b.data.length = w * h * 4
  pixels : ∀ x y, x < w → y < h → b.getPixel x y = .ok (toPix (c x y))

/-- The disposal in the specification. -/
def disposalOf : Disposal → GifSpec.Disposal
  | .any => .unspecified
  | .keep => .leave
  | .background => .toBackground
  | .previous => .toPrevious

/-- The frame that the file contains: four bytes per pixel, row by row. -/
def frameOf (i : Info) (data : List UInt8) : GifSpec.Frame :=
  ⟨i.left, i.top, i.width, i.height, disposalOf i.dispose, fun x y =>
    let k := (y * i.width + x) * 4
    (data.getD k 0, data.getD (k + 1) 0, data.getD (k + 2) 0, data.getD (k + 3) 0)⟩

/-- What the crate promises of a frame: `u16` fields and a full buffer. -/
structure Info.Ok (i : Info) (data : List UInt8) : Prop where
  left : i.left < 2 ^ 16
  top : i.top < 2 ^ 16
  width : i.width < 2 ^ 16
  height : i.height < 2 ^ 16
  delay : i.delay < 2 ^ 16
  data : data.length = i.width * i.height * 4

theorem pix_ext {p q : Pix UInt8 4} (h0 : p 0 = q 0) (h1 : p 1 = q 1) (h2 : p 2 = q 2) (h3 : p 3 = q 3) : p = q := by
  funext i
  match i with
  | 0 => exact h0
  | 1 => exact h1
  | 2 => exact h2
  | 3 => exact h3

theorem size_bound {w h : Nat} (hw : w < 2 ^ 16) (hh : h < 2 ^ 16) : w * h * 4 < 2 ^ 34 := by
  have : w * h ≤ (2 ^ 16 - 1) * (2 ^ 16 - 1) := Nat.mul_le_mul (by omega) (by omega)
  omega

theorem frame_buffer {i : Info} {data : List UInt8} (h : i.Ok data) :
    ∃ frame, fromRaw 4 i.width i.height data = some frame ∧ Shows frame i.width i.height (frameOf i data).pixels := by
  have hs := size_bound h.width h.height
  have hw := h.width
  have hh := h.height
  have hfit : checkImageFits 4 i.width i.height data.length = true :=
    (checkImageFits_iff (by decide) (by omega)).2 (by rw [h.data]; omega)
  refine ⟨⟨i.width, i.height, data⟩, by unfold fromRaw; rw [if_pos hfit], ?_⟩
  have hinv : (⟨i.width, i.height, data⟩ : ImageBuffer UInt8 4).Inv := ⟨by dsimp only; omega, by dsimp only; omega, by dsimp only; rw [h.data]; omega, by dsimp only; rw [h.data]; exact Nat.le_refl _⟩
  refine ⟨hinv, rfl, rfl, h.data, ?_⟩
  intro x y hx hy
  rw [getPixel_eq_ok hinv hx hy]
  have hk := chunk_end_le (ch := 4) (idx_lt hx hy)
  have g : ∀ j, j < 4 → data[(y * i.width + x) * 4 + j]? = some (data.getD ((y * i.width + x) * 4 + j) 0) := by
    intro j hj
    rw [List.getD_eq_getElem?_getD, List.getElem?_eq_getElem (by rw [h.data]; omega)]
    rfl
  intro c
  match c with
  | 0 => exact g 0 (by decide)
  | 1 => exact g 1 (by decide)
  | 2 => exact g 2 (by decide)
  | 3 => exact g 3 (by decide)

theorem wrapping_lt {x l w : Nat} (hx : x < 2 ^ 16) (hl : l < 2 ^ 16) (hw : w < 2 ^ 16) :
    wrappingSub32 x l < w ↔ l ≤ x ∧ x < l + w := by
  unfold wrappingSub32
  omega

theorem wrapping_eq {x l : Nat} (hx : x < 2 ^ 16) (hl : l ≤ x) : wrappingSub32 x l = x - l := by
  unfold wrappingSub32
  omega

/-- Blending and disposing, in the terms of the specification. -/
theorem blend_spec {f : GifSpec.Frame} {d : Disposal} (hd : f.disposal = disposalOf d) (c : Canvas) {x y : Nat} (hc : f.covers x y) :
    blendAndDisposePixel d (toPix (c x y)) (toPix (f.pixels (x - f.left) (y - f.top))) = (toPix (after c f x y), toPix (draw c f x y)) := by
  have hcur : (if toPix (f.pixels (x - f.left) (y - f.top)) 3 = 0 then toPix (c x y) else toPix (f.pixels (x - f.left) (y - f.top))) =
      toPix (draw c f x y) := by
    unfold draw
    show (if (f.pixels (x - f.left) (y - f.top)).2.2.2 = 0 then _ else _) = _
    by_cases h : (f.pixels (x - f.left) (y - f.top)).2.2.2 = 0
    · rw [if_pos h, if_neg (fun h' => h'.2 h)]
    · rw [if_neg h, if_pos ⟨hc, h⟩]
  unfold blendAndDisposePixel
  dsimp only
  rw [hcur]
  unfold after
  rw [hd]
  cases d
  · rfl
  · rfl
  · show _ = (toPix (if f.covers x y then transparent else c x y), _)
    rw [if_pos hc]
    refine Prod.ext ?_ rfl
    exact pix_ext rfl rfl rfl rfl
  · rfl

theorem uncovered {f : GifSpec.Frame} (c : Canvas) {x y : Nat} (hc : ¬ f.covers x y) : draw c f x y = c x y ∧ after c f x y = c x y := by
  have h1 : draw c f x y = c x y := by unfold draw; rw [if_neg (fun h => hc h.1)]
  refine ⟨h1, ?_⟩
  unfold after
  cases f.disposal
  · exact h1
  · exact h1
  · exact if_neg hc
  · rfl

/-- The previous frame while the loop is at pixel `k`. -/
def Partly (w h : Nat) (c c' : Canvas) (k : Nat) (b : ImageBuffer UInt8 4) : Prop :=
  Shows b w h fun x y => if y * w + x < k then c' x y else c x y

theorem partly_step {w h : Nat} {c c' : Canvas} {b : ImageBuffer UInt8 4} {x y : Nat} (hx : x < w) (hy : y < h) (hb : Partly w h c c' (y * w + x) b) :
    b.getPixel x y = .ok (toPix (c x y)) ∧
    (∃ b', b.putPixel x y (toPix (c' x y)) = .ok b' ∧ Partly w h c c' (y * w + x + 1) b') ∧
    (c x y = c' x y → Partly w h c c' (y * w + x + 1) b) := by
  have key : ∀ x' y', x' < w → y' < h → ¬ (x' = x ∧ y' = y) → (y' * w + x' < y * w + x ↔ y' * w + x' < y * w + x + 1) := by
    intro x' y' hx' hy' hne
    have : y' * w + x' ≠ y * w + x := fun h => by
      have := idx_inj hx' hx h
      exact hne this
    omega
  refine ⟨?_, ?_, ?_⟩
  · have := hb.pixels x y hx hy
    rw [if_neg (Nat.lt_irrefl _)] at this
    exact this
  · obtain ⟨b', e, h1, h2, h3, h4, h5, h6⟩ := put_spec hb.inv (x := x) (y := y) (by rw [hb.width]; exact hx) (by rw [hb.height]; exact hy) (toPix (c' x y))
    refine ⟨b', e, h1, h2.trans hb.width, h3.trans hb.height, h4.trans hb.tight, ?_⟩
    intro x' y' hx' hy'
    by_cases hne : x' = x ∧ y' = y
    · obtain ⟨rfl, rfl⟩ := hne
      rw [if_pos (Nat.lt_succ_self _)]
      exact h5
    · rw [h6 x' y' (by rw [hb.width]; exact hx') (by rw [hb.height]; exact hy') hne, hb.pixels x' y' hx' hy']
      simp only [key x' y' hx' hy' hne]
  · intro he
    refine ⟨hb.inv, hb.width, hb.height, hb.tight, ?_⟩
    intro x' y' hx' hy'
    rw [hb.pixels x' y' hx' hy']
    by_cases hne : x' = x ∧ y' = y
    · obtain ⟨rfl, rfl⟩ := hne
      rw [if_neg (Nat.lt_irrefl _), if_pos (Nat.lt_succ_self _), he]
    · simp only [key x' y' hx' hy' hne]

theorem partly_start {w h : Nat} {c c' : Canvas} {b : ImageBuffer UInt8 4} (hb : Shows b w h c) : Partly w h c c' 0 b := by
  refine ⟨hb.inv, hb.width, hb.height, hb.tight, ?_⟩
  intro x y hx hy
  rw [if_neg (Nat.not_lt_zero _)]
  exact hb.pixels x y hx hy

theorem partly_end {w h : Nat} {c c' : Canvas} {b : ImageBuffer UInt8 4} (hb : Partly w h c c' (w * h) b) : Shows b w h c' := by
  refine ⟨hb.inv, hb.width, hb.height, hb.tight, ?_⟩
  intro x y hx hy
  have := hb.pixels x y hx hy
  rw [if_pos (idx_lt hx hy)] at this
  exact this

/-- Composition: the image is the picture, and what is kept is the next canvas. -/
theorem compose_spec {w h : Nat} (hw : w < 2 ^ 16) (hh : h < 2 ^ 16) {i : Info} {data : List UInt8} (hi : i.Ok data) {c : Canvas}
    {frame previous : ImageBuffer UInt8 4} (hf : Shows frame i.width i.height (frameOf i data).pixels) (hp : Shows previous w h c) :
    ∃ image previous', compose w h i frame previous = .ok (image, previous') ∧ Shows image w h (draw c (frameOf i data)) ∧
      Shows previous' w h (after c (frameOf i data)) := by
  have hs := size_bound hw hh
  have hil := hi.left
  have hit := hi.top
  have hiw := hi.width
  have hih := hi.height
  unfold compose
  by_cases hfull : (i.left, i.top) = (0, 0) ∧ (w, h) = (frame.width, frame.height)
  · rw [if_pos hfull]
    obtain ⟨h1, h2⟩ := hfull
    simp only [Prod.mk.injEq] at h1 h2
    rw [hf.width, hf.height] at h2
    obtain ⟨b', s', e, g1, g2, g3, g4, g5, g6⟩ := enumerateMut_spec hf.inv (by decide) (by decide)
      (f := fun x y pixel (previous : ImageBuffer UInt8 4) => do
        let old ← previous.getPixel x y
        let (old, pixel) := blendAndDisposePixel i.dispose old pixel
        let previous ← previous.putPixel x y old
        .ok (pixel, previous))
      (Partly w h c (after c (frameOf i data))) (fun x y => toPix (draw c (frameOf i data) x y)) (s := previous) (partly_start hp) (by
        intro x y p hx hy hpix s hI
        rw [hf.width, ← h2.1] at hx hI
        rw [hf.height, ← h2.2] at hy
        rw [hf.width, ← h2.1]
        rw [hf.pixels x y (by omega) (by omega)] at hpix
        cases hpix
        obtain ⟨q1, ⟨b'', q2, q3⟩, -⟩ := partly_step hx hy hI
        refine ⟨b'', ?_, q3⟩
        have hc : (frameOf i data).covers x y := by
          unfold Frame.covers frameOf
          dsimp only
          omega
        have hb := blend_spec (f := frameOf i data) (d := i.dispose) rfl c hc
        have hx0 : x - (frameOf i data).left = x := by show x - i.left = x; omega
        have hy0 : y - (frameOf i data).top = y := by show y - i.top = y; omega
        rw [hx0, hy0] at hb
        dsimp only
        rw [q1, ok_bind, hb]
        dsimp only
        rw [q2, ok_bind])
    rw [hf.width, hf.height, ← h2.1, ← h2.2] at g6
    rw [hf.width, hf.height, ← h2.1, ← h2.2] at g5
    exact ⟨b', s', e, ⟨g1, by rw [g2, hf.width, h2.1], by rw [g3, hf.height, h2.2], by rw [g4, hf.tight, h2.1, h2.2], g5⟩, partly_end g6⟩
  · rw [if_neg hfull, new_ok (by decide) (by omega) (by omega), ok_bind]
    obtain ⟨b', s', e, g1, g2, g3, g4, g5, g6⟩ := enumerateMut_spec (b := (⟨w, h, List.replicate (w * h * 4) 0⟩ : ImageBuffer UInt8 4))
      (new_inv (by omega) (by omega) (by omega)) (by decide) (by decide)
      (f := fun x y _ (previous : ImageBuffer UInt8 4) => do
        let fx := wrappingSub32 x i.left
        let fy := wrappingSub32 y i.top
        let old ← previous.getPixel x y
        if fx < frame.width ∧ fy < frame.height then do
          let pixel ← frame.getPixel fx fy
          let (old, pixel) := blendAndDisposePixel i.dispose old pixel
          let previous ← previous.putPixel x y old
          .ok (pixel, previous)
        else .ok (old, previous))
      (Partly w h c (after c (frameOf i data))) (fun x y => toPix (draw c (frameOf i data) x y)) (s := previous) (partly_start hp) (by
        intro x y p hx hy _ s hI
        dsimp only at hx hy hI ⊢
        obtain ⟨q1, ⟨b'', q2, q3⟩, q4⟩ := partly_step hx hy hI
        rw [q1, ok_bind, hf.width, hf.height]
        by_cases hc : (frameOf i data).covers x y
        · have hc' : i.left ≤ x ∧ x < i.left + i.width ∧ i.top ≤ y ∧ y < i.top + i.height := hc
          refine ⟨b'', ?_, q3⟩
          rw [if_pos ⟨(wrapping_lt (by omega) hil hiw).2 ⟨hc'.1, hc'.2.1⟩, (wrapping_lt (by omega) hit hih).2 ⟨hc'.2.2.1, hc'.2.2.2⟩⟩,
            wrapping_eq (by omega) hc'.1, wrapping_eq (by omega) hc'.2.2.1, hf.pixels _ _ (by omega) (by omega), ok_bind]
          have hb := blend_spec (f := frameOf i data) (d := i.dispose) rfl c hc
          rw [show (x - (frameOf i data).left) = x - i.left from rfl, show (y - (frameOf i data).top) = y - i.top from rfl] at hb
          rw [hb]
          dsimp only
          rw [q2, ok_bind]
        · obtain ⟨u1, u2⟩ := uncovered c hc
          refine ⟨s, ?_, q4 u2.symm⟩
          rw [if_neg, u1]
          rintro ⟨h1, h2⟩
          rw [wrapping_lt (by omega) hil hiw] at h1
          rw [wrapping_lt (by omega) hit hih] at h2
          exact hc ⟨h1.1, h1.2, h2.1, h2.2⟩)
    exact ⟨b', s', e, ⟨g1, g2, g3, by rw [g4]; exact List.length_replicate, g5⟩, partly_end g6⟩

/-! ## Limits -/

/-- The limits allow an RGBA image of this size besides `used` bytes. -/
def Fits (l : Limits) (used w h : Nat) : Prop :=
  (∀ m, l.maxImageWidth = some m → w ≤ m) ∧ (∀ m, l.maxImageHeight = some m → h ≤ m) ∧ ∀ m, l.maxAlloc = some m → used + w * h * 4 ≤ m

/-- The limits after `used` bytes have been reserved. -/
def reserved (l : Limits) (used : Nat) : Limits := { l with maxAlloc := l.maxAlloc.map (· - used) }

theorem reserve_spec (l : Limits) {used w h : Nat} (hs : w * h * 4 < 2 ^ 64) (hu : ∀ m, l.maxAlloc = some m → used ≤ m) :
    (Fits l used w h → (reserved l used).reserveBuffer w h .Rgba8 = .ok (reserved l (used + w * h * 4))) ∧
    (¬ Fits l used w h → ∃ e, (reserved l used).reserveBuffer w h .Rgba8 = .error (.err e)) := by
  have e1 : satMul 64 (satMul 64 w h) ColorType.Rgba8.bytesPerPixel = w * h * 4 := by
    unfold satMul
    show min (min (w * h) (2 ^ 64 - 1) * 4) (2 ^ 64 - 1) = _
    omega
  have dim : ((∀ m, l.maxImageWidth = some m → w ≤ m) ∧ (∀ m, l.maxImageHeight = some m → h ≤ m) → (reserved l used).checkDimensions w h = .ok ()) ∧
      (¬ ((∀ m, l.maxImageWidth = some m → w ≤ m) ∧ (∀ m, l.maxImageHeight = some m → h ≤ m)) →
        ∃ e, (reserved l used).checkDimensions w h = .error (.err e)) := by
    rw [C27_check_dimensions]
    show (_ → (if (∃ m, l.maxImageWidth = some m ∧ m < w) ∨ (∃ m, l.maxImageHeight = some m ∧ m < h) then _ else _) = _) ∧ _
    constructor
    · rintro ⟨h1, h2⟩
      rw [if_neg]
      rintro (⟨m, h3, h4⟩ | ⟨m, h3, h4⟩)
      · have := h1 m h3; omega
      · have := h2 m h3; omega
    · intro hn
      refine ⟨.limitsDimension, if_pos ?_⟩
      false_or_by_contra
      rename_i hc
      refine hn ⟨fun m hm => ?_, fun m hm => ?_⟩
      · false_or_by_contra
        exact hc (.inl ⟨m, hm, by omega⟩)
      · false_or_by_contra
        exact hc (.inr ⟨m, hm, by omega⟩)
  have mem : ((∀ m, l.maxAlloc = some m → used + w * h * 4 ≤ m) → (reserved l used).reserve (w * h * 4) = .ok (reserved l (used + w * h * 4))) ∧
      (¬ (∀ m, l.maxAlloc = some m → used + w * h * 4 ≤ m) → ∃ e, (reserved l used).reserve (w * h * 4) = .error (.err e)) := by
    unfold Limits.reserve reserved
    obtain ⟨mw, mh, ma⟩ := l
    dsimp only at hu ⊢
    cases ma with
    | none => exact ⟨fun _ => rfl, fun h => absurd (fun m h => nomatch h) h⟩
    | some m =>
      have := hu m rfl
      simp only [Option.map_some]
      by_cases hv : m - used < w * h * 4
      · rw [if_pos hv]
        exact ⟨fun h => absurd (h m rfl) (by omega), fun _ => ⟨_, rfl⟩⟩
      · rw [if_neg hv]
        rw [subC_ok (by omega), ok_bind]
        exact ⟨fun _ => by rw [Nat.sub_sub], fun h => absurd (fun m' h' => by cases h'; omega) h⟩
  unfold Limits.reserveBuffer Fits
  rw [e1]
  constructor
  · rintro ⟨h1, h2, h3⟩
    rw [dim.1 ⟨h1, h2⟩, ok_bind, mem.1 h3]
  · intro hn
    by_cases h12 : (∀ m, l.maxImageWidth = some m → w ≤ m) ∧ (∀ m, l.maxImageHeight = some m → h ≤ m)
    · rw [dim.1 h12, ok_bind]
      exact mem.2 fun h3 => hn ⟨h12.1, h12.2, h3⟩
    · obtain ⟨e, he⟩ := dim.2 h12
      rw [he]
      exact ⟨e, rfl⟩

/-! ## The iterator -/

/-- The frame covers the screen. -/
def fullScreen (w h : Nat) (i : Info) : Prop := i.left = 0 ∧ i.top = 0 ∧ i.width = w ∧ i.height = h

instance (w h : Nat) (i : Info) : Decidable (fullScreen w h i) := by unfold fullScreen; infer_instance

/-- The limits allow the frame besides the canvas, and besides both another screen if the frame does not cover it. -/
def Allowed (l : Limits) (w h : Nat) (i : Info) : Prop :=
  Fits l (w * h * 4) i.width i.height ∧ (¬ fullScreen w h i → Fits l (w * h * 4 + i.width * i.height * 4) w h)

open Classical in
/-- The frames of the file that can be read and that the limits allow. -/
noncomputable def played (l : Limits) (w h : Nat) (events : List Event) : List GifSpec.Frame :=
  events.filterMap fun e => match e with
    | .frame i (.ok data) => if Allowed l w h i then some (frameOf i data) else none
    | _ => none

/-- The item that the iterator yields for an event after the frames `done`. -/
def Item (l : Limits) (w h : Nat) (done : List GifSpec.Frame) (o : Option (Except Err Frame)) : Event → Prop
  | .bad e => o = some (.error e)
  | .frame i (.ok data) =>
    (Allowed l w h i → ∃ f, o = some (.ok f) ∧ Shows f.buffer w h (picture done (frameOf i data)) ∧ f.left = 0 ∧ f.top = 0 ∧ f.delay = ⟨10 * i.delay, 1⟩) ∧
    (¬ Allowed l w h i → ∃ e, o = some (.error e))
  | .frame i (.error e) => (Allowed l w h i → o = some (.error e)) ∧ ∃ e, o = some (.error e)

/-- What the crate promises of an event. -/
def Event.Ok : Event → Prop
  | .bad _ => True
  | .frame i (.ok data) => i.Ok data
  | .frame i (.error _) => i.width < 2 ^ 16 ∧ i.height < 2 ^ 16

/-- The iterator after the frames `done`, with the canvas allocated or not. -/
structure At (l : Limits) (w h : Nat) (done : List GifSpec.Frame) (s : Iter) : Prop where
  width : s.width = w
  height : s.height = h
  state : (s.nonDisposed = none ∧ s.limits = l ∧ done = []) ∨
    ∃ b, s.nonDisposed = some b ∧ Shows b w h (canvas done) ∧ s.limits = reserved l (w * h * 4)

/-- The part of `next` after the canvas was allocated. -/
def Iter.rest (s : Iter) (limits : Limits) (previous : ImageBuffer UInt8 4) : R (Option (Except Err Frame) × Iter) :=
  let s := { s with limits := limits, nonDisposed := some previous }
  match s.events with
  | [] => .ok (none, s)
  | .bad e :: rest => .ok (some (.error e), { s with events := rest })
  | .frame i data :: rest =>
    let s := { s with events := rest }
    item (s.limits.reserveBuffer i.width i.height .Rgba8) (fun e => .ok (some (.error e), s)) fun localLimits =>
    match data with
    | .error e => .ok (some (.error e), s)
    | .ok data =>
      match ImageBuffer.fromRaw 4 i.width i.height data with
      | none => .ok (some (.error .unsupported), s)
      | some frame =>
        item (if (i.left, i.top) = (0, 0) ∧ (s.width, s.height) = (frame.width, frame.height) then .ok localLimits
            else localLimits.reserveBuffer s.width s.height .Rgba8) (fun e => .ok (some (.error e), s)) fun _ => do
          let (image, previous) ← compose s.width s.height i frame previous
          let delay ← delayOf i
          .ok (some (.ok ⟨image, 0, 0, delay⟩), { s with nonDisposed := some previous })

theorem next_eq (s : Iter) : s.next = item (match s.nonDisposed with
    | some p => .ok (s.limits, p)
    | none => do
      let l ← s.limits.reserveBuffer s.width s.height .Rgba8
      let p ← ImageBuffer.fromPixel 0 s.width s.height clear
      .ok (l, p)) (fun e => .ok (some (.error e), s)) fun (limits, previous) => s.rest limits previous := rfl

theorem blank_shows {w h : Nat} (hw : w < 2 ^ 16) (hh : h < 2 ^ 16) :
    ∃ b, ImageBuffer.fromPixel (0 : UInt8) w h clear = .ok b ∧ Shows b w h (canvas []) := by
  have hs := size_bound hw hh
  have hinv := new_inv (α := UInt8) (ch := 4) (z := 0) (w := w) (h := h) (by omega) (by omega) (by omega)
  unfold ImageBuffer.fromPixel
  rw [new_ok (by decide) (by omega) (by omega), ok_bind]
  obtain ⟨ps, e, hl, hp⟩ := pixels_ok hinv (by decide) (by decide)
  rw [e, ok_bind]
  obtain ⟨i1, i2, i3, i4, i5⟩ := setPixels_spec hinv (ps := ps.map fun _ => clear) (by rw [List.length_map]; exact hl)
  refine ⟨_, rfl, i1, i2, i3, by rw [i4]; exact List.length_replicate, ?_⟩
  intro x y hx hy
  obtain ⟨p, hp1, -⟩ := hp x y hx hy
  rw [i5 x y clear hx hy (by rw [List.getElem?_map, hp1]; rfl)]
  congr 1
  exact pix_ext rfl rfl rfl rfl

theorem played_cons (l : Limits) (w h : Nat) (e : Event) (es : List Event) :
    played l w h (e :: es) = played l w h [e] ++ played l w h es := by
  unfold played
  rw [show e :: es = [e] ++ es from rfl, List.filterMap_append]

theorem canvas_append (a b : List GifSpec.Frame) : canvas (a ++ b) = b.foldl after (canvas a) := by
  unfold canvas
  rw [List.foldl_append]

/-- One call, when the canvas is allocated. -/
theorem rest_spec {l : Limits} {w h : Nat} (hw : w < 2 ^ 16) (hh : h < 2 ^ 16) (hl : Fits l 0 w h) {done : List GifSpec.Frame} {s : Iter}
    (h1 : s.width = w) (h2 : s.height = h) {b : ImageBuffer UInt8 4} (hb : Shows b w h (canvas done)) (hev : ∀ e ∈ s.events, e.Ok) :
    (s.events = [] → ∃ s', s.rest (reserved l (w * h * 4)) b = .ok (none, s') ∧ At l w h done s' ∧ s'.events = []) ∧
    ∀ e es, s.events = e :: es → ∃ o s', s.rest (reserved l (w * h * 4)) b = .ok (o, s') ∧ At l w h (done ++ played l w h [e]) s' ∧ s'.events = es ∧
      Item l w h done o e := by
  have hall : ∀ m, l.maxAlloc = some m → w * h * 4 ≤ m := fun m hm => by have := hl.2.2 m hm; omega
  constructor
  · intro he
    refine ⟨{ s with limits := reserved l (w * h * 4), nonDisposed := some b }, ?_, ⟨h1, h2, .inr ⟨b, rfl, hb, rfl⟩⟩, he⟩
    unfold Iter.rest
    dsimp only
    rw [he]
  · intro e es he
    have hok : e.Ok := hev e (by rw [he]; exact List.mem_cons_self)
    unfold Iter.rest
    dsimp only
    rw [he]
    have same : ∀ (es : List Event), At l w h done { s with limits := reserved l (w * h * 4), nonDisposed := some b, events := es } :=
      fun es => ⟨h1, h2, .inr ⟨b, rfl, hb, rfl⟩⟩
    cases e with
    | bad e =>
      refine ⟨_, _, rfl, ?_, rfl, rfl⟩
      rw [show played l w h [.bad e] = [] from rfl, List.append_nil]
      exact same es
    | frame i data =>
      have hi : i.width < 2 ^ 16 ∧ i.height < 2 ^ 16 := by
        cases data with
        | ok data => exact ⟨hok.width, hok.height⟩
        | error e => exact hok
      have none_played : (∀ d, data = .ok d → ¬ Allowed l w h i) → played l w h [.frame i data] = [] := by
        intro hn
        unfold played
        cases data with
        | error e => rfl
        | ok d => simp [hn d rfl]
      obtain ⟨r1, r2⟩ := reserve_spec l (used := w * h * 4) (Nat.lt_trans (size_bound hi.1 hi.2) (by decide)) hall
      dsimp only
      by_cases hfit : Fits l (w * h * 4) i.width i.height
      · rw [r1 hfit]
        unfold item
        dsimp only
        cases data with
        | error e =>
          refine ⟨_, _, rfl, ?_, rfl, fun _ => rfl, _, rfl⟩
          rw [none_played (fun d h => nomatch h), List.append_nil]
          exact same es
        | ok data =>
          obtain ⟨frame, f1, f2⟩ := frame_buffer hok
          dsimp only
          rw [f1]
          dsimp only
          have hfull : ((i.left, i.top) = (0, 0) ∧ (s.width, s.height) = (frame.width, frame.height)) ↔ fullScreen w h i := by
            rw [h1, h2, f2.width, f2.height]
            unfold fullScreen
            simp only [Prod.mk.injEq]
            constructor
            · rintro ⟨⟨a, b⟩, c, d⟩; exact ⟨a, b, c.symm, d.symm⟩
            · rintro ⟨a, b, c, d⟩; exact ⟨⟨a, b⟩, c.symm, d.symm⟩
          have hall2 : ∀ m, l.maxAlloc = some m → w * h * 4 + i.width * i.height * 4 ≤ m := hfit.2.2
          obtain ⟨t1, t2⟩ := reserve_spec l (used := w * h * 4 + i.width * i.height * 4) (Nat.lt_trans (size_bound hw hh) (by decide)) hall2
          have run : ∀ ll : Limits, ∃ f s', (do
              let (image, previous) ← compose s.width s.height i frame b
              let delay ← delayOf i
              Except.ok (some (Except.ok (⟨image, 0, 0, delay⟩ : Frame)), { s with limits := reserved l (w * h * 4), nonDisposed := some previous, events := es }) :
                R (Option (Except Err Frame) × Iter)) = .ok (some (.ok f), s') ∧ At l w h (done ++ [frameOf i data]) s' ∧ s'.events = es ∧
              Shows f.buffer w h (picture done (frameOf i data)) ∧ f.left = 0 ∧ f.top = 0 ∧ f.delay = ⟨10 * i.delay, 1⟩ := by
            intro ll
            obtain ⟨image, previous', c1, c2, c3⟩ := compose_spec hw hh hok f2 hb
            have hd := hok.delay
            have hdel : delayOf i = .ok ⟨10 * i.delay, 1⟩ := by
              unfold delayOf
              rw [mulC_ok (by omega), ok_bind, Nat.mul_comm]
              rfl
            rw [h1, h2, c1, ok_bind]
            dsimp only
            rw [hdel, ok_bind]
            refine ⟨_, _, rfl, ⟨rfl, rfl, .inr ⟨previous', rfl, ?_, rfl⟩⟩, rfl, c2, rfl, rfl, rfl⟩
            rw [canvas_append]
            exact c3
          by_cases ha : Allowed l w h i
          · have hp : played l w h [.frame i (.ok data)] = [frameOf i data] := by
              unfold played
              simp [ha]
            obtain ⟨f, s', q1, q2, q3, q4⟩ := run l
            rw [hp]
            refine ⟨some (.ok f), s', ?_, q2, q3, ⟨fun _ => ⟨f, rfl, q4⟩, fun h => absurd ha h⟩⟩
            by_cases hf : fullScreen w h i
            · rw [if_pos (hfull.2 hf)]
              exact q1
            · rw [if_neg (fun h => hf (hfull.1 h)), h1, h2, t1 (ha.2 hf)]
              rw [h1, h2] at q1
              exact q1
          · have hf : ¬ fullScreen w h i := fun hf => ha ⟨hfit, fun h => absurd hf h⟩
            have hf2 : ¬ Fits l (w * h * 4 + i.width * i.height * 4) w h := fun h => ha ⟨hfit, fun _ => h⟩
            obtain ⟨e, he⟩ := t2 hf2
            rw [if_neg (fun h => hf (hfull.1 h)), h1, h2, he, none_played (fun _ _ => ha), List.append_nil]
            exact ⟨_, _, rfl, ⟨rfl, rfl, .inr ⟨b, rfl, hb, rfl⟩⟩, rfl, fun h => absurd h ha, fun _ => ⟨_, rfl⟩⟩
      · obtain ⟨e, he⟩ := r2 hfit
        have hna : ¬ Allowed l w h i := fun h => hfit h.1
        rw [he, none_played (fun _ _ => hna), List.append_nil]
        refine ⟨_, _, rfl, same es, rfl, ?_⟩
        cases data with
        | ok data => exact ⟨fun h => absurd h hna, fun _ => ⟨_, rfl⟩⟩
        | error e => exact ⟨fun h => absurd h hna, _, rfl⟩

/-- **C76**: the frames of a GIF file. If the limits allow the canvas then the `k`-th call of `next` yields, for every `k`, the outcome for the `k`-th frame
of the file: an error if it cannot be read or is not allowed, and otherwise exactly the picture that the specification gives after the readable and allowed
frames before it, of the size of the screen and with the delay of the frame; then nothing. If the limits do not allow the canvas then every call fails. -/
theorem C76_frames (d : Decoder) (hw : d.reader.width < 2 ^ 16) (hh : d.reader.height < 2 ^ 16) (hev : ∀ e ∈ d.reader.events, e.Ok) (n : Nat) :
    ∃ items, (Iter.new d).take n = .ok items ∧ items.length = n ∧
    (Fits d.limits 0 d.reader.width d.reader.height → ∀ k o, items[k]? = some o → match d.reader.events[k]? with
      | some e => Item d.limits d.reader.width d.reader.height (played d.limits d.reader.width d.reader.height (d.reader.events.take k)) o e
      | none => o = none) ∧
    (¬ Fits d.limits 0 d.reader.width d.reader.height → ∀ o ∈ items, ∃ e, o = some (.error e)) := by
  by_cases hl : Fits d.limits 0 d.reader.width d.reader.height
  · generalize hL : d.limits = l at *
    generalize hW : d.reader.width = w at *
    generalize hH : d.reader.height = h at *
    have main : ∀ n (done : List GifSpec.Frame) (s : Iter), At l w h done s → (∀ e ∈ s.events, e.Ok) → ∃ items, s.take n = .ok items ∧ items.length = n ∧
        ∀ k o, items[k]? = some o → match s.events[k]? with
          | some e => Item l w h (done ++ played l w h (s.events.take k)) o e
          | none => o = none := by
      intro n
      induction n with
      | zero => intro done s _ _; exact ⟨[], rfl, rfl, fun k o h => by simp at h⟩
      | succ n ih =>
        intro done s hs hev
        have hb : ∃ b, s.next = s.rest (reserved l (w * h * 4)) b ∧ Shows b w h (canvas done) := by
          rw [next_eq]
          rcases hs.state with ⟨g1, g2, g3⟩ | ⟨b, g1, g2, g3⟩
          · obtain ⟨b, b1, b2⟩ := blank_shows hw hh
            have r1 := (reserve_spec l (used := 0) (Nat.lt_trans (size_bound hw hh) (by decide)) (fun _ _ => Nat.zero_le _)).1 hl
            have r0 : reserved l 0 = l := by
              unfold reserved
              obtain ⟨_, _, ma⟩ := l
              cases ma <;> rfl
            rw [r0, Nat.zero_add] at r1
            rw [g1, g2, hs.width, hs.height, g3]
            dsimp only
            rw [r1, ok_bind, b1, ok_bind]
            exact ⟨b, rfl, b2⟩
          · rw [g1, g3]
            exact ⟨b, rfl, g2⟩
        obtain ⟨b, e, hb⟩ := hb
        obtain ⟨q1, q2⟩ := rest_spec hw hh hl hs.width hs.height hb hev
        rw [← e] at q1 q2
        unfold Iter.take
        cases hes : s.events with
        | nil =>
          obtain ⟨s', e1, e2, e3⟩ := q1 hes
          obtain ⟨items, i1, i2, i3⟩ := ih done s' e2 (by rw [e3]; intro e h; cases h)
          rw [e1, ok_bind]
          dsimp only
          rw [i1, ok_bind]
          refine ⟨_, rfl, by simp [i2], ?_⟩
          intro k o hk
          rw [e3] at i3
          cases k with
          | zero => simp at hk ⊢; exact hk.symm
          | succ k =>
            have := i3 k o (by simpa using hk)
            simpa using this
        | cons ev es =>
          obtain ⟨o1, s', e1, e2, e3, e4⟩ := q2 ev es hes
          obtain ⟨items, i1, i2, i3⟩ := ih _ s' e2 (by rw [e3]; intro e h; exact hev e (by rw [hes]; exact List.mem_cons_of_mem _ h))
          rw [e1, ok_bind]
          dsimp only
          rw [i1, ok_bind]
          refine ⟨_, rfl, by simp [i2], ?_⟩
          intro k o hk
          rw [e3] at i3
          cases k with
          | zero =>
            simp at hk ⊢
            rw [← hk]
            rw [show played l w h [] = [] from rfl, List.append_nil]
            exact e4
          | succ k =>
            have := i3 k o (by simpa using hk)
            rw [List.getElem?_cons_succ, List.take_succ_cons, played_cons, ← List.append_assoc]
            exact this
    obtain ⟨items, i1, i2, i3⟩ := main n [] (Iter.new d) ⟨hW, hH, .inl ⟨rfl, hL, rfl⟩⟩ hev
    exact ⟨items, i1, i2, fun _ => i3, fun h => absurd hl h⟩
  · have r2 := (reserve_spec d.limits (used := 0) (Nat.lt_trans (size_bound hw hh) (by decide)) (fun _ _ => Nat.zero_le _)).2 hl
    have r0 : reserved d.limits 0 = d.limits := by
      unfold reserved
      obtain ⟨_, ⟨_, _, ma⟩⟩ := d
      cases ma <;> rfl
    rw [r0] at r2
    obtain ⟨e, he⟩ := r2
    have hn : (Iter.new d).next = .ok (some (.error e), Iter.new d) := by
      rw [next_eq]
      show item (do
        let l ← d.limits.reserveBuffer d.reader.width d.reader.height .Rgba8
        let p ← ImageBuffer.fromPixel 0 d.reader.width d.reader.height clear
        .ok (l, p)) _ _ = _
      rw [he]
      rfl
    have main : ∀ n, ∃ items, (Iter.new d).take n = .ok items ∧ items.length = n ∧ ∀ o ∈ items, ∃ e, o = some (.error e) := by
      intro n
      induction n with
      | zero => exact ⟨[], rfl, rfl, fun o h => by cases h⟩
      | succ n ih =>
        obtain ⟨items, i1, i2, i3⟩ := ih
        unfold Iter.take
        rw [hn, ok_bind]
        dsimp only
        rw [i1, ok_bind]
        refine ⟨_, rfl, by simp [i2], ?_⟩
        intro o ho
        rcases List.mem_cons.1 ho with rfl | ho
        · exact ⟨e, rfl⟩
        · exact i3 o ho
    obtain ⟨items, i1, i2, i3⟩ := main n
    exact ⟨items, i1, i2, fun h => absurd h hl, fun _ => i3⟩

/-- A film of 2×1: red and transparent, then green at the right, then a transparent pixel at the left, the second frame disposed to the background. -/
def film : Decoder := ⟨⟨2, 1, [.frame ⟨0, 0, 2, 1, .keep, 5⟩ (.ok [255, 0, 0, 255, 0, 0, 0, 0]), .frame ⟨1, 0, 1, 1, .background, 6⟩ (.ok [0, 255, 0, 255]),
  .bad .decoding, .frame ⟨0, 0, 1, 1, .any, 7⟩ (.ok [9, 9, 9, 0])]⟩, ⟨none, none, none⟩⟩

/-- Its hypotheses hold, and the frames are: red and nothing; red and green; an error; red and nothing again. -/
example : film.reader.width < 2 ^ 16 ∧ film.reader.height < 2 ^ 16 ∧ (∀ e ∈ film.reader.events, e.Ok) ∧ Fits film.limits 0 2 1 ∧
    ((Iter.new film).take 5).map (fun l => l.map fun o => o.map fun r => match r with | .ok f => (f.buffer.data, f.delay.numer) | .error _ => ([], 0)) =
      .ok [some ([255, 0, 0, 255, 0, 0, 0, 0], 50), some ([255, 0, 0, 255, 0, 255, 0, 255], 60), some ([], 0), some ([255, 0, 0, 255, 0, 0, 0, 0], 70), none] := by
  refine ⟨by decide, by decide, ?_, ?_, by decide +kernel⟩
  · intro e he
    simp only [film, List.mem_cons, List.not_mem_nil, or_false] at he
    rcases he with rfl | rfl | rfl | rfl
    · exact ⟨by decide, by decide, by decide, by decide, by decide, rfl⟩
    · exact ⟨by decide, by decide, by decide, by decide, by decide, rfl⟩
    · trivial
    · exact ⟨by decide, by decide, by decide, by decide, by decide, rfl⟩
  · unfold Fits film
    simp

end Gif
end Verif
