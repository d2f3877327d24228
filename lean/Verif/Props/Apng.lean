import Verif.Proofs.Apng
import Verif.Props.Gif

/-!
# C79: APNG animations are composited as the format says

The specification is `Verif.Spec.Apng`.
-/

namespace Verif
namespace Apng
open GenericImageView GenericImage LawfulView LawfulImage ApngSpec
open ImageBuffer hiding getPixel putPixel
open Gif (Fits reserved)

/-- The disposal in the specification. -/
def disposalOf : DisposeOp → Disposal
  | .none => .leave
  | .background => .toBackground
  | .previous => .toPrevious

/-- The frame that the file contains. -/
def frameOf (c : ColorType) (fc : FrameControl) (data : List Nat) : ApngSpec.Frame (Pix Nat 4) :=
  ⟨fc.xOffset, fc.yOffset, fc.width, fc.height, disposalOf fc.dispose, fc.blend == .over, rgbaAt c fc.width data⟩

/-- What the crate promises of a frame control of an image of `w`×`h` pixels: the frame is inside, and not empty. -/
structure FrameControl.Ok (fc : FrameControl) (w h : Nat) : Prop where
  right : fc.xOffset + fc.width ≤ w
  bottom : fc.yOffset + fc.height ≤ h
  width : 0 < fc.width
  num : fc.delayNum < 2 ^ 16
  den : fc.delayDen < 2 ^ 16

/-- What the crate promises of a frame: there is a frame control, and the buffer holds bytes. -/
def EventOk (w h size : Nat) : Event → Prop
  | .error _ => True
  | .ok (none, _) => False
  | .ok (some fc, data) => fc.Ok w h ∧ data.length = size ∧ ∀ v ∈ data, v ≤ 255

/-! ## Two canvases -/

/-- The canvas that the decoder shows, the one that it keeps, and the last frame. -/
structure Two where
  previous : Canvas (Pix Nat 4)
  current : Canvas (Pix Nat 4)
  last : Option (ApngSpec.Frame (Pix Nat 4))

/-- The two canvases after the disposal of the last frame. -/
def Two.dispose (t : Two) : Canvas (Pix Nat 4) × Canvas (Pix Nat 4) :=
  match t.last with
  | none => (t.current, fun _ _ => clear)
  | some f => match f.disposal with
    | .leave => (t.current, t.current)
    | .toBackground => (t.current, fun x y => if f.covers x y then clear else t.current x y)
    | .toPrevious => (t.previous, fun x y => if f.covers x y then t.previous x y else t.current x y)

/-- The two canvases with the next frame. -/
def Two.step (t : Two) (f : ApngSpec.Frame (Pix Nat 4)) : Two := ⟨t.dispose.1, draw over t.dispose.2 f, some f⟩

/-- The two canvases before the first frame. -/
def Two.start : Two := ⟨fun _ _ => clear, fun _ _ => clear, none⟩

/-- The last frame, inside the canvas, and as the decoder remembers it. -/
def Remembers (w h : Nat) (t : Two) (s : Decoder) : Prop :=
  match t.last with
  | none => s.dispose = .background ∧ s.disposeRegion = none
  | some f => f.disposal = disposalOf s.dispose ∧ s.disposeRegion = some (f.left, f.top, f.width, f.height) ∧
      f.left + f.width ≤ w ∧ f.top + f.height ≤ h ∧ 0 < f.width

/-- The decoder with both canvases. -/
structure Ready (l : Limits) (w h : Nat) (t : Two) (s : Decoder) : Prop where
  width : s.reader.width = w
  height : s.reader.height = h
  limits : s.limits = reserved l (2 * (w * h * 4))
  previous : ∃ b, s.previous = some b ∧ Shows b w h t.previous
  current : ∃ b, s.current = some b ∧ Shows b w h t.current
  last : Remembers w h t s

theorem dispose_spec {l : Limits} {w h : Nat} (hs : w * h * 4 < 2 ^ 64) {t : Two} {s : Decoder} (hr : Ready l w h t s) {p c : ImageBuffer Nat 4}
    (hp : Shows p w h t.previous) (hc : Shows c w h t.current) :
    ∃ p' c', disposeFrame s.dispose s.disposeRegion p c = .ok (p', c') ∧ Shows p' w h t.dispose.1 ∧ Shows c' w h t.dispose.2 := by
  have hl := hr.last
  unfold Remembers at hl
  unfold Two.dispose
  cases ht : t.last with
  | none =>
    rw [ht] at hl
    rw [hl.1, hl.2]
    obtain ⟨c', e, h'⟩ := clearAll_spec hc
    exact ⟨c, c', by unfold disposeFrame; dsimp only; rw [e]; rfl, hc, h'⟩
  | some f =>
    rw [ht] at hl
    dsimp only at hl
    obtain ⟨h1, h2, h3, h4, h5⟩ := hl
    dsimp only
    rw [h1, h2]
    cases s.dispose with
    | none => exact ⟨c, c, rfl, hc, hc⟩
    | background =>
      obtain ⟨c', e, h'⟩ := clearRegion_spec hc h3 h4 h5
      exact ⟨c, c', by unfold disposeFrame; dsimp only; rw [e]; rfl, hc, h'⟩
    | previous =>
      obtain ⟨c', e, h'⟩ := restore_spec hp hc h3 h4 hs
      exact ⟨p, c', e, hp, h'⟩

theorem blend_spec {c src : ImageBuffer Nat 4} {w h : Nat} {cc : Canvas (Pix Nat 4)} (hc : Shows c w h cc) (ct : ColorType) {fc : FrameControl}
    (hfc : fc.Ok w h) {data : List Nat} (hsrc : Shows src fc.width fc.height (rgbaAt ct fc.width data)) :
    ∃ c', blendFrame fc.blend c src fc.xOffset fc.yOffset = .ok c' ∧ Shows c' w h (draw over cc (frameOf ct fc data)) := by
  cases hb : fc.blend with
  | source =>
    obtain ⟨c', e, h'⟩ := copyFrom_spec hc hsrc hfc.right hfc.bottom
    refine ⟨c', by unfold blendFrame; dsimp only; rw [e], ?_⟩
    rw [show draw over cc (frameOf ct fc data) = fun x y => if Within fc.xOffset fc.yOffset fc.width fc.height x y
        then rgbaAt ct fc.width data (x - fc.xOffset) (y - fc.yOffset) else cc x y from by
      unfold draw frameOf; rw [hb]; rfl]
    exact h'
  | over =>
    obtain ⟨c', e, h'⟩ := overlay_spec hc hsrc hfc.right hfc.bottom
    refine ⟨c', e, ?_⟩
    rw [show draw over cc (frameOf ct fc data) = fun x y => if Within fc.xOffset fc.yOffset fc.width fc.height x y
        then over (cc x y) (rgbaAt ct fc.width data (x - fc.xOffset) (y - fc.yOffset)) else cc x y from by
      unfold draw frameOf; rw [hb]; rfl]
    exact h'

/-! ## Limits -/

/-- The limits allow the raw buffer and the frame besides the two canvases. -/
def Allowed (l : Limits) (w h size : Nat) (fc : FrameControl) : Prop := Fits l (2 * (w * h * 4) + size) fc.width fc.height

/-- The limits allow the raw buffer besides the two canvases. -/
def RawFits (l : Limits) (w h size : Nat) : Prop := ∀ m, l.maxAlloc = some m → 2 * (w * h * 4) + size ≤ m

theorem reserveUsize_spec (l : Limits) {used size : Nat} (hu : ∀ m, l.maxAlloc = some m → used ≤ m) :
    ((∀ m, l.maxAlloc = some m → used + size ≤ m) → (reserved l used).reserveUsize size = .ok (reserved l (used + size))) ∧
    (¬ (∀ m, l.maxAlloc = some m → used + size ≤ m) → ∃ e, (reserved l used).reserveUsize size = .error (.err e)) := by
  unfold Limits.reserveUsize Limits.reserve reserved
  obtain ⟨mw, mh, ma⟩ := l
  dsimp only at hu ⊢
  cases ma with
  | none => exact ⟨fun _ => rfl, fun h => absurd (fun m h => nomatch h) h⟩
  | some m =>
    have := hu m rfl
    simp only [Option.map_some]
    by_cases hv : m - used < size
    · rw [if_pos hv]
      exact ⟨fun h => absurd (h m rfl) (by omega), fun _ => ⟨_, rfl⟩⟩
    · rw [if_neg hv]
      rw [subC_ok (by omega), ok_bind]
      exact ⟨fun _ => by rw [Nat.sub_sub], fun h => absurd (fun m' h' => by cases h'; omega) h⟩

open Classical in
/-- The frames that are shown: of the first `n` frames those before the first that cannot be read or is not allowed. -/
noncomputable def played (l : Limits) (w h size : Nat) : Nat → List Event → List (FrameControl × List Nat)
  | n + 1, .ok (some fc, data) :: es => if Allowed l w h size fc then (fc, data) :: played l w h size n es else []
  | _, _ => []

/-- No frame is left, and the canvases are allocated. -/
def Stopped (s : Decoder) : Prop := s.remaining = 0 ∧ s.previous.isSome ∧ s.current.isSome

theorem allocate_some {s : Decoder} {p c : ImageBuffer Nat 4} (hp : s.previous = some p) (hc : s.current = some c) :
    allocate s = .ok (.ok (p, c), s) := by
  unfold allocate
  rw [hp]
  dsimp only
  rw [ok_bind]
  dsimp only
  rw [hc]

theorem stopped_take {s : Decoder} (hs : Stopped s) (n : Nat) : s.take n = .ok (List.replicate n none) := by
  obtain ⟨h1, h2, h3⟩ := hs
  obtain ⟨p, hp⟩ := Option.isSome_iff_exists.1 h2
  obtain ⟨c, hc⟩ := Option.isSome_iff_exists.1 h3
  have hn : s.next = .ok (none, s) := by
    unfold Decoder.next Decoder.mixNextFrame
    rw [allocate_some hp hc, ok_bind]
    dsimp only
    rw [h1]
    rfl
  induction n with
  | zero => rfl
  | succ n ih =>
    unfold Decoder.take
    rw [hn, ok_bind]
    dsimp only
    rw [ih]
    rfl

/-- What the `k`-th call yields, of an animation with `n` frames to come. -/
def Outcome (c : ColorType) (w h : Nat) (t : Two) (n : Nat) (fs : List (FrameControl × List Nat)) (k : Nat) (o : Option (Except Err Frame)) : Prop :=
  match fs[k]? with
  | some (fc, data) => ∃ f, o = some (.ok f) ∧
      Shows f.buffer w h ((((fs.take k).map fun f => frameOf c f.1 f.2).foldl Two.step t).step (frameOf c fc data)).current ∧
      f.left = 0 ∧ f.top = 0 ∧ f.delay = ⟨fc.delayNum * 1000, if fc.delayDen = 0 then 100 else fc.delayDen⟩
  | none => if k = fs.length ∧ k < n then ∃ e, o = some (.error e) else o = none

/-- One call, after the thumbnail. -/
theorem next_spec {c : ColorType} (hc : Animatable c) {l : Limits} {w h : Nat} (hw : w < 2 ^ 32) (hh : h < 2 ^ 32) (hs : w * h * 4 < 2 ^ 64)
    (hall : ∀ m, l.maxAlloc = some m → 2 * (w * h * 4) ≤ m) {t : Two} {s : Decoder} (hr : Ready l w h t s) (hct : s.colorType = c) (hth : s.hasThumbnail = false)
    {size : Nat} (hsz : s.reader.outputBufferSize = size) (hsz1 : w * h * c.bytesPerPixel ≤ size) (hsz2 : size < 2 ^ 64)
    (hev : ∀ e ∈ s.reader.events, EventOk w h size e) {n : Nat} (hn : s.remaining = n + 1) :
    (∀ fc data es, s.reader.events = .ok (some fc, data) :: es → Allowed l w h size fc →
      ∃ f s', s.next = .ok (some (.ok f), s') ∧ Shows f.buffer w h (t.step (frameOf c fc data)).current ∧ f.left = 0 ∧ f.top = 0 ∧
        f.delay = ⟨fc.delayNum * 1000, if fc.delayDen = 0 then 100 else fc.delayDen⟩ ∧
        Ready l w h (t.step (frameOf c fc data)) s' ∧ s'.colorType = c ∧ s'.hasThumbnail = false ∧ s'.reader.outputBufferSize = size ∧
        s'.reader.events = es ∧ s'.remaining = n) ∧
    ((∀ fc data es, s.reader.events = .ok (some fc, data) :: es → ¬ Allowed l w h size fc) → ∃ e s', s.next = .ok (some (.error e), s') ∧ Stopped s') := by
  obtain ⟨p, hp, hps⟩ := hr.previous
  obtain ⟨cu, hcu, hcs⟩ := hr.current
  obtain ⟨p', c', hd, hp', hc'⟩ := dispose_spec hs hr hps hcs
  have hmix : s.mixNextFrame = readFrame { s with remaining := 0 } n p' c' := by
    unfold Decoder.mixNextFrame
    rw [allocate_some hp hcu, ok_bind]
    dsimp only
    rw [hn]
    dsimp only
    have ht : skipThumbnail { s with remaining := 0 } = .ok (.ok (), { s with remaining := 0 }) := by
      unfold skipThumbnail
      rw [if_neg (by show ¬ s.hasThumbnail = true; rw [hth]; decide)]
    rw [ht, ok_bind]
    dsimp only
    have ha : animatable s.colorType = .ok () := by
      rw [hct]
      rcases hc with rfl | rfl | rfl | rfl <;> rfl
    rw [ha]
    unfold attempt
    dsimp only
    rw [hd, ok_bind]
  obtain ⟨u1, u2⟩ := reserveUsize_spec l (size := size) hall
  constructor
  · intro fc data es he ha
    have hok : EventOk w h size (.ok (some fc, data)) := hev _ (by rw [he]; exact List.mem_cons_self)
    obtain ⟨ok1, ok2, ok3⟩ := hok
    have o1 := ok1.right
    have o2 := ok1.bottom
    have hmul : fc.width * fc.height ≤ w * h := Nat.mul_le_mul (by omega) (by omega)
    have hbuf : fc.width * fc.height * c.bytesPerPixel ≤ data.length := by
      rw [ok2]
      exact Nat.le_trans (Nat.mul_le_mul_right _ hmul) hsz1
    obtain ⟨src, t1, t2⟩ := toRgba_spec hc (w := fc.width) (h := fc.height) (data := data) (by omega) (by omega) (by omega) hbuf (by omega) ok3
    obtain ⟨c'', b1, b2⟩ := blend_spec hc' c ok1 t2
    have r1 := (Gif.reserve_spec l (used := 2 * (w * h * 4) + size) (w := fc.width) (h := fc.height) (by omega)
      (fun m hm => by have := ha.2.2 m hm; omega)).1 ha
    have hu := u1 (fun m hm => by have := ha.2.2 m hm; omega)
    have hread : readFrame { s with remaining := 0 } n p' c' = .ok (.ok (some c''), { s with
        previous := some p', current := some c'', reader := { s.reader with events := es, frameControl := some fc }, dispose := fc.dispose,
        disposeRegion := some (fc.xOffset, fc.yOffset, fc.width, fc.height), remaining := n }) := by
      unfold readFrame
      dsimp only
      rw [hr.limits, hsz, hu]
      unfold attempt
      dsimp only
      unfold Reader.nextFrame
      rw [he]
      dsimp only
      rw [r1]
      dsimp only
      rw [hct, t1, ok_bind, b1, ok_bind, hsz]
    have n1 := ok1.num
    have n2 := ok1.den
    refine ⟨⟨c'', 0, 0, ⟨fc.delayNum * 1000, if fc.delayDen = 0 then 100 else fc.delayDen⟩⟩, { s with
        previous := some p', current := some c'', reader := { s.reader with events := es, frameControl := some fc }, dispose := fc.dispose,
        disposeRegion := some (fc.xOffset, fc.yOffset, fc.width, fc.height), remaining := n }, ?_, b2, rfl, rfl, rfl,
      ⟨hr.width, hr.height, hr.limits, ⟨p', rfl, hp'⟩, ⟨c'', rfl, b2⟩, ?_⟩, hct, hth, hsz, rfl, rfl⟩
    · unfold Decoder.next
      rw [hmix, hread, ok_bind]
      dsimp only
      show (do let num ← mulC 32 fc.delayNum 1000; _) = _
      rw [mulC_ok (by omega), ok_bind]
      unfold Delay.fromNumerDenomMs
      by_cases h0 : fc.delayDen = 0
      · simp only [if_pos h0]
        rfl
      · simp only [if_neg h0]
        rw [show assertR (fc.delayDen != 0) = .ok () by unfold assertR; rw [if_pos (by simpa using h0)]]
        rfl
    · exact ⟨rfl, rfl, ok1.right, ok1.bottom, ok1.width⟩
  · intro hna
    have fin : ∃ e s', readFrame { s with remaining := 0 } n p' c' = .ok (.error e, s') ∧ Stopped s' := by
      unfold readFrame
      dsimp only
      rw [hr.limits, hsz]
      by_cases hf : ∀ m, l.maxAlloc = some m → 2 * (w * h * 4) + size ≤ m
      · rw [u1 hf]
        unfold attempt
        dsimp only
        unfold Reader.nextFrame
        cases he : s.reader.events with
        | nil => exact ⟨_, _, rfl, rfl, rfl, rfl⟩
        | cons e es =>
          cases e with
          | error e => exact ⟨_, _, rfl, rfl, rfl, rfl⟩
          | ok q =>
            obtain ⟨fc, data⟩ := q
            have hok := hev _ (by rw [he]; exact List.mem_cons_self)
            cases fc with
            | none => exact absurd hok id
            | some fc =>
              have := hna fc data es he
              obtain ⟨ok1, ok2, ok3⟩ := hok
              have o1 := ok1.right
              have o2 := ok1.bottom
              have hmul : fc.width * fc.height ≤ w * h := Nat.mul_le_mul (by omega) (by omega)
              obtain ⟨e, r1⟩ := (Gif.reserve_spec l (used := 2 * (w * h * 4) + size) (w := fc.width) (h := fc.height) (by omega) hf).2 this
              dsimp only
              rw [r1]
              exact ⟨_, _, rfl, rfl, rfl, rfl⟩
      · obtain ⟨e, he⟩ := u2 hf
        rw [he]
        exact ⟨_, _, rfl, rfl, rfl, rfl⟩
    obtain ⟨e, s', f1, f2⟩ := fin
    refine ⟨e, s', ?_, f2⟩
    unfold Decoder.next
    rw [hmix, f1]
    rfl

/-- All calls, after the thumbnail. -/
theorem take_spec {c : ColorType} (hc : Animatable c) {l : Limits} {w h : Nat} (hw : w < 2 ^ 32) (hh : h < 2 ^ 32) (hs : w * h * 4 < 2 ^ 64)
    (hall : ∀ m, l.maxAlloc = some m → 2 * (w * h * 4) ≤ m) {size : Nat} (hsz1 : w * h * c.bytesPerPixel ≤ size) (hsz2 : size < 2 ^ 64) :
    ∀ (n : Nat) (t : Two) (s : Decoder), Ready l w h t s → s.colorType = c → s.hasThumbnail = false → s.reader.outputBufferSize = size →
      (∀ e ∈ s.reader.events, EventOk w h size e) →
      ∃ items, s.take n = .ok items ∧ items.length = n ∧
        ∀ k o, items[k]? = some o → Outcome c w h t s.remaining (played l w h size s.remaining s.reader.events) k o := by
  intro n
  induction n with
  | zero => intro t s _ _ _ _ _; exact ⟨[], rfl, rfl, fun k o h => by simp at h⟩
  | succ n ih =>
    intro t s hr hct hth hsz hev
    cases hrem : s.remaining with
    | zero =>
      obtain ⟨p, hp, -⟩ := hr.previous
      obtain ⟨cu, hcu, -⟩ := hr.current
      refine ⟨_, stopped_take ⟨hrem, by rw [hp]; rfl, by rw [hcu]; rfl⟩ _, List.length_replicate .., ?_⟩
      intro k o hk
      rw [List.getElem?_replicate] at hk
      split at hk
      · cases hk
        unfold Outcome played
        simp
      · cases hk
    | succ m =>
      obtain ⟨q1, q2⟩ := next_spec hc hw hh hs hall hr hct hth hsz hsz1 hsz2 hev hrem
      by_cases ha : ∃ fc data es, s.reader.events = .ok (some fc, data) :: es ∧ Allowed l w h size fc
      · obtain ⟨fc, data, es, he, ha⟩ := ha
        obtain ⟨f, s', e1, f1, f2, f3, f4, g1, g2, g3, g4, g5, g6⟩ := q1 fc data es he ha
        obtain ⟨items, i1, i2, i3⟩ := ih _ s' g1 g2 g3 g4 (by rw [g5]; intro e h; exact hev e (by rw [he]; exact List.mem_cons_of_mem _ h))
        refine ⟨some (.ok f) :: items, ?_, by simp [i2], ?_⟩
        · unfold Decoder.take
          rw [e1, ok_bind]
          dsimp only
          rw [i1]
          rfl
        · rw [g5, g6] at i3
          rw [he]
          intro k o hk
          unfold played
          rw [if_pos ha]
          cases k with
          | zero =>
            simp only [List.getElem?_cons_zero, Option.some.injEq] at hk
            subst hk
            exact ⟨f, rfl, f1, f2, f3, f4⟩
          | succ k =>
            have := i3 k o (by simpa using hk)
            unfold Outcome at this ⊢
            rw [List.getElem?_cons_succ]
            cases hk2 : (played l w h size m es)[k]? with
            | some q => rw [hk2] at this; exact this
            | none =>
              rw [hk2] at this
              dsimp only at this ⊢
              simp only [List.length_cons, Nat.add_right_cancel_iff, Nat.add_lt_add_iff_right]
              exact this
      · obtain ⟨e, s', e1, hst⟩ := q2 (fun fc data es he h => ha ⟨fc, data, es, he, h⟩)
        have hpl : played l w h size (m + 1) s.reader.events = [] := by
          unfold played
          split
          · rename_i fc data es h1 h2
            rw [if_neg (fun h => ha ⟨fc, data, es, h2, h⟩)]
          · rfl
        refine ⟨some (.error e) :: List.replicate n none, ?_, by simp, ?_⟩
        · unfold Decoder.take
          rw [e1, ok_bind]
          dsimp only
          rw [stopped_take hst]
          rfl
        · rw [hpl]
          intro k o hk
          unfold Outcome
          cases k with
          | zero =>
            simp only [List.getElem?_cons_zero, Option.some.injEq] at hk
            subst hk
            simp
          | succ k =>
            rw [List.getElem?_cons_succ, List.getElem?_replicate] at hk
            split at hk
            · cases hk; simp
            · cases hk

/-! ## The start -/

theorem reserved_zero (l : Limits) : reserved l 0 = l := by
  unfold reserved
  obtain ⟨_, _, ma⟩ := l
  cases ma <;> rfl

theorem blank_shows {w h : Nat} (hw : w < 2 ^ 32) (hh : h < 2 ^ 32) (hs : w * h * 4 < 2 ^ 64) :
    ∃ b, ImageBuffer.new 4 0 w h = .ok b ∧ Shows b w h fun _ _ => clear := by
  have hinv := new_inv (α := Nat) (ch := 4) (z := 0) (w := w) (h := h) hw hh hs
  refine ⟨_, new_ok (by decide) hw hs, hinv, rfl, rfl, ?_, fun _ _ _ _ => clear_range⟩
  intro x y hx hy
  rw [getPixel_raw hinv hx hy]
  congr 1
  funext i
  rw [List.getD_eq_getElem?_getD, List.getElem?_replicate]
  have : (if (y * w + x) * 4 + i.val < w * h * 4 then some 0 else none).getD 0 = 0 := by split <;> rfl
  rw [show (⟨w, h, List.replicate (w * h * 4) 0⟩ : ImageBuffer Nat 4).width = w from rfl, this]
  match i with
  | 0 => rfl
  | 1 => rfl
  | 2 => rfl
  | 3 => rfl

/-- The decoder with the two blank canvases. -/
def begun (c : ColorType) (r : Reader) (l : Limits) (p q : ImageBuffer Nat 4) : Decoder :=
  { Decoder.new c r l with limits := reserved l (2 * (r.width * r.height * 4)), previous := some p, current := some q }

theorem next_allocate {s s' : Decoder} {p q : ImageBuffer Nat 4} (h1 : allocate s = .ok (.ok (p, q), s')) (h2 : s'.previous = some p)
    (h3 : s'.current = some q) : s.next = s'.next := by
  unfold Decoder.next Decoder.mixNextFrame
  rw [h1, allocate_some h2 h3]

theorem take_next {s s' : Decoder} (h : s.next = s'.next) (n : Nat) : s.take n = s'.take n := by
  cases n with
  | zero => rfl
  | succ n =>
    unfold Decoder.take
    rw [h]

theorem begin_spec (c : ColorType) (r : Reader) (l : Limits) (hw : r.width < 2 ^ 32) (hh : r.height < 2 ^ 32) (hs : r.width * r.height * 4 < 2 ^ 64)
    (hf : Fits l (r.width * r.height * 4) r.width r.height) : ∃ p q, (∀ n, (Decoder.new c r l).take n = (begun c r l p q).take n) ∧
      Shows p r.width r.height (fun _ _ => clear) ∧ Shows q r.width r.height (fun _ _ => clear) := by
  obtain ⟨b, e, hb⟩ := blank_shows hw hh hs
  have r1 := (Gif.reserve_spec l (used := 0) hs (fun _ _ => Nat.zero_le _)).1 ⟨hf.1, hf.2.1, fun m hm => by have := hf.2.2 m hm; omega⟩
  have r2 := (Gif.reserve_spec l (used := r.width * r.height * 4) hs (fun m hm => by have := hf.2.2 m hm; omega)).1 hf
  rw [reserved_zero, Nat.zero_add] at r1
  refine ⟨b, b, fun n => take_next (next_allocate (p := b) (q := b) ?_ rfl rfl) n, hb, hb⟩
  unfold allocate Decoder.new attempt
  dsimp only
  rw [r1]
  dsimp only
  rw [e, ok_bind, ok_bind]
  dsimp only
  rw [r2]
  dsimp only
  rw [e, ok_bind]
  unfold begun Decoder.new
  dsimp only
  rw [← Nat.two_mul]

theorem skip_none (s : Decoder) (ht : s.hasThumbnail = false) : skipThumbnail s = .ok (.ok (), s) := by
  unfold skipThumbnail
  rw [if_neg (by rw [ht]; decide)]

/-- The picture that is not part of the animation is skipped, or there is an error. -/
theorem skip_spec (s : Decoder) (ht : s.hasThumbnail = true) :
    (∀ l' fc data es, s.limits.reserveUsize s.reader.outputBufferSize = .ok l' → s.reader.events = .ok (fc, data) :: es →
      skipThumbnail s = .ok (.ok (), { s with reader := { s.reader with events := es, frameControl := fc }, hasThumbnail := false })) ∧
    ((∀ l', s.limits.reserveUsize s.reader.outputBufferSize = .ok l' → ∀ fc data es, s.reader.events ≠ .ok (fc, data) :: es) →
      s.limits.reserveUsize s.reader.outputBufferSize ≠ .error .panic →
      ∃ e r, skipThumbnail s = .ok (.error e, { s with reader := r })) := by
  unfold skipThumbnail
  rw [if_pos ht]
  constructor
  · intro l' fc data es h1 h2
    rw [h1]
    unfold attempt Reader.nextFrame
    dsimp only
    rw [h2]
  · intro h1 h2
    cases hres : s.limits.reserveUsize s.reader.outputBufferSize with
    | error f =>
      cases f with
      | panic => exact absurd hres h2
      | err e => exact ⟨e, s.reader, rfl⟩
    | ok l' =>
      unfold attempt Reader.nextFrame
      dsimp only
      cases hes : s.reader.events with
      | nil => exact ⟨_, s.reader, rfl⟩
      | cons ev es =>
        cases ev with
        | error e => exact ⟨_, _, rfl⟩
        | ok q => exact absurd hes (h1 l' hres q.1 q.2 es)

/-- The frames of the animation: the first picture does not belong to it if there is no frame control before it. -/
def Reader.frames (r : Reader) : List Event := if r.frameControl.isNone then r.events.tail else r.events

/-- What the crate promises of a file. -/
structure Reader.Ok (r : Reader) (c : ColorType) : Prop where
  width : r.width < 2 ^ 32
  height : r.height < 2 ^ 32
  rgba : r.width * r.height * 4 < 2 ^ 64
  size : r.width * r.height * c.bytesPerPixel ≤ r.outputBufferSize
  alloc : r.outputBufferSize < 2 ^ 64
  frames : ∀ e ∈ r.frames, EventOk r.width r.height r.outputBufferSize e

/-- The first picture can be skipped: it can be read, and the limits allow it. -/
def Reader.Skips (r : Reader) (l : Limits) : Prop :=
  r.frameControl = none → RawFits l r.width r.height r.outputBufferSize ∧ ∃ q es, r.events = .ok q :: es

/-- The frames that are shown. -/
noncomputable def shownFrames (r : Reader) (l : Limits) : List (FrameControl × List Nat) :=
  played l r.width r.height r.outputBufferSize (r.numFrames.getD 0) r.frames

/-- The items of the iterator, for every file: as a machine with two canvases. -/
theorem decoded (c : ColorType) (hc : Animatable c) (r : Reader) (l : Limits) (hr : r.Ok c) (hf : Fits l (r.width * r.height * 4) r.width r.height)
    (ht : r.Skips l) (n : Nat) : ∃ items, (Decoder.new c r l).take n = .ok items ∧ items.length = n ∧
      ∀ k o, items[k]? = some o → Outcome c r.width r.height Two.start (r.numFrames.getD 0) (shownFrames r l) k o := by
  obtain ⟨p, q, he, hp, hq⟩ := begin_spec c r l hr.width hr.height hr.rgba hf
  rw [he]
  have hall : ∀ m, l.maxAlloc = some m → 2 * (r.width * r.height * 4) ≤ m := fun m hm => by have := hf.2.2 m hm; omega
  have hready : Ready l r.width r.height Two.start (begun c r l p q) := ⟨rfl, rfl, rfl, ⟨p, rfl, hp⟩, ⟨q, rfl, hq⟩, rfl, rfl⟩
  cases hfc : r.frameControl with
  | some fc =>
    have hfr : r.frames = r.events := by unfold Reader.frames; rw [hfc]; rfl
    have hev := hr.frames
    rw [hfr] at hev
    obtain ⟨items, i1, i2, i3⟩ := take_spec hc hr.width hr.height hr.rgba hall hr.size hr.alloc n Two.start (begun c r l p q) hready rfl
      (by show r.frameControl.isNone = false; rw [hfc]; rfl) rfl hev
    refine ⟨items, i1, i2, ?_⟩
    unfold shownFrames
    rw [hfr]
    exact i3
  | none =>
    obtain ⟨t1, ⟨tfc, tdata⟩, es, t2⟩ := ht hfc
    have hfr : r.frames = es := by unfold Reader.frames; rw [hfc, t2]; rfl
    have hev := hr.frames
    rw [hfr] at hev
    cases hN : r.numFrames.getD 0 with
    | zero =>
      refine ⟨_, stopped_take ⟨hN, rfl, rfl⟩ n, List.length_replicate .., ?_⟩
      intro k o hk
      rw [List.getElem?_replicate] at hk
      split at hk
      · cases hk
        unfold Outcome shownFrames
        rw [hN]
        unfold played
        simp
      · cases hk
    | succ m =>
      let s' : Decoder := { begun c r l p q with reader := { r with events := es, frameControl := tfc }, hasThumbnail := false }
      have hskip : skipThumbnail { begun c r l p q with remaining := 0 } = .ok (.ok (), { s' with remaining := 0 }) := by
        exact (skip_spec { begun c r l p q with remaining := 0 } (show r.frameControl.isNone = true by rw [hfc]; rfl)).1 _ tfc tdata es
          ((reserveUsize_spec l hall).1 t1) t2
      have hnext : (begun c r l p q).next = s'.next := by
        unfold Decoder.next Decoder.mixNextFrame
        rw [allocate_some (p := p) (c := q) rfl rfl, allocate_some (s := s') (p := p) (c := q) rfl rfl, ok_bind, ok_bind]
        dsimp only
        rw [show (begun c r l p q).remaining = m + 1 from hN]
        dsimp only
        rw [hskip]
        rfl
      obtain ⟨items, i1, i2, i3⟩ := take_spec hc hr.width hr.height hr.rgba hall hr.size hr.alloc n Two.start s'
        ⟨rfl, rfl, rfl, ⟨p, rfl, hp⟩, ⟨q, rfl, hq⟩, rfl, rfl⟩ rfl rfl rfl hev
      refine ⟨items, by rw [take_next hnext]; exact i1, i2, ?_⟩
      unfold shownFrames
      rw [hfr, ← hN]
      exact i3

/-! ## The machine and the specification -/

/-- No frame that is disposed to the background is directly followed by one that is disposed to the previous canvas. -/
def Undisturbed (fs : List (ApngSpec.Frame (Pix Nat 4))) : Prop :=
  ∀ k f g, fs[k]? = some f → fs[k + 1]? = some g → f.disposal = .toBackground → g.disposal ≠ .toPrevious

theorem canvas_snoc (fs : List (ApngSpec.Frame (Pix Nat 4))) (f) : canvas over clear (fs ++ [f]) = after over clear (canvas over clear fs) f := by
  unfold canvas
  rw [List.foldl_append]
  rfl

theorem machine_spec (fs : List (ApngSpec.Frame (Pix Nat 4))) (h : Undisturbed fs) :
    (fs.foldl Two.step Two.start).dispose.2 = canvas over clear fs ∧
    ((∀ f, fs.getLast? = some f → f.disposal ≠ .toBackground) → (fs.foldl Two.step Two.start).dispose.1 = canvas over clear fs) := by
  induction fs using List.reverseRecOn with
  | nil => exact ⟨rfl, fun _ => rfl⟩
  | append_singleton fs f ih =>
    have hsub : Undisturbed fs := by
      intro k a b h1 h2
      refine h k a b ?_ ?_
      · rw [List.getElem?_append_left (by have := (List.getElem?_eq_some_iff.1 h1).1; omega)]; exact h1
      · rw [List.getElem?_append_left (by have := (List.getElem?_eq_some_iff.1 h2).1; omega)]; exact h2
    obtain ⟨i1, i2⟩ := ih hsub
    rw [List.foldl_append, canvas_snoc]
    show ((fs.foldl Two.step Two.start).step f).dispose.2 = _ ∧ (_ → ((fs.foldl Two.step Two.start).step f).dispose.1 = _)
    generalize fs.foldl Two.step Two.start = t at *
    unfold Two.step
    unfold Two.dispose at i1 i2 ⊢
    dsimp only
    unfold after
    rw [List.getLast?_append]
    cases hd : f.disposal with
    | leave =>
      dsimp only
      rw [i1]
      exact ⟨rfl, fun _ => rfl⟩
    | toBackground =>
      dsimp only
      rw [i1]
      refine ⟨?_, fun hn => absurd hd (hn f rfl)⟩
      funext x y
      unfold draw
      split <;> rfl
    | toPrevious =>
      dsimp only
      rw [i1, i2]
      · refine ⟨?_, fun _ => rfl⟩
        funext x y
        unfold draw
        split <;> rfl
      · intro g hg hb
        have hlen : fs.length ≠ 0 := by
          intro h0
          rw [List.eq_nil_of_length_eq_zero h0] at hg
          cases hg
        rw [List.getLast?_eq_getElem?] at hg
        refine h (fs.length - 1) g f ?_ ?_ hb hd
        · rw [List.getElem?_append_left (by omega)]; exact hg
        · rw [show fs.length - 1 + 1 = fs.length by omega, List.getElem?_append_right (Nat.le_refl _), Nat.sub_self]
          rfl

/-- The first `k` frames that are shown, in the specification. -/
noncomputable def before (c : ColorType) (r : Reader) (l : Limits) (k : Nat) : List (ApngSpec.Frame (Pix Nat 4)) :=
  ((shownFrames r l).take k).map fun f => frameOf c f.1 f.2

/-- **C79**: the frames of an APNG file with 8-bit colours, if the limits allow the two canvases and the default image that is not part of the animation can
be skipped. The calls of `next` never panic. They yield the frames of the file up to the first that cannot be read or is not allowed, but at most as
many as the file announces; each is exactly the picture that the specification gives, of the size of the image and with the delay of the frame. Then there is
one error if a frame is missing, and then nothing. Missing: the picture is only specified if no frame before it with the disposal "background" is directly
followed by one with the disposal "previous"; see `C79_frames_false`. -/
theorem C79_frames_partial (c : ColorType) (hc : Animatable c) (r : Reader) (l : Limits) (hr : r.Ok c)
    (hf : Fits l (r.width * r.height * 4) r.width r.height) (ht : r.Skips l) (n : Nat) :
    ∃ items, (Decoder.new c r l).take n = .ok items ∧ items.length = n ∧ ∀ k, k < n →
      (∀ fc data, (shownFrames r l)[k]? = some (fc, data) → ∃ f, items[k]? = some (some (.ok f)) ∧
        (Undisturbed (before c r l k) → Shows f.buffer r.width r.height (picture over clear (before c r l k) (frameOf c fc data))) ∧
        f.buffer.width = r.width ∧ f.buffer.height = r.height ∧ f.left = 0 ∧ f.top = 0 ∧
        f.delay = ⟨fc.delayNum * 1000, if fc.delayDen = 0 then 100 else fc.delayDen⟩) ∧
      (k = (shownFrames r l).length → k < r.numFrames.getD 0 → ∃ e, items[k]? = some (some (.error e))) ∧
      (k = (shownFrames r l).length → r.numFrames.getD 0 ≤ k → items[k]? = some none) ∧
      ((shownFrames r l).length < k → items[k]? = some none) := by
  obtain ⟨items, i1, i2, i3⟩ := decoded c hc r l hr hf ht n
  refine ⟨items, i1, i2, ?_⟩
  intro k hk
  have hget := List.getElem?_eq_getElem (l := items) (i := k) (by omega)
  have h := i3 k _ hget
  rw [hget]
  unfold Outcome at h
  refine ⟨?_, ?_, ?_, ?_⟩
  · intro fc data hfd
    rw [hfd] at h
    obtain ⟨f, f1, f2, f3, f4, f5⟩ := h
    refine ⟨f, by rw [f1], ?_, f2.width, f2.height, f3, f4, f5⟩
    intro hu
    unfold picture
    rw [← (machine_spec _ hu).1]
    exact f2
  · intro h1 h2
    rw [List.getElem?_eq_none (by omega)] at h
    dsimp only at h
    rw [if_pos ⟨h1, h2⟩] at h
    obtain ⟨e, he⟩ := h
    exact ⟨e, by rw [he]⟩
  · intro h1 h2
    rw [List.getElem?_eq_none (by omega)] at h
    dsimp only at h
    rw [if_neg (by omega)] at h
    rw [h]
  · intro h1
    rw [List.getElem?_eq_none (by omega)] at h
    dsimp only at h
    rw [if_neg (by omega)] at h
    rw [h]

/-- **C79**: 16-bit colours, or a default image that cannot be skipped: one error, and then nothing; nothing at all if the file announces no frames. -/
theorem C79_refused (c : ColorType) (r : Reader) (l : Limits) (hw : r.width < 2 ^ 32) (hh : r.height < 2 ^ 32) (hs : r.width * r.height * 4 < 2 ^ 64)
    (hf : Fits l (r.width * r.height * 4) r.width r.height)
    (hc : (c = .L16 ∨ c = .La16 ∨ c = .Rgb16 ∨ c = .Rgba16) ∨ ¬ r.Skips l) (n : Nat) :
    (r.numFrames.getD 0 = 0 → (Decoder.new c r l).take n = .ok (List.replicate n none)) ∧
    (r.numFrames.getD 0 ≠ 0 → ∃ e, (Decoder.new c r l).take (n + 1) = .ok (some (.error e) :: List.replicate n none)) := by
  obtain ⟨p, q, he, hp, hq⟩ := begin_spec c r l hw hh hs hf
  have hall : ∀ m, l.maxAlloc = some m → 2 * (r.width * r.height * 4) ≤ m := fun m hm => by have := hf.2.2 m hm; omega
  refine ⟨fun h0 => by rw [he]; exact stopped_take ⟨h0, rfl, rfl⟩ n, fun h0 => ?_⟩
  obtain ⟨m, hm⟩ := Nat.exists_eq_succ_of_ne_zero h0
  have hnext : ∃ e s', (begun c r l p q).next = .ok (some (.error e), s') ∧ Stopped s' := by
    have hmix : ∃ e s', (begun c r l p q).mixNextFrame = .ok (.error e, s') ∧ Stopped s' := by
      unfold Decoder.mixNextFrame
      rw [allocate_some (p := p) (c := q) rfl rfl, ok_bind]
      dsimp only
      rw [show (begun c r l p q).remaining = m + 1 from hm]
      dsimp only
      have hsk : (∃ e s', skipThumbnail { begun c r l p q with remaining := 0 } = .ok (.error e, s') ∧ Stopped s') ∨
          r.Skips l ∧ ∃ s', skipThumbnail { begun c r l p q with remaining := 0 } = .ok (.ok (), s') ∧ Stopped s' ∧ s'.colorType = c := by
        cases hfc : r.frameControl with
        | some fc =>
          exact .inr ⟨fun h => (by rw [hfc] at h; cases h), _,
            skip_none { begun c r l p q with remaining := 0 } (show r.frameControl.isNone = false by rw [hfc]; rfl), ⟨rfl, rfl, rfl⟩, rfl⟩
        | none =>
          obtain ⟨k1, k2⟩ := skip_spec { begun c r l p q with remaining := 0 } (show r.frameControl.isNone = true by rw [hfc]; rfl)
          obtain ⟨u1, u2⟩ := reserveUsize_spec l (size := r.outputBufferSize) hall
          by_cases hraw : RawFits l r.width r.height r.outputBufferSize
          · by_cases hes : ∃ q es, r.events = .ok q :: es
            · obtain ⟨⟨tfc, tdata⟩, es, hes⟩ := hes
              exact .inr ⟨fun _ => ⟨hraw, _, es, hes⟩, _, k1 _ tfc tdata es (u1 hraw) hes, ⟨rfl, rfl, rfl⟩, rfl⟩
            · obtain ⟨e, r', hk⟩ := k2 (fun l' _ fc data es h => hes ⟨(fc, data), es, h⟩)
                (show (reserved l (2 * (r.width * r.height * 4))).reserveUsize r.outputBufferSize ≠ _ by rw [u1 hraw]; intro h; cases h)
              exact .inl ⟨e, _, hk, rfl, rfl, rfl⟩
          · obtain ⟨e, he⟩ := u2 hraw
            obtain ⟨e, r', hk⟩ := k2 (fun l' h => by
                change (reserved l (2 * (r.width * r.height * 4))).reserveUsize r.outputBufferSize = _ at h; rw [he] at h; cases h)
                (show (reserved l (2 * (r.width * r.height * 4))).reserveUsize r.outputBufferSize ≠ _ by rw [he]; intro h; cases h)
            exact .inl ⟨e, _, hk, rfl, rfl, rfl⟩
      rcases hsk with ⟨e, s', h1, h2⟩ | ⟨hskips, s', h1, h2, h3⟩
      · rw [h1]
        exact ⟨e, s', rfl, h2⟩
      · rw [h1, ok_bind]
        dsimp only
        rw [h3]
        rcases hc with hc | hc
        · refine ⟨.unsupported, s', ?_, h2⟩
          rcases hc with rfl | rfl | rfl | rfl <;> rfl
        · exact absurd hskips hc
    obtain ⟨e, s', h1, h2⟩ := hmix
    refine ⟨e, s', ?_, h2⟩
    unfold Decoder.next
    rw [h1]
    rfl
  obtain ⟨e, s', h1, h2⟩ := hnext
  refine ⟨e, ?_⟩
  rw [he]
  unfold Decoder.take
  rw [h1, ok_bind]
  dsimp only
  rw [stopped_take h2]
  rfl

theorem allocate_fail (s : Decoder) (hc : s.current = none) {e : Err}
    (hr : s.limits.reserveBuffer s.reader.width s.reader.height .Rgba8 = .error (.err e)) : allocate s = .ok (.error e, s) := by
  unfold allocate
  cases hp : s.previous with
  | some p =>
    dsimp only
    rw [ok_bind]
    dsimp only
    rw [hc]
    dsimp only
    rw [hr]
    rfl
  | none =>
    dsimp only
    rw [hr]
    rfl

/-- **C79**: if the limits do not allow the two canvases then every call fails. -/
theorem C79_limits (c : ColorType) (r : Reader) (l : Limits) (hw : r.width < 2 ^ 32) (hh : r.height < 2 ^ 32) (hs : r.width * r.height * 4 < 2 ^ 64)
    (hf : ¬ Fits l (r.width * r.height * 4) r.width r.height) (n : Nat) :
    ∃ e, (Decoder.new c r l).take n = .ok (List.replicate n (some (Except.error e))) := by
  have loop : ∀ (s : Decoder) (e : Err), s.next = .ok (some (.error e), s) → ∀ n, s.take n = .ok (List.replicate n (some (.error e))) := by
    intro s e h n
    induction n with
    | zero => rfl
    | succ n ih =>
      unfold Decoder.take
      rw [h, ok_bind]
      dsimp only
      rw [ih]
      rfl
  by_cases h0 : Fits l 0 r.width r.height
  · obtain ⟨b, e, hb⟩ := blank_shows hw hh hs
    have r1 := (Gif.reserve_spec l (used := 0) hs (fun _ _ => Nat.zero_le _)).1 h0
    obtain ⟨err, r2⟩ := (Gif.reserve_spec l (used := r.width * r.height * 4) hs (fun m hm => by have := h0.2.2 m hm; omega)).2 hf
    rw [reserved_zero, Nat.zero_add] at r1
    let s' : Decoder := { Decoder.new c r l with limits := reserved l (r.width * r.height * 4), previous := some b }
    have a1 : allocate (Decoder.new c r l) = .ok (.error err, s') := by
      unfold allocate Decoder.new attempt
      dsimp only
      rw [r1]
      dsimp only
      rw [e, ok_bind, ok_bind]
      dsimp only
      rw [r2]
      rfl
    have a2 : allocate s' = .ok (.error err, s') := allocate_fail s' rfl r2
    have n1 : (Decoder.new c r l).next = .ok (some (.error err), s') := by
      unfold Decoder.next Decoder.mixNextFrame
      rw [a1]
      rfl
    have n2 : s'.next = .ok (some (.error err), s') := by
      unfold Decoder.next Decoder.mixNextFrame
      rw [a2]
      rfl
    refine ⟨err, ?_⟩
    rw [take_next (n1.trans n2.symm)]
    exact loop s' err n2 n
  · obtain ⟨err, r1⟩ := (Gif.reserve_spec l (used := 0) hs (fun _ _ => Nat.zero_le _)).2 h0
    rw [reserved_zero] at r1
    refine ⟨err, loop _ err ?_ n⟩
    unfold Decoder.next Decoder.mixNextFrame
    have a1 : allocate (Decoder.new c r l) = .ok (.error err, Decoder.new c r l) := allocate_fail _ rfl r1
    rw [a1]
    rfl

/-- **C79**: the calls never panic, and after an error no frame is ever returned. -/
theorem C79_total (c : ColorType) (hc : Animatable c ∨ c = .L16 ∨ c = .La16 ∨ c = .Rgb16 ∨ c = .Rgba16) (r : Reader) (l : Limits) (hr : r.Ok c) (n : Nat) :
    ∃ items, (Decoder.new c r l).take n = .ok items ∧ items.length = n ∧
      ∀ (j k : Nat) (e : Err) (f : Frame), j < k → items[j]? = some (some (Except.error e)) → items[k]? ≠ some (some (Except.ok f)) := by
  by_cases hf : Fits l (r.width * r.height * 4) r.width r.height
  · by_cases hgood : Animatable c ∧ r.Skips l
    · obtain ⟨items, i1, i2, i3⟩ := decoded c hgood.1 r l hr hf hgood.2 n
      refine ⟨items, i1, i2, ?_⟩
      intro j k e f hjk hj hk
      have h1 := i3 j _ hj
      have h2 := i3 k _ hk
      have g1 : (shownFrames r l)[j]? = none := by
        cases hg : (shownFrames r l)[j]? with
        | none => rfl
        | some q =>
          unfold Outcome at h1
          rw [hg] at h1
          obtain ⟨f', hf', -⟩ := h1
          cases hf'
      unfold Outcome at h2
      rw [List.getElem?_eq_none (by have := List.getElem?_eq_none_iff.1 g1; omega)] at h2
      dsimp only at h2
      split at h2
      · obtain ⟨e, he⟩ := h2; cases he
      · cases h2
    · have hbad : (c = .L16 ∨ c = .La16 ∨ c = .Rgb16 ∨ c = .Rgba16) ∨ ¬ r.Skips l := by
        rcases hc with hc | hc
        · exact .inr fun h => hgood ⟨hc, h⟩
        · exact .inl hc
      have hno : ∀ {items : List (Option (Except Err Frame))} {m : Nat} {a}, (∀ f, a ≠ some (Except.ok f)) → items = a :: List.replicate m none →
          ∀ (j k : Nat) (e : Err) (f : Frame), j < k → items[j]? = some (some (Except.error e)) → items[k]? ≠ some (some (Except.ok f)) := by
        rintro items m a ha rfl j k e f hjk - hk
        obtain ⟨k, rfl⟩ := Nat.exists_eq_succ_of_ne_zero (show k ≠ 0 by omega)
        rw [List.getElem?_cons_succ, List.getElem?_replicate] at hk
        split at hk <;> cases hk
      cases n with
      | zero => exact ⟨[], rfl, rfl, fun j k e f _ h => by simp at h⟩
      | succ n =>
        by_cases h0 : r.numFrames.getD 0 = 0
        · refine ⟨_, (C79_refused c r l hr.width hr.height hr.rgba hf hbad (n + 1)).1 h0, List.length_replicate .., ?_⟩
          exact hno (fun f h => by cases h) (List.replicate_succ ..)
        · obtain ⟨e, he⟩ := (C79_refused c r l hr.width hr.height hr.rgba hf hbad n).2 h0
          exact ⟨_, he, by simp, hno (fun f h => by cases h) rfl⟩
  · obtain ⟨e, he⟩ := C79_limits c r l hr.width hr.height hr.rgba hf n
    refine ⟨_, he, List.length_replicate .., ?_⟩
    intro j k e f _ _ hk
    rw [List.getElem?_replicate] at hk
    split at hk <;> cases hk

/-! ## Examples -/

/-- 1×1 red, opaque. -/
def red : List Nat := [255, 0, 0, 255]

/-- A frame control that covers one pixel. -/
def onePixel (d : DisposeOp) : FrameControl := ⟨1, 1, 0, 0, 1, 10, d, .source⟩

/-- An animation of three frames of one pixel: red and disposed to the background, green and disposed to the previous, nothing. -/
def flicker : Reader := ⟨1, 1, some 3, some (onePixel .background), 4,
  [.ok (some (onePixel .background), red), .ok (some (onePixel .previous), [0, 255, 0, 255]), .ok (some { onePixel .none with blend := .over }, [0, 0, 0, 0])]⟩

theorem flicker_ok : flicker.Ok .Rgba8 := by
  refine ⟨by decide, by decide, by decide, by decide, by decide, ?_⟩
  intro e he
  rw [show flicker.frames = flicker.events from rfl] at he
  simp only [flicker, List.mem_cons, List.not_mem_nil, or_false] at he
  rcases he with rfl | rfl | rfl <;>
    refine ⟨⟨by decide, by decide, by decide, by decide, by decide⟩, by decide, ?_⟩ <;> decide

theorem flicker_fits : Fits .noLimits (flicker.width * flicker.height * 4) flicker.width flicker.height :=
  ⟨fun m h => (by cases h), fun m h => (by cases h), fun m h => (by cases h)⟩

theorem flicker_allowed (w h size : Nat) (fc : FrameControl) : Allowed .noLimits w h size fc :=
  ⟨fun m h => (by cases h), fun m h => (by cases h), fun m h => by cases h⟩

theorem flicker_shown : shownFrames flicker .noLimits = [(onePixel .background, red), (onePixel .previous, [0, 255, 0, 255]),
    ({ onePixel .none with blend := .over }, [0, 0, 0, 0])] := by
  unfold shownFrames
  rw [show flicker.frames = flicker.events from rfl]
  unfold flicker
  dsimp only [Option.getD]
  simp only [played, if_pos (flicker_allowed _ _ _ _)]

/-- The three pictures of the decoder. -/
theorem flicker_run : ((Decoder.new .Rgba8 flicker .noLimits).take 4).map (·.map fun o => o.map fun e => e.toOption.map fun f => (f.buffer.data, f.delay)) =
    .ok [some (some ([255, 0, 0, 255], ⟨1000, 10⟩)), some (some ([0, 255, 0, 255], ⟨1000, 10⟩)), some (some ([255, 0, 0, 255], ⟨1000, 10⟩)), none] := by
  decide +kernel

/-- **C79 is false** for a frame that is disposed to the previous canvas after one that is disposed to the background: the third picture of `flicker` is red
instead of transparent, since the canvas that is kept still shows the red frame. -/
theorem C79_frames_false : ¬ (∀ (c : ColorType), Animatable c → ∀ (r : Reader) (l : Limits), r.Ok c → Fits l (r.width * r.height * 4) r.width r.height →
    r.Skips l → ∀ n items, (Decoder.new c r l).take n = .ok items → ∀ k fc data, (shownFrames r l)[k]? = some (fc, data) → ∀ f, items[k]? = some (some (.ok f)) →
      Shows f.buffer r.width r.height (picture over clear (before c r l k) (frameOf c fc data))) := by
  intro h
  have hsk : flicker.Skips .noLimits := fun h => by cases h
  obtain ⟨items, i1, i2, i3⟩ := C79_frames_partial .Rgba8 (.inr (.inr (.inr rfl))) flicker .noLimits flicker_ok flicker_fits hsk 4
  obtain ⟨f, f1, -⟩ := (i3 2 (by decide)).1 _ _ (by rw [flicker_shown]; rfl)
  have hpic := h .Rgba8 (.inr (.inr (.inr rfl))) flicker .noLimits flicker_ok flicker_fits hsk 4 items i1 2 _ _ (by rw [flicker_shown]; rfl) f f1
  have hrun := flicker_run
  rw [i1] at hrun
  simp only [Except.map, Except.ok.injEq] at hrun
  have hdata := congrArg (fun l => l[2]?) hrun
  simp only [List.getElem?_map, f1, Option.map_some, Except.toOption] at hdata
  simp at hdata
  have hp := hpic.pixels 0 0 (by decide) (by decide)
  have hb := getPixel_raw hpic.inv (x := 0) (y := 0) (by rw [hpic.width]; decide) (by rw [hpic.height]; decide)
  rw [hb, hdata.1] at hp
  have hq := congrArg (fun (p : R (Pix Nat 4)) => match p with | .ok p => p 0 | .error _ => 7) hp
  have hbef : before .Rgba8 flicker .noLimits 2 = [frameOf .Rgba8 (onePixel .background) red, frameOf .Rgba8 (onePixel .previous) [0, 255, 0, 255]] := by
    unfold before
    rw [flicker_shown]
    rfl
  rw [hbef, Nat.zero_mul] at hq
  revert hq
  decide +kernel

/-- Two frames of an image with a default image that is not part of the animation; the second is blended over the first. -/
def blink : Reader := ⟨2, 1, some 2, none, 6,
  [.ok (none, [9, 9, 9, 9, 9, 9]), .ok (some ⟨2, 1, 0, 0, 1, 10, .none, .source⟩, [1, 2, 3, 4, 5, 6]),
    .ok (some ⟨1, 1, 1, 0, 1, 0, .none, .over⟩, [7, 8, 9, 0, 0, 0])]⟩

/-- `C79_frames_partial` applies to `blink`, and this is what it says. -/
example : blink.Ok .Rgb8 ∧ Fits .default (blink.width * blink.height * 4) blink.width blink.height ∧ blink.Skips .default := by
  refine ⟨⟨by decide, by decide, by decide, by decide, by decide, ?_⟩, ⟨fun m h => (by cases h), fun m h => (by cases h), fun m h => (by cases h; decide)⟩, ?_⟩
  · intro e he
    rw [show blink.frames = blink.events.tail from rfl] at he
    simp only [blink, List.tail_cons, List.mem_cons, List.not_mem_nil, or_false] at he
    rcases he with rfl | rfl <;> refine ⟨⟨by decide, by decide, by decide, by decide, by decide⟩, by decide, ?_⟩ <;> decide
  · exact fun _ => ⟨fun m h => (by cases h; decide), _, _, rfl⟩

example : ((Decoder.new .Rgb8 blink .default).take 3).map (·.map fun o => o.map fun e => e.toOption.map fun f => (f.buffer.data, f.delay)) =
    .ok [some (some ([1, 2, 3, 255, 4, 5, 6, 255], ⟨1000, 10⟩)), some (some ([1, 2, 3, 255, 7, 8, 9, 255], ⟨1000, 100⟩)), none] := by
  decide +kernel

/-- 16-bit colours. -/
example : ((Decoder.new .Rgb16 { blink with outputBufferSize := 12 } .default).take 3).map (·.map fun o => o.map fun e => e.toOption.isSome) =
    .ok [some false, none, none] := by decide +kernel

/-- Too small limits. -/
example : ((Decoder.new .Rgb8 blink ⟨none, none, some 15⟩).take 3).map (·.map fun o => o.map fun e => e.toOption.isSome) =
    .ok [some false, some false, some false] := by decide +kernel

end Apng
end Verif
