import Verif.Model.Webp
import Verif.Proofs.Buffer
import Verif.Proofs.Apng
import Verif.Props.Color

/-!
# C101: WebP animations; C102: the orientation of JPEG and WebP images
-/

namespace Verif.Webp
open Verif ImageBuffer

/-- What the k-th call of `next` must yield, when the crate's k-th `read_frame` has the outcome `r`: the picture with the crate's samples
(an opaque one when the file has no alpha channel) and the crate's duration in milliseconds; nothing when there are no more frames; or an error. -/
def Yields (w h : Nat) (alpha : Bool) (r : Except WebpErr (List Nat × Nat)) (o : Option (Except Err Frame)) : Prop :=
  match r with
  | .ok (data, ms) => ∃ f, o = some (.ok f) ∧ f.left = 0 ∧ f.top = 0 ∧ f.delay = ⟨ms, 1⟩ ∧ f.buffer.Inv ∧
      f.buffer.width = w ∧ f.buffer.height = h ∧
      ∀ x y, x < w → y < h → ∃ p, f.buffer.getPixel x y = .ok p ∧
        (alpha = true → ∀ c : Fin 4, data[(y * w + x) * 4 + c.val]? = some (p c)) ∧
        (alpha = false → data[(y * w + x) * 3]? = some (p 0) ∧ data[(y * w + x) * 3 + 1]? = some (p 1) ∧
          data[(y * w + x) * 3 + 2]? = some (p 2) ∧ p 3 = 255)
  | .error .noMoreFrames => o = none
  | .error .io => o = some (.error .io)
  | .error .other => o = some (.error .decoding)

/-- The crate's buffers are full and its samples are bytes. -/
def Crate.Ok (c : Crate) : Prop :=
  ∀ k data ms, c.frames k = .ok (data, ms) →
    data.length = c.width * c.height * (if c.hasAlpha then 4 else 3) ∧ ∀ v ∈ data, v ≤ 255

theorem next_ok (c : Crate) (hw : c.width < 2 ^ 32) (hh : c.height < 2 ^ 32) (hs : c.width * c.height * 4 < 2 ^ 64)
    (hc : c.Ok) (hn : c.numFrames < 2 ^ 32) (k : Nat) (hk : k < c.numFrames) :
    ∃ o, (⟨c, k, k⟩ : Iter).next = .ok (o, ⟨c, k + 1, k + 1⟩) ∧ Yields c.width c.height c.hasAlpha (c.frames k) o := by
  unfold Iter.next
  dsimp only
  rw [if_neg (by omega), addC_ok (by omega)]
  simp only [ok_bind]
  have h3 : c.width * c.height * 3 < 2 ^ 64 := by omega
  cases ha : c.hasAlpha with
  | true =>
    rw [if_pos rfl, new_ok (by omega) hw hs]
    simp only [ok_bind]
    cases hf : c.frames k with
    | error e => cases e <;> exact ⟨_, rfl, rfl⟩
    | ok r =>
      obtain ⟨data, ms⟩ := r
      obtain ⟨hl, hv⟩ := hc k data ms hf
      rw [ha, if_pos rfl] at hl
      have hinv : (⟨c.width, c.height, data⟩ : ImageBuffer Nat 4).Inv :=
        ⟨hw, hh, by dsimp only; omega, by dsimp only; omega⟩
      refine ⟨_, rfl, _, rfl, rfl, rfl, rfl, hinv, rfl, rfl, ?_⟩
      intro x y hx hy
      refine ⟨_, Apng.getPixel_raw hinv hx hy, fun _ i => ?_, by simp⟩
      have := chunk_end_le (ch := 4) (idx_lt hx hy)
      have := i.isLt
      rw [List.getD_eq_getElem?_getD, List.getElem?_eq_getElem (by omega)]
      rfl
  | false =>
    rw [if_neg (by simp), new_ok (by omega) hw h3]
    simp only [ok_bind]
    cases hf : c.frames k with
    | error e => cases e <;> exact ⟨_, rfl, rfl⟩
    | ok r =>
      obtain ⟨data, ms⟩ := r
      obtain ⟨hl, hv⟩ := hc k data ms hf
      rw [ha, if_neg (by simp)] at hl
      have hinv : (⟨c.width, c.height, data⟩ : ImageBuffer Nat 3).Inv :=
        ⟨hw, hh, by dsimp only; omega, by dsimp only; omega⟩
      obtain ⟨b, b1, b2, b3, b4, b5, b6⟩ := C20_convert_buffer .u8 .u8 (Or.inl rfl) .rgb .rgba ⟨c.width, c.height, data⟩ hinv hv hs
      dsimp only
      rw [b1]
      simp only [ok_bind]
      refine ⟨_, rfl, _, rfl, rfl, rfl, rfl, b2, b3, b4, ?_⟩
      intro x y hx hy
      obtain ⟨q, q1, q2⟩ := b6 x y _ hx hy (Apng.getPixel_raw hinv hx hy)
      simp only [fromColor, fromPrimitive_same, ok_bind, Except.ok.injEq] at q1
      have := chunk_end_le (ch := 3) (idx_lt hx hy)
      have hget : ∀ i, i < 3 → data[(y * c.width + x) * 3 + i]? = some (data.getD ((y * c.width + x) * 3 + i) 0) := by
        intro i hi
        rw [List.getD_eq_getElem?_getD, List.getElem?_eq_getElem (by omega)]
        rfl
      refine ⟨q, q2, by simp, fun _ => ?_⟩
      rw [← q1]
      exact ⟨hget 0 (by omega), hget 1 (by omega), hget 2 (by omega), rfl⟩

/-- The frames of an animation: the k-th call of `next` yields the crate's k-th frame while there are frames, and nothing from then on. -/
theorem C101_frames (c : Crate) (hw : c.width < 2 ^ 32) (hh : c.height < 2 ^ 32) (hs : c.width * c.height * 4 < 2 ^ 64)
    (hc : c.Ok) (hn : c.numFrames < 2 ^ 32) (n : Nat) :
    ∃ items, c.intoFrames.take n = .ok items ∧ items.length = n ∧ ∀ k o, items[k]? = some o →
      (k < c.numFrames → Yields c.width c.height c.hasAlpha (c.frames k) o) ∧ (c.numFrames ≤ k → o = none) := by
  have main : ∀ n j, j ≤ c.numFrames → ∃ items, (⟨c, j, j⟩ : Iter).take n = .ok items ∧ items.length = n ∧ ∀ k o, items[k]? = some o →
      (j + k < c.numFrames → Yields c.width c.height c.hasAlpha (c.frames (j + k)) o) ∧ (c.numFrames ≤ j + k → o = none) := by
    intro n
    induction n with
    | zero => intro j _; exact ⟨[], rfl, rfl, by simp⟩
    | succ n ih =>
      intro j hj
      rcases Nat.lt_or_ge j c.numFrames with hlt | hge
      · obtain ⟨o, o1, o2⟩ := next_ok c hw hh hs hc hn j hlt
        obtain ⟨items, i1, i2, i3⟩ := ih (j + 1) hlt
        refine ⟨o :: items, ?_, by simp [i2], ?_⟩
        · unfold Iter.take
          rw [o1]
          simp only [ok_bind, i1]
        · intro k o' hk
          cases k with
          | zero =>
            simp only [List.getElem?_cons_zero, Option.some.injEq] at hk
            subst hk
            exact ⟨fun _ => o2, fun h => by omega⟩
          | succ k =>
            simp only [List.getElem?_cons_succ] at hk
            have := i3 k o' hk
            rw [show j + 1 + k = j + (k + 1) by omega] at this
            exact this
      · have hjn : j = c.numFrames := by omega
        obtain ⟨items, i1, i2, i3⟩ := ih j hj
        refine ⟨none :: items, ?_, by simp [i2], ?_⟩
        · unfold Iter.take Iter.next
          dsimp only
          rw [if_pos hjn]
          simp only [ok_bind, i1]
        · intro k o' hk
          cases k with
          | zero =>
            simp only [List.getElem?_cons_zero, Option.some.injEq] at hk
            subst hk
            exact ⟨fun h => by omega, fun _ => rfl⟩
          | succ k =>
            simp only [List.getElem?_cons_succ] at hk
            refine ⟨fun h => by omega, fun _ => (i3 k o' hk).2 (by omega)⟩
  obtain ⟨items, i1, i2, i3⟩ := main n 0 (Nat.zero_le _)
  refine ⟨items, i1, i2, fun k o hk => ?_⟩
  have := i3 k o hk
  rwa [Nat.zero_add] at this

/-- The still image is the crate's, and the announced colour type has an alpha channel exactly when the file does. -/
theorem C101_image (c : Crate) (bytes : List UInt8) (hi : c.image = .ok bytes)
    (hs : c.width * c.height * (if c.hasAlpha then 4 else 3) < 2 ^ 64) :
    c.readImage (c.width * c.height * (if c.hasAlpha then 4 else 3)) = .ok bytes ∧
      c.colorType.bytesPerPixel = (if c.hasAlpha then 4 else 3) := by
  have hb : c.colorType.bytesPerPixel = (if c.hasAlpha then 4 else 3) := by
    unfold Crate.colorType
    cases c.hasAlpha <;> rfl
  refine ⟨?_, hb⟩
  unfold Crate.readImage totalBytes satMul
  rw [hb, hi, decide_eq_true (by omega)]
  rfl

/-- A 1 x 1 animation without alpha: one frame of 40 ms, one that cannot be read, and a last one. -/
def exAnim : Crate := ⟨1, 1, false, 3, fun k => if k = 1 then .error .other else .ok ([k % 3 * 10, 7, 8], 40), .error .other⟩

example : exAnim.Ok := by
  intro k data ms h
  unfold exAnim at h ⊢
  dsimp only at h
  split at h
  · cases h
  · simp only [Except.ok.injEq, Prod.mk.injEq] at h
    rw [← h.1]
    refine ⟨rfl, ?_⟩
    simp only [List.mem_cons, List.not_mem_nil, or_false]
    omega

example : (exAnim.intoFrames.take 5).map (·.map (·.map (fun r => match r with | .ok f => (f.buffer.data, f.delay.numer) | .error _ => ([], 0)))) =
    .ok [some ([0, 7, 8, 255], 40), some ([], 0), some ([20, 7, 8, 255], 40), none, none] := by decide +kernel

/-! ## C102 -/

/-- A call of one of the two functions. -/
inductive Call where
  | exif | orientation
  deriving DecidableEq

/-- What a call returns. -/
inductive Answer where
  | exif (r : R (Option (List UInt8)))
  | orientation (r : R Orientation)
  deriving DecidableEq

/-- The answers to a sequence of calls, from a given cached orientation. -/
def answers (exif : Except Err (Option (List UInt8))) : List Call → Option Orientation → List Answer
  | [], _ => []
  | .exif :: cs, o => .exif (exifMetadata exif o).1 :: answers exif cs (exifMetadata exif o).2
  | .orientation :: cs, o => .orientation (orientation exif o).1 :: answers exif cs (orientation exif o).2

/-- The right answer to a call: the EXIF chunk of the file, and the orientation in it (none: `NoTransforms`). -/
def answer (exif : Except Err (Option (List UInt8))) : Call → Answer
  | .exif => .exif (match exif with | .ok c => .ok c | .error e => errR e)
  | .orientation => .orientation (match exif with
    | .ok (some c) => .ok ((Orientation.fromExifChunk c).getD .NoTransforms)
    | .ok none => .ok .NoTransforms
    | .error e => errR e)

/-- Whatever was called before, in whatever order, `exif_metadata` returns the EXIF chunk and `orientation` the orientation in it. -/
theorem C102_orientation (exif : Except Err (Option (List UInt8))) (calls : List Call) :
    answers exif calls none = calls.map (answer exif) := by
  have main : ∀ (calls : List Call) (o : Option Orientation),
      (o = none ∨ ∃ c, exif = .ok c ∧ o = some ((c.bind Orientation.fromExifChunk).getD .NoTransforms)) →
      answers exif calls o = calls.map (answer exif) := by
    intro calls
    induction calls with
    | nil => intro o _; rfl
    | cons call calls ih =>
      intro o ho
      cases call with
      | exif =>
        simp only [answers, List.map_cons]
        congr 1
        · cases exif <;> rfl
        · apply ih
          cases exif with
          | error e => exact ho
          | ok c => exact Or.inr ⟨c, rfl, rfl⟩
      | orientation =>
        simp only [answers, List.map_cons]
        rcases ho with rfl | ⟨c, rfl, rfl⟩
        · cases exif with
          | error e => congr 1; exact ih none (Or.inl rfl)
          | ok c =>
            congr 1
            · cases c <;> rfl
            · exact ih _ (Or.inr ⟨c, rfl, rfl⟩)
        · congr 1
          · cases c <;> rfl
          · exact ih _ (Or.inr ⟨c, rfl, rfl⟩)
  exact main calls none (Or.inl rfl)

/-- An EXIF chunk with orientation 6. -/
def exChunk : List UInt8 :=
  [0x4d, 0x4d, 0, 42, 0, 0, 0, 8, 0, 1, 0x01, 0x12, 0, 3, 0, 0, 0, 1, 0, 6, 0, 0]

example : answers (.ok (some exChunk)) [.orientation, .exif, .orientation] none =
    [.orientation (.ok .Rotate90), .exif (.ok (some exChunk)), .orientation (.ok .Rotate90)] := by decide +kernel

end Verif.Webp
