import Verif.Props.Gif

/-!
# C77: the still image of a GIF file; C78: what the GIF encoder writes
-/

namespace Verif
namespace Gif
open ImageBuffer GifSpec

/-- The colour at a position of an image of the given width: four bytes per pixel, row by row. -/
def colourAt (w : Nat) (data : List UInt8) (x y : Nat) : Colour :=
  let k := (y * w + x) * 4
  (data.getD k 0, data.getD (k + 1) 0, data.getD (k + 2) 0, data.getD (k + 3) 0)

/-- A frame alone: its pixels where it is, and transparent elsewhere. -/
def alone (f : GifSpec.Frame) : Canvas := fun x y => if f.covers x y then f.pixels (x - f.left) (y - f.top) else transparent

theorem shows_colour {b : ImageBuffer UInt8 4} {w h : Nat} {c : Canvas} (hb : Shows b w h c) {x y : Nat} (hx : x < w) (hy : y < h) :
    colourAt w b.data x y = c x y := by
  have := (getPixel_eq_ok hb.inv (by rw [hb.width]; exact hx) (by rw [hb.height]; exact hy) _).1 (hb.pixels x y hx hy)
  rw [hb.width] at this
  have h0 := this 0
  have h1 := this 1
  have h2 := this 2
  have h3 := this 3
  unfold colourAt
  dsimp only
  simp only [List.getD_eq_getElem?_getD]
  have e0 : b.data[(y * w + x) * 4]? = some (c x y).1 := h0
  have e1 : b.data[(y * w + x) * 4 + 1]? = some (c x y).2.1 := h1
  have e2 : b.data[(y * w + x) * 4 + 2]? = some (c x y).2.2.1 := h2
  have e3 : b.data[(y * w + x) * 4 + 3]? = some (c x y).2.2.2 := h3
  rw [e0, e1, e2, e3]
  rfl

theorem insert_spec {w h : Nat} (hw : w < 2 ^ 16) (hh : h < 2 ^ 16) {i : Info} {data : List UInt8} (hi : i.Ok data) {frame image : ImageBuffer UInt8 4}
    (hf : Shows frame i.width i.height (frameOf i data).pixels) (hinv : image.Inv) (h1 : image.width = w) (h2 : image.height = h)
    (h0 : image.data.length = w * h * 4) :
    ∃ b, insertFrame i frame image = .ok b ∧ Shows b w h (alone (frameOf i data)) ∧ b.data.length = image.data.length := by
  have hil := hi.left
  have hit := hi.top
  have hiw := hi.width
  have hih := hi.height
  unfold insertFrame
  obtain ⟨b', s', e, g1, g2, g3, g4, g5, -⟩ := enumerateMut_spec (b := image) hinv (by decide) (by decide)
    (f := fun x y _ (_ : Unit) => do
      let fx := wrappingSub32 x i.left
      let fy := wrappingSub32 y i.top
      if fx < i.width ∧ fy < i.height then do
        let p ← frame.getPixel fx fy
        .ok (p, ())
      else .ok (clear, ()))
    (fun _ _ => True) (fun x y => toPix (alone (frameOf i data) x y)) (s := ()) trivial (by
      intro x y p hx hy _ s _
      refine ⟨(), ?_, trivial⟩
      dsimp only
      by_cases hc : (frameOf i data).covers x y
      · have hc' : i.left ≤ x ∧ x < i.left + i.width ∧ i.top ≤ y ∧ y < i.top + i.height := hc
        rw [if_pos ⟨(wrapping_lt (by omega) hil hiw).2 ⟨hc'.1, hc'.2.1⟩, (wrapping_lt (by omega) hit hih).2 ⟨hc'.2.2.1, hc'.2.2.2⟩⟩,
          wrapping_eq (by omega) hc'.1, wrapping_eq (by omega) hc'.2.2.1, hf.pixels _ _ (by omega) (by omega), ok_bind]
        unfold alone
        rw [if_pos hc]
        rfl
      · rw [if_neg]
        · unfold alone
          rw [if_neg hc]
          congr 2
          exact pix_ext rfl rfl rfl rfl
        · rintro ⟨h3, h4⟩
          rw [wrapping_lt (by omega) hil hiw] at h3
          rw [wrapping_lt (by omega) hit hih] at h4
          exact hc ⟨h3.1, h3.2, h4.1, h4.2⟩)
  rw [e]
  rw [h1, h2] at g5
  exact ⟨b', rfl, ⟨g1, g2.trans h1, g3.trans h2, g4.trans h0, g5⟩, g4⟩

/-- A frame between blank rows. -/
theorem rows_spec {w top mid : Nat} {data : List UInt8} (hd : data.length = w * mid * 4) {x y : Nat} (hx : x < w)
    (j : Nat) (hj : j < 4) (n : Nat) :
    (List.replicate (w * 4 * top) 0 ++ data ++ List.replicate n 0).getD ((y * w + x) * 4 + j) 0 =
      if top ≤ y ∧ y < top + mid then data.getD (((y - top) * w + x) * 4 + j) 0 else (0 : UInt8) := by
  have ex : ∀ a b : Nat, a < b → a * w + x < b * w := by
    intro a b hab
    have : (a + 1) * w ≤ b * w := Nat.mul_le_mul_right _ hab
    rw [Nat.succ_mul] at this
    omega
  have e1 : w * 4 * top = top * w * 4 := by rw [Nat.mul_comm, Nat.mul_assoc]
  have e2 : w * mid * 4 = mid * w * 4 := by rw [Nat.mul_comm w]
  simp only [List.getD_eq_getElem?_getD]
  rw [List.getElem?_append, List.getElem?_append, List.length_append, List.length_replicate, hd, e1, e2]
  by_cases h1 : y < top
  · have := ex y top h1
    rw [if_neg (show ¬ (top ≤ y ∧ y < top + mid) by omega), if_pos (by omega), if_pos (by omega), List.getElem?_replicate]
    split <;> rfl
  · have h3 : (y - top) * w = y * w - top * w := Nat.sub_mul ..
    have h4 : top * w ≤ y * w := Nat.mul_le_mul_right _ (by omega)
    by_cases h2 : y < top + mid
    · have := ex (y - top) mid (by omega)
      rw [if_pos (show top ≤ y ∧ y < top + mid by omega), if_pos (by omega), if_neg (by omega)]
      congr 2
      omega
    · have h5 : mid * w ≤ (y - top) * w := Nat.mul_le_mul_right _ (by omega)
      rw [if_neg (show ¬ (top ≤ y ∧ y < top + mid) by omega), if_neg (by omega), List.getElem?_replicate]
      split <;> rfl

/-- The frame spans whole rows of the screen, so that it is read straight into the caller's buffer. -/
def wholeRows (w h : Nat) (i : Info) : Prop := i.left = 0 ∧ i.width = w ∧ i.top + i.height ≤ h

/-- **C77**: the still image. For every GIF whose first frame can be read, into every buffer of the documented size, `read_image` stores that frame at its
position and transparent black around it, whatever the buffer held; it fails only if the frame does not span whole rows and the limits do not allow to
store it. If the first frame cannot be read, or there is none, then it is an error; it never panics. -/
theorem C77_still (d : Decoder) (buf : List UInt8) (hw : d.reader.width < 2 ^ 16) (hh : d.reader.height < 2 ^ 16) (hev : ∀ e ∈ d.reader.events, e.Ok)
    (hbuf : buf.length = d.reader.width * d.reader.height * 4) :
    (∀ i data rest, d.reader.events = .frame i (.ok data) :: rest →
      (wholeRows d.reader.width d.reader.height i ∨ (∀ m, d.limits.maxAlloc = some m → i.width * i.height * 4 ≤ m) →
        ∃ out, d.readImage buf = .ok out ∧ out.length = buf.length ∧
          ∀ x y, x < d.reader.width → y < d.reader.height → colourAt d.reader.width out x y = alone (frameOf i data) x y) ∧
      (¬ (wholeRows d.reader.width d.reader.height i ∨ (∀ m, d.limits.maxAlloc = some m → i.width * i.height * 4 ≤ m)) →
        ∃ e, d.readImage buf = .error (.err e))) ∧
    ((∀ i data rest, d.reader.events ≠ .frame i (.ok data) :: rest) → ∃ e, d.readImage buf = .error (.err e)) := by
  obtain ⟨⟨w, h, events⟩, limits⟩ := d
  dsimp only at *
  have hs := size_bound hw hh
  have ht : totalBytes w h 4 = w * h * 4 := by unfold totalBytes satMul; omega
  have hreserve : ∀ n, ((∀ m, limits.maxAlloc = some m → n ≤ m) → ∃ l, limits.reserveUsize n = .ok l) ∧
      (¬ (∀ m, limits.maxAlloc = some m → n ≤ m) → ∃ e, limits.reserveUsize n = .error (.err e)) := by
    intro n
    obtain ⟨c1, c2, c3⟩ := C27_reserve limits n
    show (_ → ∃ l, limits.reserve n = .ok l) ∧ (_ → ∃ e, limits.reserve n = .error (.err e))
    cases hm : limits.maxAlloc with
    | none => exact ⟨fun _ => ⟨_, c3 hm⟩, fun h => absurd (fun m h => nomatch h) h⟩
    | some m =>
      refine ⟨fun h => ⟨_, c2 m hm (h m rfl)⟩, fun h => ?_⟩
      by_cases hn : n ≤ m
      · exact absurd (fun m' h' => by cases h'; exact hn) h
      · exact ⟨_, c1 m hm (by omega)⟩
  have hfast : ∀ i data rest, events = .frame i data :: rest → wholeRows w h i → Decoder.readImage ⟨⟨w, h, events⟩, limits⟩ buf = (match data with
      | .error e => errR e
      | .ok data => .ok (List.replicate (w * 4 * i.top) 0 ++ data ++ List.replicate ((buf.drop (w * 4 * i.top)).drop (w * 4 * i.height)).length 0)) := by
    intro i data rest he hrows
    unfold Decoder.readImage
    dsimp only
    have p1 : w * 4 * i.top = w * i.top * 4 := by rw [Nat.mul_assoc, Nat.mul_comm 4, ← Nat.mul_assoc]
    have p2 : w * 4 * i.height = w * i.height * 4 := by rw [Nat.mul_assoc, Nat.mul_comm 4, ← Nat.mul_assoc]
    have p3 : w * i.top + w * i.height ≤ w * h := by rw [← Nat.mul_add]; exact Nat.mul_le_mul_left _ hrows.2.2
    have m1 : ∀ a b, a * b < 2 ^ 64 → unwrapR (checkedMul 64 a b) = .ok (a * b) := by
      intro a b hab
      unfold checkedMul
      rw [if_pos hab]
      rfl
    have a1 : ∀ (p : Prop) [Decidable p], p → assertR (decide p) = .ok () := fun p _ hp => by rw [decide_eq_true hp]; rfl
    rw [he, a1 _ (by rw [ht]; exact hbuf), ok_bind]
    dsimp only
    rw [if_pos (show i.left = 0 ∧ i.width = w ∧ i.top + i.height ≤ h from hrows), m1 _ _ (by omega), ok_bind, m1 _ _ (by omega), ok_bind, a1 _ (by omega), ok_bind, m1 _ _ (by omega), ok_bind,
      a1 _ (by rw [List.length_drop]; omega), ok_bind, a1 _ (by unfold bufferSize; rw [hrows.2.1]; exact p2), ok_bind]
    cases data <;> rfl
  have hslow : ∀ i data rest, events = .frame i data :: rest → ¬ wholeRows w h i → Decoder.readImage ⟨⟨w, h, events⟩, limits⟩ buf = (do
      let _ ← limits.reserveUsize (i.width * i.height * 4)
      match data with
      | .error e => errR e
      | .ok data =>
        match fromRaw 4 i.width i.height data, fromRaw 4 w h buf with
        | some frame, some image => do
          let image ← insertFrame i frame image
          .ok image.data
        | _, _ => errR .unsupported) := by
    intro i data rest he hrows
    unfold Decoder.readImage
    dsimp only
    rw [he, decide_eq_true (by rw [ht]; exact hbuf)]
    show (if i.left = 0 ∧ i.width = w ∧ i.top + i.height ≤ h then _ else _) = _
    rw [if_neg (show ¬ (i.left = 0 ∧ i.width = w ∧ i.top + i.height ≤ h) from hrows)]
    cases data <;> rfl
  have hfit : checkImageFits 4 w h buf.length = true := (checkImageFits_iff (by decide) (by omega)).2 (by omega)
  have himg : fromRaw 4 w h buf = some ⟨w, h, buf⟩ := by unfold fromRaw; rw [if_pos hfit]
  have hinv : (⟨w, h, buf⟩ : ImageBuffer UInt8 4).Inv := ⟨by dsimp only; omega, by dsimp only; omega, by dsimp only; omega, by dsimp only; omega⟩
  refine ⟨?_, ?_⟩
  · intro i data rest he
    have hi : i.Ok data := hev (.frame i (.ok data)) (by rw [he]; exact List.mem_cons_self)
    by_cases hrows : wholeRows w h i
    · refine ⟨fun _ => ?_, fun hn => absurd (.inl hrows) hn⟩
      rw [hfast i _ rest he hrows]
      have p1 : w * 4 * i.top = w * i.top * 4 := by rw [Nat.mul_assoc, Nat.mul_comm 4, ← Nat.mul_assoc]
      have p2 : w * 4 * i.height = w * i.height * 4 := by rw [Nat.mul_assoc, Nat.mul_comm 4, ← Nat.mul_assoc]
      have p3 : w * i.top + w * i.height ≤ w * h := by rw [← Nat.mul_add]; exact Nat.mul_le_mul_left _ hrows.2.2
      have hd : data.length = w * i.height * 4 := by rw [hi.data, hrows.2.1]
      refine ⟨_, rfl, ?_, ?_⟩
      · simp only [List.length_append, List.length_replicate, List.length_drop]
        omega
      · intro x y hx hy
        have R := fun j hj => rows_spec (top := i.top) (y := y) hd hx j hj ((buf.drop (w * 4 * i.top)).drop (w * 4 * i.height)).length
        unfold colourAt alone
        dsimp only
        rw [show (y * w + x) * 4 = (y * w + x) * 4 + 0 from rfl, R 0 (by decide)]
        simp only [Nat.add_zero]
        rw [R 1 (by decide), R 2 (by decide), R 3 (by decide)]
        by_cases hc : i.top ≤ y ∧ y < i.top + i.height
        · have hcov : (frameOf i data).covers x y := by
            unfold Frame.covers frameOf
            dsimp only
            have := hrows.1
            have := hrows.2.1
            omega
          rw [if_pos hcov]
          simp only [if_pos hc]
          show _ = colourAt i.width data (x - i.left) (y - i.top)
          rw [hrows.1, hrows.2.1]
          rfl
        · have hcov : ¬ (frameOf i data).covers x y := fun h => hc ⟨h.2.2.1, h.2.2.2⟩
          rw [if_neg hcov]
          simp only [if_neg hc]
          rfl
    · obtain ⟨r1, r2⟩ := hreserve (i.width * i.height * 4)
      rw [hslow i _ rest he hrows]
      refine ⟨fun ho => ?_, fun hn => ?_⟩
      · obtain ⟨l, hl⟩ := r1 (ho.resolve_left hrows)
        obtain ⟨frame, f1, f2⟩ := frame_buffer hi
        obtain ⟨b, b1, b2, b3⟩ := insert_spec hw hh hi f2 hinv rfl rfl hbuf
        rw [hl, ok_bind]
        dsimp only
        rw [f1, himg]
        dsimp only
        rw [b1, ok_bind]
        exact ⟨_, rfl, b3, fun x y hx hy => shows_colour b2 hx hy⟩
      · obtain ⟨e, hl⟩ := r2 fun h => hn (.inr h)
        rw [hl]
        exact ⟨e, rfl⟩
  · intro hno
    have hd0 : assertR (decide (buf.length = totalBytes w h 4)) = .ok () := by rw [decide_eq_true (by rw [ht]; exact hbuf)]; rfl
    cases he : events with
    | nil =>
      refine ⟨.parameter, ?_⟩
      unfold Decoder.readImage
      dsimp only
      rw [hd0, ok_bind]
      rfl
    | cons ev rest =>
      cases ev with
      | bad e =>
        refine ⟨e, ?_⟩
        unfold Decoder.readImage
        dsimp only
        rw [hd0, ok_bind]
        rfl
      | frame i data =>
        cases data with
        | ok data => exact absurd he (hno i data rest)
        | error e =>
          rw [← he]
          by_cases hrows : wholeRows w h i
          · exact ⟨e, by rw [hfast i _ rest he hrows]; rfl⟩
          · rw [hslow i _ rest he hrows]
            by_cases hm : ∀ m, limits.maxAlloc = some m → i.width * i.height * 4 ≤ m
            · obtain ⟨l, hl⟩ := (hreserve _).1 hm
              rw [hl]
              exact ⟨e, rfl⟩
            · obtain ⟨e', hl⟩ := (hreserve _).2 hm
              rw [hl]
              exact ⟨e', rfl⟩

/-- **C77**, against the animation: the first picture of the animation and the still image agree at every position, except that where the frame is
transparent the picture is transparent black and the still image keeps the colour that the file gives there. -/
theorem C77_first_frame (f : GifSpec.Frame) (x y : Nat) :
    picture [] f x y = if (alone f x y).2.2.2 = 0 then transparent else alone f x y := by
  unfold picture draw alone canvas
  dsimp only [List.foldl_nil]
  by_cases hc : f.covers x y
  · rw [if_pos hc]
    by_cases h0 : (f.pixels (x - f.left) (y - f.top)).2.2.2 = 0
    · rw [if_pos h0, if_neg (fun h => h.2 h0)]
    · rw [if_neg h0, if_pos ⟨hc, h0⟩]
  · rw [if_neg hc, if_neg (fun h => hc h.1)]
    rfl

/-- A frame of one pixel at the right of a screen of 2×1; the buffer is not zero before. -/
example : Decoder.readImage ⟨⟨2, 1, [.frame ⟨1, 0, 1, 1, .background, 6⟩ (.ok [0, 255, 0, 255])]⟩, ⟨none, none, some 4⟩⟩ [1, 2, 3, 4, 5, 6, 7, 8] =
    .ok [0, 0, 0, 0, 0, 255, 0, 255] ∧
    Decoder.readImage ⟨⟨2, 1, [.frame ⟨1, 0, 1, 1, .background, 6⟩ (.ok [0, 255, 0, 255])]⟩, ⟨none, none, some 3⟩⟩ [1, 2, 3, 4, 5, 6, 7, 8] =
    .error (.err .limitsMemory) := by decide +kernel

/-! ## The encoder -/

/-- A crate whose calls succeed. -/
def Crate.faultless : Crate := ⟨fun _ _ => none, fun _ _ => none, fun _ _ => none⟩

/-- The frame that is written for an image with a delay. -/
def written (f : ImageBuffer UInt8 4 × Delay) : OutFrame :=
  ⟨f.1.width, f.1.height, .background, min (f.2.numer / f.2.denom / 10) 65535, f.1.data⟩

/-- An image that can be a frame: its size fits `u16`, its container has the size of the image, and the delay is a fraction. -/
structure Encodable (f : ImageBuffer UInt8 4 × Delay) : Prop where
  width : f.1.width < 2 ^ 16
  height : f.1.height < 2 ^ 16
  data : f.1.data.length = f.1.width * f.1.height * 4
  delay : f.2.denom ≠ 0

/-- **C78**: a size that does not fit the format is refused, and nothing is written or changed. -/
theorem C78_dimensions (c : Crate) (s : Encoder) (image : ImageBuffer UInt8 4) (delay : Delay) (hd : delay.denom ≠ 0)
    (h : 2 ^ 16 ≤ image.width ∨ 2 ^ 16 ≤ image.height) : s.encodeFrame c image delay = .ok (.error .dimensionMismatch, s) := by
  have hd' : (delay.denom != 0) = true := by simpa using hd
  unfold Encoder.encodeFrame convertFrame gifDimensions
  rw [hd', if_neg (by omega)]
  rfl

theorem convert_ok {f : ImageBuffer UInt8 4 × Delay} (hf : Encodable f) :
    ∃ o, convertFrame f.1 f.2 = .ok (.ok o) ∧ { o with dispose := .background } = written f := by
  have hd' : (f.2.denom != 0) = true := by simpa using hf.delay
  refine ⟨{ written f with dispose := .keep }, ?_, rfl⟩
  unfold convertFrame gifDimensions
  rw [hd', if_pos ⟨hf.width, hf.height⟩]
  show (do assertR (decide (f.1.data.length = f.1.width * f.1.height * 4)); _) = _
  rw [decide_eq_true hf.data]
  rfl

/-- **C78**: frames that are encoded with a fresh encoder, in any number, are written in this order, each with its own size, pixels, and delay in units
of 10 ms (rounded down, at most 65535), and each with the disposal to the background; the screen has the size of the first one, and the repetition
is the one that was set. -/
theorem C78_frames (speed : Int) (hs : 1 ≤ speed ∧ speed ≤ 30) (rep : Option Repeat) (f : ImageBuffer UInt8 4 × Delay)
    (fs : List (ImageBuffer UInt8 4 × Delay)) (hf : ∀ g ∈ f :: fs, Encodable g) :
    ∃ s, Encoder.newWithSpeed speed = .ok s ∧
    let s := match rep with | some r => (s.setRepeat .faultless r).2 | none => s
    ∃ s', s.encodeFrames .faultless (f :: fs) = .ok (.ok (), s') ∧
      s'.gif = some ⟨f.1.width, f.1.height, rep.toList, (f :: fs).map written⟩ := by
  refine ⟨⟨true, none, speed, none⟩, ?_, ?_⟩
  · unfold Encoder.newWithSpeed
    rw [decide_eq_true hs.1, decide_eq_true hs.2]
    rfl
  dsimp only
  have hs' : (match rep with | some r => (Encoder.setRepeat .faultless ⟨true, none, speed, none⟩ r).2 | none => ⟨true, none, speed, none⟩) =
      (⟨true, none, speed, rep⟩ : Encoder) := by cases rep <;> rfl
  rw [hs']
  have more : ∀ (fs : List (ImageBuffer UInt8 4 × Delay)) (s : Encoder) (out : Out), s.gif = some out → (∀ g ∈ fs, Encodable g) →
      ∃ s', s.encodeFrames .faultless fs = .ok (.ok (), s') ∧ s'.gif = some { out with frames := out.frames ++ fs.map written } := by
    intro fs
    induction fs with
    | nil => intro s out hs _; exact ⟨s, rfl, by rw [hs]; simp⟩
    | cons g gs ih =>
      intro s out hs hg
      obtain ⟨o, e, ho⟩ := convert_ok (hg g List.mem_cons_self)
      obtain ⟨s', e2, h2⟩ := ih { s with gif := some { out with frames := out.frames ++ [written g] } } _ rfl fun g' h' => hg g' (List.mem_cons_of_mem _ h')
      refine ⟨s', ?_, ?_⟩
      · unfold Encoder.encodeFrames Encoder.encodeFrame
        rw [e, ok_bind]
        dsimp only
        unfold Encoder.encodeGif
        dsimp only
        rw [hs, ho]
        exact e2
      · rw [h2]
        simp
  obtain ⟨o, e, ho⟩ := convert_ok (hf f List.mem_cons_self)
  have hw : o.width = f.1.width := congrArg OutFrame.width ho
  have hh : o.height = f.1.height := congrArg OutFrame.height ho
  obtain ⟨s', e2, h2⟩ := more fs ⟨false, some ⟨f.1.width, f.1.height, rep.toList, [written f]⟩, speed, rep⟩ _ rfl fun g' h' => hf g' (List.mem_cons_of_mem _ h')
  refine ⟨s', ?_, ?_⟩
  · unfold Encoder.encodeFrames Encoder.encodeFrame
    rw [e, ok_bind]
    dsimp only
    unfold Encoder.encodeGif
    dsimp only
    rw [ho, hw, hh]
    cases rep <;> exact e2
  · rw [h2]
    simp

/-- What the crate's decoder delivers for a file that its encoder wrote: the frames at the corner of the screen, with the pixels as `q` quantises them. -/
def Out.readBack (out : Out) (q : List UInt8 → List UInt8) : Reader :=
  ⟨out.width, out.height, out.frames.map fun f => .frame ⟨0, 0, f.width, f.height, f.dispose, f.delay⟩ (.ok (q f.pixels))⟩

/-- A frame of the animation as it was given to the encoder, quantised: transparent where it is transparent and outside of it. -/
def shown (q : List UInt8 → List UInt8) (f : ImageBuffer UInt8 4 × Delay) : Canvas := fun x y =>
  let p := colourAt f.1.width (q f.1.data) x y
  if x < f.1.width ∧ y < f.1.height ∧ p.2.2.2 ≠ 0 then p else transparent

theorem canvas_blank (fs : List GifSpec.Frame) (h : ∀ f ∈ fs, f.disposal = .toBackground) : canvas fs = fun _ _ => transparent := by
  suffices ∀ (fs : List GifSpec.Frame), (∀ f ∈ fs, f.disposal = .toBackground) → fs.foldl after (fun _ _ => transparent) = fun _ _ => transparent from
    this fs h
  intro fs
  induction fs with
  | nil => intro _; rfl
  | cons f fs ih =>
    intro h
    rw [List.foldl_cons]
    have : after (fun _ _ => transparent) f = fun _ _ => transparent := by
      unfold after
      rw [h f List.mem_cons_self]
      funext x y
      dsimp only
      split <;> rfl
    rw [this]
    exact ih fun f' h' => h f' (List.mem_cons_of_mem _ h')

/-- **C78**: an animation survives encoding and decoding. Whatever frames are encoded, if the crate stores the (quantised) pixels faithfully and there are
no limits, then the decoder yields the frames again, as many as were given and in this order: the `k`-th shows the `k`-th frame alone – nothing of the
frames before it shines through – cut or extended to the size of the first frame, with the delay rounded down to 10 ms. -/
theorem C78_roundtrip (q : List UInt8 → List UInt8) (hq : ∀ l, (q l).length = l.length) (f : ImageBuffer UInt8 4 × Delay)
    (fs : List (ImageBuffer UInt8 4 × Delay)) (hf : ∀ g ∈ f :: fs, Encodable g) (out : Out) (hout : out.width = f.1.width ∧ out.height = f.1.height ∧
    out.frames = (f :: fs).map written) (n : Nat) :
    ∃ items, (Iter.new ⟨out.readBack q, ⟨none, none, none⟩⟩).take n = .ok items ∧ items.length = n ∧
    ∀ (k : Nat) (o : Option (Except Err Frame)), items[k]? = some o → match (f :: fs)[k]? with
      | some g => ∃ r, o = some (.ok r) ∧ Shows r.buffer f.1.width f.1.height (shown q g) ∧ r.left = 0 ∧ r.top = 0 ∧
          r.delay = ⟨10 * min (g.2.numer / g.2.denom / 10) 65535, 1⟩
      | none => o = none := by
  have hf0 := hf f List.mem_cons_self
  have hev : ∀ e ∈ (out.readBack q).events, e.Ok := by
    intro e he
    unfold Out.readBack at he
    dsimp only at he
    rw [hout.2.2, List.map_map] at he
    obtain ⟨g, hg, rfl⟩ := List.mem_map.1 he
    have := hf g hg
    refine ⟨by show (0 : Nat) < _; decide, by show (0 : Nat) < _; decide, this.width, this.height, ?_, ?_⟩
    · show min _ 65535 < 2 ^ 16
      omega
    · show (q g.1.data).length = _
      rw [hq]
      exact this.data
  obtain ⟨items, e, hl, h1, -⟩ := C76_frames ⟨out.readBack q, ⟨none, none, none⟩⟩ (by show out.width < _; rw [hout.1]; exact hf0.width)
    (by show out.height < _; rw [hout.2.1]; exact hf0.height) hev n
  refine ⟨items, e, hl, ?_⟩
  have nofit : ∀ u w h, Fits ⟨none, none, none⟩ u w h := by
    intro u w h
    unfold Fits
    simp
  intro k o hk
  have := h1 (nofit _ _ _) k o hk
  have hget : (out.readBack q).events[k]? = ((f :: fs)[k]?).map fun g => Event.frame ⟨0, 0, g.1.width, g.1.height, .background,
      min (g.2.numer / g.2.denom / 10) 65535⟩ (.ok (q g.1.data)) := by
    unfold Out.readBack
    dsimp only
    rw [hout.2.2, List.map_map, List.getElem?_map]
    rfl
  dsimp only at this
  rw [hget] at this
  cases hg : (f :: fs)[k]? with
  | none => rw [hg] at this; exact this
  | some g =>
    rw [hg] at this
    dsimp only [Option.map_some] at this
    obtain ⟨r, r1, r2, r3, r4, r5⟩ := this.1 ⟨nofit _ _ _, fun _ => nofit _ _ _⟩
    refine ⟨r, r1, ?_, r3, r4, r5⟩
    rw [show (out.readBack q).width = f.1.width from hout.1, show (out.readBack q).height = f.1.height from hout.2.1] at r2
    refine ⟨r2.inv, r2.width, r2.height, r2.tight, ?_⟩
    intro x y hx hy
    rw [r2.pixels x y hx hy]
    congr 2
    unfold picture
    rw [canvas_blank]
    · unfold draw shown Frame.covers frameOf
      dsimp only
      simp only [Nat.zero_le, Nat.zero_add, true_and, Nat.sub_zero]
      simp only [and_assoc]
      rfl
    · intro f' hf'
      unfold played at hf'
      obtain ⟨ev, hev', hsome⟩ := List.mem_filterMap.1 hf'
      have hmem := List.mem_of_mem_take hev'
      unfold Out.readBack at hmem
      dsimp only at hmem
      rw [hout.2.2, List.map_map] at hmem
      obtain ⟨g', -, rfl⟩ := List.mem_map.1 hmem
      dsimp only [Function.comp] at hsome
      split at hsome
      · cases hsome; rfl
      · cases hsome

/-- **C78**, full statement: whatever happened before, encoding a frame never panics. This is false: when the crate fails to start the file – the writer
reports an error – then the encoder has lost its writer, and the next frame panics. -/
theorem C78_total_false : ¬ ∀ (c : Crate) (fs : List (ImageBuffer UInt8 4 × Delay)) (s : Encoder) (f : ImageBuffer UInt8 4 × Delay),
    Encoder.newWithSpeed 1 = .ok s → (∀ g ∈ f :: fs, Encodable g) → ∀ r s', s.encodeFrames c fs = .ok (r, s') → ∃ r', s'.encodeFrame c f.1 f.2 = .ok r' := by
  intro h
  have hf : Encodable (⟨1, 1, [1, 2, 3, 255]⟩, ⟨1, 1⟩) := ⟨by decide, by decide, rfl, by decide⟩
  obtain ⟨r, hr⟩ := h ⟨fun _ _ => some .io, fun _ _ => none, fun _ _ => none⟩ [(⟨1, 1, [1, 2, 3, 255]⟩, ⟨1, 1⟩)] ⟨true, none, 1, none⟩
    (⟨1, 1, [1, 2, 3, 255]⟩, ⟨1, 1⟩) rfl (by intro g hg; simp at hg; rw [hg]; exact hf) _ _ rfl
  cases hr

/-- **C78**: nor does every image that the crate itself accepts as an image work: one whose container is longer than the pixels need panics. -/
theorem C78_container_false : ¬ ∀ (c : Crate) (s : Encoder) (image : ImageBuffer UInt8 4) (delay : Delay), image.Inv → delay.denom ≠ 0 →
    Encoder.newWithSpeed 1 = .ok s → ∃ r, s.encodeFrame c image delay = .ok r := by
  intro h
  obtain ⟨r, hr⟩ := h .faultless ⟨true, none, 1, none⟩ ⟨1, 1, [1, 2, 3, 255, 9]⟩ ⟨1, 1⟩ ⟨by decide, by decide, by decide, by decide⟩ (by decide) rfl
  cases hr

/-- **C78**: in every state in which the writer is still there or the file has been started, encoding a frame does not panic, and it fails only if the crate does; it keeps
being so unless the crate failed to start the file. -/
theorem C78_total_partial (c : Crate) (s : Encoder) (hs : s.w = true ∨ s.gif.isSome) (f : ImageBuffer UInt8 4 × Delay) (hf : Encodable f) :
    ∃ r s', s.encodeFrame c f.1 f.2 = .ok (r, s') ∧
      ((∃ out, s.gif = some out) ∨ c.new f.1.width f.1.height = none ∧ (∀ rep, s.rep = some rep → c.setRepeat ⟨f.1.width, f.1.height, [], []⟩ rep = none) →
        s'.gif.isSome) := by
  obtain ⟨o, e, ho⟩ := convert_ok hf
  have hw : o.width = f.1.width := congrArg OutFrame.width ho
  have hh : o.height = f.1.height := congrArg OutFrame.height ho
  obtain ⟨sw, gif, speed, rep⟩ := s
  unfold Encoder.encodeFrame
  rw [e, ok_bind]
  dsimp only
  unfold Encoder.encodeGif
  dsimp only
  rw [ho, hw, hh]
  cases gif with
  | some out =>
    dsimp only
    cases c.write out (written f) <;> exact ⟨_, _, rfl, fun _ => rfl⟩
  | none =>
    dsimp only at hs ⊢
    rw [if_pos (by simpa using hs)]
    cases hn : c.new f.1.width f.1.height with
    | some e => exact ⟨_, _, rfl, fun h => by rcases h with ⟨_, h⟩ | ⟨h, -⟩ <;> cases h⟩
    | none =>
      dsimp only
      cases hr : rep with
      | none =>
        dsimp only
        cases c.write ⟨f.1.width, f.1.height, [], []⟩ (written f) <;> exact ⟨_, _, rfl, fun _ => rfl⟩
      | some rep =>
        dsimp only
        cases hsr : c.setRepeat ⟨f.1.width, f.1.height, [], []⟩ rep with
        | some e =>
          refine ⟨_, _, rfl, fun h => ?_⟩
          rcases h with ⟨_, h⟩ | ⟨-, h⟩
          · cases h
          · rw [h rep rfl] at hsr; cases hsr
        | none =>
          dsimp only
          cases c.write ⟨f.1.width, f.1.height, [rep], []⟩ (written f) <;> exact ⟨_, _, rfl, fun _ => rfl⟩

/-- Two frames, the second larger than the screen. -/
example : Encodable (⟨1, 1, [1, 2, 3, 255]⟩, ⟨125, 2⟩) ∧ Encodable (⟨2, 1, [1, 2, 3, 255, 4, 5, 6, 255]⟩, ⟨999999, 1⟩) ∧
    (do
      let s ← Encoder.newWithSpeed 10
      let (_, s) ← (s.setRepeat .faultless .infinite).2.encodeFrames .faultless [(⟨1, 1, [1, 2, 3, 255]⟩, ⟨125, 2⟩), (⟨2, 1, [1, 2, 3, 255, 4, 5, 6, 255]⟩, ⟨999999, 1⟩)]
      Except.ok s.gif) = .ok (some ⟨1, 1, [.infinite], [⟨1, 1, .background, 6, [1, 2, 3, 255]⟩, ⟨2, 1, .background, 65535, [1, 2, 3, 255, 4, 5, 6, 255]⟩]⟩) := by
  refine ⟨⟨by decide, by decide, rfl, by decide⟩, ⟨by decide, by decide, rfl, by decide⟩, by decide +kernel⟩

end Gif
end Verif
