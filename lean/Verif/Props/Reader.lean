import Verif.Model.Reader
import Verif.Props.Format
import Verif.Props.Limits
import Verif.Props.DecoderToImage

/-!
# C97: `ImageReader` picks the decoder, keeps the position and enforces the limits
-/

namespace Verif
open ImageFormat ImageReader

/-- A schedule of reads in which none fails. -/
def NoFailure (sched : List (Option Nat)) : Prop := ∀ o ∈ sched, o ≠ none

/-- However the reads are cut, `copyTake` reads the next `limit` bytes (or fails because a read failed). -/
theorem copyTake_ok (sched : List (Option Nat)) : ∀ (limit : Nat) (c : Cursor),
    (copyTake limit c sched = .error (.err .io) ∧ ¬ NoFailure sched) ∨
      copyTake limit c sched = .ok (c.rest.take limit, { c with pos := c.pos + min limit c.rest.length }) := by
  induction sched with
  | nil => intro limit c; exact Or.inr rfl
  | cons o s ih =>
    intro limit c
    cases o with
    | none =>
      by_cases h : limit = 0
      · subst h; right; simp [copyTake]
      · left; exact ⟨by simp [copyTake, h, errR], fun hn => hn none (by simp) rfl⟩
    | some k =>
      simp only [copyTake]
      by_cases h : min (max 1 k) (min limit c.rest.length) = 0
      · right
        rw [if_pos h]
        have h0 : limit = 0 ∨ c.rest.length = 0 := by omega
        rcases h0 with h0 | h0
        · subst h0; simp
        · rw [List.length_eq_zero_iff] at h0
          simp [h0]
      · rw [if_neg h]
        generalize hn : min (max 1 k) (min limit c.rest.length) = n at h ⊢
        have hr : ({ c with pos := c.pos + n } : Cursor).rest = c.rest.drop n := by
          simp [Cursor.rest, List.drop_drop]
        rcases ih (limit - n) { c with pos := c.pos + n } with ⟨h1, h2⟩ | h1
        · left
          refine ⟨by rw [h1]; rfl, fun hf => h2 fun o ho => hf o (by simp [ho])⟩
        · right
          rw [h1, hr]
          simp only [ok_bind]
          have h2 : c.rest.take n ++ (c.rest.drop n).take (limit - n) = c.rest.take limit := by
            rw [← List.take_add]; congr 1; omega
          rw [h2, List.length_drop]
          congr 3
          omega

/-- `guess_format` of a whole buffer as an option. -/
def guessed (bytes : List UInt8) : Option ImageFormat :=
  match guessFormat bytes with
  | .ok f => some f
  | .error _ => none

theorem guessed_eq (bytes : List UInt8) : guessed bytes = guessFrom bytes magicBytes := by
  unfold guessed guessFormat
  cases guessFrom bytes magicBytes <;> rfl

/-- `with_guessed_format`: whatever the reader's position and however its reads are cut, the format becomes the
one `guess_format` finds in all that remains of the data, or stays what it was when there is none; the
position, the data and the limits are as before. The only failure is a failing read. -/
theorem C97_guess (r : ImageReader) (sched : List (Option Nat)) :
    (r.withGuessedFormat sched = .error (.err .io) ∧ ¬ NoFailure sched) ∨
      r.withGuessedFormat sched =
        .ok ⟨r.inner, (guessed (r.inner.bytes.drop r.inner.pos)).or r.format, r.limits⟩ := by
  unfold withGuessedFormat ImageReader.guessFormat
  rcases copyTake_ok sched 16 r.inner with ⟨h1, h2⟩ | h1
  · left; exact ⟨by rw [h1]; rfl, h2⟩
  · right
    rw [h1]
    simp only [ok_bind, Cursor.seekStart]
    have h16 : guessed (r.inner.rest.take 16) = guessed r.inner.rest := by
      unfold guessed
      rw [C28_first_bytes (r.inner.rest.take 16), C28_first_bytes r.inner.rest, List.take_take]
      rfl
    rw [← guessed_eq, h16]
    rfl

/-- Without a format, nothing is read: an `Unsupported` error. -/
theorem C97_no_format (le : Bool) (fs : Features) (codec : ImageFormat → Cursor → Option Limits → R Decoder)
    (r : ImageReader) (h : r.format = none) :
    r.decode le fs codec = .error (.err .unsupported) ∧ r.intoDimensions fs codec = .error (.err .unsupported) := by
  unfold decode intoDimensions intoDecoder requireFormat
  rw [h]
  exact ⟨rfl, rfl⟩

/-- A format without a decoder gives an `Unsupported` error. -/
theorem C97_disabled (le : Bool) (fs : Features) (codec : ImageFormat → Cursor → Option Limits → R Decoder)
    (r : ImageReader) (f : ImageFormat) (h : r.format = some f) (hd : readDispatched fs f = false) :
    r.decode le fs codec = .error (.err .unsupported) ∧ r.intoDimensions fs codec = .error (.err .unsupported) := by
  unfold decode intoDimensions intoDecoder requireFormat makeDecoder
  rw [h]
  simp only [ok_bind, hd]
  exact ⟨rfl, rfl⟩

theorem bytesPerPixel_pos (c : ColorType) : 0 < c.bytesPerPixel := by cases c <;> decide

theorem totalBytes_eq (w h b : Nat) : totalBytes w h b = min (w * h * b) (2 ^ 64 - 1) := rfl

/-- The memory limit is enforced before any pixel is read: when the image needs more bytes than allowed,
`decode` returns the limits error, whatever `read_image` would do. -/
theorem C97_memory_limit (le : Bool) (fs : Features) (codec : ImageFormat → Cursor → Option Limits → R Decoder)
    (r : ImageReader) (f : ImageFormat) (dec : Decoder) (m : Nat) (h : r.format = some f)
    (hd : makeDecoder fs codec f r.inner r.limits = .ok dec) (hm : r.limits.maxAlloc = some m) (h64 : m < 2 ^ 64 - 1)
    (hbig : m < dec.width * dec.height * dec.color.bytesPerPixel) :
    r.decode le fs codec = .error (.err .limitsMemory) := by
  unfold decode requireFormat
  rw [h]
  simp only [ok_bind, hd]
  rw [(C27_reserve r.limits _).1 m hm (by rw [totalBytes_eq]; omega)]
  rfl

/-- What a successful `decode` means: there was a format with a decoder; the image has the decoder's size and
colour type; its samples are the bytes `read_image` delivered; the size was within the memory limit, and
`read_image` ran under the limits that remain after subtracting it. `FillsBuffer`: `read_image` fills
the buffer it is given (its contract). -/
theorem C97_decode (le : Bool) (fs : Features) (codec : ImageFormat → Cursor → Option Limits → R Decoder)
    (r : ImageReader) (d : DynamicImage) (h : r.decode le fs codec = .ok d)
    (hw : ∀ f lim dec, codec f r.inner lim = .ok dec → dec.width < 2 ^ 32)
    (hfill : ∀ f lim dec, codec f r.inner lim = .ok dec → ∀ l n bytes, dec.readImage l n = .ok bytes → bytes.length = n) :
    ∃ f dec l bytes, r.format = some f ∧ readDispatched fs f = true ∧
      codec f r.inner (if f = Png then some r.limits else none) = .ok dec ∧
      (∀ m, r.limits.maxAlloc = some m → m < 2 ^ 64 - 1 → dec.width * dec.height * dec.color.bytesPerPixel ≤ m ∧
        l.maxAlloc = some (m - dec.width * dec.height * dec.color.bytesPerPixel)) ∧
      l.maxImageWidth = r.limits.maxImageWidth ∧ l.maxImageHeight = r.limits.maxImageHeight ∧
      dec.setLimits l = .ok () ∧
      dec.readImage l (dec.width * dec.height * dec.color.bytesPerPixel) = .ok bytes ∧
      d.color = dec.color ∧ d.width = dec.width ∧ d.height = dec.height ∧
      d.useBuf (fun b => b.data) = samplesOf le dec.color.sampleSize bytes := by
  unfold decode requireFormat at h
  cases hf : r.format with
  | none => rw [hf] at h; cases h
  | some f =>
    rw [hf] at h
    simp only [ok_bind] at h
    obtain ⟨dec, hdec, h⟩ := bind_eq_ok.1 h
    obtain ⟨l, hl, h⟩ := bind_eq_ok.1 h
    obtain ⟨u, hs, h⟩ := bind_eq_ok.1 h
    have hdis : readDispatched fs f = true := by
      unfold makeDecoder at hdec
      cases hx : readDispatched fs f with
      | true => rfl
      | false => rw [hx] at hdec; cases hdec
    have hcod : codec f r.inner (if f = Png then some r.limits else none) = .ok dec := by
      unfold makeDecoder at hdec
      rw [hdis] at hdec
      exact hdec
    have hL := DynamicImage.C67_of_decoder le dec.width dec.height dec.color (dec.readImage l) (hw _ _ _ hcod)
    have hlt : dec.width * dec.height * dec.color.bytesPerPixel < 2 ^ 63 := by
      rcases Nat.lt_or_ge (dec.width * dec.height * dec.color.bytesPerPixel) (2 ^ 63) with hx | hx
      · exact hx
      · rw [hL.1 hx] at h; cases h
    obtain ⟨h1, h2⟩ := hL.2 hlt
    cases hrd : dec.readImage l (dec.width * dec.height * dec.color.bytesPerPixel) with
    | error e => rw [h1 e hrd] at h; cases h
    | ok bytes =>
      obtain ⟨d', g1, g2, g3, g4, g5⟩ := h2 bytes hrd (hfill _ _ _ hcod _ _ _ hrd)
      rw [g1] at h
      cases h
      refine ⟨f, dec, l, bytes, rfl, hdis, hcod, ?_, ?_, ?_, hs, hrd, g2, g3, g4, g5⟩
      · intro m hm h64
        have hC := C27_reserve r.limits (totalBytes dec.width dec.height dec.color.bytesPerPixel)
        have ht : totalBytes dec.width dec.height dec.color.bytesPerPixel =
            dec.width * dec.height * dec.color.bytesPerPixel := by rw [totalBytes_eq]; omega
        rcases Nat.lt_or_ge m (totalBytes dec.width dec.height dec.color.bytesPerPixel) with hx | hx
        · rw [hC.1 m hm hx] at hl; cases hl
        · rw [hC.2.1 m hm hx] at hl
          cases hl
          rw [ht] at hx ⊢
          exact ⟨hx, rfl⟩
      all_goals
        have hC := C27_reserve r.limits (totalBytes dec.width dec.height dec.color.bytesPerPixel)
        cases hm : r.limits.maxAlloc with
        | none => rw [hC.2.2 hm] at hl; cases hl; rfl
        | some m =>
          rcases Nat.lt_or_ge m (totalBytes dec.width dec.height dec.color.bytesPerPixel) with hx | hx
          · rw [hC.1 m hm hx] at hl; cases hl
          · rw [hC.2.1 m hm hx] at hl; cases hl; rfl

/-- With a decoder that makes the standard checks, a decoded image is within the dimension limits, and
`into_dimensions` on the same reader reports its size. -/
theorem C97_dimensions (le : Bool) (fs : Features) (codec : ImageFormat → Cursor → Option Limits → R Decoder)
    (r : ImageReader) (d : DynamicImage) (h : r.decode le fs codec = .ok d)
    (hw : ∀ f lim dec, codec f r.inner lim = .ok dec → dec.width < 2 ^ 32)
    (hfill : ∀ f lim dec, codec f r.inner lim = .ok dec → ∀ l n bytes, dec.readImage l n = .ok bytes → bytes.length = n)
    (hstd : ∀ f lim dec, codec f r.inner lim = .ok dec → ∀ l, dec.setLimits l = defaultSetLimits dec.width dec.height l) :
    (∀ m, r.limits.maxImageWidth = some m → d.width ≤ m) ∧ (∀ m, r.limits.maxImageHeight = some m → d.height ≤ m) ∧
      r.intoDimensions fs codec = .ok (d.width, d.height) := by
  obtain ⟨f, dec, l, bytes, h1, h2, h3, -, h5, h6, h7, -, -, h10, h11, -⟩ := C97_decode le fs codec r d h hw hfill
  rw [hstd _ _ _ h3] at h7
  unfold defaultSetLimits at h7
  have h7' := h7
  rw [C27_check_dimensions, h5, h6] at h7'
  split at h7'
  · cases h7'
  · rename_i hno
    refine ⟨fun m hm => ?_, fun m hm => ?_, ?_⟩
    · rcases Nat.lt_or_ge m d.width with hx | hx
      · exact absurd (Or.inl ⟨m, hm, by omega⟩) hno
      · exact hx
    · rcases Nat.lt_or_ge m d.height with hx | hx
      · exact absurd (Or.inr ⟨m, hm, by omega⟩) hno
      · exact hx
    · unfold intoDimensions intoDecoder requireFormat makeDecoder
      rw [h1]
      simp only [ok_bind, h2, if_true]
      rw [h3]
      simp only [ok_bind]
      rw [hstd _ _ _ h3]
      unfold defaultSetLimits
      rw [C27_check_dimensions, if_neg hno]
      simp only [ok_bind, h10, h11]

/-- `load(reader, format)` is decoding with that format under the default limits: an image of more than 512 MiB is
refused. -/
theorem C97_load (le : Bool) (fs : Features) (codec : ImageFormat → Cursor → Option Limits → R Decoder)
    (inner : Cursor) (f : ImageFormat) :
    load le fs codec inner f = (withFormat inner f).decode le fs codec ∧
    ∀ dec, makeDecoder fs codec f inner Limits.default = .ok dec →
      536870912 < dec.width * dec.height * dec.color.bytesPerPixel →
      load le fs codec inner f = .error (.err .limitsMemory) := by
  refine ⟨rfl, fun dec hd hbig => ?_⟩
  exact C97_memory_limit le fs codec ((ImageReader.new inner).setFormat f) f dec 536870912 rfl hd rfl (by omega) hbig

/-- There is a decoder exactly for the formats that `reading_enabled` reports - for all formats but AVIF and DDS. -/
theorem C97_enabled_partial (fs : Features) (f : ImageFormat) (h : f ≠ Avif ∧ f ≠ Dds) :
    readDispatched fs f = readingEnabled fs.feature f := by
  cases f <;> first | rfl | simp at h

/-- With the default features `reading_enabled` says AVIF files can be read, but `decode` has no decoder for
them. -/
theorem C97_avif_false : readingEnabled Features.default.feature Avif = true ∧
    ∀ (le : Bool) codec (inner : Cursor), load le Features.default codec inner Avif = .error (.err .unsupported) :=
  ⟨rfl, fun _ _ _ => rfl⟩

/-- With the default features `can_read` and `reading_enabled` say DDS files cannot be read, but `decode` reads
them. -/
theorem C97_dds_false : canRead Dds = false ∧ readingEnabled Features.default.feature Dds = false ∧
    readDispatched Features.default Dds = true :=
  ⟨rfl, rfl, rfl⟩

/-! Non-vacuity: a reader in the middle of a file, with reads of one and two bytes; a decoder for one grey pixel. -/

example : (do
    let r ← (⟨⟨[9, 9, 0x42, 0x4d, 1, 2], 2⟩, some Png, Limits.default⟩ : ImageReader).withGuessedFormat [some 1, some 0, some 2]
    .ok (r.format, r.inner.pos) : R _) = .ok (some Bmp, 2) := by decide +kernel

example : (do
    let r ← (⟨⟨[9, 9, 0x42, 0x4d, 1, 2], 0⟩, some Png, Limits.default⟩ : ImageReader).withGuessedFormat [some 3]
    .ok (r.format, r.inner.pos) : R _) = .ok (some Png, 0) := by decide +kernel

/-- A decoder for a 1×1 grey image. -/
def oneDotReader : Decoder := ⟨1, 1, .L8, defaultSetLimits 1 1, fun _ n => .ok (List.replicate n 7)⟩

example : ∃ d, load true Features.default (fun _ _ _ => .ok oneDotReader) ⟨[], 0⟩ Bmp = .ok d ∧
    d.useBuf (fun b => b.data) = [7] := ⟨_, rfl, rfl⟩

example : ((withFormat ⟨[], 0⟩ Bmp).setLimits ⟨none, none, some 0⟩).decode true Features.default
    (fun _ _ _ => .ok oneDotReader) = .error (.err .limitsMemory) := rfl

end Verif
