import Verif.Proofs.Save
import Verif.Props.Reader
import Verif.Props.Dynamic
import Verif.Props.DecoderToImage

/-!
# C106, C107: saving images

The specification of what an encoder produces is `direct` (Proofs/Save): its calls on an unbuffered file that never fails.
-/

namespace Verif.Save
open Verif

/-- What `p` writes to an empty file, and its result. -/
def product (p : Prog) : R Unit × List UInt8 := direct p [] 0

/-- The files after `path` has got new contents. -/
def written {Path : Type} [DecidableEq Path] (files : Files Path) (path : Path) (bytes : List UInt8) : Files Path :=
  fun q => if q = path then some bytes else files q

theorem drop_bytes (b : BufWriter) (h : NoFault b.dev.sched) : b.drop.bytes = b.bytes := by
  obtain ⟨f1, f2, f3, f4, f5⟩ := flushBuf_spec b
  rw [← f1]
  unfold BufWriter.drop BufWriter.bytes
  rw [f4 (f5 h).1, put_nil]

theorem run_new (p : Prog) (sched : List (Option Nat)) (h : NoFault sched) :
    (BufWriter.run p ⟨[], ⟨[], 0, sched⟩⟩).1 = (product p).1 ∧ (BufWriter.run p ⟨[], ⟨[], 0, sched⟩⟩).2.drop.bytes = (product p).2 := by
  obtain ⟨r1, r2, r3, r4, -⟩ := run_spec p ⟨[], ⟨[], 0, sched⟩⟩ (Nat.zero_le _) (Or.inr h)
  refine ⟨r1, ?_⟩
  rw [drop_bytes _ (r4 h)]
  exact r2

/-- No path ends up changed but the one that is saved to, whatever fails. -/
theorem C106_other_files {Path : Type} [DecidableEq Path] (env : Env) (extension : Path → Option (Option (List Char)))
    (create : Option (List (Option Nat))) (files : Files Path) (path q : Path) (d : DynamicImage) (format : ImageFormat) (h : q ≠ path) :
    (save env extension create files path d).2 q = files q ∧ (saveWithFormat env create files path d format).2 q = files q := by
  have key : ∀ f, (saveBufferWithFormat env create files path (d.innerBytes env.le) d.width d.height d.color.toExtended f).2 q = files q := by
    intro f
    unfold saveBufferWithFormat
    cases create with
    | none => rfl
    | some s => exact if_neg h
  refine ⟨?_, key format⟩
  unfold save saveBuffer
  split
  · exact key _
  · rfl

/-- A path without a known extension is an error, and no file is created or changed. -/
theorem C106_unknown_extension {Path : Type} [DecidableEq Path] (env : Env) (extension : Path → Option (Option (List Char)))
    (create : Option (List (Option Nat))) (files : Files Path) (path : Path) (d : DynamicImage)
    (h : (extension path).bind ImageFormat.fromExtension = none) :
    save env extension create files path d = (.error (.err .unsupported), files) := by
  unfold save saveBuffer ImageFormat.fromPath
  rw [h]
  rfl

/-- When the device accepts the writes - in pieces of any size - the saved file is exactly what the encoder of the format produces for
the image's own samples, size and colour type, and the result is the encoder's. The format is that of the extension. -/
theorem C106_save {Path : Type} [DecidableEq Path] (env : Env) (extension : Path → Option (Option (List Char)))
    (sched : List (Option Nat)) (hs : NoFault sched) (files : Files Path) (path : Path) (d : DynamicImage) (format : ImageFormat)
    (hf : ImageFormat.writingEnabled env.feature format = true) (hg : format ≠ .Gif) :
    let p := product (env.encoder format (d.innerBytes env.le) d.width d.height d.color.toExtended)
    saveWithFormat env (some sched) files path d format = (p.1, written files path p.2) ∧
    ((extension path).bind ImageFormat.fromExtension = some format →
      save env extension (some sched) files path d = (p.1, written files path p.2)) := by
  intro p
  have hw : ImageFormat.writeDispatched env.feature format = true := by
    rw [← hf]; cases format <;> rfl
  have key : saveWithFormat env (some sched) files path d format = (p.1, written files path p.2) := by
    unfold saveWithFormat saveBufferWithFormat writeBuffer
    rw [if_pos hw, if_neg hg]
    obtain ⟨h1, h2⟩ := run_new (env.encoder format (d.innerBytes env.le) d.width d.height d.color.toExtended) sched hs
    dsimp only
    rw [h1, h2]
    rfl
  refine ⟨key, fun hx => ?_⟩
  unfold save saveBuffer ImageFormat.fromPath
  rw [hx]
  exact key

/-- A format whose encoder is not compiled in, or that has none, is an error. -/
theorem C106_disabled {Path : Type} [DecidableEq Path] (env : Env) (create : Option (List (Option Nat))) (files : Files Path) (path : Path)
    (d : DynamicImage) (format : ImageFormat) (hf : ImageFormat.writingEnabled env.feature format = false) :
    (saveWithFormat env create files path d format).1 = .error (.err (if create.isSome then .unsupported else .io)) := by
  have hw : ImageFormat.writeDispatched env.feature format = false := by
    rw [← hf]; cases format <;> rfl
  unfold saveWithFormat saveBufferWithFormat writeBuffer
  rw [hw]
  cases create <;> rfl

/-- The bytes handed to the encoder: as many as the colour type and the size ask for, and the image's samples in order. -/
theorem C106_bytes (le : Bool) (d : DynamicImage) (hv : d.Valid) :
    (d.innerBytes le).length = d.width * d.height * d.color.bytesPerPixel ∧
    ((∀ v ∈ d.useBuf (fun b => b.data), v < 256 ^ d.color.sampleSize) →
      samplesOf le d.color.sampleSize (d.innerBytes le) = d.useBuf fun {ch} b => b.data.take (b.width * b.height * ch)) := by
  have sz : 0 < d.color.sampleSize := by cases d <;> exact Nat.succ_pos _
  constructor
  · unfold DynamicImage.innerBytes
    rw [DynamicImage.length_bytesOf]
    cases d <;> (
      simp only [DynamicImage.useBuf, DynamicImage.width, DynamicImage.height, DynamicImage.color, ColorType.bytesPerPixel, ColorType.sampleSize,
        DynamicImage.Valid] at hv ⊢
      have := hv.fits
      rw [List.length_take]
      omega)
  · intro h
    unfold DynamicImage.innerBytes
    apply DynamicImage.samplesOf_bytesOf le _ sz
    intro v hm
    apply h
    cases d <;> exact List.mem_of_mem_take hm

/-- `write_to` hands the same to the same encoder as `save`, for every format but GIF. -/
theorem C106_write_to_partial (env : Env) (d : DynamicImage) (format : ImageFormat) (hg : format ≠ .Gif) :
    writeTo env d format = .ok (writeBuffer env (d.innerBytes env.le) d.width d.height d.color.toExtended format) := by
  unfold writeTo
  dsimp only
  by_cases h : format = .Png ∧ env.feature .png
  · obtain ⟨rfl, h⟩ := h
    rw [if_pos ⟨rfl, h⟩]
    unfold writeBuffer
    rw [show ImageFormat.writeDispatched env.feature .Png = env.feature .png from rfl, h]
    rfl
  · rw [if_neg h, if_neg (by simp [hg])]

/-- A buffer and the image made of it are written alike, by `write_to` and by `write_with_encoder`. -/
theorem C106_buffer (env : Env) (b : ImageBuffer Nat 3) (hb : b.Inv) (format : ImageFormat)
    (encoder : List UInt8 → Nat → Nat → ExtendedColorType → Prog) :
    bufferWriteTo env 1 .Rgb8 b format =
      .ok (writeBuffer env ((DynamicImage.rgb8 b).innerBytes env.le) b.width b.height .Rgb8 format) ∧
    bufferWriteWith env 1 .Rgb8 b encoder = .ok (writeWith env (.rgb8 b) encoder) := by
  unfold bufferWriteTo bufferWriteWith
  rw [ImageBuffer.innerPixels_ok hb (by omega)]
  exact ⟨rfl, rfl⟩

/-- GIF: saving an image of a colour type other than 8-bit RGB and RGBA is refused (after the file has been emptied), while
`write_to` converts it to RGBA. -/
theorem C106_gif {Path : Type} [DecidableEq Path] (env : Env) (sched : List (Option Nat)) (files : Files Path) (path : Path) (d : DynamicImage)
    (hg : env.feature .gif = true) (hw : d.width < 2 ^ 16) (hh : d.height < 2 ^ 16) (hc : d.color ≠ .Rgb8 ∧ d.color ≠ .Rgba8) :
    saveWithFormat env (some sched) files path d .Gif = (.error (.err .unsupported), written files path []) ∧
    ∀ image, d.toType .u8 .rgba env.fc = .ok image → writeTo env d .Gif = .ok (env.encodeFrame image) := by
  constructor
  · unfold saveWithFormat saveBufferWithFormat writeBuffer
    rw [if_pos (show ImageFormat.writeDispatched env.feature .Gif = true from hg), if_pos rfl]
    unfold gifEncode Gif.gifDimensions
    rw [if_pos ⟨hw, hh⟩]
    cases hd : d.color <;> first | exact absurd hd hc.1 | exact absurd hd hc.2 | rfl
  · intro image h
    unfold writeTo
    dsimp only
    rw [if_neg (by simp), if_pos ⟨rfl, hg⟩, h]
    rfl

/-- A program that writes `n` zeros and succeeds. -/
def exProg (data : List UInt8) : Prog := .write data (.done (.ok ())) (.done (errR .io))

/-- The encoders of an example: every format writes the samples as they are. -/
def exEnv : Env :=
  { le := true, feature := fun _ => true, encoder := fun _ buf _ _ _ => exProg buf, encodeGif := fun _ _ _ buf => exProg buf,
    encodeFrame := fun b => exProg (b.data.map UInt8.ofNat), fc := fun _ _ => panicR }

/-- The claim that `save` and `write_to` treat every image alike is false: one grey pixel as GIF. -/
theorem C106_gif_false :
    ¬ ∀ (env : Env) (d : DynamicImage) (p : Prog), d.Valid → writeTo env d .Gif = .ok p →
      ∀ (files : Files Unit), (saveWithFormat env (some []) files () d .Gif).1 = (product p).1 := by
  intro h
  have h1 := h exEnv (.luma8 ⟨1, 1, [7]⟩) (exProg [7, 7, 7, 255]) ⟨by decide, by decide, by decide, by decide⟩ (by rfl) (fun _ => none)
  have h2 : (saveWithFormat exEnv (some []) (fun _ => none) () (.luma8 ⟨1, 1, [7]⟩) .Gif).1 = .error (.err .unsupported) := rfl
  rw [h2] at h1
  cases h1

/-- Saved and opened again: when the format's decoder recovers from the encoder's output the size, the colour type and the bytes it was given,
`open` gives the image back (without unused samples at the end of the buffer), for images within the default memory limit. -/
theorem C106_open {Path : Type} [DecidableEq Path] (env : Env) (fs : Features) (codec : ImageFormat → Cursor → Option Limits → R Decoder)
    (extension : Path → Option (Option (List Char))) (sched : List (Option Nat)) (hs : NoFault sched) (files : Files Path) (path : Path)
    (d : DynamicImage) (hd : d.Valid) (hsamp : ∀ v ∈ d.useBuf (fun b => b.data), v < 256 ^ d.color.sampleSize)
    (format : ImageFormat) (hx : (extension path).bind ImageFormat.fromExtension = some format)
    (hf : ImageFormat.writingEnabled env.feature format = true) (hr : readDispatched fs format = true) (hg : format ≠ .Gif) (bytes : List UInt8)
    (henc : product (env.encoder format (d.innerBytes env.le) d.width d.height d.color.toExtended) = (.ok (), bytes))
    (hdec : ∀ l, ∃ dec, codec format ⟨bytes, 0⟩ l = .ok dec ∧ dec.width = d.width ∧ dec.height = d.height ∧ dec.color = d.color ∧
      (∀ l, dec.setLimits l = .ok ()) ∧ ∀ l, dec.readImage l (d.innerBytes env.le).length = .ok (d.innerBytes env.le))
    (hmem : d.width * d.height * d.color.bytesPerPixel ≤ 536870912) :
    (save env extension (some sched) files path d).1 = .ok () ∧
    openImage env.le fs codec extension (save env extension (some sched) files path d).2 path = .ok d.trimmed ∧
    imageDimensions fs codec extension (save env extension (some sched) files path d).2 path = .ok (d.width, d.height) := by
  have hsave := (C106_save env extension sched hs files path d format hf hg).2 hx
  rw [henc] at hsave
  rw [hsave]
  dsimp only
  refine ⟨rfl, ?_, ?_⟩
  · unfold openImage openReader ImageFormat.fromPath
    rw [show written files path bytes path = some bytes by simp [written], hx]
    simp only [ok_bind]
    unfold ImageReader.decode ImageReader.requireFormat ImageReader.makeDecoder
    dsimp only
    rw [ok_bind, if_pos hr]
    obtain ⟨dec, h1, h2, h3, h4, h5, h6⟩ := hdec (if format = .Png then some Limits.default else none)
    simp only [ok_bind, h1]
    rw [h2, h3, h4]
    have ht : totalBytes d.width d.height d.color.bytesPerPixel = d.width * d.height * d.color.bytesPerPixel := by
      rw [totalBytes_eq]; omega
    rw [ht, ((C27_reserve Limits.default _).2.1 536870912 rfl hmem), ok_bind, h5, ok_bind]
    have hw : d.width < 2 ^ 32 := by
      cases d <;> exact hd.w32
    apply DynamicImage.C67_bytes_roundtrip env.le d hw hsamp ?_ (by omega) _ (h6 _)
    cases d <;> exact hd.fits
  · unfold imageDimensions openReader ImageFormat.fromPath
    rw [show written files path bytes path = some bytes by simp [written], hx]
    simp only [ok_bind]
    unfold ImageReader.intoDimensions ImageReader.intoDecoder ImageReader.requireFormat ImageReader.makeDecoder
    dsimp only
    rw [ok_bind, if_pos hr]
    obtain ⟨dec, h1, h2, h3, h4, h5, h6⟩ := hdec (if format = .Png then some Limits.default else none)
    simp only [ok_bind, h1]
    rw [h5, ok_bind, ok_bind, h2, h3]

/-- From memory: the format is the one guessed from the bytes, and loading is that of `load`. -/
theorem C106_from_memory (le : Bool) (fs : Features) (codec : ImageFormat → Cursor → Option Limits → R Decoder) (buf : List UInt8) :
    (guessFrom buf magicBytes = none → loadFromMemory le fs codec buf = .error (.err .unsupported)) ∧
    ∀ f, guessFrom buf magicBytes = some f → loadFromMemory le fs codec buf = load le fs codec ⟨buf, 0⟩ f := by
  unfold loadFromMemory guessFormat
  refine ⟨fun h => ?_, fun f h => ?_⟩ <;> rw [h] <;> rfl

/-! ## C107: what a result says about the file -/

/-- Whatever fails: when `save` succeeds with an encoder that passes every error on, at most the last 8192 bytes of the encoder's output - those still
in the writer's buffer - are missing from the file. -/
theorem C107_ok_partial {Path : Type} [DecidableEq Path] (env : Env) (create : Option (List (Option Nat))) (files : Files Path)
    (path : Path) (buf : List UInt8) (w h : Nat) (color : ExtendedColorType) (format : ImageFormat) (hst : Strict (writeBuffer env buf w h color format))
    (hok : (saveBufferWithFormat env create files path buf w h color format).1 = .ok ()) :
    ∃ bytes pos lost, (saveBufferWithFormat env create files path buf w h color format).2 path = some bytes ∧ lost.length ≤ 8192 ∧
      put bytes pos lost = (product (writeBuffer env buf w h color format)).2 ∧
      (Flushes true (writeBuffer env buf w h color format) → bytes = (product (writeBuffer env buf w h color format)).2) := by
  unfold saveBufferWithFormat at hok ⊢
  cases create with
  | none => cases hok
  | some sched =>
    dsimp only at hok ⊢
    generalize writeBuffer env buf w h color format = p at hok hst ⊢
    obtain ⟨r1, r2, r3, -, r5⟩ := run_spec p ⟨[], ⟨[], 0, sched⟩⟩ (Nat.zero_le _) (Or.inl ⟨hst, hok⟩)
    obtain ⟨f1, f2, f3, f4, f5⟩ := flushBuf_spec (BufWriter.run p ⟨[], ⟨[], 0, sched⟩⟩).2
    refine ⟨_, (BufWriter.run p ⟨[], ⟨[], 0, sched⟩⟩).2.flushBuf.2.dev.pos, (BufWriter.run p ⟨[], ⟨[], 0, sched⟩⟩).2.flushBuf.2.buf, if_pos rfl,
      Nat.le_trans f3 r3, ?_, ?_⟩
    · exact f1.trans r2
    · intro hfl
      have hb := r5 true hfl (fun _ => rfl) hok
      have e : (BufWriter.run p ⟨[], ⟨[], 0, sched⟩⟩).2.flushBuf.2.buf = [] := by
        apply List.length_eq_zero_iff.1
        rw [hb] at f3
        simpa using f3
      have := f1.trans r2
      unfold BufWriter.bytes at this
      rw [e, put_nil] at this
      exact this

/-- That nothing is missing when `save` succeeds is false: the error of the last write, when the buffer is dropped, is lost. -/
theorem C107_ok_false :
    ¬ ∀ (env : Env) (sched : List (Option Nat)) (files : Files Unit) (d : DynamicImage), Strict (env.encoder .Bmp (d.innerBytes env.le) d.width d.height d.color.toExtended) →
      d.Valid → env.feature .bmp = true → (saveWithFormat env (some sched) files () d .Bmp).1 = .ok () →
      (saveWithFormat env (some sched) files () d .Bmp).2 () =
        some (product (env.encoder .Bmp (d.innerBytes env.le) d.width d.height d.color.toExtended)).2 := by
  intro h
  have h1 := h exEnv [none] (fun _ => none) (.luma8 ⟨1, 1, [7]⟩) ⟨trivial, _, rfl⟩ ⟨by decide, by decide, by decide, by decide⟩ rfl rfl
  revert h1
  decide

/-- The file that was there before does not matter and is not kept, whatever the outcome of the save - unless the extension is unknown or
the file cannot be opened for writing. -/
theorem C107_old_file {Path : Type} [DecidableEq Path] (env : Env) (extension : Path → Option (Option (List Char)))
    (files : Files Path) (path : Path) (d : DynamicImage) :
    (save env extension none files path d).2 = files ∧
    (∀ create, (extension path).bind ImageFormat.fromExtension = none → (save env extension create files path d).2 = files) ∧
    ∀ sched (files' : Files Path), (extension path).bind ImageFormat.fromExtension ≠ none →
      (save env extension (some sched) files path d).2 path = (save env extension (some sched) files' path d).2 path := by
  refine ⟨?_, ?_, ?_⟩
  · unfold save saveBuffer saveBufferWithFormat
    split <;> rfl
  · intro create h
    rw [C106_unknown_extension env extension create files path d h]
  · intro sched files' h
    unfold save saveBuffer saveBufferWithFormat ImageFormat.fromPath
    cases hx : (extension path).bind ImageFormat.fromExtension with
    | none => exact absurd hx h
    | some f => simp

/-- That a failed save leaves the old file as it was is false: a grey image over an existing GIF file. -/
theorem C107_failed_false :
    ¬ ∀ (env : Env) (sched : List (Option Nat)) (files : Files Unit) (d : DynamicImage) (format : ImageFormat) (e : Fault), d.Valid →
      (saveWithFormat env (some sched) files () d format).1 = .error e → (saveWithFormat env (some sched) files () d format).2 = files := by
  intro h
  have h1 := h exEnv [] (fun _ => some [1, 2, 3]) (.luma8 ⟨1, 1, [7]⟩) .Gif (.err .unsupported) ⟨by decide, by decide, by decide, by decide⟩ rfl
  have h2 := congrFun h1 ()
  revert h2
  decide

/-! Non-vacuity: a schedule of short writes; a program that seeks back and flushes. -/

/-- Writes five bytes, goes back and overwrites the second and third. -/
def exBack : Prog :=
  .write [1, 2, 3, 4, 5] (.position (fun p => .seek (p - 4) (.write [8, 9] (.flush (.done (.ok ())) (.done (errR .io))) (.done (errR .io)))
    (.done (errR .io))) (.done (errR .io))) (.done (errR .io))

example : product exBack = (.ok (), [1, 8, 9, 4, 5]) := by decide

example : Strict exBack ∧ Flushes true exBack :=
  ⟨⟨⟨fun _ => ⟨⟨⟨trivial, _, rfl⟩, _, rfl⟩, _, rfl⟩, _, rfl⟩, _, rfl⟩, fun _ _ => rfl⟩

example : BufWriter.run exBack ⟨[], ⟨[], 0, [some 1, some 0, some 7]⟩⟩ = (.ok (), ⟨[], ⟨[1, 8, 9, 4, 5], 3, []⟩⟩) := by decide

/-- A decoder that takes the file as the samples of a grey image of one row. -/
def exCodec (_ : ImageFormat) (c : Cursor) (_ : Option Limits) : R Decoder :=
  .ok ⟨c.bytes.length, 1, .L8, fun _ => .ok (), fun _ _ => .ok c.bytes⟩

example : openImage true Features.default exCodec (fun p => some (some [p, 'n', 'g']))
    (save exEnv (fun p => some (some [p, 'n', 'g'])) (some [some 0, some 1]) (fun _ => none) 'P' (.luma8 ⟨3, 1, [7, 8, 9, 10]⟩)).2 'P' =
    .ok (.luma8 ⟨3, 1, [7, 8, 9]⟩) := by decide +kernel

end Verif.Save
