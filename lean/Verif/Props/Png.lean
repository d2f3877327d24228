import Verif.Model.Png
import Verif.Props.DecoderToImage
import Verif.Props.Limits

/-!
# C80: PNG keeps every sample, on every machine

The `png` crate is assumed to give back the picture that it was given (`Faithful`).
-/

namespace Verif
namespace Png
open DynamicImage

/-- What is assumed of the crate: a picture of 8 or 16 bits per sample that it encoded is what it reads from the file, without a memory limit. -/
def Faithful {F : Type} (k : Crate F) : Prop :=
  ∀ c f p file, k.encode c f p = .ok file → k.header (2 ^ 64 - 1) file = .ok (p.width, p.height) ∧
    ∃ r, k.readInfo (2 ^ 64 - 1) file = .ok r ∧ r.width = p.width ∧ r.height = p.height ∧ r.colour = p.colour ∧ r.depth = p.depth ∧ r.icc = p.icc ∧
      r.nextFrame p.data.length = .ok p.data

/-- The colour types that PNG can represent. -/
def Supported (c : ColorType) : Prop := c ≠ .Rgb32F ∧ c ≠ .Rgba32F

theorem bytesOf_split (le : Bool) (l : List Nat) : bytesOf le 1 l = bytesOf (!le) 1 l := by
  unfold bytesOf
  have : ∀ v, leBytes 1 v = beBytes 1 v := by
    intro v
    unfold beBytes leBytes leBytes
    rfl
  congr 1
  funext v
  cases le <;> simp [this]

theorem toBigEndian_bytesOf (le : Bool) (l : List Nat) (hv : ∀ v ∈ l, v < 2 ^ 16) : toBigEndian le (bytesOf le 2 l) = bytesOf false 2 l := by
  unfold toBigEndian
  rw [samplesOf_bytesOf le 2 (by decide) l (fun v h => by have := hv v h; omega), length_bytesOf, Nat.mul_mod_left, List.replicate_zero, List.append_nil]

theorem fromBigEndian_bytesOf (le : Bool) (l : List Nat) (hv : ∀ v ∈ l, v < 2 ^ 16) : fromBigEndian le (bytesOf false 2 l) = bytesOf le 2 l := by
  unfold fromBigEndian
  rw [samplesOf_bytesOf false 2 (by decide) l (fun v h => by have := hv v h; omega), length_bytesOf, Nat.mul_div_cancel _ (by decide)]
  rw [List.drop_eq_nil_of_le (by rw [length_bytesOf]), List.append_nil]

theorem bufferSize_ok {c : ColorType} {w h : Nat} (hw : w < 2 ^ 32) (hs : w * h * c.bytesPerPixel < 2 ^ 64) :
    c.toExtended.bufferSize w h = .ok (w * h * c.bytesPerPixel) := by
  have hb : c.toExtended.bitsPerPixel = 8 * c.bytesPerPixel := by cases c <;> rfl
  have h4 : c.bytesPerPixel ≤ 16 := by cases c <;> decide
  generalize c.bytesPerPixel = ch at *
  have h1 : w * ch ≤ 2 ^ 32 * 16 := Nat.mul_le_mul (by omega) h4
  have e1 : w * (8 * ch) = 8 * (w * ch) := by rw [Nat.mul_left_comm]
  have e2 : w * h * ch = w * ch * h := by rw [Nat.mul_right_comm]
  unfold ExtendedColorType.bufferSize
  rw [hb, mulC_ok (by omega), ok_bind, addC_ok (by omega), ok_bind]
  unfold satMul
  dsimp only
  rw [show (w * (8 * ch) + 7) / 8 = w * ch by omega, Nat.min_eq_left (by omega), e2]

/-- The picture in the file: the samples are in big-endian order. -/
def pictureOf (c : ColorType) (w h : Nat) (icc : List UInt8) (samples : List Nat) : R Picture := do
  let (colour, depth) ← fileColour c.toExtended
  .ok ⟨w, h, colour, depth, if icc.isEmpty then none else some icc, bytesOf false c.sampleSize samples⟩

/-- `write_image` hands exactly this picture to the crate. -/
theorem writeImage_eq {F : Type} (k : Crate F) (le : Bool) (e : Encoder) {c : ColorType} (hc : Supported c) {w h : Nat} (hw : w < 2 ^ 32)
    (hs : w * h * c.bytesPerPixel < 2 ^ 64) {samples : List Nat} (hl : samples.length = w * h * c.channelCount) (hv : ∀ v ∈ samples, v < 256 ^ c.sampleSize) :
    e.writeImage k le (bytesOf le c.sampleSize samples) w h c.toExtended = (do
      let p ← pictureOf c w h e.icc samples
      k.encode e.compression e.filter p) := by
  have hlen : (bytesOf le c.sampleSize samples).length = w * h * c.bytesPerPixel := by
    rw [length_bytesOf, hl, ← sampleSize_mul]; simp only [Nat.mul_comm, Nat.mul_assoc]
  unfold Encoder.writeImage
  rw [bufferSize_ok hw hs, ok_bind, hlen, show assertR (decide (w * h * c.bytesPerPixel = w * h * c.bytesPerPixel)) = .ok () by simp [assertR], ok_bind]
  have h8 : ∀ le, bytesOf le 1 samples = bytesOf false 1 samples := by
    intro le
    cases le
    · rfl
    · exact bytesOf_split true samples
  unfold pictureOf
  cases c with
  | Rgb32F => exact absurd rfl hc.1
  | Rgba32F => exact absurd rfl hc.2
  | L8 | La8 | Rgb8 | Rgba8 => 
    simp only [ColorType.toExtended, ColorType.sampleSize, Encoder.encodeInner, fileColour, ok_bind]
    rw [h8 le]
  | L16 | La16 | Rgb16 | Rgba16 =>
    simp only [ColorType.toExtended, ColorType.sampleSize, Encoder.encodeInner, fileColour, ok_bind]
    rw [toBigEndian_bytesOf le samples hv]

theorem colours {c : ColorType} (hc : Supported c) : ∃ p, fileColour c.toExtended = .ok p ∧ imageColour p = .ok c := by
  cases c with
  | Rgb32F => exact absurd rfl hc.1
  | Rgba32F => exact absurd rfl hc.2
  | _ => exact ⟨_, rfl, rfl⟩

/-- The limits do not forbid the size. -/
def Allowed (l : Limits) (w h : Nat) : Prop := (∀ m, l.maxImageWidth = some m → w ≤ m) ∧ ∀ m, l.maxImageHeight = some m → h ≤ m

/-- **C80**: a PNG file that was written from samples (in the order of the machine that writes it) is read back with the same size, colour type, colour
profile and samples (in the order of the machine that reads it), whatever the two machines, the compression and the filter; provided that the crate
does so (`Faithful`) and without a limit of the memory. -/
theorem C80_roundtrip {F : Type} (k : Crate F) (hk : Faithful k) (leWriter leReader : Bool) (e : Encoder) (c : ColorType) (hc : Supported c) (w h : Nat)
    (hw : w < 2 ^ 32) (hs : w * h * c.bytesPerPixel < 2 ^ 64) (samples : List Nat) (hl : samples.length = w * h * c.channelCount)
    (hv : ∀ v ∈ samples, v < 256 ^ c.sampleSize) (file : F)
    (hf : e.writeImage k leWriter (bytesOf leWriter c.sampleSize samples) w h c.toExtended = .ok file) (l : Limits) (ha : Allowed l w h) (hm : l.maxAlloc = none) :
    ∃ d, Decoder.withLimits k file l = .ok d ∧ d.dimensions = (w, h) ∧ d.colorType = c ∧ d.iccProfile = (if e.icc.isEmpty then none else some e.icc) ∧
      d.readImage leReader (w * h * c.bytesPerPixel) = .ok (bytesOf leReader c.sampleSize samples) := by
  rw [writeImage_eq k leWriter e hc hw hs hl hv] at hf
  obtain ⟨⟨colour, depth⟩, q1, q2⟩ := colours hc
  unfold pictureOf at hf
  rw [q1, ok_bind, ok_bind] at hf
  obtain ⟨h1, r, h2, h3, h4, h5, h6, h7, h8⟩ := hk _ _ _ _ hf
  dsimp only at h1 h3 h4 h5 h6 h7 h8
  have hdim : l.checkDimensions w h = .ok () := by
    rw [C27_check_dimensions, if_neg]
    rintro (⟨m, g1, g2⟩ | ⟨m, g1, g2⟩)
    · have := ha.1 m g1; omega
    · have := ha.2 m g1; omega
  refine ⟨⟨c, r, l⟩, ?_, by unfold Decoder.dimensions; rw [← h3, ← h4], rfl, h7, ?_⟩
  · unfold Decoder.withLimits
    rw [hm]
    dsimp only [Option.getD]
    rw [h1, ok_bind]
    dsimp only
    rw [hdim, ok_bind, h2, ok_bind, h5, h6, q2, ok_bind]
  · have hlen : (bytesOf false c.sampleSize samples).length = w * h * c.bytesPerPixel := by
      rw [length_bytesOf, hl, ← sampleSize_mul]; simp only [Nat.mul_comm, Nat.mul_assoc]
    unfold Decoder.readImage
    dsimp only
    have htot : totalBytes r.width r.height c.bytesPerPixel = w * h * c.bytesPerPixel := by
      unfold totalBytes satMul
      rw [h3, h4]
      exact Nat.min_eq_left (by omega)
    rw [htot, show assertR (decide (w * h * c.bytesPerPixel = w * h * c.bytesPerPixel)) = .ok () by simp [assertR], ok_bind, ← hlen, h8, ok_bind]
    have h8' : ∀ le, bytesOf le 1 samples = bytesOf false 1 samples := by
      intro le
      cases le
      · rfl
      · exact bytesOf_split true samples
    cases c with
    | Rgb32F => exact absurd rfl hc.1
    | Rgba32F => exact absurd rfl hc.2
    | L8 | La8 | Rgb8 | Rgba8 => exact congrArg Except.ok (h8' leReader).symm
    | L16 | La16 | Rgb16 | Rgba16 => exact congrArg Except.ok (fromBigEndian_bytesOf leReader samples hv)

/-- **C80**: the same for images: writing a `DynamicImage` and decoding the file gives the image back (without superfluous elements of its container). -/
theorem C80_image {F : Type} (k : Crate F) (hk : Faithful k) (le : Bool) (e : Encoder) (d : DynamicImage) (hc : Supported d.color) (hw : d.width < 2 ^ 32)
    (hs : d.width * d.height * d.color.bytesPerPixel < 2 ^ 63) (hv : ∀ v ∈ d.useBuf (fun b => b.data), v < 256 ^ d.color.sampleSize)
    (hinv : d.useBuf fun {ch} b => b.width * b.height * ch ≤ b.data.length) (file : F)
    (hf : e.writeImage k le (d.innerBytes le) d.width d.height d.color.toExtended = .ok file) (l : Limits) (ha : Allowed l d.width d.height) (hm : l.maxAlloc = none) :
    ∃ dec, Decoder.withLimits k file l = .ok dec ∧
      ofDecoder le dec.reader.width dec.reader.height dec.colorType (dec.readImage le) = .ok d.trimmed := by
  have hin : d.innerBytes le = bytesOf le d.color.sampleSize (d.useBuf fun {ch} b => b.data.take (b.width * b.height * ch)) := rfl
  have hl : (d.useBuf fun {ch} b => b.data.take (b.width * b.height * ch)).length = d.width * d.height * d.color.channelCount := by
    cases d <;> (show (List.take _ _).length = _; rw [List.length_take]; exact Nat.min_eq_left hinv)
  have hv' : ∀ v ∈ (d.useBuf fun {ch} b => b.data.take (b.width * b.height * ch)), v < 256 ^ d.color.sampleSize := by
    intro v hm
    apply hv v
    cases d <;> exact List.mem_of_mem_take hm
  obtain ⟨dec, h1, h2, h3, -, h5⟩ := C80_roundtrip k hk le le e d.color hc d.width d.height hw (by omega) _ hl hv' file (by rw [← hin]; exact hf) l ha hm
  refine ⟨dec, h1, ?_⟩
  unfold Decoder.dimensions at h2
  simp only [Prod.mk.injEq] at h2
  rw [h2.1, h2.2, h3]
  refine C67_bytes_roundtrip le d hw hv hinv hs _ ?_
  rw [hin, length_bytesOf, hl, show d.width * d.height * d.color.channelCount * d.color.sampleSize = d.width * d.height * d.color.bytesPerPixel by
    rw [← sampleSize_mul, Nat.mul_comm d.color.sampleSize, Nat.mul_assoc _ d.color.channelCount]]
  exact h5

/-- **C80**: other colour types are refused; a buffer of the wrong length is a panic, as documented. -/
theorem C80_refused {F : Type} (k : Crate F) (le : Bool) (e : Encoder) (buf : List UInt8) (w h : Nat) (c : ExtendedColorType) (size : Nat)
    (hs : c.bufferSize w h = .ok size) :
    (buf.length ≠ size → e.writeImage k le buf w h c = panicR) ∧
    (buf.length = size → (∀ c', Supported c' → c ≠ c'.toExtended) → e.writeImage k le buf w h c = errR .encoding) := by
  constructor
  · intro hne
    unfold Encoder.writeImage
    rw [hs, ok_bind, show assertR (decide (size = buf.length)) = panicR by unfold assertR; rw [if_neg (by simpa using fun h => hne h.symm)]]
    rfl
  · intro he hn
    unfold Encoder.writeImage
    rw [hs, ok_bind, show assertR (decide (size = buf.length)) = .ok () by unfold assertR; rw [if_pos (by simpa using he.symm)], ok_bind]
    cases c <;> first
      | rfl
      | exact absurd rfl (hn .L8 ⟨by decide, by decide⟩)
      | exact absurd rfl (hn .La8 ⟨by decide, by decide⟩)
      | exact absurd rfl (hn .Rgb8 ⟨by decide, by decide⟩)
      | exact absurd rfl (hn .Rgba8 ⟨by decide, by decide⟩)
      | exact absurd rfl (hn .L16 ⟨by decide, by decide⟩)
      | exact absurd rfl (hn .La16 ⟨by decide, by decide⟩)
      | exact absurd rfl (hn .Rgb16 ⟨by decide, by decide⟩)
      | exact absurd rfl (hn .Rgba16 ⟨by decide, by decide⟩)

/-- **C80**: a file that is larger than the limits allow is refused before any of it is decoded, and a decoder never has a forbidden size. -/
theorem C80_limits {F : Type} (k : Crate F) (file : F) (l : Limits) (w h : Nat) (hh : k.header (l.maxAlloc.getD (2 ^ 64 - 1)) file = .ok (w, h)) :
    ¬ Allowed l w h → Decoder.withLimits k file l = errR .limitsDimension := by
  intro hn
  unfold Decoder.withLimits
  dsimp only
  rw [hh, ok_bind]
  dsimp only
  rw [C27_check_dimensions, if_pos]
  · rfl
  · false_or_by_contra
    rename_i hc
    refine hn ⟨fun m hm => ?_, fun m hm => ?_⟩
    · false_or_by_contra; exact hc (.inl ⟨m, hm, by omega⟩)
    · false_or_by_contra; exact hc (.inr ⟨m, hm, by omega⟩)

/-! ## Examples -/

/-- A crate whose files are pictures. -/
def toy : Crate Picture where
  encode := fun _ _ p => .ok p
  header := fun _ p => .ok (p.width, p.height)
  readInfo := fun _ p => .ok ⟨p.width, p.height, p.colour, p.depth, p.icc, fun n => if n = p.data.length then .ok p.data else errR .parameter⟩

theorem toy_faithful : Faithful toy := by
  intro c f p file he
  cases he
  exact ⟨rfl, _, rfl, rfl, rfl, rfl, rfl, rfl, if_pos rfl⟩

/-- A 16-bit image, written on a little-endian machine and read on a big-endian one. -/
example : ((Encoder.new.setIcc [7]).writeImage toy true [1, 2, 3, 4] 1 1 .La16) = .ok ⟨1, 1, .grayscaleAlpha, .sixteen, some [7], [2, 1, 4, 3]⟩ ∧
    ((Encoder.new.writeImage toy true [1, 2, 3, 4] 1 1 .La16).bind fun f => (Decoder.new toy f).bind fun d => d.readImage false 4) = .ok [2, 1, 4, 3] := by
  decide +kernel

example : ∃ dec, Decoder.withLimits toy ⟨1, 1, .grayscaleAlpha, .sixteen, none, [2, 1, 4, 3]⟩ ⟨some 1, some 1, none⟩ = .ok dec ∧
    ofDecoder true dec.reader.width dec.reader.height dec.colorType (dec.readImage true) = .ok (lumaA16 ⟨1, 1, [513, 1027]⟩) :=
  C80_image toy toy_faithful true .new (lumaA16 ⟨1, 1, [513, 1027, 9]⟩) ⟨by decide, by decide⟩ (by decide) (by decide) (by decide)
    (by show 1 * 1 * 2 ≤ 3; decide) _ (by decide +kernel) ⟨some 1, some 1, none⟩ ⟨fun m h => (by cases h; decide), fun m h => (by cases h; decide)⟩ rfl

example : Encoder.new.writeImage toy true [1, 2, 3, 4] 1 1 .Cmyk8 = errR .encoding ∧ Encoder.new.writeImage toy true [1, 2, 3] 1 1 .La16 = panicR := by
  decide +kernel

end Png
end Verif
