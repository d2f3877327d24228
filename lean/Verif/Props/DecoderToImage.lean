import Verif.Model.DecoderToImage
import Verif.Props.Buffer
import Verif.Proofs.Pbm

/-!
# C67: an image made from a decoder is what the decoder delivered

The specification: sample number `i` of the image is the number whose bytes, in the machine's order, are the bytes
`i*sz, ..., i*sz+sz-1` that the decoder stored in its buffer.
-/

namespace Verif
namespace DynamicImage

theorem sampleSize_mul (c : ColorType) : c.sampleSize * c.channelCount = c.bytesPerPixel := by cases c <;> rfl

theorem sampleSize_pos (c : ColorType) : 0 < c.sampleSize := by cases c <;> decide

theorem bytesPerPixel_le (c : ColorType) : c.bytesPerPixel ≤ 16 := by cases c <;> decide

/-- **C27**, **C67** The buffer that is allocated for a decoder has exactly `width * height * bytes per pixel` bytes; if
that is more than a `Vec` may have (`isize::MAX`), an error is returned and nothing is allocated. -/
theorem C27_decoder_to_vec (w h : Nat) (c : ColorType) (readImage : Nat → R (List UInt8)) :
    decoderToVec (totalBytes w h c.bytesPerPixel) c.sampleSize readImage =
      if w * h * c.bytesPerPixel < 2 ^ 63 then readImage (w * h * c.bytesPerPixel) else errR .limitsMemory := by
  unfold decoderToVec totalBytes satMul
  by_cases h1 : w * h * c.bytesPerPixel < 2 ^ 63
  · rw [if_pos h1, Nat.min_eq_left (by omega), if_neg (by omega)]
    have hs := sampleSize_pos c
    rw [show (c.sampleSize != 0) = true by simp; omega, assertR_true, ok_bind]
    rw [Nat.div_mul_cancel]
    rw [← sampleSize_mul]
    exact ⟨w * h * c.channelCount, by rw [← Nat.mul_assoc, Nat.mul_comm (w * h), Nat.mul_assoc, Nat.mul_comm]⟩
  · rw [if_neg h1, if_pos (by omega)]

theorem fromSamples_some (c : ColorType) (w h : Nat) (buf : List Nat) (hw : w < 2 ^ 32) (hl : buf.length = w * h * c.channelCount)
    (h64 : buf.length < 2 ^ 64) :
    ∃ d, fromSamples c w h buf = some d ∧ d.color = c ∧ d.width = w ∧ d.height = h ∧ d.useBuf (fun b => b.data) = buf := by
  have key : ∀ ch, ch < 256 → buf.length = w * h * ch → ImageBuffer.fromRaw ch w h buf = some ⟨w, h, buf⟩ := by
    intro ch hc he
    have := (ImageBuffer.checkImageFits_iff (ch := ch) (w := w) (h := h) (len := buf.length) hc hw).2 ⟨by omega, by omega⟩
    unfold ImageBuffer.fromRaw
    rw [if_pos this]
  cases c <;> exact ⟨_, congrArg (Option.map _) (key _ (by decide) hl), rfl, rfl, rfl, rfl⟩

theorem length_samplesOf (le : Bool) {sz n : Nat} (hs : 0 < sz) {bytes : List UInt8} (h : bytes.length = n * sz) :
    (samplesOf le sz bytes).length = n := by
  unfold samplesOf
  rw [List.length_map, length_chunksExact, h, Nat.mul_div_cancel _ hs]

/-- **C67** For every decoder, whatever its dimensions and colour type: if it fills the buffer it is given, the image has
the dimensions and the colour type of the decoder, and its samples are the numbers in the buffer, in order - or, if the
image is larger than a buffer can be, an error is returned. An error of the decoder is returned as it is. -/
theorem C67_of_decoder (le : Bool) (w h : Nat) (c : ColorType) (readImage : Nat → R (List UInt8)) (hw : w < 2 ^ 32) :
    (2 ^ 63 ≤ w * h * c.bytesPerPixel → ofDecoder le w h c readImage = errR .limitsMemory) ∧
    (w * h * c.bytesPerPixel < 2 ^ 63 →
      (∀ e, readImage (w * h * c.bytesPerPixel) = .error e → ofDecoder le w h c readImage = .error e) ∧
      (∀ bytes, readImage (w * h * c.bytesPerPixel) = .ok bytes → bytes.length = w * h * c.bytesPerPixel →
        ∃ d, ofDecoder le w h c readImage = .ok d ∧ d.color = c ∧ d.width = w ∧ d.height = h ∧
          d.useBuf (fun b => b.data) = samplesOf le c.sampleSize bytes)) := by
  unfold ofDecoder
  rw [C27_decoder_to_vec]
  refine ⟨fun hb => by rw [if_neg (by omega)]; rfl, fun hb => ⟨fun e he => by rw [if_pos hb, he]; rfl, ?_⟩⟩
  intro bytes hr hl
  rw [if_pos hb, hr, ok_bind]
  have hn : (samplesOf le c.sampleSize bytes).length = w * h * c.channelCount :=
    length_samplesOf le (sampleSize_pos c) (by rw [hl, ← sampleSize_mul]; simp only [Nat.mul_comm, Nat.mul_assoc])
  have hle : w * h * c.channelCount ≤ w * h * c.bytesPerPixel := by
    apply Nat.mul_le_mul_left
    rw [← sampleSize_mul]
    exact Nat.le_mul_of_pos_left _ (sampleSize_pos c)
  obtain ⟨d, hd, h1⟩ := fromSamples_some c w h (samplesOf le c.sampleSize bytes) hw hn (by omega)
  rw [hd]
  exact ⟨d, rfl, h1⟩

/-- **C67** What the samples are: the bytes `i*sz, ..., i*sz+sz-1` read in the machine's order. -/
theorem C67_samples (le : Bool) (sz n i : Nat) (hs : 0 < sz) (bytes : List UInt8) (h : bytes.length = n * sz) (hi : i < n) :
    (samplesOf le sz bytes)[i]? =
      some (if le then leNat ((bytes.drop (i * sz)).take sz) else beNat ((bytes.drop (i * sz)).take sz)) := by
  unfold samplesOf
  rw [List.getElem?_map, getElem?_chunksExact (by rw [h, Nat.mul_div_cancel _ hs]; exact hi)]
  rfl

theorem samplesOf_bytesOf (le : Bool) (sz : Nat) (hs : 0 < sz) (l : List Nat) (hv : ∀ v ∈ l, v < 256 ^ sz) :
    samplesOf le sz (bytesOf le sz l) = l := by
  unfold samplesOf bytesOf
  rw [chunksExact_flatMap hs _ (by intro b; split <;> simp), List.map_map]
  conv_rhs => rw [← List.map_id l]
  apply List.map_congr_left
  intro v hvm
  cases le
  · simpa [beNat_beBytes] using Nat.mod_eq_of_lt (hv v hvm)
  · simpa [leNat_leBytes] using Nat.mod_eq_of_lt (hv v hvm)

theorem length_bytesOf (le : Bool) (sz : Nat) (l : List Nat) : (bytesOf le sz l).length = l.length * sz := by
  unfold bytesOf
  rw [List.length_flatMap]
  have : (l.map fun v => (if le then leBytes sz v else beBytes sz v).length) = l.map fun _ => sz := by
    apply List.map_congr_left; intro v _; split <;> simp
  rw [this, List.map_const', List.sum_replicate]; rfl

/-- The image without what may follow its samples in the container. -/
def trimmed : DynamicImage → DynamicImage
  | luma8 b => luma8 ⟨b.width, b.height, b.data.take (b.width * b.height * 1)⟩
  | lumaA8 b => lumaA8 ⟨b.width, b.height, b.data.take (b.width * b.height * 2)⟩
  | rgb8 b => rgb8 ⟨b.width, b.height, b.data.take (b.width * b.height * 3)⟩
  | rgba8 b => rgba8 ⟨b.width, b.height, b.data.take (b.width * b.height * 4)⟩
  | luma16 b => luma16 ⟨b.width, b.height, b.data.take (b.width * b.height * 1)⟩
  | lumaA16 b => lumaA16 ⟨b.width, b.height, b.data.take (b.width * b.height * 2)⟩
  | rgb16 b => rgb16 ⟨b.width, b.height, b.data.take (b.width * b.height * 3)⟩
  | rgba16 b => rgba16 ⟨b.width, b.height, b.data.take (b.width * b.height * 4)⟩
  | rgb32F b => rgb32F ⟨b.width, b.height, b.data.take (b.width * b.height * 3)⟩
  | rgba32F b => rgba32F ⟨b.width, b.height, b.data.take (b.width * b.height * 4)⟩

theorem ofBytes_aux (le : Bool) (c : ColorType) (ch w h : Nat) (hch : ch = c.channelCount) (data : List Nat)
    (hlen : w * h * ch ≤ data.length) (hv : ∀ v ∈ data, v < 256 ^ c.sampleSize) (h63 : w * h * c.bytesPerPixel < 2 ^ 63)
    (readImage : Nat → R (List UInt8))
    (hr : readImage (bytesOf le c.sampleSize (data.take (w * h * ch))).length = .ok (bytesOf le c.sampleSize (data.take (w * h * ch)))) :
    ofDecoder le w h c readImage =
      match fromSamples c w h (data.take (w * h * ch)) with | some d => .ok d | none => errR .dimensionMismatch := by
  have hl : (data.take (w * h * ch)).length = w * h * ch := by rw [List.length_take]; omega
  have hb : (bytesOf le c.sampleSize (data.take (w * h * ch))).length = w * h * c.bytesPerPixel := by
    rw [length_bytesOf, hl, ← sampleSize_mul, hch]; simp only [Nat.mul_comm, Nat.mul_assoc]
  unfold ofDecoder
  rw [C27_decoder_to_vec, if_pos h63, ← hb, hr, ok_bind,
    samplesOf_bytesOf le _ (sampleSize_pos c) _ (fun v hvm => hv v (List.mem_of_mem_take hvm))]
  rfl

/-- **C67** The bytes of an image that are handed to an encoder, given back by a decoder of the same dimensions and colour
type, make the same image (without superfluous elements of the container). -/
theorem C67_bytes_roundtrip (le : Bool) (d : DynamicImage) (hw : d.width < 2 ^ 32)
    (hv : ∀ v ∈ d.useBuf (fun b => b.data), v < 256 ^ d.color.sampleSize)
    (hinv : d.useBuf fun {ch} b => b.width * b.height * ch ≤ b.data.length)
    (h63 : d.width * d.height * d.color.bytesPerPixel < 2 ^ 63) (readImage : Nat → R (List UInt8))
    (hr : readImage (d.innerBytes le).length = .ok (d.innerBytes le)) :
    ofDecoder le d.width d.height d.color readImage = .ok d.trimmed := by
  have key : ∀ ch (b : ImageBuffer Nat ch), ch < 256 → b.width < 2 ^ 32 → b.width * b.height * ch ≤ b.data.length → b.width * b.height * ch < 2 ^ 64 →
      ImageBuffer.fromRaw ch b.width b.height (b.data.take (b.width * b.height * ch)) =
        some ⟨b.width, b.height, b.data.take (b.width * b.height * ch)⟩ := by
    intro ch b hc hw hi h64
    have := (ImageBuffer.checkImageFits_iff (ch := ch) (w := b.width) (h := b.height)
      (len := (b.data.take (b.width * b.height * ch)).length) hc hw).2 ⟨h64, by rw [List.length_take]; omega⟩
    unfold ImageBuffer.fromRaw
    rw [if_pos this]
  have h64 : d.useBuf fun {ch} b => b.width * b.height * ch < 2 ^ 64 := by
    have hm : d.width * d.height * d.color.channelCount ≤ d.width * d.height * d.color.bytesPerPixel := by
      apply Nat.mul_le_mul_left
      rw [← sampleSize_mul]
      exact Nat.le_mul_of_pos_left _ (sampleSize_pos _)
    have : d.width * d.height * d.color.channelCount < 2 ^ 64 := by omega
    cases d <;> exact this
  have h2 : fromSamples d.color d.width d.height (d.useBuf fun {ch} b => b.data.take (b.width * b.height * ch)) = some d.trimmed := by
    cases d <;> exact congrArg (Option.map _) (key _ _ (by decide) hw hinv h64)
  have h3 : ofDecoder le d.width d.height d.color readImage =
      match fromSamples d.color d.width d.height (d.useBuf fun {ch} b => b.data.take (b.width * b.height * ch)) with
        | some d => .ok d | none => errR .dimensionMismatch := by
    cases d <;> rename_i b
    · exact ofBytes_aux le .L8 1 _ _ rfl b.data hinv hv h63 readImage hr
    · exact ofBytes_aux le .La8 2 _ _ rfl b.data hinv hv h63 readImage hr
    · exact ofBytes_aux le .Rgb8 3 _ _ rfl b.data hinv hv h63 readImage hr
    · exact ofBytes_aux le .Rgba8 4 _ _ rfl b.data hinv hv h63 readImage hr
    · exact ofBytes_aux le .L16 1 _ _ rfl b.data hinv hv h63 readImage hr
    · exact ofBytes_aux le .La16 2 _ _ rfl b.data hinv hv h63 readImage hr
    · exact ofBytes_aux le .Rgb16 3 _ _ rfl b.data hinv hv h63 readImage hr
    · exact ofBytes_aux le .Rgba16 4 _ _ rfl b.data hinv hv h63 readImage hr
    · exact ofBytes_aux le .Rgb32F 3 _ _ rfl b.data hinv hv h63 readImage hr
    · exact ofBytes_aux le .Rgba32F 4 _ _ rfl b.data hinv hv h63 readImage hr
  rw [h3, h2]

/-- The hypotheses are met by a 16-bit image with a superfluous element. -/
example : ofDecoder true 1 2 .La16 (fun n => if n = 8 then .ok [1, 2, 3, 4, 5, 6, 7, 8] else errR .io) =
    .ok (lumaA16 ⟨1, 2, [513, 1027, 1541, 2055]⟩) := by
  have := C67_bytes_roundtrip true (lumaA16 ⟨1, 2, [513, 1027, 1541, 2055, 9]⟩) (by decide) (by decide) (by show 1 * 2 * 2 ≤ 5; decide) (by decide)
    (fun n => if n = 8 then .ok [1, 2, 3, 4, 5, 6, 7, 8] else errR .io) (by decide +kernel)
  exact this

/-- A decoder that reports an image of 2^62 16-bit pixels is refused. -/
example (r : Nat → R (List UInt8)) : ofDecoder true (2 ^ 31) (2 ^ 31) .L16 r = errR .limitsMemory :=
  (C67_of_decoder true _ _ .L16 r (by decide)).1 (by decide)

end DynamicImage
end Verif
