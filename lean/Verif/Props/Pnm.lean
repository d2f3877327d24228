import Verif.Proofs.Pnm
import Verif.Props.AutoBreak
import Verif.Props.Utils
import Verif.Proofs.Pbm

/-!
# PNM files (C39, C40)
-/

namespace Verif
namespace Pnm

/-! ## Headers -/

/-- A tuple type whose name is a single token and is recognized. -/
def TuplType.Plain (t : TuplType) : Prop := t.name ≠ [] ∧ (∀ b ∈ t.name, IsTok b) ∧ tuplOfName t.name = t

/-- The values are `u32` and the tuple type is plain. -/
def Header.Fits : Header → Prop
  | .bitmap _ h w => h < 2 ^ 32 ∧ w < 2 ^ 32
  | .graymap _ h w m => h < 2 ^ 32 ∧ w < 2 ^ 32 ∧ m < 2 ^ 32
  | .pixmap _ h w m => h < 2 ^ 32 ∧ w < 2 ^ 32 ∧ m < 2 ^ 32
  | .arbitrary h w d m t => h < 2 ^ 32 ∧ w < 2 ^ 32 ∧ d < 2 ^ 32 ∧ m < 2 ^ 32 ∧ ∀ x, t = some x → x.Plain

instance (b : UInt8) : Decidable (IsTok b) := inferInstanceAs (Decidable (_ ∧ _ ∧ _))
instance (t : TuplType) : Decidable t.Plain := inferInstanceAs (Decidable (_ ∧ _ ∧ _))

theorem plain_known : TuplType.Plain .blackAndWhite ∧ TuplType.Plain .blackAndWhiteAlpha ∧ TuplType.Plain .grayscale ∧
    TuplType.Plain .grayscaleAlpha ∧ TuplType.Plain .rgb ∧ TuplType.Plain .rgbAlpha := by decide +kernel

theorem pamLine_key {kw : List UInt8} (hk : ∀ b ∈ kw, IsTok b) (hne : kw ≠ []) (t : List UInt8) (st : PamState) :
    pamLine (kw ++ 32 :: t) st = pamDispatch kw (32 :: t) st := by
  unfold pamLine
  rw [dropWhile_tok hk _ hne, findIdx_tok hk]
  simp

theorem pamLine_single {kw : List UInt8} (hk : ∀ b ∈ kw, IsTok b) (hne : kw ≠ []) (st : PamState) :
    pamLine kw st = pamDispatch kw [] st := by
  unfold pamLine
  have := dropWhile_tok hk [] hne
  rw [List.append_nil] at this
  rw [this, findIdx_none hk]
  simp

theorem pamLoop_succ (fuel : Nat) (s : List UInt8) (st : PamState) : pamLoop (fuel + 1) s st = (do
    let (line, s) ← nextLine s
    match line with
    | [] => errR .decoding
    | b :: _ =>
      if b = 35 then pamLoop fuel s st
      else if line.any fun b => decide (b.toNat ≥ 128) then errR .decoding
      else do
        match ← pamLine line st with
        | none => .ok (st, s)
        | some st => pamLoop fuel s st) := rfl

theorem pamLoop_line {fuel : Nat} {kw t s : List UInt8} {st st' : PamState} (hk : ∀ b ∈ kw, IsTok b) (hne : kw ≠ [])
    (ht : ∀ b ∈ t, IsTok b) (h : pamDispatch kw (32 :: t) st = .ok (some st')) :
    pamLoop (fuel + 1) (kw ++ (32 :: (t ++ 10 :: s))) st = pamLoop fuel s st' := by
  have hline : ∀ b ∈ kw ++ 32 :: t, IsLineChar b := by
    intro b hb
    rcases List.mem_append.1 hb with hb | hb
    · exact (hk b hb).lineChar
    · rcases List.mem_cons.1 hb with rfl | hb
      · exact ⟨by decide, by decide⟩
      · exact (ht b hb).lineChar
  have hany : ((kw ++ 32 :: t).any fun b => decide (b.toNat ≥ 128)) = false := by
    rw [List.any_eq_false]
    intro x hx
    have := (hline x hx).2
    simp only [decide_eq_true_eq]; omega
  have hl := pamLine_key hk hne t st
  rw [show kw ++ (32 :: (t ++ 10 :: s)) = (kw ++ 32 :: t) ++ 10 :: s by simp]
  rw [pamLoop_succ, nextLine_line hline]
  simp only [ok_bind]
  cases kw with
  | nil => exact absurd rfl hne
  | cons b r =>
  have hb := hk b (by simp)
  rw [List.cons_append] at *
  dsimp only
  rw [if_neg hb.2.2, hany, hl, h]
  rfl

theorem pamLoop_end {fuel : Nat} {s : List UInt8} {st : PamState} :
    pamLoop (fuel + 1) (kwEndhdr ++ 10 :: s) st = .ok (st, s) := by
  unfold pamLoop
  rw [nextLine_line (t := kwEndhdr) (by
    have : ∀ b ∈ kwEndhdr, IsTok b := by decide +kernel
    exact fun b hb => (this b hb).lineChar)]
  simp only [ok_bind]
  rfl

theorem parseSingleValueLine_dec {v : Nat} (h : v < 2 ^ 32) : parseSingleValueLine none (32 :: dec v) = .ok (some v) := by
  unfold parseSingleValueLine
  dsimp only
  rw [trim_tok (fun b hb => (dec_digit hb).tok), parseU32_dec h]

/-- The text of an arbitrary header behind the magic and the first newline, followed by `s`. -/
def pamText (h w d m : Nat) (t : Option TuplType) (s : List UInt8) : List UInt8 :=
  kwWidth ++ (32 :: (dec w ++ 10 :: (kwHeight ++ (32 :: (dec h ++ 10 ::
      (kwDepth ++ (32 :: (dec d ++ 10 :: (kwMaxval ++ (32 :: (dec m ++ 10 ::
      ((match t with
        | some t => kwTupltype ++ (32 :: (t.name ++ 10 :: []))
        | none => []) ++ (kwEndhdr ++ 10 :: s)))))))))))))

theorem readArbitraryHeader_bytes {h w d m : Nat} {t : Option TuplType} (hf : Header.Fits (.arbitrary h w d m t))
    (s : List UInt8) : readHeader ((Header.arbitrary h w d m t).bytes ++ s) = .ok (.arbitrary h w d m t, s) := by
  obtain ⟨hh, hw, hd, hm, ht⟩ := hf
  have kW : (∀ b ∈ kwWidth, IsTok b) ∧ kwWidth ≠ [] := by decide +kernel
  have kH : (∀ b ∈ kwHeight, IsTok b) ∧ kwHeight ≠ [] := by decide +kernel
  have kD : (∀ b ∈ kwDepth, IsTok b) ∧ kwDepth ≠ [] := by decide +kernel
  have kM : (∀ b ∈ kwMaxval, IsTok b) ∧ kwMaxval ≠ [] := by decide +kernel
  have kT : (∀ b ∈ kwTupltype, IsTok b) ∧ kwTupltype ≠ [] := by decide +kernel
  have dt : ∀ n, ∀ b ∈ dec n, IsTok b := fun n b hb => (dec_digit hb).tok
  have loop : ∀ fuel, pamLoop (fuel + 6) (pamText h w d m t s) {} =
      .ok ({ height := some h, width := some w, depth := some d, maxval := some m, tupltype := t.map TuplType.name }, s) := by
    intro fuel
    unfold pamText
    rw [pamLoop_line (st' := { width := some w }) kW.1 kW.2 (dt _) (by
      unfold pamDispatch
      rw [if_neg (by decide), if_neg (by decide), if_pos rfl, parseSingleValueLine_dec hw]; rfl)]
    rw [pamLoop_line (st' := { width := some w, height := some h }) kH.1 kH.2 (dt _) (by
      unfold pamDispatch
      rw [if_neg (by decide), if_pos rfl, parseSingleValueLine_dec hh]; rfl)]
    rw [pamLoop_line (st' := { width := some w, height := some h, depth := some d }) kD.1 kD.2 (dt _) (by
      unfold pamDispatch
      rw [if_neg (by decide), if_neg (by decide), if_neg (by decide), if_pos rfl, parseSingleValueLine_dec hd]; rfl)]
    rw [pamLoop_line (st' := { width := some w, height := some h, depth := some d, maxval := some m }) kM.1 kM.2 (dt _) (by
      unfold pamDispatch
      rw [if_neg (by decide), if_neg (by decide), if_neg (by decide), if_neg (by decide), if_pos rfl,
        parseSingleValueLine_dec hm]; rfl)]
    cases t with
    | none => exact pamLoop_end
    | some t =>
      obtain ⟨t1, t2, t3⟩ := ht t rfl
      rw [show (match some t with
        | some t => kwTupltype ++ (32 :: (t.name ++ 10 :: []))
        | none => []) ++ (kwEndhdr ++ 10 :: s) = kwTupltype ++ (32 :: (t.name ++ 10 :: (kwEndhdr ++ 10 :: s))) by simp]
      rw [pamLoop_line (st' := { width := some w, height := some h, depth := some d, maxval := some m, tupltype := some t.name }) kT.1 kT.2 t2 (by
        unfold pamDispatch
        rw [if_neg (by decide), if_neg (by decide), if_neg (by decide), if_neg (by decide), if_neg (by decide),
          if_pos rfl]
        dsimp only
        rw [trim_tok t2])]
      exact pamLoop_end
  have hb : (Header.arbitrary h w d m t).bytes ++ s = [80, 55] ++ (10 :: pamText h w d m t s) := by
    unfold pamText
    cases t <;> simp [Header.bytes, Header.subtype, Subtype.magic]
  rw [hb]
  unfold readHeader
  rw [readExact_append' (n := 2) rfl]
  simp only [ok_bind]
  rw [if_neg (by decide), if_neg (by decide), if_neg (by decide), if_neg (by decide), if_neg (by decide),
    if_neg (by decide), if_pos (by decide)]
  unfold readArbitraryHeader
  dsimp only
  rw [if_neg (by decide)]
  generalize hx : pamText h w d m t s = x at loop ⊢
  have hlen : 5 ≤ x.length := by rw [← hx]; simp [pamText, kwWidth]
  obtain ⟨k, hk⟩ : ∃ k, x.length + 1 = k + 6 := ⟨x.length - 5, by omega⟩
  rw [hk, loop]
  simp only [ok_bind]
  have hmap : (t.map TuplType.name).map tuplOfName = t := by
    cases t with
    | none => rfl
    | some t => simp [(ht t rfl).2.2]
  rw [hmap]

/-- **C39** (headers): the header reader of the decoder recovers every header that the encoder writes whose fields are
`u32` values and whose tuple type is one of the known ones or a single custom word, and stops exactly behind it. -/
theorem C39_header {h : Header} (hf : h.Fits) (s : List UInt8) : readHeader (h.bytes ++ s) = .ok (h, s) := by
  have nl := nextU32_newline
  cases h with
  | arbitrary h w d m t => exact readArbitraryHeader_bytes hf s
  | bitmap e h w =>
    obtain ⟨hh, hw⟩ := hf
    have hb : (Header.bitmap e h w).bytes ++ s = (Subtype.bitmap e).magic ++ (10 :: (dec w ++ 32 :: (dec h ++ 10 :: s))) := by
      simp [Header.bytes, Header.subtype]
    rw [hb]
    unfold readHeader
    rw [readExact_append' (n := 2) (by cases e <;> rfl)]
    simp only [ok_bind]
    have hr : readBitmapHeader e (10 :: (dec w ++ 32 :: (dec h ++ 10 :: s))) = .ok (.bitmap e h w, s) := by
      unfold readBitmapHeader
      rw [nl, nextU32_dec hw (by decide)]
      simp only [ok_bind]
      rw [nextU32_dec hh (by decide)]
      simp only [ok_bind]
    cases e
    · rw [if_neg (by decide), if_neg (by decide), if_neg (by decide), if_pos rfl, hr]
    · rw [if_pos rfl, hr]
  | graymap e h w m =>
    obtain ⟨hh, hw, hm⟩ := hf
    have hb : (Header.graymap e h w m).bytes ++ s =
        (Subtype.graymap e).magic ++ (10 :: (dec w ++ 32 :: (dec h ++ 32 :: (dec m ++ 10 :: s)))) := by
      simp [Header.bytes, Header.subtype]
    rw [hb]
    unfold readHeader
    rw [readExact_append' (n := 2) (by cases e <;> rfl)]
    simp only [ok_bind]
    have hr : readPixmapHeader .graymap e (10 :: (dec w ++ 32 :: (dec h ++ 32 :: (dec m ++ 10 :: s)))) =
        .ok (.graymap e h w m, s) := by
      unfold readPixmapHeader
      rw [nl, nextU32_dec hw (by decide)]
      simp only [ok_bind]
      rw [nextU32_dec hh (by decide)]
      simp only [ok_bind]
      rw [nextU32_dec hm (by decide)]
      simp only [ok_bind]
    cases e
    · rw [if_neg (by decide), if_neg (by decide), if_neg (by decide), if_neg (by decide), if_pos rfl, hr]
    · rw [if_neg (by decide), if_pos rfl, hr]
  | pixmap e h w m =>
    obtain ⟨hh, hw, hm⟩ := hf
    have hb : (Header.pixmap e h w m).bytes ++ s =
        (Subtype.pixmap e).magic ++ (10 :: (dec w ++ 32 :: (dec h ++ 32 :: (dec m ++ 10 :: s)))) := by
      simp [Header.bytes, Header.subtype]
    rw [hb]
    unfold readHeader
    rw [readExact_append' (n := 2) (by cases e <;> rfl)]
    simp only [ok_bind]
    have hr : readPixmapHeader .pixmap e (10 :: (dec w ++ 32 :: (dec h ++ 32 :: (dec m ++ 10 :: s)))) =
        .ok (.pixmap e h w m, s) := by
      unfold readPixmapHeader
      rw [nl, nextU32_dec hw (by decide)]
      simp only [ok_bind]
      rw [nextU32_dec hh (by decide)]
      simp only [ok_bind]
      rw [nextU32_dec hm (by decide)]
      simp only [ok_bind]
    cases e
    · rw [if_neg (by decide), if_neg (by decide), if_neg (by decide), if_neg (by decide), if_neg (by decide), if_pos rfl, hr]
    · rw [if_neg (by decide), if_neg (by decide), if_pos rfl, hr]

example : (Header.arbitrary 3 70000 4 255 (some .rgbAlpha)).Fits ∧ (Header.graymap .ascii 1 2 15).Fits ∧
    (Header.arbitrary 1 1 2 7 (some (.custom [65, 66]))).Fits :=
  ⟨⟨by omega, by omega, by omega, by omega, by rintro x h; cases h; exact plain_known.2.2.2.2.2⟩, ⟨by omega, by omega, by omega⟩,
    ⟨by omega, by omega, by omega, by omega, by rintro x h; cases h; decide +kernel⟩⟩

/-! ## Binary files -/

theorem Header.Fits.dims {h : Header} (hf : h.Fits) : h.width < 2 ^ 32 ∧ h.height < 2 ^ 32 := by
  cases h <;> simp only [Header.Fits] at hf <;> simp only [Header.width, Header.height] <;> omega

theorem bpp_pos (t : TupleType) : 0 < t.colorType.bytesPerPixel := by cases t <;> decide

theorem decode_header (le : Bool) {h : Header} (hf : h.Fits) {t : TupleType} (ht : h.tupleType = .ok t)
    (hd : h.width * h.height * t.colorType.bytesPerPixel < 2 ^ 64) (s : List UInt8) :
    decode le (h.bytes ++ s) = (do
      let buf ← Decoder.readSamples le ⟨s, h, t⟩ t.sample.1 t.sample.2 (h.width * h.height * t.colorType.bytesPerPixel)
      .ok (h.width, h.height, t.colorType, buf)) := by
  obtain ⟨hw, hh⟩ := hf.dims
  have hn : Decoder.new (h.bytes ++ s) = .ok ⟨s, h, t⟩ := by
    unfold Decoder.new
    rw [C39_header hf]
    simp only [ok_bind]
    rw [ht]
    simp only [ok_bind]
    rw [C35_check_dimension_overflow _ _ _ hw hh (bpp_pos t), decide_eq_false (by omega)]
    rfl
  have htot : totalBytes h.width h.height t.colorType.bytesPerPixel = h.width * h.height * t.colorType.bytesPerPixel := by
    unfold totalBytes satMul; omega
  unfold decode Decoder.readImage
  rw [hn]
  simp only [ok_bind]
  rw [htot]
  simp

theorem readSamples_u8 (le : Bool) {h : Header} {t : TupleType} (hs : t.sample.1 = .U8)
    (he : h.subtype.sampleEncoding = .binary) (hm : h.maximalSample = 255)
    (hd : h.width * h.height * t.sample.2 < 2 ^ 32) (hc : 0 < t.sample.2) (hw : h.width < 2 ^ 32)
    {data : List UInt8} (hl : data.length = h.width * h.height * t.sample.2) (extra : List UInt8) :
    Decoder.readSamples le ⟨data ++ extra, h, t⟩ t.sample.1 t.sample.2 (h.width * h.height * t.sample.2) = .ok data := by
  have h1 : h.width * h.height < 2 ^ 32 := Nat.lt_of_le_of_lt (Nat.le_mul_of_pos_right _ hc) hd
  have h2 : h.width * t.sample.2 < 2 ^ 64 := by
    have : t.sample.2 ≤ 3 := by cases t <;> decide
    have := Nat.mul_le_mul_left h.width this
    omega
  unfold Decoder.readSamples
  dsimp only
  rw [he, hs]
  simp only [Sample.bytelen]
  rw [mulC_ok h1, ok_bind, mulC_ok hd, ok_bind, Sample.size]
  rw [mulC_ok (by omega), ok_bind, Nat.mul_one, ← hl, List.take_left, if_neg (by simp)]
  rw [checkedMul, if_pos h2]
  simp only [Sample.fromBytes]
  simp only [decide_true, assertR_true, ok_bind]
  rw [scaleBuffer, hm, if_neg (by simp [Sample.size])]
  exact fun h => nomatch h

/-- **C39** (8-bit samples): a grey (`L8`) or `Rgb8` image of fewer than 2^32 bytes, written as PAM, binary PGM or binary
PPM, is decoded to the same dimensions, colour type and samples, whatever follows the file. -/
theorem C39_roundtrip_u8_partial (le : Bool) (strategy : Strategy) (color : ExtendedColorType) (ct : ColorType)
    (hcase : (color = .L8 ∧ ct = .L8 ∧
        (strategy = .dynamic ∨ strategy = .subtype .arbitraryMap ∨ strategy = .subtype (.graymap .binary))) ∨
      (color = .Rgb8 ∧ ct = .Rgb8 ∧
        (strategy = .dynamic ∨ strategy = .subtype .arbitraryMap ∨ strategy = .subtype (.pixmap .binary))))
    (w h : Nat) (hw : w < 2 ^ 32) (hh : h < 2 ^ 32) (samples : List UInt8)
    (hlen : samples.length = w * h * color.channelCount) (hsize : samples.length < 2 ^ 32) :
    ∃ file, writeImage strategy samples w h color = .ok file ∧ encode strategy (.u8 samples) w h color = .ok file ∧
      ∀ extra, decode le (file ++ extra) = .ok (w, h, ct, samples) := by
  have key : ∀ (hd : Header) (t : TupleType), hd.Fits → hd.tupleType = .ok t → t.sample.1 = .U8 →
      hd.subtype.sampleEncoding = .binary → hd.maximalSample = 255 → hd.width = w → hd.height = h →
      t.sample.2 = color.channelCount → t.colorType = ct → ct.bytesPerPixel = color.channelCount → 
      0 < color.channelCount →
      ∀ extra, decode le (hd.bytes ++ samples ++ extra) = .ok (w, h, ct, samples) := by
    intro hd t hf ht hs he hm hw' hh' hc hct hbpp hpos extra
    rw [List.append_assoc, decode_header le hf ht (by rw [hw', hh', hct, hbpp]; omega)]
    rw [hct, hbpp, ← hc]
    rw [readSamples_u8 le hs he hm (by rw [hw', hh', hc]; omega) (by omega) (by omega) (by rw [hw', hh', hc]; omega)]
    simp only [ok_bind]
    rw [hw', hh']
  have hbuf : color.bufferSize w h = .ok (w * h * color.channelCount) := by
    unfold ExtendedColorType.bufferSize satMul
    rcases hcase with ⟨rfl, -, -⟩ | ⟨rfl, -, -⟩
    · have e1 : ExtendedColorType.L8.bitsPerPixel = 8 := rfl
      have e2 : ExtendedColorType.L8.channelCount = 1 := rfl
      rw [e2] at hlen
      rw [e1, e2, mulC_ok (by omega), ok_bind, addC_ok (by omega), ok_bind]
      dsimp only
      rw [show (w * 8 + 7) / 8 = w by omega, Nat.mul_one, Nat.min_eq_left (by omega)]
    · have e1 : ExtendedColorType.Rgb8.bitsPerPixel = 24 := rfl
      have e2 : ExtendedColorType.Rgb8.channelCount = 3 := rfl
      rw [e2] at hlen
      rw [e1, e2, mulC_ok (by omega), ok_bind, addC_ok (by omega), ok_bind]
      dsimp only
      rw [show (w * 24 + 7) / 8 = w * 3 by omega]
      have : w * 3 * h = w * h * 3 := by rw [Nat.mul_right_comm]
      rw [this, Nat.min_eq_left (by omega)]
  have hcheck : ∀ hd : Header, hd.width = w → hd.height = h → hd.maximalSample = 255 →
      checkHeaderColor hd color = .ok () → writeRaster hd (.u8 samples) = .ok samples →
      writeWithHeader hd (.u8 samples) w h color = .ok (hd.bytes ++ samples) := by
    intro hd h1 h2 h3 h4 h5
    unfold writeWithHeader checkHeaderDimensions
    rw [if_neg (by simp [h1, h2]), ok_bind, h4, ok_bind]
    have hbuf : checkBuffer (.u8 samples) w h color = .ok () := by
      unfold checkBuffer
      have hc : 0 < color.channelCount := by rcases hcase with ⟨rfl, -, -⟩ | ⟨rfl, -, -⟩ <;> decide
      have hc3 : color.channelCount ≤ 3 := by rcases hcase with ⟨rfl, -, -⟩ | ⟨rfl, -, -⟩ <;> decide
      have e1 : color.channelCount * w < 2 ^ 64 := by
        have := Nat.mul_le_mul_right w hc3
        omega
      have e2 : color.channelCount * w * h = samples.length := by rw [hlen, Nat.mul_assoc, Nat.mul_comm]
      dsimp only
      rw [checkedMul, if_pos e1, Option.bind_some, checkedMul,
        if_pos (show color.channelCount * w * h < 2 ^ 64 by omega), e2]
      simp [Samples.len]
    have hmax : maxSample color = .ok 255 := by rcases hcase with ⟨rfl, -, -⟩ | ⟨rfl, -, -⟩ <;> rfl
    have hval : checkSampleValues hd (.u8 samples) w h color = .ok () := by
      unfold checkSampleValues
      dsimp only
      rw [hmax, ok_bind, h3, hbuf]
      rfl
    rw [hval, ok_bind, h5, ok_bind]
  have hwi : writeImage strategy samples w h color = encode strategy (.u8 samples) w h color := by
    unfold writeImage
    rw [hbuf, ok_bind, hlen]
    simp
  rw [hwi]
  rcases hcase with ⟨rfl, rfl, rfl | rfl | rfl⟩ | ⟨rfl, rfl, rfl | rfl | rfl⟩
  · have e := (hcheck (.arbitrary h w 1 255 (some .grayscale)) rfl rfl rfl rfl rfl)
    refine ⟨_, e, e, ?_⟩
    exact key _ .grayU8 ⟨hh, hw, by omega, by omega, by rintro x hx; cases hx; exact plain_known.2.2.1⟩ rfl rfl rfl rfl rfl rfl rfl rfl rfl (by decide)
  · have e := (hcheck (.arbitrary h w 1 255 (some .grayscale)) rfl rfl rfl rfl rfl)
    refine ⟨_, e, e, ?_⟩
    exact key _ .grayU8 ⟨hh, hw, by omega, by omega, by rintro x hx; cases hx; exact plain_known.2.2.1⟩ rfl rfl rfl rfl rfl rfl rfl rfl rfl (by decide)
  · have e := (hcheck (.graymap .binary h w 255) rfl rfl rfl rfl rfl)
    refine ⟨_, e, e, ?_⟩
    exact key _ .grayU8 ⟨hh, hw, by omega⟩ rfl rfl rfl rfl rfl rfl rfl rfl rfl (by decide)
  · have e := (hcheck (.arbitrary h w 3 255 (some .rgb)) rfl rfl rfl rfl rfl)
    refine ⟨_, e, e, ?_⟩
    exact key _ .rgbU8 ⟨hh, hw, by omega, by omega, by rintro x hx; cases hx; exact plain_known.2.2.2.2.1⟩ rfl rfl rfl rfl rfl rfl rfl rfl rfl (by decide)
  · have e := (hcheck (.arbitrary h w 3 255 (some .rgb)) rfl rfl rfl rfl rfl)
    refine ⟨_, e, e, ?_⟩
    exact key _ .rgbU8 ⟨hh, hw, by omega, by omega, by rintro x hx; cases hx; exact plain_known.2.2.2.2.1⟩ rfl rfl rfl rfl rfl rfl rfl rfl rfl (by decide)
  · have e := (hcheck (.pixmap .binary h w 255) rfl rfl rfl rfl rfl)
    refine ⟨_, e, e, ?_⟩
    exact key _ .rgbU8 ⟨hh, hw, by omega⟩ rfl rfl rfl rfl rfl rfl rfl rfl rfl (by decide)

theorem writeWithHeader_ok {hd : Header} {image : Samples} {w h : Nat} {color : ExtendedColorType} {m : Nat} {r : List UInt8}
    (h1 : hd.width = w) (h2 : hd.height = h) (h3 : checkHeaderColor hd color = .ok ()) (h4 : maxSample color = .ok m)
    (h5 : m ≤ hd.maximalSample ∨ image.allSmaller hd.maximalSample = true)
    (h6 : image.len = w * h * color.channelCount) (h7 : color.channelCount * w < 2 ^ 64) (h8 : image.len < 2 ^ 64)
    (h9 : writeRaster hd image = .ok r) : writeWithHeader hd image w h color = .ok (hd.bytes ++ r) := by
  unfold writeWithHeader checkHeaderDimensions
  rw [if_neg (by simp [h1, h2]), ok_bind, h3, ok_bind]
  have e2 : color.channelCount * w * h = image.len := by rw [h6, Nat.mul_assoc, Nat.mul_comm]
  have hbuf : checkBuffer image w h color = .ok () := by
    unfold checkBuffer
    dsimp only
    rw [checkedMul, if_pos h7, Option.bind_some, checkedMul, if_pos (show color.channelCount * w * h < 2 ^ 64 by omega), e2]
    simp
  have hval : checkSampleValues hd image w h color = .ok () := by
    unfold checkSampleValues
    dsimp only
    rw [h4, ok_bind, hbuf, if_neg]
    simp only [Bool.and_eq_true, decide_eq_true_eq, Bool.not_eq_true', not_and, Bool.not_eq_false]
    intro h
    rcases h5 with h5 | h5
    · omega
    · exact h5
  rw [hval, ok_bind, h9, ok_bind]

theorem native16_length (le : Bool) (b : List UInt8) : (native16 le b).length = b.length := by
  unfold native16; split <;> simp

theorem readNative16_native16 (le : Bool) (v : Nat) (h : v < 65536) : readNative16 le (native16 le (beBytes 2 v)) = v := by
  unfold readNative16 native16
  cases le
  · simp only [Bool.false_eq_true, if_false]
    rw [beNat_beBytes, Nat.mod_eq_of_lt h]
  · simp only [if_true]
    rw [beBytes, List.reverse_reverse, leNat_leBytes, Nat.mod_eq_of_lt h]

theorem readSamples_u16 (le : Bool) {h : Header} (he : h.subtype.sampleEncoding = .binary) (hm : h.maximalSample = 65535)
    (hd : h.width * h.height * 2 < 2 ^ 32) (hw : h.width < 2 ^ 32)
    {samples : List UInt16} (hl : samples.length = h.width * h.height) (extra : List UInt8) :
    Decoder.readSamples le ⟨(samples.flatMap fun v => beBytes 2 v.toNat) ++ extra, h, .grayU16⟩ .U16 1 (h.width * h.height * 2) =
      .ok (samples.flatMap fun v => native16 le (beBytes 2 v.toNat)) := by
  have hlen : (samples.flatMap fun v => beBytes 2 v.toNat).length = h.width * h.height * 2 := by
    rw [length_flatMap_const (n := 2) _ _ (fun b _ => length_beBytes 2 _), hl]
  unfold Decoder.readSamples
  dsimp only
  rw [he]
  simp only [Sample.bytelen]
  rw [mulC_ok (by omega), ok_bind, mulC_ok (by omega), ok_bind, Sample.size]
  rw [mulC_ok (by omega), ok_bind, Nat.mul_one, ← hlen, List.take_left, if_neg (by simp)]
  rw [checkedMul, if_pos (by omega)]
  simp only [Sample.fromBytes]
  simp only [decide_true, assertR_true, ok_bind]
  rw [scaleBuffer, hm, if_neg (by simp [Sample.size])]
  rw [chunksExact_flatMap (by omega) _ (fun b => length_beBytes 2 _), List.flatMap_map, hlen,
    Nat.mul_div_cancel _ (by omega), List.drop_eq_nil_of_le (by omega), List.append_nil]

/-- **C39** (16-bit samples): an `L16` image of fewer than 2^32 bytes, given to `encode` as 16-bit samples and written as
PAM or as binary PGM with maximal value 65535, is decoded to the same dimensions, colour type and samples, in the native
byte order of the target. -/
theorem C39_roundtrip_u16_partial (le : Bool) (strategy : Strategy) (w h : Nat)
    (hcase : strategy = .dynamic ∨ strategy = .subtype .arbitraryMap ∨ strategy = .chosen (.graymap .binary h w 65535))
    (hw : w < 2 ^ 32) (hh : h < 2 ^ 32) (samples : List UInt16)
    (hlen : samples.length = w * h) (hsize : samples.length * 2 < 2 ^ 32) :
    ∃ file, encode strategy (.u16 samples) w h .L16 = .ok file ∧
      ∀ extra, ∃ buf, decode le (file ++ extra) = .ok (w, h, .L16, buf) ∧
        buf = samples.flatMap (fun v => native16 le (beBytes 2 v.toNat)) ∧
        (chunksExact 2 buf).map (readNative16 le) = samples.map UInt16.toNat := by
  have key : ∀ hd : Header, hd.Fits → hd.tupleType = .ok .grayU16 → hd.subtype.sampleEncoding = .binary →
      hd.maximalSample = 65535 → hd.width = w → hd.height = h → checkHeaderColor hd .L16 = .ok () →
      writeRaster hd (.u16 samples) = .ok (Samples.u16 samples).bytes →
      ∃ file, writeWithHeader hd (.u16 samples) w h .L16 = .ok file ∧ ∀ extra, ∃ buf,
        decode le (file ++ extra) = .ok (w, h, .L16, buf) ∧
        buf = samples.flatMap (fun v => native16 le (beBytes 2 v.toNat)) ∧
        (chunksExact 2 buf).map (readNative16 le) = samples.map UInt16.toNat := by
    intro hd hf ht he hm hw' hh' hc hr
    refine ⟨_, writeWithHeader_ok hw' hh' hc (m := 65535) rfl (.inl (by omega)) ?_ ?_ ?_ hr, ?_⟩
    · show samples.length = w * h * 1
      omega
    · show 1 * w < 2 ^ 64
      omega
    · show samples.length < 2 ^ 64
      omega
    · intro extra
      refine ⟨_, ?_, rfl, ?_⟩
      · rw [List.append_assoc, decode_header le hf ht (by rw [hw', hh']; show w * h * 2 < 2 ^ 64; omega)]
        show (do
          let buf ← Decoder.readSamples le ⟨(samples.flatMap fun v : UInt16 => beBytes 2 v.toNat) ++ extra, hd, .grayU16⟩ .U16 1
            (hd.width * hd.height * 2)
          Except.ok (hd.width, hd.height, ColorType.L16, buf)) = _
        rw [readSamples_u16 le he hm (by rw [hw', hh']; omega) (by omega) (by rw [hw', hh']; omega)]
        simp only [ok_bind]
        rw [hw', hh']
      · rw [chunksExact_flatMap (by omega) _ (fun b => by rw [native16_length, length_beBytes]), List.map_map]
        apply List.map_congr_left
        intro v _
        exact readNative16_native16 le _ v.toNat_lt
  rcases hcase with rfl | rfl | rfl
  · exact key (.arbitrary h w 1 65535 (some .grayscale)) ⟨hh, hw, by omega, by omega, by rintro x hx; cases hx; exact plain_known.2.2.1⟩
      rfl rfl rfl rfl rfl rfl rfl
  · exact key (.arbitrary h w 1 65535 (some .grayscale)) ⟨hh, hw, by omega, by omega, by rintro x hx; cases hx; exact plain_known.2.2.1⟩
      rfl rfl rfl rfl rfl rfl rfl
  · exact key (.graymap .binary h w 65535) ⟨hh, hw, by omega⟩ rfl rfl rfl rfl rfl rfl rfl

/-- **C39** (binary PBM): an `L1` image of one sample per byte, or an `L8` image with some sample greater than one, written
as binary PBM, is decoded to an `L8` image of the same dimensions that is black where the sample is zero and white
elsewhere. -/
theorem C39_roundtrip_pbm_partial (le : Bool) (color : ExtendedColorType) (w h : Nat) (hw0 : 0 < w) (hw : w < 2 ^ 32 - 8)
    (hh : h < 2 ^ 32) (samples : List UInt8) (hcase : color = .L1 ∨ color = .L8 ∧ ∃ v ∈ samples, 1 < v)
    (hlen : samples.length = w * h) (hsize : samples.length < 2 ^ 32) :
    ∃ file, encode (.subtype (.bitmap .binary)) (.u8 samples) w h color = .ok file ∧
      ∀ extra, decode le (file ++ extra) = .ok (w, h, .L8, samples.map fun v => if v = 0 then 0 else 255) := by
  obtain ⟨p1, p2, -⟩ := writePbmBits_rows (samples := samples) (h := h) hw0 (by rw [hlen, Nat.mul_comm])
  have he : encode (.subtype (.bitmap .binary)) (.u8 samples) w h color =
      writeWithHeader (.bitmap .binary h w) (.u8 samples) w h color := by
    rcases hcase with rfl | ⟨rfl, -⟩ <;> rfl
  have hch : color.channelCount = 1 := by rcases hcase with rfl | ⟨rfl, -⟩ <;> rfl
  refine ⟨_, he.trans (writeWithHeader_ok rfl rfl ?_ (m := if color = .L1 then 1 else 255) ?_ ?_ ?_ ?_ ?_ p1), ?_⟩
  · rcases hcase with rfl | ⟨rfl, -⟩ <;> rfl
  · rcases hcase with rfl | ⟨rfl, -⟩ <;> rfl
  · rcases hcase with rfl | ⟨rfl, v, hv, hv1⟩
    · exact .inl (Nat.le_refl _)
    · right
      simp only [Samples.allSmaller, List.any_eq_true, decide_eq_true_eq]
      exact ⟨v, hv, UInt8.lt_iff_toNat_lt.1 hv1⟩
  · rw [hch, Nat.mul_one]; exact hlen
  · rw [hch]; omega
  · exact Nat.lt_trans hsize (by omega)
  · intro extra
    obtain ⟨out, o1, o2⟩ := expand_pbm (samples := samples) (h := h) hw0 hw (by rw [hlen, Nat.mul_comm])
    rw [List.append_assoc, decode_header le (h := .bitmap .binary h w) (t := .pbmBit) ⟨hh, by omega⟩ rfl (by
      show w * h * 1 < 2 ^ 64; omega)]
    have hrb : (List.flatMap pbmRow (chunksOf w samples)).length < 2 ^ 32 ∧ packedRowBytes 1 w < 2 ^ 32 := by
      rw [p2, packedRowBytes]
      have : (w * 1 + 7) / 8 ≤ w := by omega
      have := Nat.mul_le_mul_left h this
      rw [Nat.mul_comm h w] at this
      omega
    have hbl : Sample.PbmBit.bytelen w h 1 = .ok (List.flatMap pbmRow (chunksOf w samples)).length := by
      simp only [Sample.bytelen]
      rw [mulC_ok (by omega), ok_bind]
      have e : w * 1 / 8 + (if w * 1 % 8 ≠ 0 then 1 else 0) = packedRowBytes 1 w := by
        unfold packedRowBytes; split <;> omega
      rw [e, p2, Nat.mul_comm h, mulC_ok (by rw [Nat.mul_comm, ← p2]; exact hrb.1)]
    have hrs : Decoder.readSamples le ⟨List.flatMap pbmRow (chunksOf w samples) ++ extra, .bitmap .binary h w, .pbmBit⟩
        .PbmBit 1 (w * h * 1) = .ok (samples.map fun v => if v = 0 then 0 else 255) := by
      unfold Decoder.readSamples
      simp only [Header.subtype, Subtype.sampleEncoding, Header.width, Header.height]
      rw [hbl, ok_bind, List.take_left, if_neg (by simp), checkedMul, if_pos (by omega)]
      simp only [Sample.fromBytes]
      rw [decide_eq_true (by omega), assertR_true, ok_bind, Nat.mul_one, o1, ok_bind, o2]
      rw [decide_eq_true (by simp [hlen]), assertR_true, ok_bind, ok_bind]
      simp only [Header.maximalSample, scaleBuffer, Sample.size]
      rw [if_pos (by decide), if_pos trivial, List.map_map]
      congr 1
      apply List.map_congr_left
      intro v _
      have s1 := scale_one ⟨0, by omega⟩
      have s2 := scale_one ⟨255, by omega⟩
      simp only [Function.comp]
      split
      · rw [show (0 : UInt8).toNat = 0 by rfl, s1]; rfl
      · rw [show (255 : UInt8).toNat = 255 by rfl, s2]; rfl
    show (do
      let buf ← Decoder.readSamples le ⟨List.flatMap pbmRow (chunksOf w samples) ++ extra, .bitmap .binary h w, .pbmBit⟩
        .PbmBit 1 (w * h * 1)
      Except.ok (w, h, ColorType.L8, buf)) = _
    rw [hrs, ok_bind]

/-- **C39** (PAM bitmaps): an `L1` image of one sample per byte, each 0 or 1, written as PAM, is decoded to an `L8` image
of the same dimensions with 0 and 255. -/
theorem C39_roundtrip_bw_partial (le : Bool) (w h : Nat) (hw : w < 2 ^ 32) (hh : h < 2 ^ 32) (samples : List UInt8)
    (hbits : ∀ v ∈ samples, v ≤ 1) (hlen : samples.length = w * h) (hsize : samples.length < 2 ^ 32) :
    ∃ file, encode .dynamic (.u8 samples) w h .L1 = .ok file ∧
      ∀ extra, decode le (file ++ extra) = .ok (w, h, .L8, samples.map fun v => v * 255) := by
  refine ⟨_, (writeWithHeader_ok (hd := .arbitrary h w 1 1 (some .blackAndWhite)) rfl rfl rfl (m := 1) rfl
    (.inl (Nat.le_refl _)) ?_ ?_ ?_ rfl), ?_⟩
  · show samples.length = w * h * 1; omega
  · show 1 * w < 2 ^ 64; omega
  · show samples.length < 2 ^ 64; omega
  · intro extra
    rw [List.append_assoc, decode_header le (h := .arbitrary h w 1 1 (some .blackAndWhite)) (t := .bwBit) ⟨hh, hw, by omega, by omega, by
      rintro x hx; cases hx; exact plain_known.1⟩ rfl (by show w * h * 1 < 2 ^ 64; omega)]
    have hrs : Decoder.readSamples le ⟨samples ++ extra, .arbitrary h w 1 1 (some .blackAndWhite), .bwBit⟩
        .BWBit 1 (w * h * 1) = .ok (samples.map fun v => v * 255) := by
      unfold Decoder.readSamples
      simp only [Header.subtype, Subtype.sampleEncoding, Header.width, Header.height, Sample.bytelen]
      rw [mulC_ok (by omega), ok_bind, mulC_ok (by omega), ok_bind, Sample.size]
      rw [mulC_ok (by omega), ok_bind, Nat.mul_one, Nat.mul_one, ← hlen, List.take_left, if_neg (by simp), checkedMul, if_pos (by omega)]
      simp only [Sample.fromBytes]
      have hany : (samples.any fun b => decide (b.toNat > 1)) = false := by
        rw [List.any_eq_false]
        intro v hv
        have := UInt8.le_iff_toNat_le.1 (hbits v hv)
        simp only [decide_eq_true_eq]
        exact Nat.not_lt.2 this
      rw [decide_true, assertR_true, ok_bind, hany]
      simp only [Bool.false_eq_true, if_false, ok_bind, Header.maximalSample, scaleBuffer, Sample.size]
      rw [if_pos (by decide), if_pos trivial]
      congr 1
      apply List.map_congr_left
      intro v hv
      have hv := UInt8.le_iff_toNat_le.1 (hbits v hv)
      have s1 := scale_one ⟨0, by omega⟩
      have s2 := scale_one ⟨1, by omega⟩
      have : v = 0 ∨ v = 1 := by
        rcases Nat.le_one_iff_eq_zero_or_eq_one.1 hv with h | h
        · exact .inl (UInt8.toNat_inj.1 h)
        · exact .inr (UInt8.toNat_inj.1 h)
      rcases this with rfl | rfl
      · rw [show (0 : UInt8).toNat = 0 by rfl, s1]; rfl
      · rw [show (1 : UInt8).toNat = 1 by rfl, s2]; rfl
      · exact fun h => nomatch h
    show (do
      let buf ← Decoder.readSamples le ⟨samples ++ extra, .arbitrary h w 1 1 (some .blackAndWhite), .bwBit⟩ .BWBit 1 (w * h * 1)
      Except.ok (w, h, ColorType.L8, buf)) = _
    rw [hrs, ok_bind]

end Pnm
end Verif
