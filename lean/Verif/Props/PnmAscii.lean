import Verif.Props.Pnm

/-!
# ASCII PNM files (C40)
-/

namespace Verif
namespace Pnm

/-- A sequence of chunks with newlines in between. -/
inductive Inter : List (List UInt8) → List UInt8 → Prop
  | nil : Inter [] []
  | nl {cs : List (List UInt8)} {t : List UInt8} : Inter cs t → Inter cs (10 :: t)
  | chunk {c : List UInt8} {cs : List (List UInt8)} {t : List UInt8} : Inter cs t → Inter (c :: cs) (c ++ t)

theorem Inter.append {a b : List (List UInt8)} {s t : List UInt8} (h1 : Inter a s) (h2 : Inter b t) :
    Inter (a ++ b) (s ++ t) := by
  induction h1 with
  | nil => exact h2
  | nl _ ih => exact .nl ih
  | chunk _ ih => rw [List.append_assoc]; exact .chunk ih

theorem Inter.flatten (l : List (List UInt8)) : Inter l l.flatten := by
  induction l with
  | nil => exact .nil
  | cons c l ih => exact .chunk ih

theorem Inter.lines (ls : List (List (List UInt8))) (last : List (List UInt8)) :
    Inter (ls ++ [last]).flatten (ls.flatMap (fun l => l.flatten ++ [10]) ++ last.flatten) := by
  induction ls with
  | nil => simpa using Inter.flatten last
  | cons l ls ih =>
    rw [List.cons_append, List.flatten_cons, List.flatMap_cons, List.append_assoc, List.append_assoc]
    exact (Inter.flatten l).append (Inter.nl ih)

/-- Text in which the decimal numbers of `values`, each followed by a separator, can be read in order. -/
inductive Txt : List Nat → List UInt8 → Prop
  | nil {t : List UInt8} : Txt [] t
  | sp {vs : List Nat} {t : List UInt8} {c : UInt8} : isSpace c = true → Txt vs t → Txt vs (c :: t)
  | val {v : Nat} {vs : List Nat} {t : List UInt8} {c : UInt8} : isSpace c = true → Txt vs t → Txt (v :: vs) (dec v ++ c :: t)

theorem Inter.space {cs : List (List UInt8)} {s : List UInt8} (h : Inter ([32] :: cs) s) :
    ∃ c t, s = c :: t ∧ isSpace c = true ∧ ∀ vs, (∀ t, Inter cs t → Txt vs t) → Txt vs t := by
  generalize hx : [32] :: cs = x at h
  induction h with
  | nil => cases hx
  | @nl cs' t' h ih =>
    obtain ⟨c, t, h1, h2, h3⟩ := ih hx
    refine ⟨10, t', rfl, by decide, ?_⟩
    intro vs hv
    rw [h1]
    exact .sp h2 (h3 vs hv)
  | @chunk c cs' t' h ih =>
    cases hx
    exact ⟨32, t', rfl, by decide, fun vs hv => hv _ h⟩

theorem Inter.txt (vs : List Nat) : ∀ s : List UInt8, Inter (asciiChunks vs) s → Txt vs s := by
  induction vs with
  | nil => intro s _; exact .nil
  | cons v vs ih =>
    intro s h
    have hx : asciiChunks (v :: vs) = dec v :: [32] :: asciiChunks vs := rfl
    rw [hx] at h
    generalize hy : dec v :: [32] :: asciiChunks vs = y at h
    induction h with
    | nil => cases hy
    | nl h ih' => exact .sp (by decide) (ih' hy)
    | @chunk c cs' t' h _ =>
      cases hy
      obtain ⟨c, t, h1, h2, h3⟩ := h.space
      rw [h1]
      exact .val h2 (h3 vs ih)

theorem Txt.append {vs : List Nat} {t : List UInt8} (h : Txt vs t) (e : List UInt8) : Txt vs (t ++ e) := by
  induction h with
  | nil => exact .nil
  | sp h _ ih => exact .sp h ih
  | val h _ ih => rw [List.append_assoc]; exact .val h ih

theorem writeSamplesAscii_txt (vs : List Nat) (e : List UInt8) : Txt vs (writeSamplesAscii vs ++ e) := by
  obtain ⟨ls, last, h1, h2, -⟩ := C40_lines 70 (asciiChunks vs) (by
    intro c hc
    unfold asciiChunks at hc
    obtain ⟨v, -, hv⟩ := List.mem_flatMap.1 hc
    rcases List.mem_cons.1 hv with rfl | hv
    · exact dec_ne_nil v
    · rw [List.mem_singleton.1 hv]; simp)
  unfold writeSamplesAscii
  rw [h2]
  refine (Inter.txt vs _ ?_).append e
  rw [← h1]
  exact Inter.lines ls last

theorem readSeparatedAscii_txt {max v : Nat} {vs : List Nat} {t : List UInt8} (h : Txt (v :: vs) t) (hv : v ≤ max)
    (hm : max < 65536) : ∃ t', readSeparatedAscii max t = .ok (v, t') ∧ Txt vs t' := by
  generalize hx : v :: vs = x at h
  induction h with
  | nil => cases hx
  | @sp vs' t' c hc _ ih =>
    obtain ⟨t', h1, h2⟩ := ih hx
    refine ⟨t', ?_, h2⟩
    unfold readSeparatedAscii at *
    rw [List.dropWhile_cons_of_pos hc]
    exact h1
  | @val v' vs' t' c hc h' _ =>
    cases hx
    refine ⟨t', ?_, h'⟩
    unfold readSeparatedAscii
    rw [dropWhile_tok (fun b hb => (dec_digit hb).tok) _ (dec_ne_nil v)]
    rw [separatedLoop_digits _ c hc _ 0 (fun b hb => dec_digit hb) (by rw [dec_val]; omega), ok_bind, dec_val]
    dsimp only
    rw [if_pos hv]

theorem getElem_of_drop {α : Type} {l : List α} {i : Nat} {a : α} {r : List α} (h : l.drop i = a :: r) :
    l.drop (i + 1) = r ∧ i < l.length ∧ l.take (i + 1) = l.take i ++ [a] := by
  have hi : i < l.length := by
    apply Nat.lt_of_not_le
    intro hc
    rw [List.drop_eq_nil_of_le hc] at h
    cases h
  rw [List.drop_eq_getElem_cons hi] at h
  cases h
  exact ⟨rfl, hi, List.take_succ_eq_append_getElem hi⟩

theorem asciiLoop {max : Nat} (hm : max < 65536) (out : Nat → List UInt8) {vs : List Nat} (hv : ∀ v ∈ vs, v ≤ max)
    {t : List UInt8} (h : Txt vs t) {n : Nat} (hn : n = vs.length) :
    ∃ t', forRange n (fun _ (st : List UInt8 × List UInt8) => do
      let (v, s) ← readSeparatedAscii max st.2
      .ok (st.1 ++ out v, s)) ([], t) = .ok (vs.flatMap out, t') := by
  subst hn
  obtain ⟨s', h1, h2, h3⟩ := forRange_inv (n := vs.length) (s := (([], t) : List UInt8 × List UInt8))
    (f := fun _ (st : List UInt8 × List UInt8) => do
      let (v, s) ← readSeparatedAscii max st.2
      .ok (st.1 ++ out v, s))
    (fun i st => st.1 = (vs.take i).flatMap out ∧ Txt (vs.drop i) st.2) ⟨by simp, by simpa using h⟩ (by
      intro i hi st ⟨g1, g2⟩
      rcases hd : vs.drop i with _ | ⟨v, r⟩
      · have := List.length_drop (i := i) (l := vs); rw [hd] at this; simp at this; omega
      · rw [hd] at g2
        obtain ⟨k1, k2, k3⟩ := getElem_of_drop hd
        obtain ⟨t', r1, r2⟩ := readSeparatedAscii_txt g2 (hv v (by
          have : v ∈ vs.drop i := by rw [hd]; simp
          exact List.mem_of_mem_drop this)) hm
        refine ⟨(st.1 ++ out v, t'), by rw [r1]; rfl, ?_, ?_⟩
        · dsimp only
          rw [g1, k3, List.flatMap_append]; simp
        · dsimp only
          rw [k1]; exact r2)
  obtain ⟨a, b⟩ := s'
  rw [List.take_length] at h2
  exact ⟨b, by rw [h1]; dsimp only at h2; rw [h2]⟩

/-- **C40** (round trip, 8 bits): a grey (`L8`) or `Rgb8` image of any size whose buffer can exist, written as ASCII PGM or
PPM, is decoded to the same dimensions, colour type and samples, whatever follows the file. -/
theorem C40_roundtrip_u8 (le : Bool) (strategy : Strategy) (color : ExtendedColorType) (ct : ColorType)
    (hcase : (color = .L8 ∧ ct = .L8 ∧ strategy = .subtype (.graymap .ascii)) ∨
      (color = .Rgb8 ∧ ct = .Rgb8 ∧ strategy = .subtype (.pixmap .ascii)))
    (w h : Nat) (hw : w < 2 ^ 32) (hh : h < 2 ^ 32) (samples : List UInt8)
    (hlen : samples.length = w * h * color.channelCount) (hsize : samples.length < 2 ^ 64) :
    ∃ file, encode strategy (.u8 samples) w h color = .ok file ∧
      ∀ extra, decode le (file ++ extra) = .ok (w, h, ct, samples) := by
  have hvals : ∀ v ∈ samples.map UInt8.toNat, v ≤ 255 := by
    intro v hv
    obtain ⟨b, -, rfl⟩ := List.mem_map.1 hv
    have := b.toNat_lt; omega
  have hout : (samples.map UInt8.toNat).flatMap (fun v => [UInt8.ofNat v]) = samples := by
    rw [List.flatMap_map]
    induction samples with
    | nil => rfl
    | cons b l ih => simp
  have key : ∀ (hd : Header) (t : TupleType), hd.Fits → hd.tupleType = .ok t → t.sample.1 = .U8 →
      hd.subtype.sampleEncoding = .ascii → hd.maximalSample = 255 → hd.width = w → hd.height = h →
      t.colorType = ct → ct.bytesPerPixel = color.channelCount →
      ∀ extra, decode le (hd.bytes ++ writeSamplesAscii (samples.map UInt8.toNat) ++ extra) = .ok (w, h, ct, samples) := by
    intro hd t hf ht hs he hm hw' hh' hct hbpp extra
    rw [List.append_assoc, decode_header le hf ht (by rw [hw', hh', hct, hbpp]; omega)]
    rw [hct, hbpp, hw', hh', ← hlen]
    obtain ⟨t', hl⟩ := asciiLoop (max := 255) (by omega) (fun v => [UInt8.ofNat v]) hvals
      (writeSamplesAscii_txt _ extra) (n := samples.length) (by simp)
    have hrs : ∀ n, Decoder.readSamples le ⟨writeSamplesAscii (samples.map UInt8.toNat) ++ extra, hd, t⟩ .U8 n samples.length =
        .ok samples := by
      intro n
      unfold Decoder.readSamples
      dsimp only
      rw [he]
      simp only [Sample.fromAscii]
      rw [hl]
      simp only [ok_bind]
      rw [scaleBuffer, hm, if_neg (by simp [Sample.size]), hout]
    rw [hs, hrs, ok_bind]
  have hch : color.channelCount ≤ 3 := by rcases hcase with ⟨rfl, -, -⟩ | ⟨rfl, -, -⟩ <;> decide
  have hcw : color.channelCount * w < 2 ^ 64 := by
    have := Nat.mul_le_mul_right w hch
    omega
  rcases hcase with ⟨rfl, rfl, rfl⟩ | ⟨rfl, rfl, rfl⟩
  · refine ⟨_, writeWithHeader_ok (hd := .graymap .ascii h w 255) rfl rfl rfl (m := 255) rfl (.inl (Nat.le_refl _)) hlen hcw hsize rfl, ?_⟩
    exact key (.graymap .ascii h w 255) .grayU8 ⟨hh, hw, by omega⟩ rfl rfl rfl rfl rfl rfl rfl rfl
  · refine ⟨_, writeWithHeader_ok (hd := .pixmap .ascii h w 255) rfl rfl rfl (m := 255) rfl (.inl (Nat.le_refl _)) hlen hcw hsize rfl, ?_⟩
    exact key (.pixmap .ascii h w 255) .rgbU8 ⟨hh, hw, by omega⟩ rfl rfl rfl rfl rfl rfl rfl rfl

/-- **C40** (round trip, 16 bits): an `L16` image, given to `encode` as 16-bit samples with a chosen ASCII PGM header of
maximal value 65535, is decoded to the same samples in the native byte order of the target. -/
theorem C40_roundtrip_u16 (le : Bool) (w h : Nat) (hw : w < 2 ^ 32) (hh : h < 2 ^ 32) (samples : List UInt16)
    (hlen : samples.length = w * h) (hsize : samples.length * 2 < 2 ^ 64) :
    ∃ file, encode (.chosen (.graymap .ascii h w 65535)) (.u16 samples) w h .L16 = .ok file ∧
      ∀ extra, ∃ buf, decode le (file ++ extra) = .ok (w, h, .L16, buf) ∧
        buf = samples.flatMap (fun v => native16 le (beBytes 2 v.toNat)) ∧
        (chunksExact 2 buf).map (readNative16 le) = samples.map UInt16.toNat := by
  have hvals : ∀ v ∈ samples.map UInt16.toNat, v ≤ 65535 := by
    intro v hv
    obtain ⟨b, -, rfl⟩ := List.mem_map.1 hv
    have := b.toNat_lt; omega
  refine ⟨_, writeWithHeader_ok (hd := .graymap .ascii h w 65535) rfl rfl rfl (m := 65535) rfl (.inl (Nat.le_refl _))
    ?_ ?_ ?_ rfl, ?_⟩
  · show samples.length = w * h * 1; omega
  · show 1 * w < 2 ^ 64; omega
  · show samples.length < 2 ^ 64; omega
  · intro extra
    refine ⟨_, ?_, rfl, ?_⟩
    · rw [List.append_assoc, decode_header le (h := .graymap .ascii h w 65535) (t := .grayU16) ⟨hh, hw, by omega⟩ rfl (by
        show w * h * 2 < 2 ^ 64; omega)]
      obtain ⟨t', hl⟩ := asciiLoop (max := 65535) (by omega) (fun v => native16 le (beBytes 2 v)) hvals
        (writeSamplesAscii_txt _ extra) (n := w * h * 2 / 2) (by simp [hlen])
      have hrs : Decoder.readSamples le ⟨writeSamplesAscii (samples.map UInt16.toNat) ++ extra, .graymap .ascii h w 65535, .grayU16⟩
          .U16 1 (w * h * 2) = .ok (samples.flatMap (fun v => native16 le (beBytes 2 v.toNat))) := by
        unfold Decoder.readSamples
        simp only [Header.subtype, Subtype.sampleEncoding, Sample.fromAscii]
        rw [hl]
        simp only [ok_bind]
        rw [scaleBuffer, Header.maximalSample, if_neg (by simp [Sample.size]), List.flatMap_map]
        simp
      show (do
        let buf ← Decoder.readSamples le ⟨writeSamplesAscii (samples.map UInt16.toNat) ++ extra, .graymap .ascii h w 65535, .grayU16⟩
          .U16 1 (w * h * 2)
        Except.ok (w, h, ColorType.L16, buf)) = _
      rw [hrs, ok_bind]
    · rw [chunksExact_flatMap (by omega) _ (fun b => by rw [native16_length, length_beBytes]), List.map_map]
      apply List.map_congr_left
      intro v _
      exact readNative16_native16 le _ v.toNat_lt

/-- The lines of an ASCII raster have at most 70 characters. -/
theorem C40_line_length (image : Samples) :
    ∃ (ls : List (List UInt8)) (last : List UInt8),
      writeSamplesAscii image.values = ls.flatMap (fun l => l ++ [10]) ++ last ∧ ∀ l ∈ ls ++ [last], l.length ≤ 70 ∧ 10 ∉ l := by
  have hlt : ∀ v ∈ image.values, v < 65536 := by
    intro v hv
    cases image with
    | u8 s =>
      obtain ⟨b, -, rfl⟩ := List.mem_map.1 hv
      have := b.toNat_lt; omega
    | u16 s =>
      obtain ⟨b, -, rfl⟩ := List.mem_map.1 hv
      exact b.toNat_lt
  have hchunk : ∀ c ∈ asciiChunks image.values, c ≠ [] ∧ c.length ≤ 5 ∧ 10 ∉ c := by
    intro c hc
    unfold asciiChunks at hc
    obtain ⟨v, hv', hv⟩ := List.mem_flatMap.1 hc
    rcases List.mem_cons.1 hv with rfl | hv
    · refine ⟨dec_ne_nil v, decLoop_length _ _ 4 (by have := hlt v hv'; omega), ?_⟩
      intro h
      have := dec_digit h
      revert this; unfold IsDigit; decide
    · rw [List.mem_singleton.1 hv]; simp
  obtain ⟨ls, last, h1, h2, h3⟩ := C40_lines 70 (asciiChunks image.values) (fun c hc => (hchunk c hc).1)
  refine ⟨ls.map List.flatten, last.flatten, ?_, ?_⟩
  · unfold writeSamplesAscii
    rw [h2]
    simp [List.flatMap_map]
  · intro l hl
    have : ∃ x ∈ ls ++ [last], l = x.flatten := by
      rcases List.mem_append.1 hl with hl | hl
      · obtain ⟨x, hx, rfl⟩ := List.mem_map.1 hl
        exact ⟨x, by simp [hx], rfl⟩
      · exact ⟨last, by simp, List.mem_singleton.1 hl⟩
    obtain ⟨x, hx, rfl⟩ := this
    have hsub : ∀ c ∈ x, c ∈ asciiChunks image.values := by
      intro c hc
      rw [← h1]
      exact List.mem_flatten.2 ⟨x, hx, hc⟩
    constructor
    · rcases h3 x hx with h | h
      · exact h
      · match x, h with
        | [], _ => simp
        | [c], _ =>
          have := (hchunk c (hsub c (by simp))).2.1
          simp; omega
    · intro hmem
      obtain ⟨c, hc, h10⟩ := List.mem_flatten.1 hmem
      exact (hchunk c (hsub c hc)).2.2 h10

end Pnm
end Verif
