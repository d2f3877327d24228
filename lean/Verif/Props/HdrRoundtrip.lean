import Verif.Proofs.Hdr

/-!
# C43: Radiance HDR files round-trip
-/

namespace Verif
namespace Hdr

/-! ## Scanlines -/

theorem readRgbe_bytes (p : Rgbe) (s : List UInt8) : readRgbe (p.bytes ++ s) = .ok (p, s) := rfl

theorem zipWith_components (buf row : List Rgbe) (h : buf.length = row.length) :
    List.zipWith (fun p v => { p with e := v })
      (List.zipWith (fun p v => { p with b := v })
        (List.zipWith (fun p v => { p with g := v })
          (List.zipWith (fun p v => { p with r := v }) buf (row.map (·.r))) (row.map (·.g))) (row.map (·.b)))
      (row.map (·.e)) = row := by
  apply List.ext_getElem
  · simp [h]
  · intro i h1 h2
    simp

/-- **C43** a scanline written by the encoder is read back exactly, whatever the buffer contained before: for every scanline
of 8 to 32767 pixels. -/
theorem C43_scanline (row buf : List Rgbe) (rest : List UInt8) (h8 : 8 ≤ row.length) (h : row.length < 32768)
    (hb : buf.length = row.length) :
    ∃ code, encodeScanline row.length row = .ok code ∧ readScanline buf (code ++ rest) = .ok (row, rest) := by
  have hne : ∀ f : Rgbe → UInt8, row.map f ≠ [] := by
    intro f hf
    have := congrArg List.length hf
    simp at this
    simp [this] at h8
  obtain ⟨cr, er, hr⟩ := rleCompress_spec _ (hne (·.r))
  obtain ⟨cg, eg, hg⟩ := rleCompress_spec _ (hne (·.g))
  obtain ⟨cb, eb, hbb⟩ := rleCompress_spec _ (hne (·.b))
  obtain ⟨ce, ee, he⟩ := rleCompress_spec _ (hne (·.e))
  refine ⟨_, by unfold encodeScanline; rw [er, eg, eb, ee]; rfl, ?_⟩
  unfold readScanline
  have hbuf : (!buf.isEmpty) = true := by
    cases buf with
    | nil => simp at hb; omega
    | cons => rfl
  rw [hbuf, assertR_true, ok_bind]
  rw [show [2, 2, UInt8.ofNat (row.length / 256), UInt8.ofNat (row.length % 256)] ++ cr ++ cg ++ cb ++ ce ++ rest =
    Rgbe.bytes ⟨2, 2, UInt8.ofNat (row.length / 256), UInt8.ofNat (row.length % 256)⟩ ++
      (cr ++ (cg ++ (cb ++ (ce ++ rest)))) by simp [Rgbe.bytes]]
  rw [readRgbe_bytes, ok_bind]
  have hlt : (UInt8.ofNat (row.length / 256)) < 128 := by
    rw [UInt8.lt_iff_toNat_lt, UInt8.toNat_ofNat']
    show _ < 128
    omega
  dsimp only
  rw [if_pos ⟨rfl, rfl, hlt⟩]
  rw [decodeComponent_spec _ hr buf (by simp [hb]), ok_bind]
  dsimp only
  rw [decodeComponent_spec _ hg _ (by simp [hb]), ok_bind]
  dsimp only
  rw [decodeComponent_spec _ hbb _ (by simp [hb]), ok_bind]
  dsimp only
  rw [decodeComponent_spec _ he _ (by simp [hb]), zipWith_components buf row hb]

/-- No pixel of the row would be taken for a run-length marker, nor the first for the marker of the new encoding. -/
def SafeRow (row : List Rgbe) : Prop :=
  (∀ p ∈ row, rlMarker p = none) ∧ ∀ p, row.head? = some p → ¬(p.r = 2 ∧ p.g = 2 ∧ p.b < 128)

theorem oldRleLoop_raw : ∀ (px : List Rgbe) (fuel mult : Nat) (prev : Rgbe) (pre mid : List Rgbe) (rest : List UInt8),
    (∀ p ∈ px, rlMarker p = none) → mid.length = px.length → px.length < fuel →
    oldRleLoop (pre.length + px.length) fuel pre.length mult prev (pre ++ mid) (px.flatMap Rgbe.bytes ++ rest) =
      .ok (pre ++ px, rest) := by
  intro px
  induction px with
  | nil =>
    intro fuel mult prev pre mid rest _ hm hf
    have : mid = [] := List.length_eq_zero_iff.1 hm
    subst this
    match fuel, hf with
    | fuel + 1, _ => unfold oldRleLoop; simp
  | cons p px ih =>
    intro fuel mult prev pre mid rest hs hm hf
    match fuel, hf, mid, hm with
    | fuel + 1, hf, m :: mid, hm =>
      unfold oldRleLoop
      rw [if_pos (by rw [List.length_cons]; omega), List.flatMap_cons, List.append_assoc, readRgbe_bytes, ok_bind]
      dsimp only
      rw [hs p List.mem_cons_self]
      dsimp only
      rw [decide_eq_true (by rw [List.length_append, List.length_cons]; omega), assertR_true, ok_bind]
      have hset : (pre ++ m :: mid).set pre.length p = (pre ++ [p]) ++ mid := by
        rw [List.set_append_right _ _ (Nat.le_refl _)]; simp
      have := ih fuel 1 p (pre ++ [p]) mid rest (fun q hq => hs q (List.mem_cons_of_mem _ hq)) (by simpa using hm)
        (by simpa using hf)
      rw [List.length_append, List.length_singleton] at this
      rw [hset, List.length_cons, show pre.length + (px.length + 1) = pre.length + 1 + px.length by omega, this,
        List.append_assoc]
      rfl

/-- **C43** a row of plain pixels is read back exactly, provided no pixel looks like a marker. -/
theorem C43_plain_row (row buf : List Rgbe) (rest : List UInt8) (hne : row ≠ []) (hs : SafeRow row)
    (hb : buf.length = row.length) :
    readScanline buf (row.flatMap Rgbe.bytes ++ rest) = .ok (row, rest) := by
  match row, hne, hs, hb with
  | p :: row, _, hs, hb =>
    match buf, hb with
    | m :: mid, hb =>
      have hm : mid.length = row.length := by simpa using hb
      unfold readScanline
      rw [show (!(m :: mid).isEmpty) = true from rfl, assertR_true, ok_bind, List.flatMap_cons, List.append_assoc,
        readRgbe_bytes, ok_bind]
      dsimp only
      rw [if_neg (hs.2 p rfl)]
      unfold decodeOldRle
      rw [show (!(m :: mid).isEmpty) = true from rfl, assertR_true, ok_bind, hs.1 p List.mem_cons_self]
      rw [if_neg (by simp)]
      have := oldRleLoop_raw row ((row.flatMap Rgbe.bytes ++ rest).length + 1) 1 p [p] mid rest
        (fun q hq => hs.1 q (List.mem_cons_of_mem _ hq)) hm (by
          rw [List.length_append, List.length_flatMap]
          have : (row.map fun a => a.bytes.length).sum = 4 * row.length := by
            clear * -
            induction row with
            | nil => rfl
            | cons a l ih => rw [List.map_cons, List.sum_cons, ih, List.length_cons]; show 4 + _ = _; omega
          omega)
      rw [List.length_singleton, Nat.add_comm 1] at this
      rw [List.length_cons, hm]
      exact this

/-! ## The header -/

theorem readLine_line (t s : List UInt8) : ∀ acc, (∀ b ∈ t, b ≠ 10) → readLine acc (t ++ 10 :: s) = (some (acc ++ t), s) := by
  induction t with
  | nil => intro acc _; simp [readLine]
  | cons b t ih =>
    intro acc h
    rw [List.cons_append, readLine, if_neg (h b List.mem_cons_self), ih _ fun c hc => h c (List.mem_cons_of_mem _ hc)]
    simp

theorem asciiWordsLoop_word (t s : List UInt8) : ∀ cur, (∀ b ∈ t, Pnm.isSpace b = false) → cur ++ t ≠ [] →
    asciiWordsLoop cur (t ++ 32 :: s) = (cur ++ t) :: asciiWordsLoop [] s := by
  induction t with
  | nil =>
    intro cur _ hne
    rw [List.append_nil] at hne
    rw [List.nil_append, asciiWordsLoop, if_pos (by decide), if_neg hne, List.append_nil]
  | cons b t ih =>
    intro cur h hne
    rw [List.cons_append, asciiWordsLoop, h b List.mem_cons_self, if_neg (by simp),
      ih _ (fun c hc => h c (List.mem_cons_of_mem _ hc)) (by simp)]
    simp

theorem asciiWordsLoop_last (t : List UInt8) : ∀ cur, (∀ b ∈ t, Pnm.isSpace b = false) → cur ++ t ≠ [] →
    asciiWordsLoop cur t = [cur ++ t] := by
  induction t with
  | nil =>
    intro cur _ hne
    rw [List.append_nil] at hne
    rw [asciiWordsLoop, if_neg hne, List.append_nil]
  | cons b t ih =>
    intro cur h hne
    rw [asciiWordsLoop, h b List.mem_cons_self, if_neg (by simp), ih _ (fun c hc => h c (List.mem_cons_of_mem _ hc)) (by simp)]
    simp

theorem digit_notSpace {b : UInt8} (h : Pnm.IsDigit b) : Pnm.isSpace b = false ∧ b ≠ 10 ∧ b.toNat < 128 := by
  have h1 : 48 ≤ b.toNat := h.1
  have h2 : b.toNat ≤ 57 := h.2
  have hne : ∀ n : Nat, n < 48 → b ≠ UInt8.ofNat n := by
    intro n hn he
    rw [he, UInt8.toNat_ofNat'] at h1
    omega
  refine ⟨?_, hne 10 (by omega), by omega⟩
  unfold Pnm.isSpace
  simp only [Bool.or_eq_false_iff, decide_eq_false_iff_not]
  exact ⟨⟨⟨⟨⟨hne 9 (by omega), hne 10 (by omega)⟩, hne 11 (by omega)⟩, hne 12 (by omega)⟩, hne 13 (by omega)⟩,
    hne 32 (by omega)⟩

/-- The dimensions line. -/
def dimLine (width height : Nat) : List UInt8 := [45, 89, 32] ++ Pnm.dec height ++ [32, 43, 88, 32] ++ Pnm.dec width

theorem dimLine_chars {width height : Nat} {b : UInt8} (h : b ∈ dimLine width height) : b ≠ 10 ∧ b.toNat < 128 := by
  unfold dimLine at h
  simp only [List.mem_append] at h
  rcases h with ((h | h) | h) | h
  · revert b; decide
  · exact (digit_notSpace (Pnm.dec_digit h)).2
  · revert b; decide
  · exact (digit_notSpace (Pnm.dec_digit h)).2

theorem asciiWords_dimLine (width height : Nat) :
    asciiWords (dimLine width height) = [[45, 89], Pnm.dec height, [43, 88], Pnm.dec width] := by
  unfold asciiWords dimLine
  rw [show [45, 89, 32] ++ Pnm.dec height ++ [32, 43, 88, 32] ++ Pnm.dec width =
    [45, 89] ++ 32 :: (Pnm.dec height ++ 32 :: ([43, 88] ++ 32 :: Pnm.dec width)) by simp]
  rw [asciiWordsLoop_word _ _ _ (by decide) (by decide),
    asciiWordsLoop_word _ _ _ (fun b hb => (digit_notSpace (Pnm.dec_digit hb)).1) (by simpa using Pnm.dec_ne_nil height),
    asciiWordsLoop_word _ _ _ (by decide) (by decide),
    asciiWordsLoop_last _ _ (fun b hb => (digit_notSpace (Pnm.dec_digit hb)).1) (by simpa using Pnm.dec_ne_nil width)]
  rfl

theorem parseDimensionsLine_dimLine {T : Text} (hT : T.Ascii) (strict : Bool) {width height : Nat} (hw : width < 2 ^ 32)
    (hh : height < 2 ^ 32) : parseDimensionsLine T (T.lossy (dimLine width height)) strict = .ok (width, height) := by
  have ha : ∀ b ∈ dimLine width height, b.toNat < 128 := fun b hb => (dimLine_chars hb).2
  unfold parseDimensionsLine
  rw [hT.lossy _ ha, hT.words _ ha, asciiWords_dimLine]
  dsimp only
  rw [if_neg (by simp), if_pos ⟨rfl, rfl⟩, Pnm.parseU32_dec hh]
  dsimp only
  rw [Pnm.parseU32_dec hw]

/-- The decoder reads the header that the encoder writes. -/
theorem decoderNew_header {T : Text} (hT : T.Ascii) {width height : Nat} (hw : width < 2 ^ 32)
    (hh : height < 2 ^ 32) (hd : width * height * 3 < 2 ^ 64) (rest : List UInt8) :
    Decoder.new T true (headerBytes width height ++ rest) = .ok ⟨rest, width, height, ⟨none, none, none, [(kwFormat, kwRgbe)]⟩⟩ := by
  have e : headerBytes width height ++ rest = signature ++ ([] ++ 10 ::
      ([35, 32, 82, 117, 115, 116, 32, 72, 68, 82, 32, 101, 110, 99, 111, 100, 101, 114] ++ 10 ::
        ((kwFormat ++ [61] ++ kwRgbe) ++ 10 :: ([] ++ 10 :: (dimLine width height ++ 10 :: rest))))) := by
    simp [headerBytes, dimLine]
  rw [e]
  unfold Decoder.new readSignature
  rw [if_pos rfl, show (10 : Nat) = signature.length from rfl, readExact_append]
  rw [ok_bind]
  dsimp only
  rw [if_neg (by simp), ok_bind]
  rw [show (readLine [] ([] ++ 10 ::
      ([35, 32, 82, 117, 115, 116, 32, 72, 68, 82, 32, 101, 110, 99, 111, 100, 101, 114] ++ 10 ::
        ((kwFormat ++ [61] ++ kwRgbe) ++ 10 :: ([] ++ 10 :: (dimLine width height ++ 10 :: rest)))))).2 = _
      from congrArg Prod.snd (readLine_line [] _ [] (by simp))]
  have hloop : ∀ fuel, 3 ≤ fuel → headerLoop T true fuel Meta.new
      ([35, 32, 82, 117, 115, 116, 32, 72, 68, 82, 32, 101, 110, 99, 111, 100, 101, 114] ++ 10 ::
        ((kwFormat ++ [61] ++ kwRgbe) ++ 10 :: ([] ++ 10 :: (dimLine width height ++ 10 :: rest)))) =
      .ok (⟨none, none, none, [(kwFormat, kwRgbe)]⟩, dimLine width height ++ 10 :: rest) := by
    intro fuel hf
    match fuel, hf with
    | fuel + 3, _ =>
      rw [headerLoop, readLine_line _ _ _ (by decide)]
      dsimp only [List.nil_append]
      rw [if_pos rfl, headerLoop, readLine_line _ _ _ (by decide)]
      have hk : ∀ b ∈ kwFormat ++ [61] ++ kwRgbe, b.toNat < 128 := by decide
      rw [show ([] : List UInt8) ++ (kwFormat ++ [61] ++ kwRgbe) = 70 :: ([79, 82, 77, 65, 84] ++ [61] ++ kwRgbe) from rfl]
      dsimp only
      rw [if_neg (by decide), show (70 :: ([79, 82, 77, 65, 84] ++ [61] ++ kwRgbe) : List UInt8) = kwFormat ++ [61] ++ kwRgbe from rfl,
        hT.lossy _ hk]
      have hu : updateHeaderInfo T Meta.new (kwFormat ++ [61] ++ kwRgbe) true = .ok ⟨none, none, none, [(kwFormat, kwRgbe)]⟩ := by
        unfold updateHeaderInfo
        rw [show splitAtFirst (kwFormat ++ [61] ++ kwRgbe) = some (kwFormat, kwRgbe) by decide]
        dsimp only
        rw [hT.trim kwFormat (by decide), hT.trim kwRgbe (by decide), show Pnm.trim kwFormat = kwFormat by decide,
          show Pnm.trim kwRgbe = kwRgbe by decide, if_pos rfl, if_neg (by simp)]
        rfl
      rw [hu, ok_bind, headerLoop, show (10 :: (dimLine width height ++ 10 :: rest) : List UInt8) =
        [] ++ 10 :: (dimLine width height ++ 10 :: rest) from rfl, readLine_line _ _ _ (by simp)]
      rfl
  rw [hloop _ (by simp), ok_bind]
  dsimp only
  rw [readLine_line _ _ _ (fun b hb => (dimLine_chars hb).1)]
  dsimp only [List.nil_append]
  rw [parseDimensionsLine_dimLine hT true hw hh, ok_bind]
  have hc : checkDimensionOverflow width height 3 = .ok false := by
    unfold checkDimensionOverflow
    rw [show ((3 : Nat) != 0) = true from rfl, assertR_true, ok_bind, mulC_ok (by omega), ok_bind, decide_eq_false]
    omega
  dsimp only
  rw [hc, ok_bind, if_neg (by simp)]

/-! ## Whole files -/

/-- The loop over the rows, with what remains to be read. -/
def readRows {α : Type} (f : Rgbe → α) (w h : Nat) (s : List UInt8) : R (List α × List Rgbe × List UInt8) :=
  forRange h (fun _ (st : List α × List Rgbe × List UInt8) => do
      let (buf, s) ← readScanline st.2.1 st.2.2
      .ok (st.1 ++ buf.map f, buf, s)) ([], List.replicate w ⟨0, 0, 0, 0⟩, s)

theorem readTransform_eq {α : Type} (d : Decoder) (f : Rgbe → α) (h0 : d.width * d.height ≠ 0) :
    d.readTransform f = (readRows f d.width d.height d.r >>= fun st => .ok st.1) := by
  unfold Decoder.readTransform
  rw [if_neg]
  · rfl
  · rintro (h | h) <;> simp [h] at h0

/-- The rows have `w` pixels, and each is read back from its code. -/
def Readable (w : Nat) (rows : List (List Rgbe)) (enc : List Rgbe → List UInt8) : Prop :=
  (∀ row ∈ rows, row.length = w) ∧
  ∀ row ∈ rows, ∀ buf rest, buf.length = w → readScanline buf (enc row ++ rest) = .ok (row, rest)

theorem readRows_rows {α : Type} (f : Rgbe → α) {enc : List Rgbe → List UInt8} {w : Nat} {rows : List (List Rgbe)}
    (hR : Readable w rows enc) (rest : List UInt8) :
    ∃ st, readRows f w rows.length (rows.flatMap enc ++ rest) = .ok st ∧ st.1 = rows.flatten.map f ∧ st.2.2 = rest := by
  obtain ⟨hlen, hread⟩ := hR
  obtain ⟨st, hst, hi⟩ := forRange_inv (n := rows.length)
    (f := fun _ (st : List α × List Rgbe × List UInt8) => do
      let (buf, s) ← readScanline st.2.1 st.2.2
      Except.ok (st.1 ++ buf.map f, buf, s))
    (fun i st => st.1 = (rows.take i).flatten.map f ∧ st.2.1.length = w ∧ st.2.2 = (rows.drop i).flatMap enc ++ rest)
    (s := ([], List.replicate w ⟨0, 0, 0, 0⟩, rows.flatMap enc ++ rest)) (by simp) (by
      intro i hlt st ⟨h1, h2, h3⟩
      have hmem : rows[i] ∈ rows := List.getElem_mem hlt
      have hd : rows.drop i = rows[i] :: rows.drop (i + 1) := (List.getElem_cons_drop hlt).symm
      rw [hd, List.flatMap_cons, List.append_assoc] at h3
      refine ⟨_, by rw [h3, hread _ hmem _ _ h2]; rfl, ?_, hlen _ hmem, rfl⟩
      dsimp only
      rw [h1, List.take_succ_eq_append_getElem hlt, List.flatten_append, List.map_append]
      simp)
  exact ⟨st, hst, by rw [hi.1, List.take_length], by rw [hi.2.2, List.drop_length]; rfl⟩

theorem readTransform_rows {α : Type} (f : Rgbe → α) {enc : List Rgbe → List UInt8} {w : Nat} (hw : w ≠ 0)
    {rows : List (List Rgbe)} (hR : Readable w rows enc) (rest : List UInt8) (m : Meta) :
    Decoder.readTransform ⟨rows.flatMap enc ++ rest, w, rows.length, m⟩ f = .ok (rows.flatten.map f) := by
  by_cases h0 : rows = []
  · subst h0
    unfold Decoder.readTransform
    dsimp only
    rw [if_pos (.inr rfl)]
    rfl
  · obtain ⟨st, hst, h1, -⟩ := readRows_rows f hR rest
    rw [readTransform_eq _ _ (Nat.mul_ne_zero hw (by simp [h0])), hst, ok_bind, h1]

theorem chunksOf_flatten' (w h : Nat) (px : List Rgbe) (hp : px.length = w * h) :
    ∃ rows : List (List Rgbe), rows.length = h ∧ (∀ row ∈ rows, row.length = w) ∧ rows.flatten = px := by
  induction h generalizing px with
  | zero => exact ⟨[], rfl, by simp, by simpa [eq_comm] using hp⟩
  | succ h ih =>
    obtain ⟨rows, h1, h2, h3⟩ := ih (px.drop w) (by rw [List.length_drop, hp]; rw [Nat.mul_succ]; omega)
    refine ⟨px.take w :: rows, by simp [h1], ?_, by simp [h3]⟩
    intro row hr
    rcases List.mem_cons.1 hr with rfl | hr
    · rw [List.length_take, hp, Nat.mul_succ]; omega
    · exact h2 _ hr

/-- What the encoder writes for images 8 to 32767 pixels wide. -/
theorem encodePixels_rows (px : List Rgbe) (w h : Nat) (h8 : 8 ≤ w) (hw : w < 32768) (hh : h < 2 ^ 32)
    (hp : px.length = w * h) :
    ∃ rows enc, encodePixels px w h = .ok (headerBytes w h ++ rows.flatMap enc) ∧ rows.length = h ∧ Readable w rows enc ∧
      rows.flatten = px := by
  have hwh : w * h < 2 ^ 47 := by
    calc w * h ≤ 32768 * h := Nat.mul_le_mul_right _ (by omega)
      _ < 32768 * 2 ^ 32 := by omega
      _ = 2 ^ 47 := by decide
  obtain ⟨rows, hr1, hr2, hr3⟩ := chunksOf_flatten' w h px hp
  have hcode : ∀ row ∈ rows, ∃ code, encodeScanline w row = .ok code ∧
      ∀ buf rest, buf.length = w → readScanline buf (code ++ rest) = .ok (row, rest) := by
    intro row hrow
    have hl := hr2 row hrow
    obtain ⟨code, e, _⟩ := C43_scanline row row [] (by omega) (by omega) rfl
    refine ⟨code, hl ▸ e, fun buf rest hb => ?_⟩
    obtain ⟨code', e', h'⟩ := C43_scanline row buf rest (by omega) (by omega) (by omega)
    rw [e] at e'
    cases e'
    exact h'
  let enc : List Rgbe → List UInt8 := fun row => match encodeScanline w row with | .ok c => c | _ => []
  have henc : ∀ row ∈ rows, encodeScanline w row = .ok (enc row) ∧
      ∀ buf rest, buf.length = w → readScanline buf (enc row ++ rest) = .ok (row, rest) := by
    intro row hrow
    obtain ⟨code, e, h'⟩ := hcode row hrow
    have : enc row = code := by show (match encodeScanline w row with | .ok c => c | _ => []) = code; rw [e]
    rw [this]
    exact ⟨e, h'⟩
  have hfile : encodePixels px w h = .ok (headerBytes w h ++ rows.flatMap enc) := by
    unfold encodePixels
    rw [mulC_ok (by omega), ok_bind, hp, decide_eq_true (Nat.le_refl _), assertR_true, ok_bind, if_neg (by omega)]
    obtain ⟨st, hst, hi⟩ := forRange_inv (n := h)
      (f := fun _ (st : List UInt8 × List Rgbe) => do
        assertR (decide (w ≤ st.2.length))
        let b ← encodeScanline w (st.2.take w)
        Except.ok (st.1 ++ b, st.2.drop w))
      (fun i st => st.1 = (rows.take i).flatMap enc ∧ st.2 = (rows.drop i).flatten)
      (s := ([], px)) ⟨by simp, by simp [hr3]⟩ (by
        intro i hlt st ⟨h1, h2⟩
        have hlt' : i < rows.length := by omega
        have hmem : rows[i] ∈ rows := List.getElem_mem hlt'
        have hd : rows.drop i = rows[i] :: rows.drop (i + 1) := (List.getElem_cons_drop hlt').symm
        rw [hd, List.flatten_cons] at h2
        have hl := hr2 _ hmem
        refine ⟨(st.1 ++ enc rows[i], (rows.drop (i + 1)).flatten), ?_, ?_, rfl⟩
        · rw [h2, List.length_append, hl, decide_eq_true (by omega), assertR_true, ok_bind,
            List.take_append_of_le_length (by omega), List.take_of_length_le (by omega), (henc _ hmem).1, ok_bind,
            List.drop_append, List.drop_of_length_le (by omega), hl, Nat.sub_self]
          simp
        · dsimp only
          rw [h1, List.take_succ_eq_append_getElem hlt', List.flatMap_append]
          simp)
    rw [hst, ok_bind]
    dsimp only
    rw [hi.1, ← hr1, List.take_length]
  exact ⟨rows, enc, hfile, hr1, ⟨hr2, fun row hrow => (henc row hrow).2⟩, hr3⟩

/-- **C43** For images 8 to 32767 pixels wide: the encoder writes a file that a decoder opens with the dimensions of the
image, and from which every transformation of the pixels (the conversion to floats, in particular) is read exactly as if
applied to the pixels written. -/
theorem C43_file_roundtrip_partial {T : Text} (hT : T.Ascii) (px : List Rgbe) (w h : Nat) (h8 : 8 ≤ w) (hw : w < 32768) (hh : h < 2 ^ 32)
    (hp : px.length = w * h) :
    ∃ file d, encodePixels px w h = .ok file ∧ Decoder.new T true file = .ok d ∧ d.width = w ∧ d.height = h ∧
      ∀ (α : Type) (f : Rgbe → α), d.readTransform f = .ok (px.map f) := by
  have hwh : w * h < 2 ^ 47 := by
    calc w * h ≤ 32768 * h := Nat.mul_le_mul_right _ (by omega)
      _ < 32768 * 2 ^ 32 := by omega
      _ = 2 ^ 47 := by decide
  obtain ⟨rows, enc, hfile, hr1, hR, hr3⟩ := encodePixels_rows px w h h8 hw hh hp
  refine ⟨_, _, hfile, decoderNew_header hT (by omega) hh (by omega) _, rfl, rfl, ?_⟩
  intro α f
  have := readTransform_rows f (by omega) hR [] ⟨none, none, none, [(kwFormat, kwRgbe)]⟩
  rw [List.append_nil, hr1, hr3] at this
  exact this

/-- What the encoder writes for the other widths. -/
theorem encodePixels_plain_rows (rows : List (List Rgbe)) (w : Nat) (hw0 : w ≠ 0)
    (hw : w < 8 ∨ 32768 < w) (hd : w * rows.length * 3 < 2 ^ 64)
    (hl : ∀ row ∈ rows, row.length = w) (hs : ∀ row ∈ rows, SafeRow row) :
    encodePixels rows.flatten w rows.length =
      .ok (headerBytes w rows.length ++ rows.flatMap (fun row => row.flatMap Rgbe.bytes)) ∧
    Readable w rows (fun row => row.flatMap Rgbe.bytes) := by
  have hp : rows.flatten.length = w * rows.length := by
    clear * - hl
    induction rows with
    | nil => simp
    | cons r rows ih =>
      rw [List.flatten_cons, List.length_append, hl r List.mem_cons_self,
        ih (fun q hq => hl q (List.mem_cons_of_mem _ hq)), List.length_cons, Nat.mul_succ, Nat.add_comm]
  have hflat : rows.flatten.flatMap Rgbe.bytes = rows.flatMap (fun row => row.flatMap Rgbe.bytes) := by
    clear * -
    induction rows with
    | nil => rfl
    | cons r l ih => rw [List.flatten_cons, List.flatMap_append, ih, List.flatMap_cons]
  refine ⟨?_, hl, fun row hrow buf rest hb => C43_plain_row row buf rest (by
      intro h0; have := hl row hrow; rw [h0] at this; exact hw0 this.symm) (hs row hrow) (by rw [hb, hl row hrow])⟩
  unfold encodePixels
  rw [mulC_ok (by omega), ok_bind, hp, decide_eq_true (Nat.le_refl _), assertR_true, ok_bind, if_pos (by omega), hflat]

/-- **C43** For the other widths the pixels are written without compression, and the file is read back exactly as long as
no pixel looks like a marker. -/
theorem C43_plain_file_roundtrip_partial {T : Text} (hT : T.Ascii) (rows : List (List Rgbe)) (w : Nat) (hw0 : w ≠ 0)
    (hw : w < 8 ∨ 32768 < w) (hw32 : w < 2 ^ 32) (hh : rows.length < 2 ^ 32) (hd : w * rows.length * 3 < 2 ^ 64)
    (hl : ∀ row ∈ rows, row.length = w) (hs : ∀ row ∈ rows, SafeRow row) :
    ∃ file d, encodePixels rows.flatten w rows.length = .ok file ∧ Decoder.new T true file = .ok d ∧ d.width = w ∧
      d.height = rows.length ∧ ∀ (α : Type) (f : Rgbe → α), d.readTransform f = .ok (rows.flatten.map f) := by
  obtain ⟨hfile, hR⟩ := encodePixels_plain_rows rows w hw0 hw hd hl hs
  refine ⟨_, _, hfile, decoderNew_header hT hw32 hh hd _, rfl, rfl, ?_⟩
  intro α f
  have := readTransform_rows f hw0 hR [] ⟨none, none, none, [(kwFormat, kwRgbe)]⟩
  rw [List.append_nil] at this
  exact this

/-- **C43** Images without columns: no pixels, and none are read. -/
theorem C43_no_columns {T : Text} (hT : T.Ascii) (h : Nat) (hh : h < 2 ^ 32) :
    ∃ file d, encodePixels [] 0 h = .ok file ∧ Decoder.new T true file = .ok d ∧ d.width = 0 ∧ d.height = h ∧
      ∀ (α : Type) (f : Rgbe → α), d.readTransform f = .ok [] := by
  refine ⟨headerBytes 0 h ++ [], _, ?_, decoderNew_header hT (by omega) hh (by omega) _, rfl, rfl, ?_⟩
  · unfold encodePixels
    rw [mulC_ok (by omega), ok_bind, Nat.zero_mul]
    rfl
  · intro α f
    unfold Decoder.readTransform
    rw [if_pos (.inl rfl)]

/-- The condition of `C43_plain_file_roundtrip_partial` is met by ordinary pixels. -/
example : SafeRow [⟨128, 3, 200, 130⟩, ⟨1, 1, 128, 129⟩] := by
  refine ⟨by decide, ?_⟩
  intro p hp
  cases hp
  decide

end Hdr
end Verif
