import Verif.Props.PnmTrunc
import Verif.Proofs.Outcome

/-!
# PNM: the decoder on arbitrary bytes (C60)
-/

namespace Verif
namespace Pnm

/-- Any error is admitted. -/
abbrev AnyErr : Err → Prop := fun _ => True

theorem okOr_err {α : Type} {P : α → Prop} (e : Err) : OkOr AnyErr P (errR e) := trivial

theorem nextStringLoop_total (s : List UInt8) : ∀ (p : Bool) (b : List UInt8), OkOr AnyErr (fun _ => True) (nextStringLoop s p b) := by
  induction s with
  | nil => intro p b; unfold nextStringLoop; split <;> trivial
  | cons x s ih =>
    intro p b
    unfold nextStringLoop
    dsimp only
    split
    · split
      · split
        · trivial
        · exact ih _ _
      · split
        · trivial
        · exact ih _ _
    · exact ih _ _

theorem parseDigits_lt (l : List UInt8) : ∀ acc v, acc < 2 ^ 32 → parseDigits acc l = some v → v < 2 ^ 32 := by
  induction l with
  | nil => intro acc v h hv; simp only [parseDigits, Option.some.injEq] at hv; omega
  | cons b l ih =>
    intro acc v h hv
    simp only [parseDigits] at hv
    split at hv
    · obtain ⟨a, ha, hv⟩ := Option.bind_eq_some_iff.1 hv
      obtain ⟨c, -, ha⟩ := Option.bind_eq_some_iff.1 ha
      refine ih a v ?_ hv
      unfold checkedAdd at ha
      split at ha
      · cases ha; assumption
      · cases ha
    · cases hv

theorem parseU32_lt {l : List UInt8} {v : Nat} (h : parseU32 l = some v) : v < 2 ^ 32 := by
  unfold parseU32 at h
  split at h
  · cases h
  · split at h
    · cases h
    · exact parseDigits_lt _ _ _ (by omega) h
  · split at h
    · exact parseDigits_lt _ _ _ (by omega) h
    · exact parseDigits_lt _ _ _ (by omega) h

theorem nextU32_total (s : List UInt8) : OkOr AnyErr (fun r => r.1 < 2 ^ 32) (nextU32 s) := by
  unfold nextU32
  refine (nextStringLoop_total s true []).bind ?_
  rintro ⟨t, s'⟩ -
  dsimp only
  rcases h : parseU32 t with _ | v
  · trivial
  · exact parseU32_lt h

theorem lineLoop_length (s : List UInt8) : ∀ acc,
    acc.length ≤ (lineLoop s acc).1.length ∧ (lineLoop s acc).2.length + (lineLoop s acc).1.length ≤ s.length + acc.length := by
  induction s with
  | nil => intro acc; simp [lineLoop]
  | cons b s ih =>
    intro acc
    simp only [lineLoop]
    split
    · simp
    · have := ih (acc ++ [b])
      simp at this
      simp; omega

theorem nextLine_total (s : List UInt8) : OkOr AnyErr (fun r => r.2.length + r.1.length ≤ s.length) (nextLine s) := by
  unfold nextLine
  have := lineLoop_length s []
  split
  rename_i line s' h
  rw [h] at this
  split
  · simpa [OkOr] using this.2
  · trivial

/-- All the values of a PAM header read so far are `u32`. -/
def PamState.Small (st : PamState) : Prop :=
  (∀ v, st.height = some v → v < 2 ^ 32) ∧ (∀ v, st.width = some v → v < 2 ^ 32)

theorem parseSingleValueLine_total (o : Option Nat) (rest : List UInt8) :
    OkOr AnyErr (fun r => ∀ v, r = some v → v < 2 ^ 32) (parseSingleValueLine o rest) := by
  unfold parseSingleValueLine
  split
  · trivial
  · rcases h : parseU32 (trim rest) with _ | v
    · trivial
    · intro x hx; cases hx; exact parseU32_lt h

theorem pamDispatch_total (i r : List UInt8) {st : PamState} (h : st.Small) :
    OkOr AnyErr (fun o => ∀ st', o = some st' → st'.Small) (pamDispatch i r st) := by
  unfold pamDispatch
  split
  · intro st' h; cases h
  split
  · refine (parseSingleValueLine_total _ _).bind ?_
    intro v hv st' he; cases he; exact ⟨hv, h.2⟩
  split
  · refine (parseSingleValueLine_total _ _).bind ?_
    intro v hv st' he; cases he; exact ⟨h.1, hv⟩
  split
  · refine (parseSingleValueLine_total _ _).bind ?_
    intro v hv st' he; cases he; exact h
  split
  · refine (parseSingleValueLine_total _ _).bind ?_
    intro v hv st' he; cases he; exact h
  split
  · split <;> (intro st' he; cases he; exact h)
  · trivial

theorem pamLine_total (line : List UInt8) {st : PamState} (h : st.Small) :
    OkOr AnyErr (fun o => ∀ st', o = some st' → st'.Small) (pamLine line st) := by
  unfold pamLine
  have hat : (line.findIdx? isSpace).getD line.length ≤ (line.dropWhile isSpace).length := by
    cases line with
    | nil => simp
    | cons b r =>
      by_cases hb : isSpace b = true
      · rw [List.findIdx?_cons, hb]; simp
      · rw [List.dropWhile_cons_of_neg hb]
        rcases hi : (b :: r).findIdx? isSpace with _ | i
        · simp
        · have := (List.findIdx?_eq_some_iff_getElem.1 hi).1
          simp only [Option.getD_some]; omega
  dsimp only
  rw [decide_eq_true hat, assertR_true, ok_bind]
  exact pamDispatch_total _ _ h

theorem pamLoop_total : ∀ (fuel : Nat) (s : List UInt8) (st : PamState), s.length < fuel → st.Small →
    OkOr AnyErr (fun r => r.1.Small) (pamLoop fuel s st) := by
  intro fuel
  induction fuel with
  | zero => intro s st h; omega
  | succ fuel ih =>
    intro s st hf hs
    rw [pamLoop_succ]
    refine (nextLine_total s).bind ?_
    rintro ⟨line, s'⟩ hl
    dsimp only at hl ⊢
    cases line with
    | nil => trivial
    | cons b r =>
      dsimp only
      rw [List.length_cons] at hl
      split
      · exact ih _ _ (by omega) hs
      split
      · trivial
      · refine (pamLine_total _ hs).bind ?_
        intro o ho
        cases o with
        | none => exact hs
        | some st' => exact ih _ _ (by omega) (ho st' rfl)

/-- Reading a header never panics, and its dimensions are `u32`. -/
theorem readHeader_total (s : List UInt8) :
    OkOr AnyErr (fun r => r.1.width < 2 ^ 32 ∧ r.1.height < 2 ^ 32) (readHeader s) := by
  have hb : ∀ e s, OkOr AnyErr (fun r => r.1.width < 2 ^ 32 ∧ r.1.height < 2 ^ 32) (readBitmapHeader e s) := by
    intro e s
    unfold readBitmapHeader
    refine (nextU32_total s).bind ?_
    rintro ⟨w, s1⟩ hw
    refine (nextU32_total s1).bind ?_
    rintro ⟨h, s2⟩ hh
    exact ⟨hw, hh⟩
  have hp : ∀ (mk : Enc → Nat → Nat → Nat → Header) e s, (mk = .graymap ∨ mk = .pixmap) →
      OkOr AnyErr (fun r => r.1.width < 2 ^ 32 ∧ r.1.height < 2 ^ 32) (readPixmapHeader mk e s) := by
    intro mk e s hmk
    unfold readPixmapHeader
    refine (nextU32_total s).bind ?_
    rintro ⟨w, s1⟩ hw
    refine (nextU32_total s1).bind ?_
    rintro ⟨h, s2⟩ hh
    refine (nextU32_total s2).bind ?_
    rintro ⟨m, s3⟩ -
    rcases hmk with rfl | rfl <;> exact ⟨hw, hh⟩
  have ha : ∀ s, OkOr AnyErr (fun r => r.1.width < 2 ^ 32 ∧ r.1.height < 2 ^ 32) (readArbitraryHeader s) := by
    intro s
    unfold readArbitraryHeader
    cases s with
    | nil => trivial
    | cons b s =>
      dsimp only
      split
      · trivial
      · refine (pamLoop_total _ s {} (by omega) ⟨(by intro v h; cases h), (by intro v h; cases h)⟩).bind ?_
        rintro ⟨st, s'⟩ ⟨h1, h2⟩
        dsimp only
        split
        · rename_i e1 e2 _ _
          exact ⟨h2 _ e2, h1 _ e1⟩
        · trivial
  unfold readHeader
  refine ((readExact_total 2 s).weaken (fun _ _ => trivial)).bind ?_
  rintro ⟨magic, s'⟩ -
  dsimp only
  split
  · exact hb _ _
  split
  · exact hp _ _ _ (.inl rfl)
  split
  · exact hp _ _ _ (.inr rfl)
  split
  · exact hb _ _
  split
  · exact hp _ _ _ (.inl rfl)
  split
  · exact hp _ _ _ (.inr rfl)
  split
  · exact ha _
  · trivial

theorem separatedLoop_total (s : List UInt8) : ∀ v, OkOr AnyErr (fun _ => True) (separatedLoop v s) := by
  induction s with
  | nil => intro v; trivial
  | cons b s ih =>
    intro v
    unfold separatedLoop
    split
    · trivial
    split
    · split
      · trivial
      · exact ih _
    · trivial

theorem readSeparatedAscii_total (m : Nat) (s : List UInt8) : OkOr AnyErr (fun _ => True) (readSeparatedAscii m s) := by
  unfold readSeparatedAscii
  refine (separatedLoop_total _ _).bind ?_
  rintro ⟨v, s⟩ -
  dsimp only
  split <;> trivial

theorem readPbmAscii_total (s : List UInt8) : OkOr AnyErr (fun _ => True) (readPbmAscii s) := by
  induction s with
  | nil => trivial
  | cons b s ih =>
    unfold readPbmAscii
    split
    · exact ih
    split
    · trivial
    split <;> trivial

theorem fromAscii_total (le : Bool) {S : Sample} (hS : S ≠ .BWBit) (s : List UInt8) {n : Nat} (hn : S = .U16 → n % 2 = 0) :
    OkOr AnyErr (fun b => b.length = n) (S.fromAscii le s n) := by
  cases S with
  | U8 =>
    unfold Sample.fromAscii
    refine (forRange_okOr (fun i st => st.1.length = i) rfl ?_).bind ?_
    · intro i _ st hi
      refine (readSeparatedAscii_total _ _).bind ?_
      rintro ⟨v, s'⟩ -
      show (st.1 ++ [UInt8.ofNat v]).length = i + 1
      simp [hi]
    · rintro ⟨out, s'⟩ h; exact h
  | U16 =>
    unfold Sample.fromAscii
    refine (forRange_okOr (fun i st => st.1.length = 2 * i) rfl ?_).bind ?_
    · intro i _ st hi
      refine (readSeparatedAscii_total _ _).bind ?_
      rintro ⟨v, s'⟩ -
      show (st.1 ++ native16 le (beBytes 2 v)).length = 2 * (i + 1)
      rw [List.length_append, native16_length, length_beBytes]; omega
    · rintro ⟨out, s'⟩ h
      have := hn rfl
      show (out ++ List.replicate (n % 2) 0).length = n
      dsimp only at h
      rw [List.length_append, List.length_replicate]; omega
  | PbmBit =>
    unfold Sample.fromAscii
    refine (forRange_okOr (fun i st => st.1.length = i) rfl ?_).bind ?_
    · intro i _ st hi
      refine (readPbmAscii_total _).bind ?_
      rintro ⟨v, s'⟩ -
      show (st.1 ++ [v]).length = i + 1
      simp [hi]
    · rintro ⟨out, s'⟩ h; exact h
  | BWBit => exact absurd rfl hS

theorem length_scaleBuffer (le : Bool) (S : Sample) (m : Nat) (buf : List UInt8) : (scaleBuffer le S m buf).length = buf.length := by
  unfold scaleBuffer
  split
  · split
    · simp
    · rw [List.length_append, length_flatMap_const (n := 2) _ _ (fun b _ => by rw [native16_length, length_beBytes]),
        length_chunksExact, List.length_drop]
      omega
  · rfl

theorem fromBytes_total (le : Bool) (t : TupleType) {w h : Nat} {bytes : List UInt8} (hw : w < 2 ^ 32 - 8)
    (hb : t.sample.1.bytelen w h t.sample.2 = .ok bytes.length) :
    OkOr AnyErr (fun b => b.length = w * h * t.colorType.bytesPerPixel)
      (t.sample.1.fromBytes le bytes (w * t.sample.2) (w * h * t.colorType.bytesPerPixel)) := by
  have gen : ∀ c sz n, (do
      let a ← mulC 32 w h
      let b ← mulC 32 a c
      mulC 32 b sz) = Except.ok n → n = w * h * (c * sz) := by
    intro c sz n hx
    obtain ⟨a, ha, hx⟩ := bind_eq_ok.1 hx
    obtain ⟨b, hb, hx⟩ := bind_eq_ok.1 hx
    unfold mulC at ha hb hx
    split at ha
    · split at hb
      · split at hx
        · cases ha; cases hb; cases hx; rw [Nat.mul_assoc]
        · cases hx
      · cases hb
    · cases ha
  cases t with
  | pbmBit =>
    show OkOr AnyErr (fun b => b.length = w * h * 1) (Sample.fromBytes le .PbmBit bytes (w * 1) (w * h * 1))
    simp only [Sample.fromBytes]
    rw [decide_eq_true (by omega), assertR_true, ok_bind, Nat.mul_one, Nat.mul_one]
    have hlen : bytes.length = h * packedRowBytes 1 w := by
      have hb' : (do
        let count ← mulC 32 w 1
        let linelen := count / 8 + if count % 8 ≠ 0 then 1 else 0
        mulC 32 linelen h) = Except.ok bytes.length := hb
      rw [mulC_ok (by omega), ok_bind] at hb'
      dsimp only at hb'
      have e : w * 1 / 8 + (if w * 1 % 8 ≠ 0 then 1 else 0) = packedRowBytes 1 w := by
        unfold packedRowBytes; split <;> omega
      rw [e] at hb'
      unfold mulC at hb'
      split at hb'
      · rw [← Except.ok.inj hb', Nat.mul_comm]
      · cases hb'
    by_cases hw0 : w = 0
    · subst hw0
      have : bytes = [] := List.eq_nil_of_length_eq_zero (by rw [hlen]; simp [packedRowBytes])
      subst this
      show OkOr AnyErr _ (do
        let expanded ← Except.ok ([] : List UInt8)
        let expanded := expanded.map fun b => ~~~b
        assertR (decide (expanded.length = 0 * h))
        Except.ok expanded)
      simp [OkOr]
    · obtain ⟨out, o1, o2, -⟩ := C35_expand_bits 1 (.inl rfl) w h (by omega) (by omega) bytes hlen
      rw [o1, ok_bind]
      rw [decide_eq_true (by simp [o2, Nat.mul_comm]), assertR_true, ok_bind]
      simp [OkOr, o2, Nat.mul_comm]
  | bwBit =>
    have hlen := gen 1 1 _ hb
    show OkOr AnyErr (fun b => b.length = w * h * 1) (Sample.fromBytes le .BWBit bytes (w * 1) (w * h * 1))
    simp only [Sample.fromBytes]
    rw [decide_eq_true hlen, assertR_true, ok_bind]
    split
    · trivial
    · exact hlen
  | grayU8 =>
    have hlen := gen 1 1 _ hb
    show OkOr AnyErr (fun b => b.length = w * h * 1) (Sample.fromBytes le .U8 bytes (w * 1) (w * h * 1))
    simp only [Sample.fromBytes]
    rw [decide_eq_true hlen, assertR_true, ok_bind]
    exact hlen
  | rgbU8 =>
    have hlen := gen 3 1 _ hb
    show OkOr AnyErr (fun b => b.length = w * h * 3) (Sample.fromBytes le .U8 bytes (w * 3) (w * h * 3))
    simp only [Sample.fromBytes]
    rw [decide_eq_true hlen, assertR_true, ok_bind]
    exact hlen
  | grayU16 =>
    have hlen := gen 1 2 _ hb
    show OkOr AnyErr (fun b => b.length = w * h * 2) (Sample.fromBytes le .U16 bytes (w * 1) (w * h * 2))
    simp only [Sample.fromBytes]
    rw [decide_eq_true hlen, assertR_true, ok_bind]
    show (_ ++ _ : List UInt8).length = w * h * 2
    rw [List.length_append, List.length_flatMap, List.length_drop, List.map_congr_left (g := fun _ => 2)]
    · simp; omega
    · intro c hc
      rw [native16_length]
      unfold chunksExact at hc
      obtain ⟨k, hk, rfl⟩ := List.mem_map.1 hc
      have := List.mem_range.1 hk
      rw [List.length_take, List.length_drop]; omega
  | rgbU16 =>
    have hlen := gen 3 2 _ hb
    show OkOr AnyErr (fun b => b.length = w * h * 6) (Sample.fromBytes le .U16 bytes (w * 3) (w * h * 6))
    simp only [Sample.fromBytes]
    rw [decide_eq_true hlen, assertR_true, ok_bind]
    show (_ ++ _ : List UInt8).length = w * h * 6
    rw [List.length_append, List.length_flatMap, List.length_drop, List.map_congr_left (g := fun _ => 2)]
    · simp; omega
    · intro c hc
      rw [native16_length]
      unfold chunksExact at hc
      obtain ⟨k, hk, rfl⟩ := List.mem_map.1 hc
      have := List.mem_range.1 hk
      rw [List.length_take, List.length_drop]; omega

/-- **C60** (partial: declared binary images of less than 2^32 bytes and any ASCII images): for every byte string, the
decoder returns an error or an image whose buffer has exactly the size that its dimensions and colour type require; it
never panics and never runs forever. What is missing: binary files that declare 2^32 bytes or more, see
`C60_total_false`. -/
theorem C60_total_partial (le : Bool) (file : List UInt8)
    (hsize : ∀ hd s t, readHeader file = .ok (hd, s) → hd.tupleType = .ok t → hd.subtype.sampleEncoding = .binary →
      hd.width * hd.height * t.colorType.bytesPerPixel < 2 ^ 32 ∧ hd.width < 2 ^ 32 - 8) :
    OkOr AnyErr (fun r => r.2.2.2.length = r.1 * r.2.1 * r.2.2.1.bytesPerPixel ∧ r.1 < 2 ^ 32 ∧ r.2.1 < 2 ^ 32) (decode le file) := by
  unfold decode Decoder.new
  have hr := readHeader_total file
  rcases hrh : readHeader file with e | ⟨hd, s⟩
  · rw [hrh] at hr
    cases e with
    | panic => exact hr
    | err e => trivial
  rw [hrh] at hr
  obtain ⟨d1, d2⟩ := hr
  rw [ok_bind]
  dsimp only
  rcases tupleType_cases hd with ⟨e, ht⟩ | ⟨t, ht⟩
  · rw [ht]; trivial
  rw [ht, ok_bind, C35_check_dimension_overflow _ _ _ d1 d2 (bpp_pos t), ok_bind]
  by_cases hov : 2 ^ 64 ≤ hd.width * hd.height * t.colorType.bytesPerPixel
  · rw [decide_eq_true hov]; trivial
  rw [decide_eq_false hov]
  have htot : totalBytes hd.width hd.height t.colorType.bytesPerPixel = hd.width * hd.height * t.colorType.bytesPerPixel := by
    unfold totalBytes satMul; omega
  simp only [Bool.false_eq_true, if_false, ok_bind]
  rw [htot]
  unfold Decoder.readImage
  dsimp only
  rw [htot, decide_eq_true rfl, assertR_true, ok_bind]
  refine OkOr.bind (P := fun b => b.length = hd.width * hd.height * t.colorType.bytesPerPixel) ?_ (fun b hb => ⟨hb, d1, d2⟩)
  unfold Decoder.readSamples
  dsimp only
  refine OkOr.bind (P := fun b => b.length = hd.width * hd.height * t.colorType.bytesPerPixel) ?_ (fun b hb => by
    show (scaleBuffer _ _ _ _).length = _
    rw [length_scaleBuffer]; exact hb)
  cases hen : hd.subtype.sampleEncoding with
  | ascii =>
    refine fromAscii_total le ?_ s ?_
    · intro hS
      have : t = .bwBit := by cases t <;> first | rfl | cases hS
      subst this
      rcases hd with ⟨e, h, w⟩ | ⟨e, h, w, m⟩ | ⟨e, h, w, m⟩ | ⟨h, w, d, m, u⟩
      · cases ht
      · simp only [Header.tupleType] at ht
        repeat' split at ht
        all_goals cases ht
      · simp only [Header.tupleType] at ht
        repeat' split at ht
        all_goals cases ht
      · cases hen
    · intro hS
      cases t <;> try cases hS
      · show hd.width * hd.height * 2 % 2 = 0; omega
      · show hd.width * hd.height * 6 % 2 = 0; omega
  | binary =>
    obtain ⟨s1, s2⟩ := hsize hd s t hrh ht hen
    dsimp only
    have hbl : ∃ n, t.sample.1.bytelen hd.width hd.height t.sample.2 = .ok n := by
      by_cases h0 : 1 ≤ hd.width ∧ 1 ≤ hd.height
      · obtain ⟨n, hn, -⟩ := bytelen_ok s1 h0.1 h0.2
        exact ⟨n, hn⟩
      · have hz : hd.width * hd.height = 0 := by
          rcases Nat.eq_zero_or_pos hd.width with h | h
          · rw [h]; simp
          · rcases Nat.eq_zero_or_pos hd.height with h' | h'
            · rw [h']; simp
            · exact absurd ⟨h, h'⟩ h0
        have gen : ∀ c sz, (do
            let a ← mulC 32 hd.width hd.height
            let b ← mulC 32 a c
            mulC 32 b sz) = Except.ok 0 := by
          intro c sz
          unfold mulC
          rw [hz]
          simp
        cases t with
        | pbmBit =>
          show ∃ n, (do
            let count ← mulC 32 hd.width 1
            let linelen := count / 8 + if count % 8 ≠ 0 then 1 else 0
            mulC 32 linelen hd.height) = Except.ok n
          rw [mulC_ok (by omega), ok_bind]
          dsimp only
          have e : (hd.width * 1 / 8 + (if hd.width * 1 % 8 ≠ 0 then 1 else 0)) * hd.height = 0 := by
            rcases Nat.mul_eq_zero.1 hz with h | h
            · rw [h]; simp
            · rw [h]; simp
          exact ⟨_, mulC_ok (by rw [e]; omega)⟩
        | bwBit => exact ⟨0, gen 1 1⟩
        | grayU8 => exact ⟨0, gen 1 1⟩
        | grayU16 => exact ⟨0, gen 1 2⟩
        | rgbU8 => exact ⟨0, gen 3 1⟩
        | rgbU16 => exact ⟨0, gen 3 2⟩
    obtain ⟨n, hn⟩ := hbl
    rw [hn, ok_bind]
    split
    · trivial
    · rename_i hlen
      have hlen' : (s.take n).length = n := by simpa using hlen
      have h2 : hd.width * t.sample.2 < 2 ^ 64 := by
        have : t.sample.2 ≤ 3 := by cases t <;> decide
        have := Nat.mul_le_mul_left hd.width this
        omega
      rw [checkedMul, if_pos h2]
      exact fromBytes_total le t s2 (by rw [hlen']; exact hn)

/-- **C60** fails for declared sizes of 2^32 bytes and more: a binary PGM of 19 bytes makes the decoder panic (the number
of bytes is computed in 32 bits). -/
theorem C60_total_false : ∃ file : List UInt8, file.length = 19 ∧ decode true file = panicR := by
  refine ⟨[80, 53, 10, 54, 53, 53, 51, 54, 32, 54, 53, 53, 51, 54, 32, 50, 53, 53, 10], rfl, ?_⟩
  decide +kernel

-- Non-vacuity: a file that decodes and one that does not.
example : decode true [80, 53, 10, 49, 32, 49, 32, 50, 53, 53, 10, 7] = .ok (1, 1, .L8, [7]) := by decide +kernel
example : decode true [80, 55, 10, 32, 87, 10] = errR .decoding := by decide +kernel

end Pnm
end Verif
