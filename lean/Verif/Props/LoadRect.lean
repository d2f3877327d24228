import Verif.Model.LoadRect
import Verif.Proofs.Buffer
import Verif.Proofs.Outcome

/-!
# Rectangle reads and scanline buffering (C33, C34)
-/

namespace Verif

/-! ## Specification -/

/-- The bytes number `a` to `b - 1` of a decoded image. -/
def segment (img : Nat → UInt8) (a b : Nat) : List UInt8 := (List.range (b - a)).map fun i => img (a + i)

/-- What `load_rect` may assume of a scanline decoder for the image `img` of `limit` bytes cut into scanlines of `sb`
bytes: `At d k` says that `d` will deliver scanline `k` next. Seeking to and reading of scanlines which begin inside
the image (and seeking to scanline 0) may fail with errors in `E`, or else do what they should. -/
structure ScanlineDecoder {D : Type} (img : Nat → UInt8) (sb limit : Nat) (E : Err → Prop) (At : D → Nat → Prop)
    (seek : D → Nat → R D) (readScanline : D → Nat → R (List UInt8 × D)) : Prop where
  seek : ∀ d k j, At d k → j = 0 ∨ j * sb < limit → OkOr E (fun d' => At d' j) (seek d j)
  read : ∀ d k, At d k → k * sb < limit →
    OkOr E (fun r => r.1 = segment img (k * sb) ((k + 1) * sb) ∧ At r.2 (k + 1)) (readScanline d sb)

/-! ## Segments -/

@[simp] theorem length_segment (img : Nat → UInt8) (a b : Nat) : (segment img a b).length = b - a := by
  simp [segment]

theorem getElem?_segment {img : Nat → UInt8} {a b i : Nat} (h : i < b - a) : (segment img a b)[i]? = some (img (a + i)) := by
  simp [segment, h]

theorem segment_append {img : Nat → UInt8} {a b c : Nat} (h1 : a ≤ b) (h2 : b ≤ c) :
    segment img a b ++ segment img b c = segment img a c := by
  apply List.ext_getElem?
  intro i
  by_cases hi : i < b - a
  · rw [List.getElem?_append_left (by simpa using hi), getElem?_segment hi, getElem?_segment (by omega)]
  · rw [List.getElem?_append_right (by simp; omega), length_segment]
    by_cases hc : i < c - a
    · rw [getElem?_segment (by omega), getElem?_segment hc]
      congr 2; omega
    · rw [List.getElem?_eq_none (by simp; omega), List.getElem?_eq_none (by simp; omega)]

theorem segment_self (img : Nat → UInt8) (a : Nat) : segment img a a = [] := by simp [segment]

theorem sliceLen_segment {img : Nat → UInt8} {a b off len : Nat} (h : off + len ≤ b - a) :
    sliceLen (segment img a b) off len = .ok (segment img (a + off) (a + off + len)) := by
  unfold sliceLen
  rw [if_pos (by simpa using h)]
  congr 1
  apply List.ext_getElem?
  intro i
  by_cases hi : i < len
  · rw [List.getElem?_take_of_lt hi, List.getElem?_drop, getElem?_segment (by omega), getElem?_segment (by omega)]
    congr 2; omega
  · rw [List.getElem?_eq_none (by simp; omega), List.getElem?_eq_none (by simp; omega)]

/-! ## The range reader -/

section
variable {D : Type} {img : Nat → UInt8} {sb limit : Nat} {E : Err → Prop} {At : D → Nat → Prop}
  {seek : D → Nat → R D} {readScanline : D → Nat → R (List UInt8 × D)}

/-- The captured state is consistent with the image. -/
structure RectInv (img : Nat → UInt8) (sb : Nat) (At : D → Nat → Prop) (st : RectSt D) : Prop where
  at_ : At st.dec st.cur
  tmp : ∀ t, st.tmpLine = some t → st.tmp = segment img (t * sb) ((t + 1) * sb)

theorem rectLoop_ok (hd : ScanlineDecoder img sb limit E At seek readScanline) (hsb : 0 < sb) {s0 start end_ cap : Nat}
    (h0 : s0 ≤ start) (hse : start < end_) (hcap : end_ - s0 ≤ cap) (h64 : end_ + sb < 2 ^ 64) (hlim : end_ ≤ limit) :
    ∀ (fuel : Nat) (st : RectSt D) (out : List UInt8) (p : Nat), p = st.cur * sb → RectInv img sb At st →
      start < p + sb → end_ ≤ p + fuel * sb →
      out = segment img s0 (min end_ (max start p)) →
      OkOr E (fun r => RectInv img sb At r.1 ∧ r.2 = segment img s0 end_)
        (rectLoop readScanline sb start end_ cap fuel p st out) := by
  intro fuel
  induction fuel with
  | zero =>
    intro st out p hp hi hs hf ho
    rw [Nat.zero_mul] at hf
    rw [rectLoop, if_neg (by omega)]
    refine ⟨hi, ?_⟩
    rw [ho, show min end_ (max start p) = end_ by omega]
  | succ fuel ih =>
    intro st out p hp hi hs hf ho
    rw [rectLoop]
    rw [Nat.add_mul] at hf
    have hcp : (st.cur + 1) * sb = p + sb := by rw [hp, Nat.add_mul]; omega
    have hcur : st.cur ≤ p := by rw [hp]; exact Nat.le_mul_of_pos_right _ hsb
    split
    · rename_i hpe
      have hread := hd.read st.dec st.cur hi.at_ (by omega)
      rw [hcp, ← hp] at hread
      refine OkOr.bind (P := fun (r : RectSt D × List UInt8) => r.1.cur = st.cur ∧ At r.1.dec (st.cur + 1) ∧
        (∀ t, r.1.tmpLine = some t → r.1.tmp = segment img (t * sb) ((t + 1) * sb)) ∧
        r.2 = segment img s0 (min end_ (max start (p + sb)))) ?_ ?_
      · unfold rectStep
        split
        · rename_i hc
          have hol : out.length + sb ≤ cap := by rw [ho]; simp; omega
          simp only [hol, decide_true, assertR_true, ok_bind]
          refine OkOr.bind hread ?_
          rintro ⟨bytes, d⟩ ⟨hb, hat⟩
          refine ⟨rfl, hat, hi.tmp, ?_⟩
          simp only at hb ⊢
          rw [ho, hb, show min end_ (max start p) = p by omega, segment_append (by omega) (by omega)]
          rw [show min end_ (max start (p + sb)) = p + sb by omega]
        · rename_i hc
          refine OkOr.bind hread ?_
          rintro ⟨bytes, d⟩ ⟨hb, hat⟩
          simp only at hb hat ⊢
          unfold satSub
          rw [subC_ok (by omega), subC_ok (by omega), subC_ok (by omega)]
          simp only [ok_bind]
          rw [hb, sliceLen_segment (by omega)]
          simp only [ok_bind]
          have e1 : p + (start - p) = max start p := by omega
          have e2 : p + (start - p) + min (min (end_ - start) (sb - (start - p))) (end_ - p) =
            min end_ (max start (p + sb)) := by omega
          rw [e2, e1]
          have hw : writeAll cap out (segment img (max start p) (min end_ (max start (p + sb)))) =
              .ok (segment img s0 (min end_ (max start (p + sb)))) := by
            unfold writeAll
            rw [ho, if_pos (by simp; omega), show min end_ (max start p) = max start p by omega,
              segment_append (by omega) (by omega)]
          rw [hw]
          refine ⟨rfl, hat, ?_, rfl⟩
          intro t ht
          simp only [Option.some.injEq] at ht
          subst ht
          rw [hcp, ← hp]
      · rintro ⟨st', out'⟩ ⟨g1, g2, g3, g4⟩
        simp only at g1 g2 g3 g4 ⊢
        rw [g1, addC_ok (by omega), addC_ok (by omega)]
        simp only [ok_bind]
        refine ih _ _ (p + sb) ?_ ?_ (by omega) (by omega) g4
        · dsimp only; rw [hcp]
        · exact ⟨g2, g3⟩
    · refine ⟨hi, ?_⟩
      rw [ho, show min end_ (max start p) = end_ by omega]

theorem readRangeFrom_ok (hd : ScanlineDecoder img sb limit E At seek readScanline) (hsb : 0 < sb) {s0 start end_ cap : Nat}
    (h0 : s0 ≤ start) (hse : start < end_) (hcap : end_ - s0 ≤ cap) (h64 : end_ + sb < 2 ^ 64) (hlim : end_ ≤ limit)
    {st : RectSt D} (hi : RectInv img sb At st) :
    OkOr E (fun r => RectInv img sb At r.1 ∧ r.2 = segment img s0 end_)
      (readRangeFrom seek readScanline sb start end_ cap st (segment img s0 start)) := by
  unfold readRangeFrom
  have hdm := Nat.div_add_mod start sb
  have hml := Nat.mod_lt start hsb
  rw [Nat.mul_comm] at hdm
  refine OkOr.bind (P := fun (st' : RectSt D) => st'.cur = start / sb ∧ RectInv img sb At st') ?_ ?_
  · unfold rectSeek
    split
    · refine OkOr.bind (hd.seek st.dec st.cur (start / sb) hi.at_ (Or.inr (by omega))) ?_
      intro d hat
      exact ⟨rfl, hat, hi.tmp⟩
    · rename_i h
      exact ⟨by simp only [ne_eq, Decidable.not_not] at h; exact h.symm, hi⟩
  · rintro st' ⟨h1, h2⟩
    rw [h1, mulC_ok (by omega)]
    simp only [ok_bind]
    refine rectLoop_ok hd hsb h0 hse hcap h64 hlim _ st' _ _ (by rw [h1]) h2 (by omega) ?_ ?_
    · have : (end_ - start / sb * sb) * 1 ≤ (end_ - start / sb * sb) * sb := Nat.mul_le_mul_left _ hsb
      omega
    · rw [show min end_ (max start (start / sb * sb)) = start by omega]

theorem readImageRange_ok (hd : ScanlineDecoder img sb limit E At seek readScanline) (hsb : 0 < sb) {start end_ cap : Nat}
    (hse : start < end_) (hcap : end_ - start ≤ cap) (h64 : end_ + sb < 2 ^ 64) (hlim : end_ ≤ limit)
    {st : RectSt D} (hi : RectInv img sb At st) :
    OkOr E (fun r => RectInv img sb At r.1 ∧ r.2 = segment img start end_)
      (readImageRange seek readScanline sb start end_ cap st) := by
  unfold readImageRange
  have hdm := Nat.div_add_mod start sb
  have hml := Nat.mod_lt start hsb
  rw [Nat.mul_comm] at hdm
  have hb : (sb != 0) = true := by simp; omega
  rw [hb]
  simp only [assertR_true, ok_bind]
  split
  · rename_i ht
    have htmp := hi.tmp _ ht
    rw [Nat.add_mul, Nat.one_mul] at htmp
    rw [mulC_ok (by omega)]
    simp only [ok_bind]
    unfold satSub
    rw [subC_ok (by omega), subC_ok (by omega), subC_ok (by omega)]
    simp only [ok_bind]
    rw [htmp, sliceLen_segment (by omega)]
    simp only [ok_bind]
    have e1 : start / sb * sb + (start - start / sb * sb) = start := by omega
    rw [e1]
    generalize hlen : min (min (end_ - start) (sb - (start - start / sb * sb))) (end_ - start / sb * sb) = len
    have hle : start + len ≤ end_ := by omega
    have hw : writeAll cap [] (segment img start (start + len)) = .ok (segment img start (start + len)) := by
      unfold writeAll
      rw [if_pos (by simp; omega)]; rfl
    rw [hw]
    simp only [ok_bind]
    rw [addC_ok (by omega)]
    simp only [ok_bind]
    split
    · rename_i he
      exact ⟨hi, by rw [he]⟩
    · exact readRangeFrom_ok hd hsb (by omega) (by omega) hcap h64 hlim hi
  · have := readRangeFrom_ok hd hsb (s0 := start) (Nat.le_refl _) hse hcap h64 hlim hi
    rw [segment_self] at this
    exact this

end

/-! ## C33 -/

/-- The bytes of row `i` of the rectangle, taken from the fully decoded image `img` of `rowBytes` bytes per row. -/
def rectByte (img : Nat → UInt8) (rowBytes bpp x y i c : Nat) : UInt8 := img ((y + i) * rowBytes + x * bpp + c)

/-- For every decoder that delivers the image scanline by scanline (of any size `sb > 0`, with any seeking pattern),
`load_rect` of a rectangle inside the image either fails with an error of the decoder, or stores at
`buf[i * row_pitch + c]` exactly byte `c` of row `i` of the rectangle, leaves all other bytes of `buf` alone, and
leaves the decoder at scanline 0, so that the next call behaves the same. The buffer must hold all the rows at the
given pitch, and the pitch must be at least a row (documented requirement). -/
theorem C33_load_rect_partial {D : Type} {img : Nat → UInt8} {sb : Nat} {E : Err → Prop} {At : D → Nat → Prop}
    {seek : D → Nat → R D} {readScanline : D → Nat → R (List UInt8 × D)}
    (width0 height0 bpp x y width height rowPitch : Nat)
    (hd : ScanlineDecoder img sb (width0 * bpp * height0) E At seek readScanline) (hsb : 0 < sb) (buf : List UInt8) (dec : D) (hat : At dec 0)
    (hbpp : 0 < bpp) (hw0 : 0 < width) (hh0 : 0 < height)
    (hx : x + width ≤ width0) (hy : y + height ≤ height0)
    (h64 : width0 * bpp * height0 + sb < 2 ^ 64) (hlen64 : buf.length < 2 ^ 64)
    (hpitch : width * bpp ≤ rowPitch) (hbuf : (height - 1) * rowPitch + width * bpp ≤ buf.length) :
    OkOr E (fun r => At r.2 0 ∧ r.1.length = buf.length ∧
        (∀ i c, i < height → c < width * bpp →
          r.1[i * rowPitch + c]? = some (rectByte img (width0 * bpp) bpp x y i c)) ∧
        (∀ q, (∀ i c, i < height → c < width * bpp → q ≠ i * rowPitch + c) → r.1[q]? = buf[q]?))
      (loadRect width0 height0 bpp x y width height buf rowPitch dec sb seek readScanline) := by
  have hwb : 0 < width * bpp := Nat.mul_pos hw0 hbpp
  -- sizes
  have hrow : x * bpp + width * bpp ≤ width0 * bpp := by
    rw [← Nat.add_mul]; exact Nat.mul_le_mul_right _ hx
  have hrows : ∀ r, r < height0 → r * (width0 * bpp) + width0 * bpp ≤ width0 * bpp * height0 := by
    intro r hr
    have : (r + 1) * (width0 * bpp) ≤ height0 * (width0 * bpp) := Nat.mul_le_mul_right _ hr
    rw [Nat.add_mul, Nat.one_mul, Nat.mul_comm height0] at this
    exact this
  have hr0 := hrows (height0 - 1) (by omega)
  have hpw : width * bpp * (height - 1) ≤ (height - 1) * rowPitch := by
    rw [Nat.mul_comm]; exact Nat.mul_le_mul_left _ hpitch
  have htot : width * height * bpp ≤ buf.length := by
    have : width * height * bpp = width * bpp * (height - 1) + width * bpp := by
      obtain ⟨h', rfl⟩ : ∃ h', height = h' + 1 := ⟨height - 1, by omega⟩
      simp only [Nat.add_sub_cancel]
      rw [Nat.mul_right_comm, Nat.mul_add, Nat.mul_one]
    omega
  have hwh : width * height ≤ width * height * bpp := Nat.le_mul_of_pos_right _ hbpp
  unfold loadRect
  rw [mulC_ok (by rw [Nat.mul_comm]; omega), mulC_ok (by omega)]
  simp only [ok_bind, Nat.mul_comm bpp width0]
  rw [mulC_ok (by omega)]
  simp only [ok_bind, htot, decide_true, assertR_true]
  rw [if_neg (by omega)]
  have hi0 : RectInv img sb At (⟨dec, 0, [], none⟩ : RectSt D) := ⟨hat, fun t h => by cases h⟩
  refine OkOr.bind (P := fun (r : List UInt8 × RectSt D) => RectInv img sb At r.2 ∧ r.1.length = buf.length ∧
        (∀ i c, i < height → c < width * bpp →
          r.1[i * rowPitch + c]? = some (rectByte img (width0 * bpp) bpp x y i c)) ∧
        (∀ q, (∀ i c, i < height → c < width * bpp → q ≠ i * rowPitch + c) → r.1[q]? = buf[q]?)) ?_ ?_
  · unfold loadRows
    split
    · rename_i hfull
      obtain ⟨rfl, rfl, rfl⟩ := hfull
      have e1 : (y + height - 1) * (width * bpp) + width * bpp ≤ width * bpp * height0 := hrows _ (by omega)
      have e2 : y * (width * bpp) ≤ (y + height - 1) * (width * bpp) := Nat.mul_le_mul_right _ (by omega)
      rw [mulC_ok (by omega), mulC_ok (by omega)]
      simp only [ok_bind]
      rw [addC_ok (by omega), addC_ok (by rw [Nat.zero_add]; omega)]
      simp only [ok_bind, Nat.zero_mul, Nat.zero_add]
      have e3 : width * bpp + (y + height - 1) * (width * bpp) = y * (width * bpp) + height * (width * bpp) := by
        obtain ⟨h', rfl⟩ : ∃ h', height = h' + 1 := ⟨height - 1, by omega⟩
        rw [← Nat.add_assoc, Nat.add_sub_cancel, Nat.add_mul, Nat.add_mul]; omega
      have e4 : height * (width * bpp) = (height - 1) * (width * bpp) + width * bpp := by
        obtain ⟨h', rfl⟩ : ∃ h', height = h' + 1 := ⟨height - 1, by omega⟩
        rw [Nat.add_sub_cancel, Nat.add_mul]; omega
      refine OkOr.bind (readImageRange_ok hd hsb (by omega) (by omega) (by omega) (by omega) hi0) ?_
      rintro ⟨st, out⟩ ⟨g1, g2⟩
      simp only at g1 g2 ⊢
      rw [e3] at g2
      have hol : out.length = height * (width * bpp) := by rw [g2]; simp
      refine ⟨g1, length_overwrite (by omega), ?_, ?_⟩
      · intro i c hi hc
        have : (i + 1) * (width * bpp) ≤ height * (width * bpp) := Nat.mul_le_mul_right _ hi
        rw [Nat.add_mul, Nat.one_mul] at this
        rw [getElem?_overwrite (by omega), if_neg (by omega), if_pos (by omega), g2, getElem?_segment (by omega)]
        simp only [rectByte, Nat.zero_mul, Nat.add_zero, Nat.add_mul, Nat.sub_zero, Nat.add_assoc]
      · intro q hq
        rw [getElem?_overwrite (by omega), if_neg (by omega), if_neg]
        intro hlt
        refine hq (q / (width * bpp)) (q % (width * bpp)) ?_ (Nat.mod_lt _ hwb) ?_
        · rw [Nat.div_lt_iff_lt_mul hwb]; omega
        · rw [Nat.mul_comm, Nat.div_add_mod]
    · have hp0 : (rowPitch != 0) = true := by simp; omega
      rw [hp0]
      simp only [assertR_true, ok_bind]
      have hchunks : min height ((buf.length + rowPitch - 1) / rowPitch) = height := by
        have : height ≤ (buf.length + rowPitch - 1) / rowPitch := by
          rw [Nat.le_div_iff_mul_le (by omega)]
          obtain ⟨h', rfl⟩ : ∃ h', height = h' + 1 := ⟨height - 1, by omega⟩
          rw [Nat.add_mul]
          simp only [Nat.add_sub_cancel] at hbuf
          omega
        omega
      rw [hchunks]
      refine OkOr.mono (forRange_okOr (fun k (r : List UInt8 × RectSt D) => RectInv img sb At r.2 ∧
        r.1.length = buf.length ∧
        (∀ i c, i < k → c < width * bpp →
          r.1[i * rowPitch + c]? = some (rectByte img (width0 * bpp) bpp x y i c)) ∧
        (∀ q, (∀ i c, i < k → c < width * bpp → q ≠ i * rowPitch + c) → r.1[q]? = buf[q]?))
        ⟨hi0, rfl, by intro i c hi; omega, by intro q _; rfl⟩ ?_) (fun _ h => h)
      rintro k hk ⟨b, st⟩ ⟨g1, g2, g3, g4⟩
      simp only at g1 g2 g3 g4 ⊢
      have e1 := hrows (y + k) (by omega)
      rw [mulC_ok (by omega)]
      simp only [ok_bind]
      rw [addC_ok (by omega), addC_ok (by rw [Nat.add_mul]; omega)]
      simp only [ok_bind]
      have hkp : k * rowPitch ≤ (height - 1) * rowPitch := Nat.mul_le_mul_right _ (by omega)
      rw [Nat.add_mul x width]
      refine OkOr.bind (readImageRange_ok hd hsb (by omega) (by omega) (by omega) (by omega) g1) ?_
      rintro ⟨st', out⟩ ⟨f1, f2⟩
      simp only at f1 f2 ⊢
      have hol : out.length = width * bpp := by rw [f2]; simp; omega
      refine ⟨f1, by rw [length_overwrite (by omega), g2], ?_, ?_⟩
      · intro i c hi hc
        rw [getElem?_overwrite (by omega)]
        by_cases hik : i = k
        · subst hik
          rw [if_neg (by omega), if_pos (by omega), f2, getElem?_segment (by omega)]
          simp only [rectByte]
          congr 2; omega
        · have : (i + 1) * rowPitch ≤ k * rowPitch := Nat.mul_le_mul_right _ (by omega)
          rw [Nat.add_mul] at this
          rw [if_pos (by omega)]
          exact g3 i c (by omega) hc
      · intro q hq
        rw [getElem?_overwrite (by omega)]
        split
        · exact g4 q (fun i c hi hc => hq i c (by omega) hc)
        · split
          · exact absurd (by omega) (hq k (q - k * rowPitch) (by omega) (by omega))
          · exact g4 q (fun i c hi hc => hq i c (by omega) hc)
  · rintro ⟨b, st⟩ ⟨g1, g2, g3, g4⟩
    refine OkOr.bind (hd.seek st.dec st.cur 0 g1.at_ (Or.inl rfl)) ?_
    intro d hd'
    exact ⟨hd', g2, g3, g4⟩

/-- A rectangle which is empty or not inside the image is rejected (the buffer being large enough for it), without
touching decoder or buffer. -/
theorem C33_load_rect_rejects {D : Type} (seek : D → Nat → R D) (readScanline : D → Nat → R (List UInt8 × D))
    (width0 height0 bpp x y width height rowPitch sb : Nat) (buf : List UInt8) (dec : D)
    (h64 : bpp * width0 < 2 ^ 64) (hwh : width * height < 2 ^ 64) (hwhb : width * height * bpp ≤ buf.length)
    (hlen64 : buf.length < 2 ^ 64)
    (hout : width0 < x + width ∨ height0 < y + height ∨ width = 0 ∨ height = 0) :
    loadRect width0 height0 bpp x y width height buf rowPitch dec sb seek readScanline =
      .error (.err .dimensionMismatch) := by
  unfold loadRect
  rw [mulC_ok h64, mulC_ok hwh]
  simp only [ok_bind]
  rw [mulC_ok (by omega)]
  simp only [ok_bind, hwhb, decide_true, assertR_true]
  rw [if_pos (by omega)]; rfl

/-- A decoder for an in-memory image, used for the examples: the state is the next scanline. -/
def memSeek (_ : Nat) (k : Nat) : R Nat := .ok k
/-- see `memSeek` -/
def memRead (img : Nat → UInt8) (sb : Nat) (d _n : Nat) : R (List UInt8 × Nat) :=
  .ok (segment img (d * sb) ((d + 1) * sb), d + 1)

theorem memDecoder (img : Nat → UInt8) (sb limit : Nat) :
    ScanlineDecoder img sb limit (fun _ => False) (fun d k => d = k) memSeek (memRead img sb) :=
  ⟨fun _ _ _ _ _ => rfl, fun d k h _ => by subst h; exact ⟨rfl, rfl⟩⟩

-- Non-vacuity: the 2x2 rectangle at (1, 1) of a 4x3 image of one byte per pixel, scanlines of 3 bytes.
example : loadRect 4 3 1 1 1 2 2 [9, 9, 9, 9, 9] 3 0 3 memSeek (memRead (fun i => UInt8.ofNat i) 3) =
    .ok ([5, 6, 9, 9, 10], 0) := by rfl

/-- Without the requirement on the size of the buffer relative to the row pitch the claim is false: the function only
checks `width * height * bytes_per_pixel` against the buffer, and with a larger pitch silently leaves out rows while
reporting success. -/
theorem C33_rows_dropped_false : ∃ (img : Nat → UInt8) (buf out : List UInt8),
    buf.length = 2 * 2 * 1 ∧
    loadRect 4 3 1 1 1 2 2 buf 4 0 4 memSeek (memRead img 4) = .ok (out, 0) ∧
    out = [img 5, img 6, 9, 9] ∧ ∀ i c, i < 2 → c < 2 → rectByte img 4 1 1 1 i c ≠ 9 :=
  ⟨fun _ => 7, [9, 9, 9, 9], [7, 7, 9, 9], rfl, rfl, rfl, by intro i c _ _; simp [rectByte]⟩

/-! ## `total_bytes` and `decoder_to_vec` -/

/-- `total_bytes` is the exact number of bytes, capped at `u64::MAX`. -/
theorem C33_total_bytes (w h bpp : Nat) :
    totalBytes w h bpp = if w * h * bpp < 2 ^ 64 then w * h * bpp else 2 ^ 64 - 1 := by
  unfold totalBytes satMul; split <;> omega

/-! ## C34 -/

/-- What the read buffer assumes of its source: `rem d` are the bytes `d` will still deliver; a read with a buffer of
`n` bytes delivers `n` of them (all of them if fewer remain), or fails with an error in `E`. -/
def ScanlineSource {D : Type} (rem : D → List UInt8) (E : Err → Prop) (readScanline : D → Nat → R (List UInt8 × D)) :
    Prop := ∀ d n, OkOr E (fun r => r.1 = (rem d).take n ∧ rem r.2 = (rem d).drop n) (readScanline d n)

/-- The read buffer together with its source stands for the byte stream `rest`. -/
structure Buffers {D : Type} (rem : D → List UInt8) (rb : ReadBuffer) (d : D) (rest : List UInt8) : Prop where
  pos : 0 < rb.scanlineBytes
  cons : rb.consumed ≤ rb.buffer.length
  stream : rb.buffer.drop rb.consumed ++ rem d = rest
  total : rb.offset + (rem d).length = rb.totalBytes
  size : rb.buffer = [] ∨ rb.buffer.length = rb.scanlineBytes ∨ rem d = []
  u64 : rb.totalBytes < 2 ^ 64

/-- A new buffer over a source with `total_bytes` bytes stands for exactly these. -/
theorem C34_new {D : Type} (rem : D → List UInt8) (sb : Nat) (d : D) (hsb : 0 < sb) (h64 : (rem d).length < 2 ^ 64) :
    Buffers rem (ReadBuffer.new sb (rem d).length) d (rem d) :=
  ⟨hsb, Nat.le_refl _, rfl, by simp [ReadBuffer.new], Or.inl rfl, h64⟩

theorem readBuffer_finish {D : Type} {rem : D → List UInt8} {rb : ReadBuffer} {d : D} {rest : List UInt8} (n : Nat)
    (h : Buffers rem rb d rest) (hne : rb.consumed < rb.buffer.length) (E : Err → Prop) :
    OkOr E (fun r : List UInt8 × ReadBuffer × D => ∃ k, r.1 = rest.take k ∧ k ≤ n ∧ k ≤ rest.length ∧
        (k = 0 → n = 0 ∨ rest = []) ∧ Buffers rem r.2.1 r.2.2 (rest.drop k))
      (do
        let buffered ← subC rb.buffer.length rb.consumed
        if buffered > n then
          return ((rb.buffer.drop rb.consumed).take n, { rb with consumed := rb.consumed + n }, d)
        else
          return ((rb.buffer.drop rb.consumed).take buffered, { rb with consumed := rb.buffer.length }, d)) := by
  obtain ⟨h1, h2, h3, h4, h5, h6⟩ := h
  have hl : rest.length = rb.buffer.length - rb.consumed + (rem d).length := by rw [← h3]; simp
  rw [subC_ok h2]
  simp only [ok_bind]
  split
  · rename_i hn
    refine ⟨n, ?_, Nat.le_refl _, by omega, fun h => Or.inl h, ⟨h1, ?_, ?_, h4, h5, h6⟩⟩
    · dsimp only; rw [← h3, List.take_append_of_le_length (by simp; omega)]
    · dsimp only; omega
    · dsimp only; rw [← h3, List.drop_append_of_le_length (by simp; omega), List.drop_drop]
  · rename_i hn
    refine ⟨rb.buffer.length - rb.consumed, ?_, by omega, by omega, fun h => by omega, ⟨h1, Nat.le_refl _, ?_, h4, h5, h6⟩⟩
    · dsimp only; rw [← h3, List.take_append_of_le_length (by simp)]
    · dsimp only
      rw [List.drop_length, List.nil_append, ← h3, List.drop_append_of_le_length (by simp), List.drop_drop,
        List.drop_eq_nil_of_le (by omega)]; rfl

/-- A read with a buffer of any size `n` delivers the next bytes of the stream, at most `n`, and not zero of them
unless `n = 0` or the stream is exhausted; what remains is the rest of the stream. -/
theorem C34_read {D : Type} {rem : D → List UInt8} {E : Err → Prop} {readScanline : D → Nat → R (List UInt8 × D)}
    (hs : ScanlineSource rem E readScanline) (rb : ReadBuffer) (d : D) (rest : List UInt8) (n : Nat)
    (h : Buffers rem rb d rest) :
    OkOr E (fun r => ∃ k, r.1 = rest.take k ∧ k ≤ n ∧ k ≤ rest.length ∧ (k = 0 → n = 0 ∨ rest = []) ∧
        Buffers rem r.2.1 r.2.2 (rest.drop k))
      (rb.read n d readScanline) := by
  have h' := h
  obtain ⟨h1, h2, h3, h4, h5, h6⟩ := h
  unfold ReadBuffer.read
  simp only
  split
  · rename_i hc
    have hr : rem d = rest := by
      rw [← h3, List.drop_eq_nil_of_le (by omega)]; rfl
    split
    · rename_i ho
      have : rest = [] := by
        rw [← hr]; exact List.eq_nil_of_length_eq_zero (by omega)
      refine ⟨0, by simp, by omega, by omega, fun _ => Or.inr this, by simpa using h'⟩
    · rename_i ho
      have hrne : 0 < (rem d).length := by omega
      split
      · rename_i hn
        refine OkOr.bind (hs d rb.scanlineBytes) ?_
        rintro ⟨bytes, d'⟩ ⟨g1, g2⟩
        simp only at g1 g2 ⊢
        have hbl : bytes.length = min rb.scanlineBytes (rem d).length := by rw [g1]; simp
        have hrl : (rem d').length = (rem d).length - rb.scanlineBytes := by rw [g2]; simp
        rw [addC_ok (by omega)]
        simp only [ok_bind]
        refine ⟨min rb.scanlineBytes rest.length, ?_, by omega, by omega, ?_, ⟨h1, h2, ?_, ?_, ?_, h6⟩⟩
        · dsimp only; rw [g1, hr, List.take_eq_take_iff]; omega
        · rw [← hr]; intro h0; omega
        · dsimp only
          rw [List.drop_eq_nil_of_le (by omega), List.nil_append, g2, hr]
          by_cases hle : rb.scanlineBytes ≤ rest.length
          · rw [Nat.min_eq_left hle]
          · rw [Nat.min_eq_right (by omega), List.drop_length, List.drop_eq_nil_of_le (by omega)]
        · dsimp only; omega
        · dsimp only
          rcases h5 with h5 | h5 | h5
          · exact Or.inl h5
          · exact Or.inr (Or.inl h5)
          · rw [h5] at hrne; simp at hrne
      · rename_i hn
        have hblen : (if rb.buffer.isEmpty = true then List.replicate rb.scanlineBytes (0 : UInt8) else rb.buffer).length =
            rb.scanlineBytes := by
          split
          · simp
          · rename_i hne
            rcases h5 with h5 | h5 | h5
            · rw [h5] at hne; simp at hne
            · exact h5
            · rw [h5] at hrne; simp at hrne
        rw [hblen]
        refine OkOr.bind (hs d rb.scanlineBytes) ?_
        rintro ⟨bytes, d'⟩ ⟨g1, g2⟩
        simp only at g1 g2 ⊢
        have hbl : bytes.length = min rb.scanlineBytes (rem d).length := by rw [g1]; simp
        have hrl : (rem d').length = (rem d).length - rb.scanlineBytes := by rw [g2]; simp
        rw [addC_ok (by omega)]
        simp only [ok_bind]
        have has : (bytes.length == rb.scanlineBytes || rb.offset + bytes.length == rb.totalBytes) = true := by
          simp only [Bool.or_eq_true, beq_iff_eq]; omega
        rw [has]
        simp only [assertR_true, ok_bind]
        refine readBuffer_finish n (rb := { rb with buffer := bytes, consumed := 0, offset := rb.offset + bytes.length })
          ⟨h1, by dsimp only; omega, ?_, by dsimp only; omega, ?_, h6⟩ (by dsimp only; omega) E
        · dsimp only
          rw [g1, g2, List.drop_zero, List.take_append_drop, hr]
        · dsimp only
          by_cases hle : rb.scanlineBytes ≤ (rem d).length
          · exact Or.inr (Or.inl (by omega))
          · exact Or.inr (Or.inr (List.eq_nil_of_length_eq_zero (by omega)))
  · rename_i hc
    exact readBuffer_finish n h' (by omega) E

/-- Any sequence of reads (of the given sizes). -/
def readMany {D : Type} (readScanline : D → Nat → R (List UInt8 × D)) : List Nat → ReadBuffer → D →
    R (List (List UInt8) × ReadBuffer × D)
  | [], rb, d => .ok ([], rb, d)
  | n :: ns, rb, d => do
    let (o, rb, d) ← rb.read n d readScanline
    let (os, rb, d) ← readMany readScanline ns rb d
    .ok (o :: os, rb, d)

/-- Whatever the request sizes, the delivered pieces concatenate to a prefix of the stream, what remains is the rest,
and a piece is empty only for an empty request or at the end of the stream. -/
theorem C34_read_many {D : Type} {rem : D → List UInt8} {E : Err → Prop} {readScanline : D → Nat → R (List UInt8 × D)}
    (hs : ScanlineSource rem E readScanline) (sizes : List Nat) (rb : ReadBuffer) (d : D) (rest : List UInt8)
    (h : Buffers rem rb d rest) :
    OkOr E (fun r => ∃ rest', r.1.flatten ++ rest' = rest ∧ Buffers rem r.2.1 r.2.2 rest' ∧
        r.1.length = sizes.length ∧
        ∀ (i : Nat) (o : List UInt8) (n : Nat), r.1[i]? = some o → sizes[i]? = some n →
          o.length ≤ n ∧ (o = [] → n = 0 ∨ rest' = []))
      (readMany readScanline sizes rb d) := by
  induction sizes generalizing rb d rest with
  | nil => exact ⟨rest, rfl, h, rfl, by intro i o n h; simp at h⟩
  | cons n ns ih =>
    unfold readMany
    refine OkOr.bind (C34_read hs rb d rest n h) ?_
    rintro ⟨o, rb', d'⟩ ⟨k, g1, g2, g3, g4, g5⟩
    simp only at g1 g5 ⊢
    refine OkOr.bind (ih rb' d' _ g5) ?_
    rintro ⟨os, rb'', d''⟩ ⟨rest', f1, f2, f3, f4⟩
    simp only at f1 f2 f3 f4
    refine ⟨rest', ?_, f2, by simp [f3], ?_⟩
    · simp only [List.flatten_cons]
      rw [List.append_assoc, f1, g1, List.take_append_drop]
    · intro i o' n' h1 h2
      cases i with
      | zero =>
        simp only [List.getElem?_cons_zero, Option.some.injEq] at h1 h2
        subst h1; subst h2
        refine ⟨by rw [g1]; simp; omega, fun he => ?_⟩
        have hk : k = 0 := by
          have := congrArg List.length g1
          rw [he] at this
          simp at this
          omega
        rcases g4 hk with h0 | h0
        · exact Or.inl h0
        · right
          rw [h0] at f1
          simp at f1
          exact f1.2
      | succ i => exact f4 i o' n' (by simpa using h1) (by simpa using h2)

-- Non-vacuity: a list source satisfies the contract, and a run.
example : ScanlineSource (fun d : List UInt8 => d) (fun _ => False) (fun d n => .ok (d.take n, d.drop n)) :=
  fun _ _ => ⟨rfl, rfl⟩
example : (readMany (fun (d : List UInt8) n => .ok (d.take n, d.drop n)) [2, 2, 1, 5, 7, 3] (ReadBuffer.new 3 8)
    [1, 2, 3, 4, 5, 6, 7, 8]).map (fun r => r.1) = .ok [[1, 2], [3], [4], [5, 6], [7, 8], []] := by rfl

end Verif
