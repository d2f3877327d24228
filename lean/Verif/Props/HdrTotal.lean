import Verif.Props.HdrRoundtrip
import Verif.Proofs.Prefix
import Verif.Proofs.Outcome
import Verif.Props.PnmTotal

/-!
# C66: the HDR decoder on arbitrary bytes
-/

namespace Verif
namespace Hdr

/-- Three old-style run-length markers of length zero. -/
def zeroRuns : List UInt8 := [1, 1, 1, 0, 1, 1, 1, 0, 1, 1, 1, 0]

/-- Any error. -/
abbrev AnyErr : Err → Prop := fun _ => True

theorem readLine_length (s : List UInt8) : ∀ acc, (readLine acc s).2.length ≤ s.length ∧
    (s ≠ [] → (readLine acc s).2.length < s.length) ∧ (readLine acc s).2 <:+ s := by
  induction s with
  | nil => intro acc; simp [readLine]
  | cons b s ih =>
    intro acc
    rw [readLine]
    split
    · exact ⟨by simp, by simp, List.suffix_cons b s⟩
    · obtain ⟨h1, -, h3⟩ := ih (acc ++ [b])
      exact ⟨by rw [List.length_cons]; omega, fun _ => by rw [List.length_cons]; omega, h3.trans (List.suffix_cons b s)⟩

theorem updateHeaderInfo_total (T : Text) (m : Meta) (line : List UInt8) (strict : Bool) :
    OkOr AnyErr (fun _ => True) (updateHeaderInfo T m line strict) := by
  unfold updateHeaderInfo
  split
  · trivial
  · dsimp only
    split
    · split <;> trivial
    · split
      · split
        · trivial
        · split <;> trivial
      · split
        · split
          · trivial
          · split <;> trivial
        · split
          · split
            · split <;> trivial
            · split <;> trivial
          · trivial

theorem headerLoop_total (T : Text) (strict : Bool) : ∀ (fuel : Nat) (m : Meta) (s : List UInt8), s.length < fuel →
    OkOr AnyErr (fun r => r.2 <:+ s) (headerLoop T strict fuel m s) := by
  intro fuel
  induction fuel with
  | zero => intro m s h; omega
  | succ fuel ih =>
    intro m s h
    rw [headerLoop]
    have hl := readLine_length s []
    split
    · trivial
    · rename_i r e
      rw [e] at hl
      exact hl.2.2
    · rename_i b line r e
      rw [e] at hl
      have hne : s ≠ [] := by rintro rfl; simp [readLine] at e
      have hlt : r.length < s.length := hl.2.1 hne
      split
      · exact (ih m r (by omega)).mono fun a ha => ha.trans hl.2.2
      · refine (updateHeaderInfo_total T m _ strict).bind fun m' _ => ?_
        exact (ih m' r (by omega)).mono fun a ha => ha.trans hl.2.2

theorem parseDimensionsLine_total (T : Text) (line : List UInt8) (strict : Bool) :
    OkOr AnyErr (fun r => r.1 < 2 ^ 32 ∧ r.2 < 2 ^ 32) (parseDimensionsLine T line strict) := by
  unfold parseDimensionsLine
  split
  · split
    · trivial
    · split
      · split
        · trivial
        · rename_i h1
          split
          · trivial
          · rename_i h2
            exact ⟨Pnm.parseU32_lt h2, Pnm.parseU32_lt h1⟩
      · trivial
  · trivial

theorem readExact_suffix (n : Nat) (s : List UInt8) :
    OkOr AnyErr (fun r => r.1.length = n ∧ r.1 ++ r.2 = s) (readExact n s) := by
  unfold readExact
  split
  · rename_i h
    exact ⟨by simp [h], by simp⟩
  · trivial

theorem decoderNew_total (T : Text) (strict : Bool) (file : List UInt8) :
    OkOr AnyErr (fun d => d.width < 2 ^ 32 ∧ d.height < 2 ^ 32 ∧ d.width * d.height * 3 < 2 ^ 64 ∧ d.r <:+ file)
      (Decoder.new T strict file) := by
  unfold Decoder.new
  have h1 : OkOr AnyErr (fun s => s <:+ file) (readSignature strict file) := by
    unfold readSignature
    split
    · refine (readExact_suffix 10 file).bind fun r hr => ?_
      dsimp only
      split
      · trivial
      · exact (readLine_length r.2 []).2.2.trans ⟨r.1, hr.2⟩
    · exact List.suffix_refl _
  refine h1.bind fun s hs => ?_
  refine (headerLoop_total T strict _ _ s (by omega)).bind fun r hr => ?_
  dsimp only
  have hl := readLine_length r.2 []
  split
  · trivial
  · rename_i line s' e
    rw [e] at hl
    refine (parseDimensionsLine_total T _ strict).bind fun d hd => ?_
    have hlt : d.1 * d.2 < 2 ^ 64 := by
      have h' : d.1 * d.2 ≤ (2 ^ 32 - 1) * (2 ^ 32 - 1) := Nat.mul_le_mul (by omega) (by omega)
      omega
    unfold checkDimensionOverflow
    rw [show ((3 : Nat) != 0) = true from rfl, assertR_true, ok_bind, mulC_ok hlt, ok_bind, ok_bind]
    split
    · trivial
    · rename_i hd'
      rw [decide_eq_true_eq] at hd'
      exact ⟨hd.1, hd.2, by dsimp only; omega, (hl.2.2.trans hr).trans hs⟩

theorem setValues_total (set : Rgbe → UInt8 → Rgbe) : ∀ (vs : List UInt8) (pos : Nat) (buf : List Rgbe), pos + vs.length ≤ buf.length →
    OkOr AnyErr (fun r => r.length = buf.length) (setValues set pos vs buf) := by
  intro vs
  induction vs with
  | nil => intro pos buf _; rfl
  | cons v vs ih =>
    intro pos buf h
    rw [List.length_cons] at h
    rw [setValues, List.getElem?_eq_getElem (by omega), unwrapR, ok_bind]
    exact (ih (pos + 1) _ (by rw [List.length_set]; omega)).mono fun r hr => hr.trans (List.length_set ..)

theorem ite_total {α : Type} {c : Prop} [Decidable c] {E : Err → Prop} {P : α → Prop} {x y : R α} (hx : c → OkOr E P x)
    (hy : ¬ c → OkOr E P y) : OkOr E P (if c then x else y) := by
  split
  · rename_i h; exact hx h
  · rename_i h; exact hy h

set_option maxRecDepth 4096 in
theorem componentLoop_total (set : Rgbe → UInt8 → Rgbe) (width : Nat) : ∀ (fuel pos : Nat) (buf : List Rgbe) (s : List UInt8),
    buf.length = width → s.length < fuel →
    OkOr AnyErr (fun r => r.1.length = width ∧ r.2 <:+ s) (componentLoop set width fuel pos buf s) := by
  intro fuel
  induction fuel with
  | zero => intro pos buf s _ h; omega
  | succ fuel ih =>
    intro pos buf s hb hf
    rw [componentLoop]
    split
    · match s with
      | [] => trivial
      | a :: s =>
        rw [show readU8 (a :: s) = .ok (a.toNat, s) from rfl, ok_bind]
        rw [List.length_cons] at hf
        dsimp only
        split
        · split
          · trivial
          · refine (readExact_suffix _ _).bind fun r hr => ?_
            refine (setValues_total set r.1 pos buf (by omega)).bind fun b hb' => ?_
            have hl : r.2.length ≤ s.length := by rw [← hr.2, List.length_append]; omega
            refine (ih _ b r.2 (by omega) (by omega)).mono fun x hx => ⟨hx.1, ?_⟩
            exact (hx.2.trans ⟨r.1, hr.2⟩).trans (List.suffix_cons a s)
        · refine ite_total ?_ ?_
          · intro _; exact True.intro
          · intro hc
            cases s with
            | nil => trivial
            | cons c s =>
              rw [show readU8 (c :: s) = .ok (c.toNat, s) from rfl, ok_bind]
              dsimp only
              have hle : pos + (a.toNat - 128) ≤ buf.length := by rw [hb]; exact Nat.le_of_not_lt hc
              have hle' : pos + (List.replicate (a.toNat - 128) (UInt8.ofNat c.toNat)).length ≤ buf.length := by
                rw [List.length_replicate]; exact hle
              have hv := setValues_total set _ pos buf hle'
              refine hv.bind fun b hb' => ?_
              rw [List.length_cons] at hf
              refine (ih _ b s (by omega) (by omega)).mono fun x hx => ⟨hx.1, ?_⟩
              exact (hx.2.trans (List.suffix_cons c s)).trans (List.suffix_cons a _)
    · split
      · trivial
      · exact ⟨hb, List.suffix_refl _⟩

/-- The multiplier of the next run: a power of 256, and the fifth and later powers only after runs of length zero. -/
def MultOk (file s : List UInt8) (mult : Nat) : Prop :=
  ∃ pre, pre ++ s = file ∧ ∃ k, mult = 256 ^ k ∧
    (k ≤ 4 ∨ (k = 5 ∧ [1, 1, 1, 0] <:+ pre) ∨ (k = 6 ∧ [1, 1, 1, 0, 1, 1, 1, 0] <:+ pre))

theorem readRgbe_total (s : List UInt8) : OkOr AnyErr (fun r => r.1.bytes ++ r.2 = s) (readRgbe s) := by
  unfold readRgbe
  refine (readExact_suffix 4 s).bind fun r hr => ?_
  obtain ⟨b, t⟩ := r
  match b, hr with
  | [a, b, c, d], hr => exact hr.2

theorem rlMarker_some {p : Rgbe} {n : Nat} (h : rlMarker p = some n) : p.bytes = [1, 1, 1, p.e] ∧ n = p.e.toNat := by
  unfold rlMarker at h
  split at h
  · rename_i h'
    cases h
    obtain ⟨a, b, c⟩ := h'
    unfold Rgbe.bytes
    rw [a, b, c]
    exact ⟨rfl, rfl⟩
  · cases h

theorem length_overwrite_le {α : Type} {buf l : List α} {x : Nat} (h : x + l.length ≤ buf.length) :
    (overwrite buf x l).length = buf.length := by
  unfold overwrite
  rw [List.length_append, List.length_append, List.length_take, List.length_drop]
  omega

theorem oldRleLoop_total {file : List UInt8} (hz : ¬ zeroRuns <:+: file) {width : Nat} (hw : width < 2 ^ 32) :
    ∀ (fuel xOff mult : Nat) (prev : Rgbe) (buf : List Rgbe) (s : List UInt8),
      xOff ≤ width → MultOk file s mult → buf.length = width → s.length < fuel →
      OkOr AnyErr (fun r => r.1.length = width ∧ r.2 <:+ s) (oldRleLoop width fuel xOff mult prev buf s) := by
  intro fuel
  induction fuel with
  | zero => intro xOff mult prev buf s _ _ _ h; omega
  | succ fuel ih =>
    intro xOff mult prev buf s hx hm hb hf
    rw [oldRleLoop]
    split
    · refine (readRgbe_total s).bind fun r hr => ?_
      obtain ⟨p, t⟩ := r
      dsimp only at hr ⊢
      have hlen : t.length + 4 = s.length := by rw [← hr]; simp [Rgbe.bytes]
      have hsuf : t <:+ s := ⟨_, hr⟩
      split
      · rename_i n hn
        obtain ⟨hb1, rfl⟩ := rlMarker_some hn
        obtain ⟨pre, hpre, k, rfl, hk⟩ := hm
        have hn8 := p.e.toNat_lt
        have hk6 : k ≤ 6 := by omega
        have hpow : 256 ^ k ≤ 256 ^ 6 := Nat.pow_le_pow_right (by omega) hk6
        have hmul : p.e.toNat * 256 ^ k ≤ 255 * 256 ^ 6 := Nat.mul_le_mul (by omega) hpow
        rw [mulC_ok (by omega), ok_bind, mulC_ok (by omega), ok_bind, addC_ok (by omega), ok_bind]
        split
        · rename_i he
          refine (ih _ _ _ _ t he ?_ ?_ (by omega)).mono fun a ha => ⟨ha.1, ha.2.trans hsuf⟩
          · refine ⟨pre ++ p.bytes, by rw [List.append_assoc, hr, hpre], k + 1, (Nat.pow_succ ..).symm, ?_⟩
            by_cases hk4 : k ≤ 3
            · exact .inl (by omega)
            · have h0 : p.e.toNat = 0 := by
                have hp4 : 256 ^ 4 ≤ 256 ^ k := Nat.pow_le_pow_right (by omega) (by omega)
                rcases Nat.eq_zero_or_pos p.e.toNat with h | h
                · exact h
                · have : 1 * 256 ^ 4 ≤ p.e.toNat * 256 ^ k := Nat.mul_le_mul h hp4
                  omega
              have he0 : p.e = 0 := UInt8.toNat_inj.1 h0
              rw [hb1, he0]
              rw [hb1, he0] at hr
              rcases hk with hk | ⟨rfl, hs⟩ | ⟨rfl, hs⟩
              · exact .inr (.inl ⟨by omega, List.suffix_append _ _⟩)
              · obtain ⟨q, rfl⟩ := hs
                exact .inr (.inr ⟨rfl, q, by simp⟩)
              · obtain ⟨q, rfl⟩ := hs
                refine absurd ?_ hz
                exact ⟨q, t, by rw [← hpre, ← hr]; simp [zeroRuns]⟩
          · rw [length_overwrite_le (by rw [List.length_replicate]; omega), hb]
        · trivial
      · rw [decide_eq_true (by omega), assertR_true, ok_bind]
        refine (ih _ _ _ _ t (by omega) ?_ (by rw [List.length_set, hb]) (by omega)).mono fun a ha => ⟨ha.1, ha.2.trans hsuf⟩
        obtain ⟨pre, hpre, -⟩ := hm
        exact ⟨pre ++ p.bytes, by rw [List.append_assoc, hr, hpre], 0, rfl, .inl (by omega)⟩
    · split
      · trivial
      · exact ⟨hb, List.suffix_refl _⟩

theorem readScanline_total {file : List UInt8} (hz : ¬ zeroRuns <:+: file) {width : Nat} (hw : width < 2 ^ 32) (h0 : width ≠ 0)
    {buf : List Rgbe} (hb : buf.length = width) {s : List UInt8} (hs : s <:+ file) :
    OkOr AnyErr (fun r => r.1.length = width ∧ r.2 <:+ file) (readScanline buf s) := by
  unfold readScanline
  have hne : (!buf.isEmpty) = true := by
    cases buf with
    | nil => exact absurd hb.symm h0
    | cons => rfl
  rw [hne, assertR_true, ok_bind]
  refine (readRgbe_total s).bind fun r hr => ?_
  obtain ⟨p, t⟩ := r
  dsimp only at hr ⊢
  have ht : t <:+ file := List.IsSuffix.trans ⟨_, hr⟩ hs
  have hc : ∀ set (b : List Rgbe) (t : List UInt8), b.length = width → t <:+ file →
      OkOr AnyErr (fun r => r.1.length = width ∧ r.2 <:+ file) (decodeComponent set b.length b t) := by
    intro set b t hb ht
    exact (componentLoop_total set b.length _ 0 b t rfl (by omega)).mono fun x hx => ⟨hx.1.trans hb, hx.2.trans ht⟩
  split
  · refine (hc _ buf t hb ht).bind fun a ha => ?_
    refine (hc _ a.1 a.2 ha.1 ha.2).bind fun a ha => ?_
    refine (hc _ a.1 a.2 ha.1 ha.2).bind fun a ha => ?_
    exact hc _ a.1 a.2 ha.1 ha.2
  · unfold decodeOldRle
    rw [hne, assertR_true, ok_bind]
    split
    · trivial
    · refine (oldRleLoop_total hz (by omega) _ 1 1 p _ t (by omega) ?_ (List.length_set ..) (by omega)).mono
        fun x hx => ⟨hx.1.trans hb, hx.2.trans ht⟩
      obtain ⟨pre, hpre⟩ := ht
      exact ⟨pre, hpre, 0, rfl, .inl (by omega)⟩

theorem readTransform_total {α : Type} (f : Rgbe → α) {file : List UInt8} (hz : ¬ zeroRuns <:+: file) {d : Decoder}
    (hw : d.width < 2 ^ 32) (hr : d.r <:+ file) :
    OkOr AnyErr (fun r => r.length = d.width * d.height) (d.readTransform f) := by
  unfold Decoder.readTransform
  split
  · rename_i h0
    rcases h0 with h | h <;> simp [OkOr, h]
  · rename_i h0
    refine (forRange_okOr (fun i st => st.1.length = d.width * i ∧ st.2.1.length = d.width ∧ st.2.2 <:+ file)
      (by simp [hr]) ?_).bind fun st hst => ?_
    rotate_left
    · exact hst.1
    intro i _ st ⟨h1, h2, h3⟩
    refine (readScanline_total hz hw (by omega) h2 h3).bind fun r hr => ?_
    refine ⟨?_, hr.1, hr.2⟩
    dsimp only
    rw [List.length_append, List.length_map, h1, hr.1, Nat.mul_succ]

theorem readTransform_info {α : Type} (f : Rgbe → α) (r : List UInt8) (w h : Nat) (m : Meta) :
    Decoder.readTransform ⟨r, w, h, m⟩ f = Decoder.readTransform ⟨r, w, h, Meta.new⟩ f := rfl

/-- **C66** (part): decoding any bytes as HDR, with any behaviour of the text functions of the standard library, does not
panic, and a successful result has `width * height` pixels - provided that three old-style run-length markers of length
zero do not follow each other in the file. -/
theorem C66_decode_total_partial (T : Text) (strict : Bool) (file : List UInt8) (hz : ¬ zeroRuns <:+: file) :
    decode T strict file ≠ panicR ∧ ∀ w h px, decode T strict file = .ok (w, h, px) →
      w < 2 ^ 32 ∧ h < 2 ^ 32 ∧ px.length = w * h := by
  have H : OkOr AnyErr (fun r => r.1 < 2 ^ 32 ∧ r.2.1 < 2 ^ 32 ∧ r.2.2.length = r.1 * r.2.1) (decode T strict file) := by
    unfold decode
    refine (decoderNew_total T strict file).bind fun d hd => ?_
    refine (readTransform_total _ hz hd.1 hd.2.2.2).bind fun px hpx => ?_
    exact ⟨hd.1, hd.2.1, hpx⟩
  exact ⟨H.ne_panic, fun w h px he => H.of_ok he⟩

/-- Opening a file never panics, whatever it contains. -/
theorem C66_open_total (T : Text) (strict : Bool) (file : List UInt8) :
    Decoder.new T strict file ≠ panicR ∧ ∀ d, Decoder.new T strict file = .ok d →
      d.width < 2 ^ 32 ∧ d.height < 2 ^ 32 ∧ d.width * d.height * 3 < 2 ^ 64 := by
  have H := decoderNew_total T strict file
  exact ⟨H.ne_panic, fun d hd => ⟨(H.of_ok hd).1, (H.of_ok hd).2.1, (H.of_ok hd).2.2.1⟩⟩

/-- **C66** is false as it stands: there is a file (an image of two pixels, one pixel followed by eight markers of length
zero) on which the decoder panics, because the multiplier of the run length overflows. -/
theorem C66_decode_total_false : ∃ file : List UInt8, ∀ T : Text, T.Ascii → decode T true file = panicR := by
  refine ⟨headerBytes 2 1 ++ ([9, 9, 9, 9] ++ (List.replicate 8 [1, 1, 1, 0]).flatten), fun T hT => ?_⟩
  unfold decode
  rw [decoderNew_header hT (by decide) (by decide) (by decide), ok_bind]
  have : ∀ m, Decoder.readTransform ⟨[9, 9, 9, 9] ++ (List.replicate 8 [1, 1, 1, 0]).flatten, 2, 1, m⟩ Rgbe.toHdr = panicR := by
    intro m
    rw [readTransform_info]
    decide +kernel
  rw [this]
  rfl

/-- A file with runs that the theorem covers: four pixels, one run of three. -/
example : ¬ zeroRuns <:+: headerBytes 4 1 ++ [9, 9, 9, 9, 1, 1, 1, 3] := by decide +kernel

example : Decoder.readTransform ⟨[9, 8, 7, 6, 1, 1, 1, 3], 4, 1, Meta.new⟩ id = .ok (List.replicate 4 ⟨9, 8, 7, 6⟩) := by
  decide +kernel

end Hdr
end Verif
