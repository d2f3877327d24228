import Verif.Proofs.PnmRaster

/-!
# C115: the PNM decoder shows what the file says

The specification is `Verif.Spec.Pnm`.
-/

namespace Verif
namespace Pnm
open PnmSpec

theorem colour_bytes {i : Info} (hs : Sound i) : (colour i).bytesPerPixel = i.channels * if i.maxval ≤ 255 then 1 else 2 := by
  obtain ⟨-, -, h⟩ := hs
  have hc : i.channels = 1 ∨ i.channels = 3 := by
    split at h
    · exact .inl h.1
    · exact h.1
  unfold colour
  rcases hc with h | h <;> rw [h] <;> by_cases hm : i.maxval ≤ 255 <;> simp only [hm, if_true, if_false] <;> rfl

theorem colour_tuple {i : Info} (hs : Sound i) : (tupleOf i).colorType = colour i := by
  obtain ⟨-, -, h⟩ := hs
  unfold tupleOf colour
  by_cases hb : i.bilevel = true
  · rw [if_pos hb] at h ⊢
    rw [h.1, h.2]; rfl
  · rw [if_neg hb] at h ⊢
    rcases h.1 with h | h <;> rw [h] <;> by_cases hm : i.maxval ≤ 255 <;> simp only [hm, if_true, if_false] <;> rfl

theorem header_dims (i : Info) : (headerOf i).width = i.width ∧ (headerOf i).height = i.height := by
  unfold headerOf
  dsimp only
  split <;> [skip; split] <;> exact ⟨rfl, rfl⟩

theorem overflow_iff {w h b : Nat} (hw : w < 2 ^ 32) (hh : h < 2 ^ 32) (hb : 0 < b) :
    checkDimensionOverflow w h b = .ok (decide (¬ w * h * b < 2 ^ 64)) := by
  unfold checkDimensionOverflow
  have : w * h < 2 ^ 64 := by
    calc w * h ≤ (2 ^ 32 - 1) * (2 ^ 32 - 1) := Nat.mul_le_mul (by omega) (by omega)
      _ < 2 ^ 64 := by decide
  rw [assertR_dec (by simp; omega), ok_bind]
  unfold mulC
  rw [if_pos this, ok_bind]
  congr 1
  rw [decide_eq_decide, gt_iff_lt, Nat.div_lt_iff_lt_mul hb]
  omega

/-- The decoder in terms of the specification. -/
theorem decode_iff (le : Bool) (file : List UInt8) (h7 : ∀ s, file ≠ 80 :: 55 :: s) (w h : Nat) (ct : ColorType) (buf : List UInt8)
    (hw : w < 2 ^ 32 - 8) : decode le file = .ok (w, h, ct, buf) ↔
      ∃ i rest, Opens file i rest ∧ w = i.width ∧ h = i.height ∧ ct = colour i ∧ i.width * i.height * (colour i).bytesPerPixel < 2 ^ 64 ∧
        (i.plain = false → size i < 2 ^ 32) ∧ ∃ raw, Raster true i rest raw ∧ buf = raw.flatMap fun v => store le i (showF i v) := by
  unfold decode Decoder.new
  constructor
  · intro hd
    obtain ⟨d, h1, hd⟩ := bind_eq_ok.1 hd
    obtain ⟨⟨hdr, rest⟩, hr, h1⟩ := bind_eq_ok.1 h1
    obtain ⟨t, ht, h1⟩ := bind_eq_ok.1 h1
    obtain ⟨i, ho, rfl, rfl⟩ := (header_iff file h7 hdr t rest).1 ⟨hr, ht⟩
    have hs := Opens.sound ho
    have hb : 0 < (colour i).bytesPerPixel := by unfold colour; split <;> split <;> decide
    rw [colour_tuple hs, (header_dims i).1, (header_dims i).2, overflow_iff hs.1 hs.2.1 hb, ok_bind] at h1
    split at h1
    · cases h1
    · rename_i hno
      have hlt : i.width * i.height * (colour i).bytesPerPixel < 2 ^ 64 := by simpa using hno
      cases h1
      obtain ⟨b, h2, hd⟩ := bind_eq_ok.1 hd
      cases hd
      unfold Decoder.readImage at h2
      obtain ⟨_, -, h2⟩ := bind_eq_ok.1 h2
      dsimp only at h2
      rw [colour_tuple hs, (header_dims i).1, (header_dims i).2] at h2
      refine ⟨i, rest, ho, (header_dims i).1, (header_dims i).2, colour_tuple hs, hlt, ?_⟩
      refine (readSamples_iff hs (fun _ _ => by rw [← (header_dims i).1]; exact hw) le rest buf _ ?_).1 h2
      unfold totalBytes satMul
      rw [Nat.min_eq_left (by omega), colour_bytes hs, Nat.mul_assoc (i.width * i.height)]
  · rintro ⟨i, rest, ho, rfl, rfl, rfl, hlt, hsz⟩
    have hs := Opens.sound ho
    obtain ⟨hr, ht⟩ := (header_iff file h7 _ _ rest).2 ⟨i, ho, rfl, rfl⟩
    have hb : 0 < (colour i).bytesPerPixel := by unfold colour; split <;> split <;> decide
    rw [hr, ok_bind]
    dsimp only
    rw [ht, ok_bind, colour_tuple hs, (header_dims i).1, (header_dims i).2, overflow_iff hs.1 hs.2.1 hb, ok_bind, if_neg (by simpa using hlt), ok_bind]
    unfold Decoder.readImage
    dsimp only
    rw [colour_tuple hs, (header_dims i).1, (header_dims i).2, assertR_dec (by simp), ok_bind,
      (readSamples_iff hs (fun _ _ => hw) le rest buf _ ?_).2 hsz]
    · rfl
    · unfold totalBytes satMul
      rw [Nat.min_eq_left (by omega), colour_bytes hs, Nat.mul_assoc (i.width * i.height)]

/-- **C115**: whenever a P1 to P6 file decodes, its bytes are a header that states the dimensions and the maximal sample,
and a raster; and every sample of the image is the sample of the raster, in its place, shown as the specification says:
0 stays 0, the maximal sample becomes the greatest value, the order is kept and the rest is within 0.51 of the exact
proportion; bits are white for 0. The sole liberty: numbers missing at the end of a text raster are taken as 0
(`C115_missing_false`). -/
theorem C115_shows (le : Bool) (file : List UInt8) (h7 : ∀ s, file ≠ 80 :: 55 :: s) (w h : Nat) (ct : ColorType) (buf : List UInt8)
    (hw : w < 2 ^ 32 - 8) (hd : decode le file = .ok (w, h, ct, buf)) :
    ∃ i rest raw f, Opens file i rest ∧ w = i.width ∧ h = i.height ∧ ct = colour i ∧ Raster true i rest raw ∧ Shown i f ∧
      buf = raw.flatMap fun v => store le i (f v) := by
  obtain ⟨i, rest, ho, e1, e2, e3, -, -, raw, hr, hb⟩ := (decode_iff le file h7 w h ct buf hw).1 hd
  exact ⟨i, rest, raw, showF i, ho, e1, e2, e3, hr, showF_shown (Opens.sound ho), hb⟩

/-- **C115**: every P1 to P6 file decodes whose header and raster are as the specification says, up to the sizes that the
decoder supports: image bytes below 2^64; for binary files raster bytes below 2^32 and a width below 2^32 - 8. -/
theorem C115_accepts (le : Bool) (file : List UInt8) (i : Info) (rest : List UInt8) (raw : List Nat) (ho : Opens file i rest)
    (hr : Raster true i rest raw) (hl : i.width * i.height * (colour i).bytesPerPixel < 2 ^ 64)
    (hsz : i.plain = false → size i < 2 ^ 32) (hw : i.width < 2 ^ 32 - 8) :
    ∃ f, Shown i f ∧ decode le file = .ok (i.width, i.height, colour i, raw.flatMap fun v => store le i (f v)) := by
  have h7 : ∀ s, file ≠ 80 :: 55 :: s := by
    rintro s rfl
    obtain ⟨s', _, _, h, -⟩ := ho
    cases i with
    | mk p b c w h m =>
      simp only [List.cons.injEq, true_and] at h
      have := h.1
      unfold digit at this
      revert this
      cases p <;> cases b <;> by_cases hc : c = 1 <;> simp [hc]
  exact ⟨showF i, showF_shown (Opens.sound ho), (decode_iff le file h7 _ _ _ _ hw).2 ⟨i, rest, ho, rfl, rfl, rfl, hl, hsz, raw, hr, rfl⟩⟩

theorem headerOf_inj {i j : Info} (hi : Sound i) (hj : Sound j) (h : headerOf i = headerOf j) : i = j := by
  obtain ⟨-, -, hi⟩ := hi
  obtain ⟨-, -, hj⟩ := hj
  obtain ⟨p, b, c, w, h', m⟩ := i
  obtain ⟨p', b', c', w', h'', m'⟩ := j
  unfold headerOf at h
  cases b <;> cases b' <;> simp only [if_true, if_false, Bool.false_eq_true] at h hi hj
  · rcases hi with ⟨rfl | rfl, -⟩ <;> rcases hj with ⟨rfl | rfl, -⟩ <;> cases p <;> cases p' <;> simp_all
  · rcases hi with ⟨rfl | rfl, -⟩ <;> cases p <;> cases p' <;> simp_all
  · rcases hj with ⟨rfl | rfl, -⟩ <;> cases p <;> cases p' <;> simp_all
  · cases p <;> cases p' <;> simp_all

/-- **C115**: a file says one thing only: the header, where it ends, and the samples of the raster are determined. -/
theorem C115_unambiguous (file : List UInt8) (i j : Info) (rest rest' : List UInt8) (hi : Opens file i rest) (hj : Opens file j rest') :
    i = j ∧ rest = rest' ∧ ∀ raw raw', Raster true i rest raw → Raster true i rest raw' → raw = raw' := by
  have h7 : ∀ s, file ≠ 80 :: 55 :: s := by
    rintro s rfl
    obtain ⟨s', _, _, h, -⟩ := hi
    cases i with
    | mk p b c w h m =>
      simp only [List.cons.injEq, true_and] at h
      have := h.1
      unfold digit at this
      revert this
      cases p <;> cases b <;> by_cases hc : c = 1 <;> simp [hc]
  have h1 := ((header_iff file h7 _ _ rest).2 ⟨i, hi, rfl, rfl⟩).1
  have h2 := ((header_iff file h7 _ _ rest').2 ⟨j, hj, rfl, rfl⟩).1
  rw [h1] at h2
  have h3 := Except.ok.inj h2
  refine ⟨headerOf_inj (Opens.sound hi) (Opens.sound hj) (congrArg Prod.fst h3), congrArg Prod.snd h3, ?_⟩
  rintro raw raw' ⟨l, hr⟩ ⟨l', hr'⟩
  by_cases hp : i.plain = true
  · rw [if_pos hp] at hr hr'
    by_cases hb : i.bilevel = true
    · rw [if_pos hb] at hr hr'
      obtain ⟨s1, e1⟩ := (bits_iff _ rest [] _).2 ⟨raw, hr, rfl⟩
      obtain ⟨s2, e2⟩ := (bits_iff _ rest [] _).2 ⟨raw', hr', rfl⟩
      rw [e1] at e2
      have e3 : raw.map shade = raw'.map shade := congrArg Prod.fst (Except.ok.inj e2)
      have bnd : ∀ {n : Nat} {s : List UInt8} {raw : List Nat}, PlainBits n s raw → ∀ v ∈ raw, v < 2 := by
        intro n s raw h
        induction h with
        | done => simp
        | space _ _ ih => exact ih
        | zero _ ih => simpa using ih
        | one _ ih => simpa using ih
      have b1 := bnd hr
      have b2 := bnd hr'
      have : ∀ (l : List Nat), (∀ v ∈ l, v < 2) → l = (l.map shade).map fun b => if b = 255 then 0 else 1 := by
        intro l hl
        rw [List.map_map]
        conv => lhs; rw [← List.map_id l]
        apply List.map_congr_left
        intro v hv
        have := hl v hv
        have : v = 0 ∨ v = 1 := by omega
        rcases this with rfl | rfl <;> rfl
      rw [this raw b1, this raw' b2, e3]
    · rw [if_neg hb] at hr hr'
      have hlim : (if i.maxval ≤ 255 then 255 else 65535) < 65536 := by split <;> omega
      obtain ⟨s1, e1⟩ := (numbers_iff hlim (beBytes 2) _ rest [] _).2 ⟨raw, hr, rfl⟩
      obtain ⟨s2, e2⟩ := (numbers_iff hlim (beBytes 2) _ rest [] _).2 ⟨raw', hr', rfl⟩
      rw [e1] at e2
      have e3 : raw.flatMap (beBytes 2) = raw'.flatMap (beBytes 2) := congrArg Prod.fst (Except.ok.inj e2)
      have b1 := (plainNumbers_le hr).2
      have b2 := (plainNumbers_le hr').2
      have : ∀ (l : List Nat), (∀ v ∈ l, v ≤ if i.maxval ≤ 255 then 255 else 65535) → l = (chunksExact 2 (l.flatMap (beBytes 2))).map beNat := by
        intro l hl
        rw [chunksExact_flatMap (by decide) _ (fun v => length_beBytes 2 v), List.map_map]
        conv => lhs; rw [← List.map_id l]
        apply List.map_congr_left
        intro v hv
        have := hl v hv
        show v = beNat (beBytes 2 v)
        rw [beNat_beBytes, Nat.mod_eq_of_lt (by omega)]
      rw [this raw b1, this raw' b2, e3]
  · rw [if_neg hp] at hr hr'
    by_cases hb : i.bilevel = true
    · rw [if_pos hb] at hr hr'
      have hc1 : i.channels = 1 := by
        have := (Opens.sound hi).2.2
        rw [if_pos hb] at this
        exact this.1
      rw [hc1, Nat.mul_one] at l l'
      exact bits_unique l l' hr.2 hr'.2
    · rw [if_neg hb] at hr hr'
      by_cases hm : i.maxval ≤ 255
      · rw [if_pos hm] at hr hr'
        rw [bytes_iff] at hr hr'
        rw [hr.2, hr'.2, l, l']
      · rw [if_neg hm] at hr hr'
        rw [words_iff] at hr hr'
        rw [hr.2, hr'.2, l, l']

/-- A P2 file with one number where the header requires two decodes. -/
def shortFile : List UInt8 := [80, 50, 10, 50, 32, 49, 32, 50, 53, 53, 10, 55]

/-- **C115** would be false without the liberty for missing numbers: a text file that lacks a sample decodes. -/
theorem C115_missing_false : decode true shortFile = .ok (2, 1, .L8, [7, 0]) ∧
    ∀ raw, ¬ Raster false ⟨true, false, 1, 2, 1, 255⟩ [55] raw := by
  refine ⟨by decide +kernel, ?_⟩
  rintro raw ⟨-, h⟩
  simp only [if_true, Bool.false_eq_true, if_false] at h
  generalize hs : ([55] : List UInt8) = s at h
  cases h with
  | @number n gap ds s raw hg hd hv he h' =>
    have hds : gap = [] ∧ ds = [55] ∧ s = [] := by
      cases gap with
      | nil =>
        cases ds with
        | nil => exact absurd rfl hd.1
        | cons d ds =>
          simp only [List.nil_append, List.cons_append, List.cons.injEq] at hs
          obtain ⟨rfl, h⟩ := hs
          obtain ⟨rfl, rfl⟩ := List.append_eq_nil_iff.1 h.symm
          exact ⟨rfl, rfl, rfl⟩
      | cons g gap =>
        simp only [List.cons_append, List.cons.injEq] at hs
        have := hg g List.mem_cons_self
        rw [← hs.1] at this
        exact absurd this (by decide)
    obtain ⟨rfl, rfl, rfl⟩ := hds
    generalize hs : ([] : List UInt8) = s at h'
    cases h' with
    | number hg hd => 
      have := congrArg List.length hs
      have hne := List.length_pos_iff.2 hd.1
      simp at this
      omega
    | missing h => cases h
  | missing h => cases h

-- Non-vacuity: a P3 file with a comment, maximal sample 100.
def colourFile : List UInt8 := [80, 51, 10, 35, 33, 10, 49, 32, 49, 10, 49, 48, 48, 10, 48, 32, 53, 48, 32, 49, 48, 48, 10]
example : decode true colourFile = .ok (1, 1, .Rgb8, [0, 128, 255]) := by decide +kernel

-- Non-vacuity: a P4 file of width 3, two rows.
def bitFile : List UInt8 := [80, 52, 10, 51, 32, 50, 10, 0b01011111, 0b11100000]
example : decode true bitFile = .ok (3, 2, .L8, [255, 0, 255, 0, 0, 0]) := by decide +kernel

theorem word_simple {word rest : List UInt8} {c : UInt8} (hc : Space c) (hw : word ≠ []) (h : ∀ b ∈ word, ¬ Space b ∧ b < 128 ∧ b ≠ 35) (h35 : c ≠ 35) :
    Word (word ++ c :: rest) word rest := by
  refine ⟨hw, fun b hb => ⟨(h b hb).1, (h b hb).2.1⟩, [], by simp, .inl ⟨c, hc, ?_⟩⟩
  have : ∀ l : List UInt8, (∀ b ∈ l, b ≠ 35) → Reads (l ++ [c]) (l ++ c :: rest) rest := by
    intro l hl
    induction l with
    | nil => exact .char h35 .done
    | cons b l ih => exact .char (hl b List.mem_cons_self) (ih fun b hb => hl b (List.mem_cons_of_mem _ hb))
  exact this word fun b hb => (h b hb).2.2

-- The hypotheses of `C115_accepts` hold for the P4 file.
example : Opens (80 :: 52 :: 10 :: 51 :: 32 :: 50 :: 10 :: [0b01011111, 0b11100000]) ⟨false, true, 1, 3, 2, 1⟩ [0b01011111, 0b11100000] := by
  refine ⟨_, [50, 10, 0b01011111, 0b11100000], [0b01011111, 0b11100000], rfl, ⟨[51], ⟨by simp, by decide, [10], by decide, .inl ⟨32, by decide, ?_⟩⟩, [51], by unfold Digits; decide, .inl rfl, rfl, by decide⟩,
    ⟨[50], word_simple (c := 10) (by decide) (by simp) (by decide) (by decide), [50], by unfold Digits; decide, .inl rfl, rfl, by decide⟩, ?_⟩
  · exact .char (by decide) (.char (by decide) (.char (by decide) .done))
  · exact ⟨rfl, rfl, rfl⟩
example : Raster true ⟨false, true, 1, 3, 2, 1⟩ [0b01011111, 0b11100000] [0, 1, 0, 1, 1, 1] := by
  refine ⟨rfl, ?_⟩
  refine ⟨by decide, fun x y hx hy => ?_⟩
  dsimp only at hx hy
  have h1 : x = 0 ∨ x = 1 ∨ x = 2 := by omega
  have h2 : y = 0 ∨ y = 1 := by omega
  rcases h1 with rfl | rfl | rfl <;> rcases h2 with rfl | rfl <;> exact ⟨_, rfl, rfl⟩

end Pnm
end Verif
