import Verif.Props.PnmTotal
import Verif.Props.PnmAscii
import Verif.Proofs.Float

/-!
# PNM: scaling of samples, range checks, ASCII bitmaps
-/

namespace Verif
namespace Pnm

/-! ## Scaling -/

theorem scale_exact {bits c v : ℕ} (hb : bits = 8 ∨ bits = 16) (hc : 0 < c) (hcl : c < 2 ^ 16) (hv : v ≤ c) :
    ∃ x : ℚ, 0 ≤ x ∧ (Fl.ofNat f32 v).mul f32 ((Fl.ofNat f32 (2 ^ bits - 1)).div f32 (Fl.ofNat f32 c)) = .fin x ∧
      |x - (v : ℚ) * ((2 ^ bits - 1 : ℕ) : ℚ) / c| ≤ 1 / 100 ∧
      x = f32.rnd ((v : ℚ) * f32.rnd (((2 ^ bits - 1 : ℕ) : ℚ) / c)) := by
  have hT : 2 ^ bits - 1 < 2 ^ 16 := by rcases hb with rfl | rfl <;> decide
  have hT0 : 0 < 2 ^ bits - 1 := by rcases hb with rfl | rfl <;> decide
  generalize 2 ^ bits - 1 = T at *
  have hcq : (0 : ℚ) < c := by exact_mod_cast hc
  have hTq : (0 : ℚ) < T := by exact_mod_cast hT0
  have hTq' : (T : ℚ) ≤ 65535 := by exact_mod_cast (show T ≤ 65535 by omega)
  have hvq : (0 : ℚ) ≤ v := by positivity
  have hvc : (v : ℚ) ≤ c := by exact_mod_cast hv
  have hcq1 : (1 : ℚ) ≤ c := by exact_mod_cast hc
  have hcq2 : (c : ℚ) ≤ 65535 := by exact_mod_cast (show c ≤ 65535 by omega)
  have hTq1 : (1 : ℚ) ≤ T := by exact_mod_cast hT0
  have q1 : (T : ℚ) / c ≤ (65535 : ℕ) := by
    rw [div_le_iff₀ hcq]; push_cast; nlinarith
  have q0 : (0 : ℚ) ≤ (T : ℚ) / c := by positivity
  have n1 := rnd_near (F := f32) (.inl rfl) (q := (T : ℚ) / c) (.inr (by
    rw [le_div_iff₀ hcq]
    have : (1 : ℚ) / 2 ^ 100 * c ≤ 1 / 2 ^ 100 * 65535 := by gcongr
    have h2 : (1 : ℚ) / 2 ^ 100 * 65535 ≤ 1 := by norm_num
    linarith))
  rw [show f32.p = 24 from rfl] at n1
  have hf := ofRat_fin wide32 q0 (n := 65535) (by decide) q1
  have hd : (Fl.fin (T : ℚ)).div f32 (Fl.fin (c : ℚ)) = .fin (f32.rnd ((T : ℚ) / c)) := by
    show (if (c : ℚ) = 0 then _ else _) = _
    rw [if_neg hcq.ne', hf]
  set f := f32.rnd ((T : ℚ) / c) with hfdef
  have f0 : 0 ≤ f := f32.rnd_nonneg q0
  rw [abs_le] at n1
  have hy : (v : ℚ) * T / c ≤ T := by
    rw [div_le_iff₀ hcq]; nlinarith
  have hy0 : 0 ≤ (v : ℚ) * T / c := by positivity
  have e1 : (v : ℚ) * (T / c) = v * T / c := by ring
  have p1 : (v : ℚ) * f ≤ v * T / c + T / 2 ^ 24 := by
    have : (v : ℚ) * f ≤ v * (T / c + T / c / 2 ^ 24) := by
      apply mul_le_mul_of_nonneg_left _ hvq; linarith
    have h2 : (v : ℚ) * (T / c + T / c / 2 ^ 24) = v * T / c + v * T / c / 2 ^ 24 := by ring
    have h3 : (v : ℚ) * T / c / 2 ^ 24 ≤ T / 2 ^ 24 := by gcongr
    linarith
  have p2 : v * T / c - T / 2 ^ 24 ≤ (v : ℚ) * f := by
    have : (v : ℚ) * (T / c - T / c / 2 ^ 24) ≤ v * f := by
      apply mul_le_mul_of_nonneg_left _ hvq; linarith
    have h2 : (v : ℚ) * (T / c - T / c / 2 ^ 24) = v * T / c - v * T / c / 2 ^ 24 := by ring
    have h3 : (v : ℚ) * T / c / 2 ^ 24 ≤ T / 2 ^ 24 := by gcongr
    linarith
  have hvf0 : 0 ≤ (v : ℚ) * f := by positivity
  have hT24 : (T : ℚ) / 2 ^ 24 ≤ 65535 / 2 ^ 24 := by gcongr
  have n65 : (65535 : ℚ) / 2 ^ 24 ≤ 1 / 250 := by norm_num
  have hvf1 : (v : ℚ) * f ≤ (65536 : ℕ) := by push_cast; linarith
  have hm := ofRat_fin wide32 hvf0 (n := 65536) (by decide) hvf1
  refine ⟨f32.rnd (v * f), f32.rnd_nonneg hvf0, ?_, ?_, rfl⟩
  · rw [ofNat_fin wide32 (show v < 2 ^ f32.p by rw [show f32.p = 24 from rfl]; omega),
      ofNat_fin wide32 (show T < 2 ^ f32.p by rw [show f32.p = 24 from rfl]; omega),
      ofNat_fin wide32 (show c < 2 ^ f32.p by rw [show f32.p = 24 from rfl]; omega), hd]
    exact hm
  · have n2 := rnd_near_abs (F := f32) (.inl rfl) hvf0
    rw [show f32.p = 24 from rfl, abs_le] at n2
    have : (v : ℚ) * f / 2 ^ 24 ≤ 65536 / 2 ^ 24 := by
      push_cast at hvf1; gcongr
    have n66 : (65536 : ℚ) / 2 ^ 24 + 1 / 2 ^ 100 ≤ 1 / 200 := by norm_num
    rw [abs_le]
    constructor <;> linarith [n2.1, n2.2]

/-- The scaled sample: the bounds. -/
theorem scaleSample_spec {bits c v : ℕ} (hb : bits = 8 ∨ bits = 16) (hc : 0 < c) (hcl : c < 2 ^ 16) (hv : v ≤ c) :
    |(scaleSample bits c v : ℚ) - (v : ℚ) * ((2 ^ bits - 1 : ℕ) : ℚ) / c| ≤ 51 / 100 ∧ scaleSample bits c v ≤ 2 ^ bits - 1 := by
  obtain ⟨x, x0, hx, hn, -⟩ := scale_exact hb hc hcl hv
  have hval : scaleSample bits c v = min (roundHalfAway x).toNat (2 ^ bits - 1) := by
    unfold scaleSample
    dsimp only
    rw [hx]
    simp only [Fl.round, Fl.toUSat, Int.floor_intCast]
  refine ⟨?_, by rw [hval]; exact min_le_right _ _⟩
  have hcq : (0 : ℚ) < c := by exact_mod_cast hc
  have hvc : (v : ℚ) ≤ c := by exact_mod_cast hv
  have hy : (v : ℚ) * ((2 ^ bits - 1 : ℕ) : ℚ) / c ≤ ((2 ^ bits - 1 : ℕ) : ℚ) := by
    rw [div_le_iff₀ hcq, mul_comm]; gcongr
  have r0 := roundHalfAway_nonneg x0
  have re := roundHalfAway_error x0
  rw [abs_le] at hn re ⊢
  rw [hval]
  generalize hr : roundHalfAway x = r at *
  obtain ⟨k, rfl⟩ := Int.eq_ofNat_of_zero_le r0
  have hk : ((Int.ofNat k : ℤ) : ℚ) = k := by simp
  simp only [Int.cast_natCast, Int.toNat_natCast] at *
  generalize 2 ^ bits - 1 = T at *
  rcases le_total k T with h | h
  · rw [min_eq_left h]
    constructor <;> linarith
  · rw [min_eq_right h]
    have : (T : ℚ) ≤ k := by exact_mod_cast h
    constructor <;> linarith

theorem scaleSample_zero {bits c : ℕ} (hb : bits = 8 ∨ bits = 16) (hc : 0 < c) (hcl : c < 2 ^ 16) : scaleSample bits c 0 = 0 := by
  have := (scaleSample_spec hb hc hcl (Nat.zero_le c)).1
  simp only [Nat.cast_zero, zero_mul, zero_div, sub_zero] at this
  rw [abs_of_nonneg (by positivity)] at this
  have : (scaleSample bits c 0 : ℚ) < 1 := by linarith [show (51 : ℚ) / 100 < 1 by norm_num]
  have : scaleSample bits c 0 < 1 := by exact_mod_cast this
  omega

theorem scaleSample_max {bits c : ℕ} (hb : bits = 8 ∨ bits = 16) (hc : 0 < c) (hcl : c < 2 ^ 16) :
    scaleSample bits c c = 2 ^ bits - 1 := by
  obtain ⟨h1, h2⟩ := scaleSample_spec hb hc hcl (le_refl c)
  have hcq : (c : ℚ) ≠ 0 := by exact_mod_cast hc.ne'
  rw [mul_div_assoc, mul_div_cancel₀ _ hcq, abs_le] at h1
  generalize 2 ^ bits - 1 = T at *
  have : (T : ℚ) - 1 < scaleSample bits c c := by linarith [h1.1]
  have : (T : ℚ) < ((scaleSample bits c c + 1 : ℕ) : ℚ) := by push_cast; linarith
  have : T < scaleSample bits c c + 1 := by exact_mod_cast this
  omega

theorem scaleSample_mono {bits c v w : ℕ} (hb : bits = 8 ∨ bits = 16) (hc : 0 < c) (hcl : c < 2 ^ 16) (hvw : v ≤ w) (hw : w ≤ c) :
    scaleSample bits c v ≤ scaleSample bits c w := by
  obtain ⟨x, x0, hx, -, ex⟩ := scale_exact hb hc hcl (hvw.trans hw)
  obtain ⟨y, y0, hy, -, ey⟩ := scale_exact hb hc hcl hw
  have hxy : x ≤ y := by
    rw [ex, ey]
    have hf : 0 ≤ f32.rnd (((2 ^ bits - 1 : ℕ) : ℚ) / c) := f32.rnd_nonneg (by positivity)
    apply f32.rnd_mono (by decide) (by positivity)
    gcongr
  unfold scaleSample
  dsimp only
  rw [hx, hy]
  simp only [Fl.round, Fl.toUSat, Int.floor_intCast]
  have := roundHalfAway_mono x0 hxy
  omega

/-- The specification of scaling from `0..m` to `0..T`: zero and the maximum are preserved, the order is preserved, and
every sample is within 0.51 of the exact value. -/
structure ScaledTo (T m : ℕ) (raw out : List ℕ) : Prop where
  length : out.length = raw.length
  near : ∀ (i : ℕ) (v o : ℕ), raw[i]? = some v → out[i]? = some o → |(o : ℚ) - (v : ℚ) * T / m| ≤ 51 / 100
  zero : ∀ i : ℕ, raw[i]? = some 0 → out[i]? = some 0
  max : ∀ i : ℕ, raw[i]? = some m → out[i]? = some T
  mono : ∀ (i j v w o q : ℕ), raw[i]? = some v → raw[j]? = some w → out[i]? = some o → out[j]? = some q → v ≤ w → o ≤ q
  range : ∀ o ∈ out, o ≤ T

theorem scaledTo_map {bits m : ℕ} (hb : bits = 8 ∨ bits = 16) (hm : 0 < m) (hml : m < 2 ^ 16) {raw : List ℕ}
    (hr : ∀ v ∈ raw, v ≤ m) : ScaledTo (2 ^ bits - 1) m raw (raw.map (scaleSample bits m)) := by
  have hmem : ∀ (i v : ℕ), raw[i]? = some v → v ≤ m := fun i v h => hr v (List.mem_of_getElem? h)
  refine ⟨by simp, ?_, ?_, ?_, ?_, ?_⟩
  · intro i v o h1 h2
    rw [List.getElem?_map, h1] at h2
    cases h2
    exact (scaleSample_spec hb hm hml (hmem i v h1)).1
  · intro i h1
    rw [List.getElem?_map, h1, Option.map_some, scaleSample_zero hb hm hml]
  · intro i h1
    rw [List.getElem?_map, h1, Option.map_some, scaleSample_max hb hm hml]
  · intro i j v w o q h1 h2 h3 h4 hvw
    rw [List.getElem?_map, h1] at h3
    rw [List.getElem?_map, h2] at h4
    cases h3; cases h4
    exact scaleSample_mono hb hm hml hvw (hmem j w h2)
  · intro o ho
    obtain ⟨v, hv, rfl⟩ := List.mem_map.1 ho
    exact (scaleSample_spec hb hm hml (hr v hv)).2

theorem scaledTo_refl {T : ℕ} (hT : 0 < T) {raw : List ℕ} (hr : ∀ v ∈ raw, v ≤ T) : ScaledTo T T raw raw := by
  have hTq : (T : ℚ) ≠ 0 := by exact_mod_cast hT.ne'
  refine ⟨rfl, ?_, fun i h => h, fun i h => h, ?_, hr⟩
  · intro i v o h1 h2
    rw [h1] at h2; cases h2
    rw [mul_div_assoc, div_self hTq, mul_one, sub_self, abs_zero]; norm_num
  · intro i j v w o q h1 h2 h3 h4 h
    rw [h1] at h3; rw [h2] at h4; cases h3; cases h4; exact h

/-- **C61** (8 bits): in a binary PGM or PPM file whose header declares any maximal value from 1 to 255, samples within
that maximum are decoded to samples scaled to 0..255. -/
theorem C61_scale_u8 (le : Bool) (w h m : ℕ) (hw : w < 2 ^ 32) (hh : h < 2 ^ 32) (hm : 0 < m) (hml : m ≤ 255)
    (hd : Header) (c : ℕ) (ct : ColorType)
    (hcase : (hd = .graymap .binary h w m ∧ c = 1 ∧ ct = .L8) ∨ (hd = .pixmap .binary h w m ∧ c = 3 ∧ ct = .Rgb8))
    (raw : List UInt8) (hlen : raw.length = w * h * c) (hsize : raw.length < 2 ^ 32) (hraw : ∀ v ∈ raw, v.toNat ≤ m)
    (extra : List UInt8) :
    ∃ buf, decode le (hd.bytes ++ raw ++ extra) = .ok (w, h, ct, buf) ∧
      ScaledTo 255 m (raw.map UInt8.toNat) (buf.map UInt8.toNat) := by
  have key : ∀ (t : TupleType), hd.Fits → hd.tupleType = .ok t → t.sample.1 = .U8 → t.sample.2 = c →
      hd.subtype.sampleEncoding = .binary → hd.maximalSample = m → hd.width = w → hd.height = h →
      t.colorType = ct → ct.bytesPerPixel = c → 0 < c → c ≤ 3 →
      ∃ buf, decode le (hd.bytes ++ raw ++ extra) = .ok (w, h, ct, buf) ∧
        ScaledTo 255 m (raw.map UInt8.toNat) (buf.map UInt8.toNat) := by
    intro t hf ht hs hn he hmx hw' hh' hct hbpp hc0 hc3
    rw [List.append_assoc, decode_header le hf ht (by rw [hw', hh', hct, hbpp]; omega)]
    rw [hct, hbpp, hw', hh', ← hlen]
    have h1 : w * h < 2 ^ 32 := Nat.lt_of_le_of_lt (Nat.le_mul_of_pos_right _ hc0) (hlen ▸ hsize)
    have h2 : w * c < 2 ^ 64 := by
      have := Nat.mul_le_mul_left w hc3
      omega
    have hrs : Decoder.readSamples le ⟨raw ++ extra, hd, t⟩ .U8 c raw.length = .ok (scaleBuffer le .U8 m raw) := by
      unfold Decoder.readSamples
      dsimp only
      rw [he, hw', hh', hmx]
      simp only [Sample.bytelen]
      rw [mulC_ok h1, ok_bind, mulC_ok (by omega), ok_bind, Sample.size]
      rw [mulC_ok (by omega), ok_bind, Nat.mul_one, ← hlen, List.take_left, if_neg (by simp)]
      rw [checkedMul, if_pos h2]
      simp only [Sample.fromBytes]
      simp only [decide_true, assertR_true, ok_bind]
      exact fun h => nomatch h
    rw [hs, hn, hrs, ok_bind]
    refine ⟨_, rfl, ?_⟩
    unfold scaleBuffer
    simp only [Sample.size]
    split
    · rename_i hne
      simp only [if_true, List.map_map]
      have e : raw.map (UInt8.toNat ∘ fun v => UInt8.ofNat (scaleSample 8 m v.toNat)) =
          (raw.map UInt8.toNat).map (scaleSample 8 m) := by
        rw [List.map_map]
        apply List.map_congr_left
        intro v hv
        have := (scaleSample_spec (bits := 8) (.inl rfl) hm (by omega) (hraw v hv)).2
        simp only [Function.comp]
        rw [UInt8.toNat_ofNat']
        omega
      rw [e]
      exact scaledTo_map (bits := 8) (.inl rfl) hm (by omega) (by
        intro v hv
        obtain ⟨b, hb, rfl⟩ := List.mem_map.1 hv
        exact hraw b hb)
    · rename_i hne
      have : m = 255 := by simpa using hne
      subst this
      exact scaledTo_refl (by decide) (by
        intro v hv
        obtain ⟨b, hb, rfl⟩ := List.mem_map.1 hv
        exact hraw b hb)
  rcases hcase with ⟨rfl, rfl, rfl⟩ | ⟨rfl, rfl, rfl⟩
  · refine key .grayU8 ⟨hh, hw, by omega⟩ ?_ rfl rfl rfl rfl rfl rfl rfl rfl (by decide) (by decide)
    simp only [Header.tupleType]; grind
  · refine key .rgbU8 ⟨hh, hw, by omega⟩ ?_ rfl rfl rfl rfl rfl rfl rfl rfl (by decide) (by decide)
    simp only [Header.tupleType]; grind

/-- **C61** (16 bits): in a binary PGM or PPM file whose header declares any maximal value from 256 to 65535, samples
within that maximum (two bytes each, most significant first) are decoded to samples scaled to 0..65535, in the native
byte order. -/
theorem C61_scale_u16 (le : Bool) (w h m : ℕ) (hw : w < 2 ^ 32) (hh : h < 2 ^ 32) (hm : 255 < m) (hml : m ≤ 65535)
    (hd : Header) (c : ℕ) (ct : ColorType)
    (hcase : (hd = .graymap .binary h w m ∧ c = 1 ∧ ct = .L16) ∨ (hd = .pixmap .binary h w m ∧ c = 3 ∧ ct = .Rgb16))
    (raw : List UInt16) (hlen : raw.length = w * h * c) (hsize : raw.length * 2 < 2 ^ 32) (hraw : ∀ v ∈ raw, v.toNat ≤ m)
    (extra : List UInt8) :
    ∃ buf, decode le (hd.bytes ++ raw.flatMap (fun v => beBytes 2 v.toNat) ++ extra) = .ok (w, h, ct, buf) ∧
      buf.length = raw.length * 2 ∧
      ScaledTo 65535 m (raw.map UInt16.toNat) ((chunksExact 2 buf).map (readNative16 le)) := by
  have key : ∀ (t : TupleType), hd.Fits → hd.tupleType = .ok t → t.sample.1 = .U16 → t.sample.2 = c →
      hd.subtype.sampleEncoding = .binary → hd.maximalSample = m → hd.width = w → hd.height = h →
      t.colorType = ct → ct.bytesPerPixel = c * 2 → 0 < c → c ≤ 3 →
      ∃ buf, decode le (hd.bytes ++ raw.flatMap (fun v => beBytes 2 v.toNat) ++ extra) = .ok (w, h, ct, buf) ∧
        buf.length = raw.length * 2 ∧
        ScaledTo 65535 m (raw.map UInt16.toNat) ((chunksExact 2 buf).map (readNative16 le)) := by
    intro t hf ht hs hn he hmx hw' hh' hct hbpp hc0 hc3
    have hbytes : (raw.flatMap fun v => beBytes 2 v.toNat).length = w * h * (c * 2) := by
      rw [length_flatMap_const (n := 2) _ _ (fun b _ => length_beBytes 2 _), hlen, Nat.mul_assoc]
    have h0 : w * h * (c * 2) = raw.length * 2 := by rw [hlen, Nat.mul_assoc (w * h)]
    rw [List.append_assoc, decode_header le hf ht (by rw [hw', hh', hct, hbpp]; omega)]
    rw [hct, hbpp, hw', hh']
    have h1 : w * h < 2 ^ 32 := Nat.lt_of_le_of_lt (Nat.le_mul_of_pos_right _ hc0) (by omega)
    have h2 : w * c < 2 ^ 64 := by
      have := Nat.mul_le_mul_left w hc3
      omega
    have hrs : Decoder.readSamples le ⟨(raw.flatMap fun v => beBytes 2 v.toNat) ++ extra, hd, t⟩ .U16 c (w * h * (c * 2)) =
        .ok (scaleBuffer le .U16 m (raw.flatMap fun v => native16 le (beBytes 2 v.toNat))) := by
      unfold Decoder.readSamples
      dsimp only
      rw [he, hw', hh', hmx]
      simp only [Sample.bytelen]
      rw [mulC_ok h1, ok_bind, mulC_ok (by omega), ok_bind, Sample.size]
      rw [mulC_ok (by omega), ok_bind, show w * h * c * 2 = w * h * (c * 2) by rw [Nat.mul_assoc], ← hbytes, List.take_left,
        if_neg (by simp)]
      rw [checkedMul, if_pos h2]
      simp only [Sample.fromBytes]
      simp only [decide_true, assertR_true, ok_bind]
      rw [chunksExact_flatMap (by omega) _ (fun b => length_beBytes 2 _), List.flatMap_map, hbytes, h0,
        Nat.mul_div_cancel _ (by omega), List.drop_eq_nil_of_le (by omega), List.append_nil]
    rw [hs, hn, hrs, ok_bind]
    have hvals : ∀ v ∈ raw.map UInt16.toNat, v ≤ m := by
      intro v hv
      obtain ⟨b, hb, rfl⟩ := List.mem_map.1 hv
      exact hraw b hb
    have hnl : (raw.flatMap fun v => native16 le (beBytes 2 v.toNat)).length = raw.length * 2 := by
      rw [length_flatMap_const (n := 2) _ _ (fun b _ => by rw [native16_length, length_beBytes])]
    have hce : ∀ (g : UInt16 → ℕ), (∀ v ∈ raw, g v < 65536) →
        (chunksExact 2 (raw.flatMap fun v => native16 le (beBytes 2 (g v)))).map (readNative16 le) = raw.map g := by
      intro g hg
      rw [chunksExact_flatMap (by omega) _ (fun b => by rw [native16_length, length_beBytes]), List.map_map]
      apply List.map_congr_left
      intro v hv
      exact readNative16_native16 le _ (hg v hv)
    refine ⟨_, rfl, ?_⟩
    by_cases hne : m ≠ 65535
    · rw [scaleBuffer, if_pos (by simpa [Sample.size] using hne), if_neg (by simp [Sample.size])]
      rw [chunksExact_flatMap (by omega) _ (fun b => by rw [native16_length, length_beBytes]), List.flatMap_map, hnl,
        Nat.mul_div_cancel _ (by omega), List.drop_eq_nil_of_le (by omega), List.append_nil]
      have e : (raw.flatMap fun v => native16 le (beBytes 2 (scaleSample 16 m (readNative16 le (native16 le (beBytes 2 v.toNat)))))) =
          raw.flatMap fun v => native16 le (beBytes 2 (scaleSample 16 m v.toNat)) := by
        congr 1
        funext v
        rw [readNative16_native16 le _ v.toNat_lt]
      rw [e]
      refine ⟨length_flatMap_const (n := 2) _ _ (fun b _ => by rw [native16_length, length_beBytes]), ?_⟩
      rw [hce (fun v => scaleSample 16 m v.toNat) (by
        intro v hv
        have := (scaleSample_spec (bits := 16) (.inr rfl) (by omega) (by omega) (hraw v hv)).2
        omega)]
      have e2 : raw.map (fun v => scaleSample 16 m v.toNat) = (raw.map UInt16.toNat).map (scaleSample 16 m) := by
        rw [List.map_map]; rfl
      rw [e2]
      exact scaledTo_map (bits := 16) (.inr rfl) (by omega) (by omega) hvals
    · have : m = 65535 := by simpa using hne
      subst this
      rw [scaleBuffer, if_neg (by simp [Sample.size])]
      refine ⟨hnl, ?_⟩
      rw [hce UInt16.toNat (fun v _ => v.toNat_lt)]
      exact scaledTo_refl (by decide) hvals
  rcases hcase with ⟨rfl, rfl, rfl⟩ | ⟨rfl, rfl, rfl⟩
  · refine key .grayU16 ⟨hh, hw, by omega⟩ ?_ rfl rfl rfl rfl rfl rfl rfl rfl (by decide) (by decide)
    simp only [Header.tupleType]; grind
  · refine key .rgbU16 ⟨hh, hw, by omega⟩ ?_ rfl rfl rfl rfl rfl rfl rfl rfl (by decide) (by decide)
    simp only [Header.tupleType]; grind

/-- A one-pixel file with maximal value 15: 7 becomes 119. -/
example : decode true ([80, 53, 10, 49, 32, 49, 32, 49, 53, 10] ++ [7]) = .ok (1, 1, .L8, [119]) := by decide +kernel
/-- A one-pixel file with maximal value 1000. -/
example : decode true ([80, 53, 10, 49, 32, 49, 32, 49, 48, 48, 48, 10] ++ [1, 244]) = .ok (1, 1, .L16, [0, 128]) := by
  decide +kernel

/-! ## The encoder's range check -/

/-- The values that a header with maximal value `m` admits. -/
def InRange (m : ℕ) (image : Samples) : Prop := ∀ v ∈ image.values, v ≤ m

theorem allSmaller_iff (m : ℕ) (image : Samples) : image.allSmaller m = true ↔ ¬ InRange m image := by
  cases image <;> simp [Samples.allSmaller, InRange, Samples.values]

/-- What the encoder decides: for a header whose maximal value is less than the greatest value of the colour type, and an
image that passes the other checks, encoding succeeds exactly when some sample *exceeds* the maximal value. -/
theorem writeWithHeader_range {hd : Header} {image : Samples} {w h : ℕ} {color : ExtendedColorType} {m : ℕ}
    (h1 : hd.width = w) (h2 : hd.height = h) (h3 : checkHeaderColor hd color = .ok ()) (h4 : maxSample color = .ok m)
    (h5 : hd.maximalSample < m)
    (h6 : image.len = w * h * color.channelCount) (h7 : color.channelCount * w < 2 ^ 64) (h8 : image.len < 2 ^ 64)
    (h9 : ∃ r, writeRaster hd image = .ok r) :
    (∃ file, writeWithHeader hd image w h color = .ok file) ↔ ¬ InRange hd.maximalSample image := by
  obtain ⟨r, h9⟩ := h9
  constructor
  · rintro ⟨file, hf⟩ hr
    have hn : image.allSmaller hd.maximalSample = false := by
      cases hb : image.allSmaller hd.maximalSample
      · rfl
      · exact absurd hr ((allSmaller_iff _ _).1 hb)
    unfold writeWithHeader checkHeaderDimensions at hf
    rw [if_neg (by simp [h1, h2]), ok_bind, h3, ok_bind] at hf
    unfold checkSampleValues at hf
    dsimp only at hf
    rw [h4, ok_bind, hn, decide_eq_true h5] at hf
    cases hf
  · intro hr
    exact ⟨_, writeWithHeader_ok h1 h2 h3 h4 (.inr ((allSmaller_iff _ _).2 hr)) h6 h7 h8 h9⟩

/-- **C59**: the claim is false. With a chosen header whose maximal value is `m` (1 ≤ m < 255), a grey 8-bit image
is refused when all its samples are within `0..m` and accepted when one of them is not: for every such `m`, every
size and every image. -/
theorem C59_range_check_false (m w h : ℕ) (hml : m < 255) (e : Enc) (samples : List UInt8)
    (hw : w < 2 ^ 32) (hlen : samples.length = w * h) (hsize : samples.length < 2 ^ 64) :
    (∃ file, encode (.chosen (.graymap e h w m)) (.u8 samples) w h .L8 = .ok file) ↔ ¬ ∀ v ∈ samples, v.toNat ≤ m := by
  have := writeWithHeader_range (hd := .graymap e h w m) (image := .u8 samples) (w := w) (h := h) (color := .L8) (m := 255)
    rfl rfl rfl rfl hml (by show samples.length = w * h * 1; omega) (by show 1 * w < 2 ^ 64; omega) hsize
    (by cases e <;> exact ⟨_, rfl⟩)
  refine Iff.trans this ?_
  rw [InRange, Samples.values]
  simp [Header.maximalSample]

/-- What does hold of C59: with a maximal value no less than the greatest value of the colour type, every image
(whose dimensions and colour match the header) is accepted. -/
theorem C59_range_check_partial {hd : Header} {image : Samples} {w h : ℕ} {color : ExtendedColorType} {m : ℕ} {r : List UInt8}
    (h1 : hd.width = w) (h2 : hd.height = h) (h3 : checkHeaderColor hd color = .ok ()) (h4 : maxSample color = .ok m)
    (h5 : m ≤ hd.maximalSample)
    (h6 : image.len = w * h * color.channelCount) (h7 : color.channelCount * w < 2 ^ 64) (h8 : image.len < 2 ^ 64)
    (h9 : writeRaster hd image = .ok r) : writeWithHeader hd image w h color = .ok (hd.bytes ++ r) :=
  writeWithHeader_ok h1 h2 h3 h4 (.inl h5) h6 h7 h8 h9

/-- Concretely: a 1x1 image of value 15 with maximal value 15 is refused, value 16 is accepted. -/
example : encode (.chosen (.graymap .binary 1 1 15)) (.u8 [15]) 1 1 .L8 = .error (.err .unsupported) ∧
    ∃ file, encode (.chosen (.graymap .binary 1 1 15)) (.u8 [16]) 1 1 .L8 = .ok file :=
  ⟨rfl, _, rfl⟩

/-- A completely black 8-bit image cannot be written as a bitmap. -/
example : encode (.subtype (.bitmap .binary)) (.u8 [0, 0, 0, 0]) 2 2 .L8 = .error (.err .unsupported) := rfl

/-! ## ASCII bitmaps -/

theorem readPbmAscii_txt {v : ℕ} {vs : List ℕ} {t : List UInt8} (h : Txt (v :: vs) t) (hv : v ≤ 1) :
    ∃ t', readPbmAscii t = .ok (if v = 0 then 255 else 0, t') ∧ Txt vs t' := by
  generalize hx : v :: vs = x at h
  induction h with
  | nil => cases hx
  | @sp vs' t' c hc _ ih =>
    obtain ⟨t', h1, h2⟩ := ih hx
    refine ⟨t', ?_, h2⟩
    unfold readPbmAscii
    rw [if_pos hc]
    exact h1
  | @val v' vs' t' c hc h' _ =>
    cases hx
    refine ⟨c :: t', ?_, .sp hc h'⟩
    rcases (show v = 0 ∨ v = 1 by omega) with rfl | rfl
    · have : dec 0 = [48] := by decide +kernel
      rw [this]; rfl
    · have : dec 1 = [49] := by decide +kernel
      rw [this]; rfl

theorem pbmAsciiLoop {vs : List ℕ} (hv : ∀ v ∈ vs, v ≤ 1) {t : List UInt8} (h : Txt vs t) {n : ℕ} (hn : n = vs.length) :
    ∃ t', forRange n (fun _ (st : List UInt8 × List UInt8) => do
      let (v, s) ← readPbmAscii st.2
      .ok (st.1 ++ [v], s)) ([], t) = .ok (vs.map fun v => if v = 0 then 255 else 0, t') := by
  subst hn
  obtain ⟨s', h1, h2, h3⟩ := forRange_inv (n := vs.length) (s := (([], t) : List UInt8 × List UInt8))
    (f := fun _ (st : List UInt8 × List UInt8) => do
      let (v, s) ← readPbmAscii st.2
      .ok (st.1 ++ [v], s))
    (fun i st => st.1 = (vs.take i).map (fun v => if v = 0 then 255 else 0) ∧ Txt (vs.drop i) st.2)
    ⟨by simp, by simpa using h⟩ (by
      intro i hi st ⟨g1, g2⟩
      rcases hd : vs.drop i with _ | ⟨v, r⟩
      · have := List.length_drop (i := i) (l := vs); rw [hd] at this; simp at this; omega
      · rw [hd] at g2
        obtain ⟨k1, k2, k3⟩ := getElem_of_drop hd
        obtain ⟨t', r1, r2⟩ := readPbmAscii_txt g2 (hv v (by
          have : v ∈ vs.drop i := by rw [hd]; simp
          exact List.mem_of_mem_drop this))
        refine ⟨(st.1 ++ [if v = 0 then 255 else 0], t'), by rw [r1]; rfl, ?_, ?_⟩
        · dsimp only
          rw [g1, k3, List.map_append]; rfl
        · dsimp only
          rw [k1]; exact r2)
  obtain ⟨a, b⟩ := s'
  rw [List.take_length] at h2
  exact ⟨b, by rw [h1]; dsimp only at h2; rw [h2]⟩

/-- **C40** (ASCII bitmaps): the round trip is false for every non-empty black and white image: the file written for
samples 0 (black) and 1 (white) is decoded to the *inverted* image: black samples become 255, white samples 0. (The
binary bitmap of the same image is decoded correctly, see `C39_roundtrip_pbm_partial`.) -/
theorem C40_bitmap_ascii_false (le : Bool) (w h : ℕ) (hw : w < 2 ^ 32) (hh : h < 2 ^ 32) (samples : List UInt8)
    (hbit : ∀ v ∈ samples, v ≤ 1) (hlen : samples.length = w * h) (hsize : samples.length < 2 ^ 64) :
    ∃ file, encode (.subtype (.bitmap .ascii)) (.u8 samples) w h .L1 = .ok file ∧
      ∀ extra, decode le (file ++ extra) = .ok (w, h, .L8, samples.map fun v => if v = 0 then 255 else 0) := by
  refine ⟨_, writeWithHeader_ok (hd := .bitmap .ascii h w) rfl rfl rfl (m := 1) rfl (.inl (Nat.le_refl _))
    (by show samples.length = w * h * 1; omega) (by show 1 * w < 2 ^ 64; omega) hsize rfl, ?_⟩
  intro extra
  have hvals : ∀ v ∈ samples.map UInt8.toNat, v ≤ 1 := by
    intro v hv
    obtain ⟨b, hb, rfl⟩ := List.mem_map.1 hv
    exact hbit b hb
  obtain ⟨t', hl⟩ := pbmAsciiLoop hvals (writeSamplesAscii_txt _ extra) (n := samples.length) (by simp)
  rw [List.append_assoc, decode_header le (h := .bitmap .ascii h w) (t := .pbmBit) ⟨hh, hw⟩ rfl (by
    show w * h * 1 < 2 ^ 64; omega)]
  have hrs : Decoder.readSamples le ⟨writeSamplesAscii (samples.map UInt8.toNat) ++ extra, .bitmap .ascii h w, .pbmBit⟩
      .PbmBit 1 (w * h * 1) = .ok (samples.map fun v => if v = 0 then 255 else 0) := by
    unfold Decoder.readSamples
    simp only [Header.subtype, Subtype.sampleEncoding, Sample.fromAscii]
    rw [Nat.mul_one, ← hlen, hl]
    simp only [ok_bind, List.map_map]
    rw [scaleBuffer, Header.maximalSample, if_pos (by simp [Sample.size])]
    simp only [Sample.size, if_true, List.map_map]
    congr 1
    apply List.map_congr_left
    intro v hv
    have h1 := hbit v hv
    rcases (show v = 0 ∨ v = 1 by
      have : v.toNat ≤ 1 := h1
      rcases (show v.toNat = 0 ∨ v.toNat = 1 by omega) with h | h
      · left; exact UInt8.toNat_inj.1 h
      · right; exact UInt8.toNat_inj.1 h) with rfl | rfl
    · simp only [Function.comp]; decide +kernel
    · simp only [Function.comp]; decide +kernel
  show (do
    let buf ← Decoder.readSamples le ⟨writeSamplesAscii (samples.map UInt8.toNat) ++ extra, .bitmap .ascii h w, .pbmBit⟩
      .PbmBit 1 (w * h * 1)
    Except.ok (w, h, ColorType.L8, buf)) = _
  rw [hrs, ok_bind]

/-- An `L8` bitmap with a white pixel is written, but its file is refused by the decoder. -/
theorem C40_bitmap_ascii_l8_false (le : Bool) :
    ∃ file, encode (.subtype (.bitmap .ascii)) (.u8 [255]) 1 1 .L8 = .ok file ∧ decode le file = .error (.err .decoding) := by
  refine ⟨_, rfl, ?_⟩
  cases le <;> decide +kernel

/-! ## Images of 2^32 samples or more -/

/-- **C39** fails beyond 2^32 samples: *every* grey image with that many pixels is written as PAM without an error, but
decoding its file panics (`u32` overflow in the decoder's size computation). -/
theorem C39_large_false (le : Bool) (w h : ℕ) (hw : w < 2 ^ 32) (hh : h < 2 ^ 32) (hbig : 2 ^ 32 ≤ w * h)
    (samples : List UInt8) (hlen : samples.length = w * h) :
    ∃ file, encode .dynamic (.u8 samples) w h .L8 = .ok file ∧ decode le file = .error .panic := by
  have hsz : w * h < 2 ^ 64 := by
    have h1 : w * h ≤ w * 2 ^ 32 := Nat.mul_le_mul_left w hh.le
    omega
  refine ⟨_, writeWithHeader_ok (hd := .arbitrary h w 1 255 (some .grayscale)) rfl rfl rfl (m := 255) rfl
    (.inl (Nat.le_refl _)) (by show samples.length = w * h * 1; omega) (by show 1 * w < 2 ^ 64; omega)
    (by show samples.length < 2 ^ 64; omega) rfl, ?_⟩
  rw [decode_header le (h := .arbitrary h w 1 255 (some .grayscale)) (t := .grayU8)
    ⟨hh, hw, by omega, by omega, fun t ht => by cases ht; exact plain_known.2.2.1⟩ rfl (by show w * h * 1 < 2 ^ 64; omega)]
  have : Decoder.readSamples le ⟨samples, .arbitrary h w 1 255 (some .grayscale), .grayU8⟩ .U8 1 (w * h * 1) = .error .panic := by
    unfold Decoder.readSamples
    simp only [Header.subtype, Subtype.sampleEncoding, Header.width, Header.height, Sample.bytelen]
    rw [mulC, if_neg (by omega)]
    rfl
  show (do
    let buf ← Decoder.readSamples le ⟨samples, .arbitrary h w 1 255 (some .grayscale), .grayU8⟩ .U8 1 (w * h * 1)
    Except.ok (w, h, ColorType.L8, buf)) = _
  rw [this]
  rfl

end Pnm
end Verif
