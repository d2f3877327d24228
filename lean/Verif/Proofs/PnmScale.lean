import Verif.Spec.Pnm
import Verif.Props.PnmMore
import Verif.Props.Resize
import Verif.Proofs.Pbm

/-!
# PNM samples: what the scaling does
-/

namespace Verif
namespace Pnm
open PnmSpec

/-- Samples above the maximum become the greatest value. -/
theorem scaleSample_over {bits c v : ℕ} (hb : bits = 8 ∨ bits = 16) (hc : 0 < c) (hcl : c < 2 ^ 16) (hcv : c ≤ v) (hv : v < 2 ^ 16) :
    scaleSample bits c v = 2 ^ bits - 1 := by
  have hmax := scaleSample_max hb hc hcl
  obtain ⟨x, x0, hx, -, ex⟩ := scale_exact hb hc hcl (le_refl c)
  have hT0 : 0 < 2 ^ bits - 1 := by rcases hb with rfl | rfl <;> norm_num
  have hT1 : 2 ^ bits - 1 < 2 ^ 16 := by rcases hb with rfl | rfl <;> norm_num
  unfold scaleSample at hmax ⊢
  dsimp only at hmax ⊢
  rw [hx] at hmax
  simp only [Fl.round, Fl.toUSat, Int.floor_intCast] at hmax
  generalize hTd : 2 ^ bits - 1 = T at *
  have hcq : (0 : ℚ) < c := by exact_mod_cast hc
  have hcq1 : (1 : ℚ) ≤ c := by exact_mod_cast hc
  have q0 : (0 : ℚ) ≤ (T : ℚ) / c := by positivity
  have q1 : (T : ℚ) / c ≤ (65535 : ℕ) := by
    rw [div_le_iff₀ hcq]
    have : (T : ℚ) ≤ 65535 := by exact_mod_cast (show T ≤ 65535 by omega)
    push_cast; nlinarith
  have hf := ofRat_fin wide32 q0 (n := 65535) (by decide) q1
  have hd : (Fl.fin (T : ℚ)).div f32 (Fl.fin (c : ℚ)) = .fin (f32.rnd ((T : ℚ) / c)) := by
    show (if (c : ℚ) = 0 then _ else _) = _
    rw [if_neg hcq.ne', hf]
  have f0 : 0 ≤ f32.rnd ((T : ℚ) / c) := f32.rnd_nonneg q0
  have n1 := rnd_near_abs (F := f32) (.inl rfl) q0
  rw [abs_le] at n1
  have f1 : f32.rnd ((T : ℚ) / c) ≤ 2 ^ 17 := by
    have h1 := n1.2
    rw [show f32.p = 24 from rfl] at h1
    have : (T : ℚ) / c / 2 ^ 24 ≤ 65535 / 2 ^ 24 := by push_cast at q1; gcongr
    push_cast at q1
    have : (65535 : ℚ) + 65535 / 2 ^ 24 + 1 / 2 ^ 100 ≤ 2 ^ 17 := by norm_num
    linarith
  have hvq : (v : ℚ) ≤ 2 ^ 16 := by exact_mod_cast hv.le
  have hm := ofRat_fin_pow wide32 (q := (v : ℚ) * f32.rnd ((T : ℚ) / c)) (by positivity) (k := 33) (by decide) (by
    calc (v : ℚ) * f32.rnd ((T : ℚ) / c) ≤ 2 ^ 16 * 2 ^ 17 := by gcongr
      _ = 2 ^ 33 := by norm_num)
  have hy : ((Fl.ofNat f32 v).mul f32 ((Fl.ofNat f32 T).div f32 (Fl.ofNat f32 c))) = .fin (f32.rnd ((v : ℚ) * f32.rnd ((T : ℚ) / c))) := by
    rw [ofNat_fin wide32 (show v < 2 ^ f32.p by rw [show f32.p = 24 from rfl]; omega),
      ofNat_fin wide32 (show T < 2 ^ f32.p by rw [show f32.p = 24 from rfl]; omega),
      ofNat_fin wide32 (show c < 2 ^ f32.p by rw [show f32.p = 24 from rfl]; omega), hd]
    exact hm
  rw [hy]
  simp only [Fl.round, Fl.toUSat, Int.floor_intCast]
  have hxy : x ≤ f32.rnd ((v : ℚ) * f32.rnd ((T : ℚ) / c)) := by
    rw [ex]
    apply f32.rnd_mono (by decide) (by positivity)
    have : (c : ℚ) ≤ v := by exact_mod_cast hcv
    gcongr
  have := roundHalfAway_mono x0 hxy
  omega

/-- The scaling of samples of `bits` bits. -/
def scaleF (bits m v : Nat) : Nat := if v ≤ m then (if m = 2 ^ bits - 1 then v else scaleSample bits m v) else 2 ^ bits - 1

theorem scaleF_scales {bits m : Nat} (hb : bits = 8 ∨ bits = 16) (hm : 0 < m) (hml : m ≤ 2 ^ bits - 1) : Scales (2 ^ bits - 1) m (scaleF bits m) := by
  have h16 : m < 2 ^ 16 := by rcases hb with rfl | rfl <;> omega
  by_cases he : m = 2 ^ bits - 1
  · have hq : (m : ℚ) ≠ 0 := by exact_mod_cast hm.ne'
    subst he
    have hf : ∀ v, scaleF bits (2 ^ bits - 1) v = if v ≤ 2 ^ bits - 1 then v else 2 ^ bits - 1 := fun v => by unfold scaleF; rw [if_pos rfl]
    refine ⟨?_, fun v hv => ?_, fun v w hvw => ?_, fun v hv => ?_⟩
    · rw [hf, if_pos (by omega)]
    · rw [hf]; split <;> omega
    · rw [hf, hf]; split <;> split <;> omega
    · rw [hf, if_pos hv, mul_div_assoc, div_self hq, mul_one, sub_self, abs_zero]; norm_num
  · have hf : ∀ v, scaleF bits m v = if v ≤ m then scaleSample bits m v else 2 ^ bits - 1 := fun v => by unfold scaleF; rw [if_neg he]
    refine ⟨?_, fun v hv => ?_, fun v w hvw => ?_, fun v hv => ?_⟩
    · rw [hf, if_pos (by omega), scaleSample_zero hb hm h16]
    · rw [hf]
      split
      · have : v = m := by omega
        subst this
        exact scaleSample_max hb hm h16
      · rfl
    · rw [hf, hf]
      by_cases hw : w ≤ m
      · rw [if_pos hw, if_pos (by omega)]
        exact scaleSample_mono hb hm h16 hvw hw
      · rw [if_neg hw]
        split
        · rename_i h
          exact (scaleSample_spec hb hm h16 h).2
        · exact le_refl _
    · rw [hf, if_pos hv]
      exact (scaleSample_spec hb hm h16 hv).1

theorem scaleF_eq {bits m v : Nat} (hb : bits = 8 ∨ bits = 16) (hm : 0 < m) (hml : m ≤ 2 ^ bits - 1) (hv : v < 2 ^ bits) :
    scaleF bits m v = if m ≠ 2 ^ bits - 1 then scaleSample bits m v else v := by
  have h16 : m < 2 ^ 16 := by rcases hb with rfl | rfl <;> omega
  have hv16 : v < 2 ^ 16 := by rcases hb with rfl | rfl <;> omega
  unfold scaleF
  by_cases h : v ≤ m
  · rw [if_pos h]
    split <;> simp [*]
  · rw [if_neg h, if_pos (by omega), scaleSample_over hb hm h16 (by omega) hv16]

theorem scaleF_lt {bits m v : Nat} (hb : bits = 8 ∨ bits = 16) (hm : 0 < m) (hml : m ≤ 2 ^ bits - 1) : scaleF bits m v < 2 ^ bits := by
  have hs := scaleF_scales hb hm hml
  have h1 := hs.mono v (max v m) (le_max_left _ _)
  rw [hs.top _ (le_max_right _ _)] at h1
  have : 0 < 2 ^ bits := by positivity
  omega

theorem scaleBuffer_u8 {le : Bool} {m : Nat} (hm : 0 < m) (hml : m ≤ 255) {raw : List Nat} (hr : ∀ v ∈ raw, v ≤ 255) :
    scaleBuffer le .U8 m (raw.flatMap fun v => [UInt8.ofNat v]) = raw.flatMap fun v => [UInt8.ofNat (scaleF 8 m v)] := by
  have hs : ∀ f : Nat → UInt8, (raw.flatMap fun v => [f v]) = raw.map f := fun f => by induction raw <;> simp_all
  rw [hs (fun v => UInt8.ofNat v), hs (fun v => UInt8.ofNat (scaleF 8 m v))]
  unfold scaleBuffer
  have he : 256 ^ Sample.U8.size - 1 = 2 ^ 8 - 1 := rfl
  rw [he, if_pos (show Sample.U8.size = 1 from rfl)]
  by_cases h : m ≠ 2 ^ 8 - 1
  · rw [if_pos h, List.map_map]
    apply List.map_congr_left
    intro v hv
    have hv8 := hr v hv
    rw [scaleF_eq (.inl rfl) hm hml (show v < 2 ^ 8 by omega), if_pos h]
    show UInt8.ofNat (scaleSample 8 m (UInt8.ofNat v).toNat) = _
    rw [UInt8.toNat_ofNat_of_lt' (by show v < 256; omega)]
  · rw [if_neg h]
    apply List.map_congr_left
    intro v hv
    have hv8 := hr v hv
    rw [scaleF_eq (.inl rfl) hm hml (show v < 2 ^ 8 by omega), if_neg h]

theorem scaleBuffer_u16 {le : Bool} {m : Nat} (hm : 0 < m) (hml : m ≤ 65535) {raw : List Nat} (hr : ∀ v ∈ raw, v ≤ 65535) :
    scaleBuffer le .U16 m (raw.flatMap fun v => native16 le (beBytes 2 v)) = raw.flatMap fun v => native16 le (beBytes 2 (scaleF 16 m v)) := by
  have hlen : ∀ v, (native16 le (beBytes 2 v)).length = 2 := fun v => by rw [native16_length, length_beBytes]
  have hl : (raw.flatMap fun v => native16 le (beBytes 2 v)).length = raw.length * 2 := by
    clear hr
    induction raw with
    | nil => rfl
    | cons v raw ih => rw [List.flatMap_cons, List.length_append, hlen, ih, List.length_cons]; omega
  unfold scaleBuffer
  have he : 256 ^ Sample.U16.size - 1 = 2 ^ 16 - 1 := rfl
  rw [he, if_neg (show Sample.U16.size ≠ 1 by decide)]
  by_cases h : m ≠ 2 ^ 16 - 1
  · rw [if_pos h, chunksExact_flatMap (by decide) _ hlen, List.drop_eq_nil_of_le (by rw [hl]; omega), List.append_nil, List.flatMap_map]
    apply List.flatMap_congr
    intro v hv
    have hv8 := hr v hv
    rw [scaleF_eq (.inr rfl) hm hml (show v < 2 ^ 16 by omega), if_pos h]
    rw [readNative16_native16 le v (by omega)]
  · rw [if_neg h]
    apply List.flatMap_congr
    intro v hv
    have hv8 := hr v hv
    rw [scaleF_eq (.inr rfl) hm hml (show v < 2 ^ 16 by omega), if_neg h]

theorem scaleBuffer_bit {le : Bool} {buf : List UInt8} (h : ∀ b ∈ buf, b = 0 ∨ b = 255) : scaleBuffer le .PbmBit 1 buf = buf := by
  unfold scaleBuffer
  rw [if_pos (by decide), if_pos (show Sample.PbmBit.size = 1 from rfl)]
  conv => rhs; rw [← List.map_id buf]
  apply List.map_congr_left
  intro b hb
  rcases h b hb with rfl | rfl
  · have := scale_one ⟨0, by decide⟩
    show UInt8.ofNat (scaleSample 8 1 0) = 0
    rw [this]; rfl
  · have := scale_one ⟨255, by decide⟩
    show UInt8.ofNat (scaleSample 8 1 255) = 255
    rw [this]; rfl

end Pnm
end Verif
