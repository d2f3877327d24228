import Verif.Props.SampleBilinear

/-!
# The spans of `thumbnail`
-/

namespace Verif

theorem rnd_zero32 : f32.rnd 0 = 0 := by have := rnd_nat32 (n := 0) (by norm_num); rwa [Nat.cast_zero] at this

/-- The bounds of the span of an output index. -/
theorem thumb_axis {len newLen o : Nat} (h0 : 0 < len) (h : len ≤ 2 ^ 20) (ho : o < newLen) (h' : newLen < 2 ^ 32) :
    ∃ (l r : ℚ) (a b : Nat), thumbnailSpan len newLen o = (.fin l, .fin r, a, b) ∧ 0 ≤ l ∧ 0 ≤ r ∧ a < len ∧ a ≤ b ∧ b ≤ len ∧
      (a = b → 0 < a) ∧ b - a ≤ len / newLen + 2 ∧ (∀ i, (a ≤ i ∧ i < b) ∨ (a = b ∧ a ≤ i + 1 ∧ i ≤ a) → Covers len newLen o i) ∧
      (newLen ≤ len → len * newLen ≤ 2 ^ 21 → a < b) := by
  obtain ⟨r, er, rr, hrr, rlo, rhi⟩ := ratio_rel h0 (by omega) (by omega : 0 < newLen) h'
  have hl : (1 : ℚ) ≤ len := by exact_mod_cast h0
  have hl2 : (len : ℚ) ≤ 2 ^ 20 := by exact_mod_cast h
  have hn : (0 : ℚ) < newLen := by exact_mod_cast (by omega : 0 < newLen)
  have ho1 : (o : ℚ) + 1 ≤ newLen := by exact_mod_cast ho
  set q : ℚ := (len : ℚ) / newLen with hq
  have hq0 : 0 < q := by positivity
  have hqn : q * newLen = len := by rw [hq]; field_simp
  have ho0 : (0 : ℚ) ≤ o := by positivity
  have hql : q ≤ len := by
    rw [hq, div_le_iff₀ hn]
    have : (1 : ℚ) ≤ newLen := by linarith
    nlinarith
  have hoq : (o + 1) * q ≤ len := by
    rw [← hqn, mul_comm]; gcongr
  -- the lower bound
  obtain ⟨l, el, rl, l0, hrl⟩ : ∃ l, (Fl.ofNat f32 o).mul f32 (.fin r) = .fin l ∧ Rel (12 / 2 ^ 25) l (o * q) ∧ 0 ≤ l ∧ f32.rnd l = l := by
    rcases Nat.eq_zero_or_pos o with rfl | hop
    · refine ⟨0, ?_, ⟨by norm_num, by norm_num⟩, le_refl _, by simp [rnd_zero32]⟩
      rw [ofNat32 (by norm_num), fl_mul, Nat.cast_zero, zero_mul, ofRat32 (by norm_num)]
      rw [rnd_zero32]
    · obtain ⟨p, ep, rp, -⟩ := ofNat_rel hop (by omega : o < 2 ^ 32)
      have hop' : (1 : ℚ) ≤ o := by exact_mod_cast hop
      have hp1 : (1 : ℚ) / 2 ≤ p := by
        have := rp.1
        linarith
      have hp2 : p ≤ 2 ^ 33 := by
        have := rp.2
        have : (o : ℚ) ≤ 2 ^ 32 := by exact_mod_cast (by omega : o ≤ 2 ^ 32)
        linarith
      have hm := (rp.mul rr (by norm_num) (by norm_num) (by norm_num) (by norm_num) (by linarith) hq0).mono (e' := 18 / 2 ^ 26) (by norm_num) (by positivity)
      have hlo : 1 / 2 ^ 35 ≤ p * r := by
        calc (1 : ℚ) / 2 ^ 35 = 1 / 2 * (1 / 2 ^ 34) := by norm_num
          _ ≤ p * r := by gcongr
      have hr := (hm.rnd (by norm_num) (by positivity) (le_trans (by norm_num) hlo)).mono (e' := 12 / 2 ^ 25) (by norm_num) (by positivity)
      refine ⟨f32.rnd (p * r), ?_, hr, f32.rnd_nonneg (by positivity), rnd_idem _⟩
      rw [ep, fl_mul, ofRat32]
      rw [abs_of_nonneg (by positivity)]
      calc p * r ≤ 2 ^ 33 * 2 ^ 33 := by gcongr
        _ ≤ 2 ^ 127 := by norm_num
  have hlup : l ≤ 2 ^ 21 := by
    have := rl.2
    have h1 : o * q * (1 + 12 / 2 ^ 25) ≤ 2 ^ 20 * 2 := by
      gcongr
      · linarith
      · norm_num
    linarith
  -- the upper bound
  have hrup : r ≤ 2 ^ 21 := by
    have := rr.2
    have h1 : q * (1 + 13 / 2 ^ 26) ≤ 2 ^ 20 * 2 := by
      gcongr
      · linarith
      · norm_num
    linarith
  have hsum : Rel (12 / 2 ^ 25) (l + r) ((o + 1) * q) := by
    have a1 := rl.1
    have a2 := rl.2
    have b := rr.mono (e' := 12 / 2 ^ 25) (by norm_num) hq0.le
    have b1 := b.1
    have b2 := b.2
    constructor
    · linarith [show (o + 1) * q * (1 - 12 / 2 ^ 25) = o * q * (1 - 12 / 2 ^ 25) + q * (1 - 12 / 2 ^ 25) by ring]
    · linarith [show (o + 1) * q * (1 + 12 / 2 ^ 25) = o * q * (1 + 12 / 2 ^ 25) + q * (1 + 12 / 2 ^ 25) by ring]
  have hu := (hsum.rnd (by norm_num) (by positivity) (by linarith [show (1 : ℚ) / 2 ^ 100 ≤ 1 / 2 ^ 34 by norm_num])).mono (e' := 1 / 2 ^ 21) (by norm_num) (by positivity)
  set u := f32.rnd (l + r) with hudef
  have eu : (Fl.fin l).add f32 (.fin r) = .fin u := by
    rw [fl_add, ofRat32]
    rw [abs_of_nonneg (by positivity)]
    linarith [show (2 : ℚ) ^ 21 + 2 ^ 21 ≤ 2 ^ 127 by norm_num]
  have hlu : l ≤ u := by
    rw [← hrl]
    exact f32.rnd_mono' (by decide) (by linarith [show (0 : ℚ) ≤ 1 / 2 ^ 34 by norm_num])
  have hupos : 0 < u := hu.pos (by norm_num) (by positivity)
  have huup : u ≤ 2 ^ 21 := by
    have := hu.2
    have h1 : (o + 1) * q * (1 + 1 / 2 ^ 21) ≤ 2 ^ 20 * 2 := by
      gcongr
      · linarith
      · norm_num
    linarith
  -- the difference
  have hdiff : u - l ≤ q + 1 := by
    have h1 := rnd_err32 (l + r)
    have hlr : 0 ≤ l + r := by linarith [show (0 : ℚ) ≤ 1 / 2 ^ 34 by norm_num]
    have h2 := (abs_le.1 h1).2
    rw [abs_of_nonneg hlr] at h2
    have h3 : (l + r) / 2 ^ 24 ≤ (2 ^ 21 + 2 ^ 21) / 2 ^ 24 := by gcongr
    have h4 := rr.2
    have h5 : q * (13 / 2 ^ 26) ≤ 2 ^ 20 * (13 / 2 ^ 26) := by gcongr; linarith
    have h6 : q * (1 + 13 / 2 ^ 26) = q + q * (13 / 2 ^ 26) := by ring
    have : (2 ^ 21 + 2 ^ 21) / 2 ^ 24 + 1 / 2 ^ 100 + 2 ^ 20 * (13 / 2 ^ 26) ≤ (1 : ℚ) := by norm_num
    linarith
  -- the rounded bounds
  have hcl : 0 ≤ ⌈l⌉ := Int.ceil_nonneg l0
  have hcu : 0 < ⌈u⌉ := Int.ceil_pos.2 hupos
  have hcu2 : ⌈u⌉ ≤ 2 ^ 21 := Int.ceil_le.2 (by exact_mod_cast huup)
  have hclu : ⌈l⌉ ≤ ⌈u⌉ := Int.ceil_le_ceil hlu
  have ua : (Fl.fin l).ceil.toUSat 32 = ⌈l⌉.toNat := by
    simp only [Fl.ceil, Fl.toUSat, Int.floor_intCast]
    omega
  have ub : (Fl.fin u).ceil.toUSat 32 = ⌈u⌉.toNat := by
    simp only [Fl.ceil, Fl.toUSat, Int.floor_intCast]
    omega
  set A := ⌈l⌉.toNat with hA
  set B := ⌈u⌉.toNat with hB
  have hAz : (A : ℤ) = ⌈l⌉ := Int.toNat_of_nonneg hcl
  have hBz : (B : ℤ) = ⌈u⌉ := Int.toNat_of_nonneg hcu.le
  have hAq : (A : ℚ) = (⌈l⌉ : ℤ) := by exact_mod_cast hAz
  have hBq : (B : ℚ) = (⌈u⌉ : ℤ) := by exact_mod_cast hBz
  have hA1 : l ≤ A := by rw [hAq]; exact Int.le_ceil l
  have hA2 : (A : ℚ) < l + 1 := by rw [hAq]; exact Int.ceil_lt_add_one l
  have hB1 : u ≤ B := by rw [hBq]; exact Int.le_ceil u
  have hB2 : (B : ℚ) < u + 1 := by rw [hBq]; exact Int.ceil_lt_add_one u
  have hAB : A ≤ B := by omega
  have hB0 : 0 < B := by omega
  have hBA : B - A ≤ len / newLen + 2 := by
    have h1 : (B : ℚ) < A + q + 2 := by linarith
    have h2 : q < (len / newLen : ℕ) + 1 := by
      rw [hq, div_lt_iff₀ hn]
      have := Nat.lt_div_mul_add (a := len) (b := newLen) (by omega)
      have h3 : len < (len / newLen + 1) * newLen := by
        rw [Nat.add_mul, Nat.one_mul]; exact this
      exact_mod_cast h3
    have h3 : (B : ℚ) < A + ((len / newLen : ℕ) : ℚ) + 3 := by linarith
    have h4 : B < A + len / newLen + 3 := by exact_mod_cast h3
    omega
  have hlo2 : o * q * (1 - 1 / 2 ^ 21) ≤ l := (rl.mono (by norm_num) (by positivity)).1
  have hup2 : u ≤ (o + 1) * q * (1 + 1 / 2 ^ 21) := hu.2
  have hlen : o * q * (1 - 1 / 2 ^ 21) ≤ len := by
    have h1 : o * q * (1 - 1 / 2 ^ 21) ≤ o * q * 1 := by gcongr; norm_num
    linarith [show (o + 1) * q = o * q + q by ring]
  refine ⟨l, u, clampN A 0 (len - 1), clampN B (clampN A 0 (len - 1)) len, ?_, l0, hupos.le, ?_, ?_, ?_, ?_, ?_, ?_, ?_⟩
  · unfold thumbnailSpan
    rw [show (Fl.ofNat f32 len).div f32 (Fl.ofNat f32 newLen) = .fin r from er]
    dsimp only
    rw [el, eu, ua, ub]
  · unfold clampN; split_ifs <;> omega
  · unfold clampN; split_ifs <;> omega
  · unfold clampN; split_ifs <;> omega
  · unfold clampN; split_ifs <;> omega
  · generalize len / newLen = Q at hBA ⊢
    unfold clampN; split_ifs <;> omega
  · intro i hi
    have hi' : i < len ∧ (A ≤ i + 1 ∨ i + 1 = len) ∧ (i < B ∨ i ≤ A) := by
      revert hi; unfold clampN; split_ifs <;> omega
    obtain ⟨hil, h1, h2⟩ := hi'
    refine ⟨hil, ?_, ?_⟩
    · rcases h1 with h1 | h1
      · have : (A : ℚ) ≤ i + 1 := by exact_mod_cast h1
        linarith
      · have : (i : ℚ) + 1 = len := by exact_mod_cast h1
        linarith
    · rcases h2 with h2 | h2
      · have : (i : ℚ) + 1 ≤ B := by exact_mod_cast h2
        linarith
      · have : (i : ℚ) ≤ A := by exact_mod_cast h2
        linarith
  · intro hle hprod
    suffices hs : A < len → A < B by
      unfold clampN; split_ifs <;> omega
    intro hAl
    have hnl : newLen ≤ 2 ^ 20 := by omega
    have er' : r = f32.rnd q := by
      have : ratioF len newLen = .fin (f32.rnd q) := by
        unfold ratioF
        rw [ofNat32 (by omega), ofNat32 (by omega), fl_div _ hn.ne', ofRat32]
        rw [abs_of_nonneg hq0.le]
        linarith [show (2 : ℚ) ^ 20 ≤ 2 ^ 127 by norm_num]
      rw [er] at this
      exact Fl.fin.inj this
    rcases Nat.lt_or_eq_of_le hle with hlt | heq
    · have hq1 : 1 + 1 / newLen ≤ q := by
        have : (newLen : ℚ) + 1 ≤ len := by exact_mod_cast hlt
        rw [hq, le_div_iff₀ hn, add_mul, one_div, inv_mul_cancel₀ hn.ne']
        linarith
      have h1 := (abs_le.1 (rnd_err32 q)).1
      rw [abs_of_nonneg hq0.le, ← er'] at h1
      have h2 := (abs_le.1 (rnd_err32 (l + r))).1
      rw [abs_of_nonneg (by linarith [show (0 : ℚ) ≤ 1 / 2 ^ 34 by norm_num])] at h2
      have h3 : l + r ≤ 2 * len := by
        have := hsum.2
        have : (o + 1) * q * (1 + 12 / 2 ^ 25) ≤ len * 2 := by
          gcongr
          norm_num
        linarith
      have h4 : (1 : ℚ) / newLen * newLen = 1 := by field_simp
      have hpq : (len : ℚ) * newLen ≤ 2 ^ 21 := by exact_mod_cast hprod
      have hsm : q / 2 ^ 24 + 1 / 2 ^ 100 + ((l + r) / 2 ^ 24 + 1 / 2 ^ 100) < 1 / newLen := by
        rw [lt_div_iff₀ hn]
        have e1 : (q / 2 ^ 24 + 1 / 2 ^ 100 + ((l + r) / 2 ^ 24 + 1 / 2 ^ 100)) * newLen =
          q * newLen / 2 ^ 24 + 2 * newLen / 2 ^ 100 + (l + r) * newLen / 2 ^ 24 := by ring
        rw [e1, hqn]
        have : (l + r) * newLen ≤ 2 * len * newLen := by gcongr
        have : (newLen : ℚ) ≤ 2 ^ 20 := by exact_mod_cast hnl
        linarith
      have h5 : (A : ℚ) < u := by linarith
      have : (A : ℚ) < B := by linarith
      exact_mod_cast this
    · have hq1 : q = 1 := by rw [hq, heq, div_self]; linarith
      have hr1 : r = 1 := by rw [er', hq1]; simpa using rnd_nat32 (n := 1) (by norm_num)
      have hl1 : l = o := by
        rw [ofNat32 (by omega), fl_mul, hr1, mul_one, ofRat32, rnd_nat32 (by omega)] at el
        · exact (Fl.fin.inj el).symm
        · rw [abs_of_nonneg ho0]
          have : (o : ℚ) ≤ 2 ^ 20 := by exact_mod_cast (by omega : o ≤ 2 ^ 20)
          exact this.trans (by norm_num)
      have hu1 : u = o + 1 := by
        rw [hudef, hl1, hr1]
        have := rnd_nat32 (n := o + 1) (by omega)
        push_cast at this
        exact this
      have : (A : ℚ) < B := by
        have : ⌈l⌉ = o := by rw [hl1]; exact Int.ceil_natCast o
        rw [hAq, this]
        push_cast
        linarith
      exact_mod_cast this

end Verif
