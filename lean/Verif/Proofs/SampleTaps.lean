import Verif.Proofs.Sample
import Verif.Spec.Sample

/-!
# The positions at which an axis is sampled
-/

namespace Verif

/-- The ratio of the lengths, as a float. -/
def ratioF (len newLen : Nat) : Fl := (Fl.ofNat f32 len).div f32 (Fl.ofNat f32 newLen)

/-- The centre of output index `o` in input coordinates, as a float. -/
def inputF (len newLen o : Nat) : Fl := ((Fl.ofNat f32 o).add f32 (.fin (1 / 2))).mul f32 (ratioF len newLen)

theorem ratio_rel {len newLen : Nat} (h0 : 0 < len) (h : len < 2 ^ 32) (h0' : 0 < newLen) (h' : newLen < 2 ^ 32) :
    ∃ r, ratioF len newLen = .fin r ∧ Rel (13 / 2 ^ 26) r (len / newLen) ∧ f32.rnd r = r ∧ 1 / 2 ^ 34 ≤ r ∧
      r ≤ 2 ^ 33 := by
  obtain ⟨a, ea, ra, -⟩ := ofNat_rel h0 h
  obtain ⟨b, eb, rb, -⟩ := ofNat_rel h0' h'
  have hl : (1 : ℚ) ≤ len := by exact_mod_cast h0
  have hn : (1 : ℚ) ≤ newLen := by exact_mod_cast h0'
  have hl' : (len : ℚ) ≤ 2 ^ 32 := by exact_mod_cast h.le
  have hn' : (newLen : ℚ) ≤ 2 ^ 32 := by exact_mod_cast h'.le
  have hb := rb.pos (by norm_num) (by linarith)
  have hq0 : (0 : ℚ) < (len : ℚ) / newLen := by positivity
  have hlo : (1 : ℚ) / 2 ^ 32 ≤ (len : ℚ) / newLen := by
    rw [div_le_div_iff₀ (by norm_num) (by linarith)]; nlinarith
  have hhi : (len : ℚ) / newLen ≤ 2 ^ 32 := by
    rw [div_le_iff₀ (by linarith)]; nlinarith
  have hd := (ra.div rb (by norm_num) (by norm_num) (by norm_num) (by linarith) (by linarith)).mono
    (e' := 17 / 2 ^ 27) (by norm_num) hq0.le
  have hqlo : (1 : ℚ) / 2 ^ 33 ≤ a / b := by
    have := hd.1
    have : (len : ℚ) / newLen * (1 / 2) ≤ len / newLen * (1 - 17 / 2 ^ 27) := by gcongr; norm_num
    have : (1 : ℚ) / 2 ^ 33 = 1 / 2 ^ 32 * (1 / 2) := by norm_num
    linarith
  have hqhi : a / b ≤ 2 ^ 33 := by
    have := hd.2
    have : (len : ℚ) / newLen * (1 + 17 / 2 ^ 27) ≤ len / newLen * 2 := by gcongr; norm_num
    linarith
  have hr := (hd.rnd (by norm_num) hq0.le (le_trans (by norm_num) hqlo)).mono (e' := 13 / 2 ^ 26) (by norm_num) hq0.le
  have hle : f32.rnd (a / b) ≤ 2 ^ 33 := by
    have h1 := f32.rnd_mono' (by decide) hqhi
    rwa [rnd_dyadic 1 33 (by norm_num : (2 : ℚ) ^ 33 = _) (by norm_num) (by norm_num)] at h1
  have hge : 1 / 2 ^ 34 ≤ f32.rnd (a / b) := by
    have := hr.1
    have : (len : ℚ) / newLen * (1 / 2) ≤ len / newLen * (1 - 13 / 2 ^ 26) := by gcongr; norm_num
    have : (1 : ℚ) / 2 ^ 34 ≤ 1 / 2 ^ 32 * (1 / 2) := by norm_num
    linarith
  refine ⟨f32.rnd (a / b), ?_, hr, rnd_idem _, hge, hle⟩
  unfold ratioF
  rw [ea, eb]
  show (if b = 0 then _ else f32.ofRat (a / b)) = _
  rw [if_neg hb.ne']
  refine ofRat32 ?_
  rw [abs_of_nonneg (le_trans (by norm_num) hqlo)]
  exact hqhi.trans (by norm_num)

theorem input_rel {len newLen o : Nat} (h0 : 0 < len) (h : len < 2 ^ 32) (ho : o < newLen) (h' : newLen < 2 ^ 32) :
    ∃ x, inputF len newLen o = .fin x ∧ Rel (1 / 2 ^ 21) x (centre len newLen o) ∧ f32.rnd x = x ∧ 0 < x ∧
      x ≤ 2 ^ 33 := by
  obtain ⟨r, er, rr, -, rlo, rhi⟩ := ratio_rel h0 h (by omega) h'
  have hl : (1 : ℚ) ≤ len := by exact_mod_cast h0
  have hn : (0 : ℚ) < newLen := by exact_mod_cast (by omega : 0 < newLen)
  have hl' : (len : ℚ) ≤ 2 ^ 32 := by exact_mod_cast h.le
  have hq0 : (0 : ℚ) < (len : ℚ) / newLen := by positivity
  have hoq : (o : ℚ) + 1 / 2 ≤ newLen := by
    have : (o : ℚ) + 1 ≤ newLen := by exact_mod_cast ho
    linarith
  have hc : centre len newLen o ≤ len := by
    unfold centre
    calc ((o : ℚ) + 1 / 2) * (len / newLen) ≤ newLen * (len / newLen) := by gcongr
      _ = len := by field_simp
  have hc0 : 0 < centre len newLen o := by unfold centre; positivity
  -- the half-integer position
  obtain ⟨p, ep, rp, plo, phi⟩ : ∃ p, (Fl.ofNat f32 o).add f32 (.fin (1 / 2)) = .fin p ∧ Rel (9 / 2 ^ 26) p (o + 1 / 2) ∧
      1 / 4 ≤ p ∧ p ≤ 2 ^ 33 := by
    have hfin : Fl.ofNat f32 o = .fin (f32.rnd o) := by
      unfold Fl.ofNat
      refine ofRat32 ?_
      rw [abs_of_nonneg (by positivity)]
      have : (o : ℚ) ≤ 2 ^ 32 := by exact_mod_cast (by omega : o ≤ 2 ^ 32)
      exact this.trans (by norm_num)
    have hro : |f32.rnd (o : ℚ) - o| ≤ (o : ℚ) / 2 ^ 24 := by
      refine rnd_near (F := f32) (Or.inl rfl) ?_
      rcases Nat.eq_zero_or_pos o with rfl | h
      · left; norm_num
      · right
        have : (1 : ℚ) ≤ o := by exact_mod_cast h
        linarith [show (1 : ℚ) / 2 ^ 100 ≤ 1 by norm_num]
    rw [abs_le] at hro
    have ho0 : (0 : ℚ) ≤ o := by positivity
    have hrel : Rel (1 / 2 ^ 24) (f32.rnd (o : ℚ) + 1 / 2) (o + 1 / 2) := by
      constructor
      · linarith [show ((o : ℚ) + 1 / 2) * (1 - 1 / 2 ^ 24) = o + 1 / 2 - o / 2 ^ 24 - 1 / 2 / 2 ^ 24 by ring,
          show (0 : ℚ) < 1 / 2 / 2 ^ 24 by norm_num]
      · linarith [show ((o : ℚ) + 1 / 2) * (1 + 1 / 2 ^ 24) = o + 1 / 2 + o / 2 ^ 24 + 1 / 2 / 2 ^ 24 by ring,
          show (0 : ℚ) < 1 / 2 / 2 ^ 24 by norm_num]
    have hr0 := f32.rnd_nonneg ho0
    have hr := (hrel.rnd (by norm_num) (by positivity) (by linarith [show (1 : ℚ) / 2 ^ 100 ≤ 1 / 2 by norm_num])).mono
      (e' := 9 / 2 ^ 26) (by norm_num) (by positivity)
    have ho' : (o : ℚ) ≤ 2 ^ 32 := by exact_mod_cast (by omega : o ≤ 2 ^ 32)
    refine ⟨f32.rnd (f32.rnd o + 1 / 2), ?_, hr, ?_, ?_⟩
    · rw [hfin]
      show f32.ofRat _ = _
      refine ofRat32 ?_
      rw [abs_of_nonneg (by linarith)]
      have : (o : ℚ) / 2 ^ 24 ≤ o := by
        rw [div_le_iff₀ (by norm_num)]; nlinarith
      refine le_trans (b := (2 : ℚ) ^ 34) ?_ (by norm_num)
      linarith [show (2 : ℚ) ^ 34 = 4 * 2 ^ 32 by norm_num]
    · have := hr.1
      have : ((o : ℚ) + 1 / 2) * (1 / 2) ≤ (o + 1 / 2) * (1 - 9 / 2 ^ 26) := by gcongr; norm_num
      linarith
    · have := hr.2
      have : ((o : ℚ) + 1 / 2) * (1 + 9 / 2 ^ 26) ≤ (o + 1 / 2) * (3 / 2) := by gcongr; norm_num
      linarith [show (2 : ℚ) ^ 33 = 2 * 2 ^ 32 by norm_num]
  have hm := (rp.mul rr (by norm_num) (by norm_num) (by norm_num) (by norm_num) (by positivity) hq0).mono
    (e' := 23 / 2 ^ 26) (by norm_num) (by positivity)
  have hlo : 1 / 2 ^ 36 ≤ p * r := by
    calc (1 : ℚ) / 2 ^ 36 = 1 / 4 * (1 / 2 ^ 34) := by norm_num
      _ ≤ p * r := by gcongr
  have hr := (hm.rnd (by norm_num) (by positivity) (le_trans (by norm_num) hlo)).mono (e' := 1 / 2 ^ 21) (by norm_num)
    (by positivity)
  have hpos := hr.pos (by norm_num) hc0
  refine ⟨f32.rnd (p * r), ?_, hr, rnd_idem _, hpos, ?_⟩
  · unfold inputF
    rw [ep, er]
    show f32.ofRat _ = _
    refine ofRat32 ?_
    rw [abs_of_nonneg (by positivity)]
    calc p * r ≤ 2 ^ 33 * 2 ^ 33 := by gcongr
      _ ≤ 2 ^ 127 := by norm_num
  · have h1 := hr.2
    change _ ≤ centre len newLen o * _ at h1
    have : centre len newLen o * (1 + 1 / 2 ^ 21) ≤ 2 ^ 32 * 2 := by gcongr; linarith; norm_num
    linarith [show (2 : ℚ) ^ 33 = 2 ^ 32 * 2 by norm_num]

/-! ## Nearest neighbour -/

theorem toISat_int {q : ℚ} {n : ℤ} (hq : q = n) (h1 : -2 ^ 63 ≤ n) (h2 : n ≤ 2 ^ 63 - 1) : (Fl.fin q).toISat 64 = n := by
  subst hq
  unfold Fl.toISat
  have : (if (0 : ℚ) ≤ n then ⌊(n : ℚ)⌋ else ⌈(n : ℚ)⌉) = n := by split_ifs <;> simp
  simp only [this]
  omega

/-- With the box filter of support zero there is one tap of weight one, at the integer part of the position. -/
theorem taps_nearest {len newLen o : Nat} (h0 : 0 < len) (h : len < 2 ^ 32) (ho : o < newLen) (h' : newLen < 2 ^ 32)
    {x : ℚ} (hx : inputF len newLen o = .fin x) :
    sampleTaps ⟨boxKernel, .fin 0⟩ len newLen o = (min ⌊x⌋.toNat (len - 1), [.fin 1]) := by
  obtain ⟨r, er, -, -, rlo, rhi⟩ := ratio_rel h0 h (by omega : 0 < newLen) h'
  obtain ⟨x', ex, -, xi, xpos, xhi⟩ := input_rel h0 h ho h'
  rw [hx] at ex
  obtain rfl := Fl.fin.inj ex
  have er' : (Fl.ofNat f32 len).div f32 (Fl.ofNat f32 newLen) = .fin r := er
  have hx' : ((Fl.ofNat f32 o).add f32 (.fin (1 / 2))).mul f32 (.fin r) = .fin x := by rw [← er']; exact hx
  have hs : (if (Fl.fin r).lt (.fin 1) then Fl.fin 1 else Fl.fin r) = .fin (if r < 1 then 1 else r) := by
    unfold Fl.lt
    by_cases h : r < 1
    · simp [h]
    · simp [h]
  have hfl : 0 ≤ ⌊x⌋ := Int.floor_nonneg.2 xpos.le
  have hfl' : ⌊x⌋ ≤ 2 ^ 33 := by
    have : (⌊x⌋ : ℚ) ≤ 2 ^ 33 := (Int.floor_le x).trans xhi
    exact_mod_cast this
  have hce : ⌈x⌉ ≤ ⌊x⌋ + 1 := Int.ceil_le_floor_add_one x
  have hce' : ⌊x⌋ ≤ ⌈x⌉ := Int.floor_le_ceil x
  have hmul : (Fl.fin 0).mul f32 (.fin (if r < 1 then 1 else r)) = .fin 0 := by
    show f32.ofRat _ = _
    rw [zero_mul, ofRat32 (by norm_num)]; simp
  have hsub : (Fl.fin x).sub f32 (.fin 0) = .fin x := by
    show f32.ofRat (x + -0) = _
    rw [neg_zero, add_zero, ofRat32, xi]
    rw [abs_of_pos xpos]; exact xhi.trans (by norm_num)
  have hadd : (Fl.fin x).add f32 (.fin 0) = .fin x := by
    show f32.ofRat (x + 0) = _
    rw [add_zero, ofRat32, xi]
    rw [abs_of_pos xpos]; exact xhi.trans (by norm_num)
  have hl : (clampZ ((Fl.fin x).floor.toISat 64) 0 ((len : Int) - 1) % 2 ^ 32).toNat = min ⌊x⌋.toNat (len - 1) := by
    rw [show (Fl.fin x).floor = .fin ⌊x⌋ from rfl, toISat_int rfl (by omega) (by omega)]
    unfold clampZ
    split_ifs <;> omega
  have hr : (clampZ ((Fl.fin x).ceil.toISat 64) (((min ⌊x⌋.toNat (len - 1) : ℕ) : Int) + 1) len % 2 ^ 32).toNat =
      min ⌊x⌋.toNat (len - 1) + 1 := by
    rw [show (Fl.fin x).ceil = .fin ⌈x⌉ from rfl, toISat_int rfl (by omega) (by omega)]
    unfold clampZ
    split_ifs <;> omega
  unfold sampleTaps
  simp only [er', hs, hx', hmul, hsub, hadd, hl, hr]
  rw [show min ⌊x⌋.toNat (len - 1) + 1 - min ⌊x⌋.toNat (len - 1) = 1 by omega]
  have e1 : (Fl.fin 0).add f32 (.fin 1) = .fin 1 := by
    show f32.ofRat _ = _
    rw [ofRat32 (by norm_num), show (0 : ℚ) + 1 = ((1 : ℕ) : ℚ) by norm_num, rnd_nat32 (by norm_num)]
    norm_num
  have e2 : (Fl.fin 1).div f32 (.fin 1) = .fin 1 := by
    rw [fl_div _ (by norm_num), ofRat32 (by norm_num), show (1 : ℚ) / 1 = ((1 : ℕ) : ℚ) by norm_num, rnd_nat32 (by norm_num)]
    norm_num
  simp [boxKernel, e1, e2]

/-- The position is exact when an axis shrinks by an integer factor. -/
theorem input_exact {k newLen o : Nat} (hk : 0 < k) (ho : o < newLen) (h : k * newLen ≤ 2 ^ 23) :
    inputF (k * newLen) newLen o = .fin ((o + 1 / 2) * k) := by
  have hn : (0 : ℚ) < newLen := by exact_mod_cast (by omega : 0 < newLen)
  have hkl : k ≤ 2 ^ 23 := le_trans (Nat.le_mul_of_pos_right k (by omega)) h
  have hnl : newLen ≤ 2 ^ 23 := le_trans (Nat.le_mul_of_pos_left newLen hk) h
  have hkq : (k : ℚ) ≤ 2 ^ 23 := by exact_mod_cast hkl
  have hoq : (o : ℚ) ≤ 2 ^ 23 := by exact_mod_cast (by omega : o ≤ 2 ^ 23)
  have er : ratioF (k * newLen) newLen = .fin k := by
    unfold ratioF
    rw [ofNat32 (by omega), ofNat32 (by omega), fl_div _ hn.ne', Nat.cast_mul, mul_div_assoc, div_self hn.ne', mul_one,
      ofRat32, rnd_nat32 (by omega)]
    rw [abs_of_nonneg (by positivity)]; exact hkq.trans (by norm_num)
  unfold inputF
  rw [er, ofNat32 (by omega), fl_add, ofRat32, rnd_half (by omega), fl_mul, ofRat32,
    rnd_dyadic ((2 * o + 1) * k : ℤ) (-1) (by push_cast; rw [zpow_neg_one]; ring)]
  · rw [abs_of_nonneg (by positivity)]
    have : (2 * o + 1) * k < 2 ^ 24 := by
      have : (2 * o + 1) * k < (2 * newLen) * k := Nat.mul_lt_mul_of_pos_right (by omega) hk
      have : 2 * newLen * k = 2 * (k * newLen) := by ring
      omega
    exact_mod_cast this
  · norm_num
  · rw [abs_of_nonneg (by positivity)]
    calc ((o : ℚ) + 1 / 2) * k ≤ (2 ^ 23 + 1 / 2) * 2 ^ 23 := by gcongr
      _ ≤ 2 ^ 127 := by norm_num
  · rw [abs_of_nonneg (by positivity)]
    calc ((o : ℚ) + 1 / 2) ≤ (2 ^ 23 + 1 / 2) := by gcongr
      _ ≤ 2 ^ 127 := by norm_num

/-- A single tap of weight one keeps an integer. -/
theorem dotF_one {v : Nat → Fl} {n : Nat} (hn : n ≤ 2 ^ 24) (hv : v 0 = .fin n) : dotF [.fin 1] v = .fin n := by
  have hb : |(n : ℚ)| ≤ 2 ^ 127 := by
    rw [abs_of_nonneg (by positivity)]
    calc (n : ℚ) ≤ 2 ^ 24 := by exact_mod_cast hn
      _ ≤ 2 ^ 127 := by norm_num
  have h1 : (v 0).mul f32 (.fin 1) = .fin n := by
    rw [hv]
    show f32.ofRat _ = _
    rw [mul_one, ofRat32 hb, rnd_nat32 hn]
  have h2 : (Fl.fin 0).add f32 (.fin n) = .fin n := by
    show f32.ofRat _ = _
    rw [zero_add, ofRat32 hb, rnd_nat32 hn]
  unfold dotF
  simp [h1, h2]

end Verif
