import Verif.Model.FloatDyn
import Verif.Proofs.DynOps
import Verif.Proofs.FloatSigned

/-!
# Bit patterns of `f32`, and the sizes of results of `f32` operations (for C130)
-/

set_option exponentiation.threshold 600

namespace Verif
open GenericImageView GenericImage

/-- The value is one that an `f32` can hold. -/
def IsF32 : Fl → Prop
  | .fin q => f32.rnd q = q ∧ |q| < 2 ^ 128
  | _ => True

theorem magnitude32_spec {m k n : Nat} (hn : n = m * 2 ^ k) (hm : m < 2 ^ 24) (hlt : n < 2 ^ 277) :
    magnitude32 n < 255 * 2 ^ 23 ∧
    (if magnitude32 n / 2 ^ 23 = 0 then magnitude32 n % 2 ^ 23
      else (2 ^ 23 + magnitude32 n % 2 ^ 23) * 2 ^ (magnitude32 n / 2 ^ 23 - 1)) = n := by
  unfold magnitude32
  by_cases h : n < 2 ^ 23
  · rw [if_pos h]
    have h1 : n / 2 ^ 23 = 0 := Nat.div_eq_of_lt h
    rw [if_pos h1, Nat.mod_eq_of_lt h]
    exact ⟨by omega, rfl⟩
  · rw [if_neg h]
    have h0 : n ≠ 0 := by intro h'; rw [h'] at h; exact h (by norm_num)
    have l1 : 2 ^ n.log2 ≤ n := Nat.log2_self_le h0
    have l2 : n < 2 ^ (n.log2 + 1) := Nat.lt_log2_self
    have l3 : 23 ≤ n.log2 := (Nat.le_log2 h0).2 (by omega)
    have l4 : n.log2 < 277 := (Nat.log2_lt h0).2 hlt
    obtain ⟨e, he⟩ : ∃ e, n.log2 = e + 23 := ⟨n.log2 - 23, by omega⟩
    simp only [he, Nat.add_sub_cancel]
    rw [he] at l1 l2 l4
    have hdvd : 2 ^ e ∣ n := by
      rcases Nat.lt_or_ge k e with hk | hk
      · exfalso
        have a1 : n < 2 ^ 24 * 2 ^ k := by rw [hn]; exact Nat.mul_lt_mul_of_pos_right hm (by positivity)
        have a2 : 2 ^ 24 * 2 ^ k ≤ 2 ^ (e + 23) := by
          rw [← Nat.pow_add]; exact Nat.pow_le_pow_right (by norm_num) (by omega)
        omega
      · rw [hn]; exact (Nat.pow_dvd_pow 2 hk).mul_left m
    obtain ⟨q, hq⟩ := hdvd
    have hpe : 0 < 2 ^ e := by positivity
    have hdiv : n / 2 ^ e = q := by rw [hq, Nat.mul_div_cancel_left _ hpe]
    have q1 : 2 ^ 23 ≤ q := by
      refine (Nat.mul_le_mul_left_iff hpe).1 ?_
      rw [← hq, ← Nat.pow_add]; exact l1
    have q2 : q < 2 ^ 24 := by
      refine Nat.lt_of_mul_lt_mul_left (a := 2 ^ e) ?_
      rw [← hq, ← Nat.pow_add]; exact l2
    rw [hdiv]
    have b1 : (e * 2 ^ 23 + q) / 2 ^ 23 = e + 1 := by omega
    have b2 : (e * 2 ^ 23 + q) % 2 ^ 23 = q - 2 ^ 23 := by omega
    refine ⟨by omega, ?_⟩
    rw [b1, b2, if_neg (by omega), Nat.add_sub_cancel' q1, Nat.add_sub_cancel, hq, Nat.mul_comm]

/-- An `f32` is a whole multiple of `2^-149`, with at most 24 significant bits. -/
theorem f32_scaled {q : ℚ} (h : f32.rnd q = q) (hlt : |q| < 2 ^ 128) :
    ∃ m k : Nat, m < 2 ^ 24 ∧ m * 2 ^ k < 2 ^ 277 ∧ |q| * 2 ^ 149 = ((m * 2 ^ k : Nat) : ℚ) := by
  obtain ⟨m, e, h1, h2, h3⟩ := rnd_form q
  rw [h] at h1
  obtain ⟨k, hk⟩ : ∃ k : Nat, e + 149 = k := ⟨(e + 149).toNat, by omega⟩
  have key : |q| * 2 ^ 149 = ((m.natAbs * 2 ^ k : Nat) : ℚ) := by
    rw [h1, abs_mul, abs_of_pos (zpow_pos (by norm_num) e : (0 : ℚ) < 2 ^ e), mul_assoc]
    have : (2 : ℚ) ^ e * 2 ^ 149 = 2 ^ k := by
      rw [← zpow_natCast (2 : ℚ) k, ← hk, zpow_add₀ (by norm_num)]
      norm_num
    rw [this]
    push_cast
    rw [Nat.cast_natAbs]
    push_cast
    rfl
  rw [Int.abs_eq_natAbs] at h2
  refine ⟨m.natAbs, k, by omega, ?_, key⟩
  have : ((m.natAbs * 2 ^ k : Nat) : ℚ) < ((2 ^ 277 : Nat) : ℚ) := by
    rw [← key]
    push_cast
    calc |q| * 2 ^ 149 < 2 ^ 128 * 2 ^ 149 := by gcongr
      _ = 2 ^ 277 := by norm_num
  exact_mod_cast this

theorem toBits32_lt {x : Fl} (h : IsF32 x) : toBits32 x < 2 ^ 32 := by
  cases x with
  | nan => decide
  | inf s => cases s <;> decide
  | fin q =>
    obtain ⟨m, k, h1, h2, h3⟩ := f32_scaled h.1 h.2
    have := (magnitude32_spec rfl h1 h2).1
    simp only [toBits32, h3, Int.floor_natCast, Int.toNat_natCast]
    split <;> omega

theorem ofBits32_toBits32 {x : Fl} (h : IsF32 x) : ofBits32 (toBits32 x) = x := by
  cases x with
  | nan => decide +kernel
  | inf s => cases s <;> decide +kernel
  | fin q =>
    obtain ⟨m, k, h1, h2, h3⟩ := f32_scaled h.1 h.2
    obtain ⟨g1, g2⟩ := magnitude32_spec rfl h1 h2
    simp only [toBits32, h3, Int.floor_natCast, Int.toNat_natCast]
    generalize hM : magnitude32 (m * 2 ^ k) = M at g1 g2 ⊢
    have hq : |q| = ((m * 2 ^ k : Nat) : ℚ) / 2 ^ 149 := by rw [← h3]; field_simp
    by_cases hneg : q < 0
    · rw [if_pos hneg]
      have a1 : (2 ^ 31 + M) / 2 ^ 31 % 2 = 1 := by omega
      have a2 : (2 ^ 31 + M) / 2 ^ 23 % 256 = M / 2 ^ 23 := by omega
      have a3 : (2 ^ 31 + M) % 2 ^ 23 = M % 2 ^ 23 := by omega
      unfold ofBits32
      simp only [a1, a2, a3, decide_true, if_true]
      rw [if_neg (by omega), g2, ← hq, abs_of_neg hneg, neg_neg]
    · rw [if_neg hneg, Nat.zero_add]
      have a1 : ¬ M / 2 ^ 31 % 2 = 1 := by omega
      have a2 : M / 2 ^ 23 % 256 = M / 2 ^ 23 := by omega
      unfold ofBits32
      simp only [a1, a2, decide_false]
      rw [if_neg (by omega), g2, ← hq, abs_of_nonneg (not_lt.1 hneg)]
      simp

theorem ofBits32_isF32 (n : Nat) : IsF32 (ofBits32 n) := by
  unfold ofBits32
  simp only
  split
  · split <;> trivial
  · rename_i he
    have hm : n % 2 ^ 23 < 2 ^ 23 := Nat.mod_lt _ (by norm_num)
    have hE : n / 2 ^ 23 % 256 < 256 := Nat.mod_lt _ (by norm_num)
    generalize n % 2 ^ 23 = m at *
    generalize n / 2 ^ 23 % 256 = E at *
    have key : ∀ a k : Nat, a < 2 ^ 24 → k ≤ 253 → f32.rnd (((a * 2 ^ k : Nat) : ℚ) / 2 ^ 149) = ((a * 2 ^ k : Nat) : ℚ) / 2 ^ 149 ∧
        |((a * 2 ^ k : Nat) : ℚ) / 2 ^ 149| < 2 ^ 128 := by
      intro a k ha hk
      refine ⟨rnd_dyadic (a : ℤ) (k - 149) ?_ (by rw [abs_of_nonneg (by omega)]; exact_mod_cast ha) (by omega), ?_⟩
      · rw [zpow_sub₀ (by norm_num)]
        push_cast
        rw [zpow_natCast]
        norm_num
        ring
      · rw [abs_of_nonneg (by positivity), div_lt_iff₀ (by positivity)]
        have h1 : a * 2 ^ k < 2 ^ 24 * 2 ^ 253 :=
          Nat.lt_of_lt_of_le (Nat.mul_lt_mul_of_pos_right ha (by positivity)) (Nat.mul_le_mul_left _ (Nat.pow_le_pow_right (by norm_num) hk))
        have h2 : ((a * 2 ^ k : Nat) : ℚ) < ((2 ^ 24 * 2 ^ 253 : Nat) : ℚ) := by exact_mod_cast h1
        calc ((a * 2 ^ k : Nat) : ℚ) < ((2 ^ 24 * 2 ^ 253 : Nat) : ℚ) := h2
          _ = 2 ^ 128 * 2 ^ 149 := by norm_num
    have pos : ∀ q : ℚ, f32.rnd q = q ∧ |q| < 2 ^ 128 → ∀ s : Bool, IsF32 (.fin (if s then -q else q)) := by
      intro q hq s
      cases s
      · exact hq
      · refine ⟨?_, ?_⟩
        · simp only [if_true]
          rw [Fmt.rnd_neg, hq.1]
        · simp only [if_true, abs_neg]
          exact hq.2
    apply pos
    split
    · have := key m 0 (by omega) (by omega)
      simpa using this
    · exact key (2 ^ 23 + m) (E - 1) (by omega) (by omega)

theorem mod_mul_div (n : Nat) : n % 2 ^ 31 = n / 2 ^ 23 % 256 * 2 ^ 23 + n % 2 ^ 23 := by omega

/-- The magnitude of a pattern is found again. -/
theorem magnitude32_of {E m : Nat} (hE : E < 255) (hm : m < 2 ^ 23) :
    magnitude32 (if E = 0 then m else (2 ^ 23 + m) * 2 ^ (E - 1)) = E * 2 ^ 23 + m := by
  unfold magnitude32
  split
  · rename_i h
    subst h
    omega
  · rename_i h
    have hp : 0 < 2 ^ (E - 1) := by positivity
    have h1 : ¬ (2 ^ 23 + m) * 2 ^ (E - 1) < 2 ^ 23 := by
      have : (2 ^ 23 + m) * 1 ≤ (2 ^ 23 + m) * 2 ^ (E - 1) := Nat.mul_le_mul_left _ hp
      omega
    rw [if_neg h1]
    have hl : ((2 ^ 23 + m) * 2 ^ (E - 1)).log2 = 23 + (E - 1) := by
      rw [Nat.log2_eq_iff (by positivity)]
      constructor
      · rw [Nat.pow_add]; exact Nat.mul_le_mul_right _ (by omega)
      · rw [show 23 + (E - 1) + 1 = 24 + (E - 1) by omega, Nat.pow_add]; exact Nat.mul_lt_mul_of_pos_right (by omega) hp
    simp only [hl, Nat.add_sub_cancel_left]
    rw [Nat.mul_div_cancel _ hp]
    have : E = E - 1 + 1 := by omega
    generalize E - 1 = e at this ⊢
    subst this
    omega

/-- A pattern that is neither a NaN nor the negative zero is found again from its value. -/
theorem toBits32_ofBits32 {n : Nat} (hn : n < 2 ^ 32) (h1 : ofBits32 n ≠ .nan) (h2 : n ≠ 2 ^ 31) : toBits32 (ofBits32 n) = n := by
  have hm : n % 2 ^ 23 < 2 ^ 23 := Nat.mod_lt _ (by norm_num)
  have hE : n / 2 ^ 23 % 256 < 256 := Nat.mod_lt _ (by norm_num)
  have hsplit : n = n / 2 ^ 31 % 2 * 2 ^ 31 + (n / 2 ^ 23 % 256 * 2 ^ 23 + n % 2 ^ 23) := by omega
  unfold ofBits32 at h1 ⊢
  simp only at h1 ⊢
  generalize n % 2 ^ 23 = m at *
  generalize n / 2 ^ 23 % 256 = E at *
  have hs : n / 2 ^ 31 % 2 < 2 := Nat.mod_lt _ (by norm_num)
  generalize n / 2 ^ 31 % 2 = s at *
  by_cases he : E = 255
  · rw [if_pos he] at h1 ⊢
    by_cases h0 : m = 0
    · rw [if_pos h0]
      rcases Nat.lt_or_ge s 1 with h | h
      · have : s = 0 := by omega
        subst this
        simp only [toBits32]
        norm_num
        omega
      · have : s = 1 := by omega
        subst this
        simp only [toBits32]
        norm_num
        omega
    · rw [if_neg h0] at h1
      exact absurd rfl h1
  · rw [if_neg he]
    have hmag := magnitude32_of (E := E) (m := m) (by omega) hm
    generalize ha : (if E = 0 then m else (2 ^ 23 + m) * 2 ^ (E - 1)) = a at hmag ⊢
    have hfl : ∀ q : ℚ, |q| = (a : ℚ) / 2 ^ 149 → ⌊|q| * 2 ^ 149⌋.toNat = a := by
      intro q hq
      rw [hq, div_mul_cancel₀ _ (by positivity), Int.floor_natCast, Int.toNat_natCast]
    have hab : |(a : ℚ) / 2 ^ 149| = (a : ℚ) / 2 ^ 149 := abs_of_nonneg (by positivity)
    rcases Nat.lt_or_ge s 1 with h | h
    · have : s = 0 := by omega
      subst this
      simp only [toBits32]
      norm_num
      rw [if_neg (by
        have : (0 : ℚ) ≤ (a : ℚ) / 2 ^ 149 := by positivity
        norm_num at this ⊢
        linarith)]
      have := hfl ((a : ℚ) / 2 ^ 149) hab
      norm_num at this
      rw [this, hmag]
      omega
    · have : s = 1 := by omega
      subst this
      have hpos : 0 < a := by
        rcases Nat.eq_zero_or_pos a with h0 | h0
        · exfalso
          rw [h0] at hmag
          have : magnitude32 0 = 0 := by decide
          omega
        · exact h0
      have hneg : -((a : ℚ) / 2 ^ 149) < 0 := by
        have : (0 : ℚ) < a := by exact_mod_cast hpos
        have : (0 : ℚ) < (a : ℚ) / 2 ^ 149 := by positivity
        linarith
      simp only [toBits32, decide_true, if_true]
      rw [if_pos hneg, hfl _ (by rw [abs_neg]; exact hab), hmag]
      omega

/-! ## Sizes -/

section
variable {ch : Nat} {I : Type} [GenericImageView I (Pix Fl ch)]

theorem unsharpenF_post (hc : ch < 256) (L : Libm) (image : I) (hw : widthOf image < 2 ^ 32) (hh : heightOf image < 2 ^ 32) (sigma : Fl)
    (t : Int) : Post (HasSize (widthOf image) (heightOf image)) (unsharpenF L image sigma t) := by
  unfold unsharpenF
  refine (blur_post hc L _ image hw hh sigma).bind fun tmp ht => ?_
  exact forRange_post _ _ _ ht fun i s _ hs => forRange_post _ _ _ hs fun x s _ hs =>
    Post.any fun _ => Post.any fun _ => Post.any fun _ => Post.any fun _ => put_post hs _ _ _

theorem brightenF_post (hc : ch < 256) (a : Nat) (image : I) (hw : widthOf image < 2 ^ 32) (hh : heightOf image < 2 ^ 32) (v : Int) :
    Post (HasSize (widthOf image) (heightOf image)) (brightenF a v image) := by
  unfold brightenF
  exact (new_post hc _ _ _ hw hh).bind fun out ho => overPixels_post _ _ ho

theorem huerotateF_post (hc : ch < 256) (trig : Trig) (image : I) (hw : widthOf image < 2 ^ 32) (hh : heightOf image < 2 ^ 32) (v : Int) :
    Post (HasSize (widthOf image) (heightOf image)) (huerotateF trig v image) := by
  unfold huerotateF
  refine (new_post hc _ _ _ hw hh).bind fun out ho => ?_
  exact forRange_post _ _ _ ho fun i s _ hs => forRange_post _ _ _ hs fun x s _ hs => Post.any fun _ => put_post hs _ _ _

theorem thumbnailF_post (hc : ch < 256) (image : I) (nw nh : Nat) (hw : nw < 2 ^ 32) (hh : nh < 2 ^ 32) :
    Post (HasSize nw nh) (thumbnailF image nw nh) := by
  unfold thumbnailF
  refine (new_post hc _ _ _ hw hh).bind fun out ho => ?_
  split
  · exact .ok ho
  · exact forRange_post _ _ _ ho fun i s _ hs => forRange_post _ _ _ hs fun x s _ hs => Post.any fun _ => put_post hs _ _ _

end

/-! ## Patterns and values of a buffer -/

variable {ch : Nat}

theorem decodeBuf_inv {b : ImageBuffer Nat ch} (h : b.Inv) : (decodeBuf b).Inv :=
  ⟨h.w32, h.h32, by simpa [decodeBuf] using h.len64, by simpa [decodeBuf] using h.fits⟩

theorem encodeBuf_inv {b : ImageBuffer Fl ch} (h : b.Inv) : (encodeBuf b).Inv :=
  ⟨h.w32, h.h32, by simpa [encodeBuf] using h.len64, by simpa [encodeBuf] using h.fits⟩

theorem decodeBuf_getPixel {b : ImageBuffer Nat ch} (h : b.Inv) {x y : Nat} (hx : x < b.width) (hy : y < b.height) {p : Pix Nat ch}
    (hp : b.getPixel x y = .ok p) : (decodeBuf b).getPixel x y = .ok fun k => ofBits32 (p k) := by
  rw [ImageBuffer.getPixel_eq_ok h hx hy] at hp
  rw [ImageBuffer.getPixel_eq_ok (decodeBuf_inv h) hx hy]
  intro c
  have := hp c
  simp only [decodeBuf, List.getElem?_map]
  rw [this]; rfl

theorem encodeBuf_getPixel {b : ImageBuffer Fl ch} (h : b.Inv) {x y : Nat} (hx : x < b.width) (hy : y < b.height) {p : Pix Fl ch}
    (hp : b.getPixel x y = .ok p) : (encodeBuf b).getPixel x y = .ok fun k => toBits32 (p k) := by
  rw [ImageBuffer.getPixel_eq_ok h hx hy] at hp
  rw [ImageBuffer.getPixel_eq_ok (encodeBuf_inv h) hx hy]
  intro c
  have := hp c
  simp only [encodeBuf, List.getElem?_map]
  rw [this]; rfl

theorem onFloat_post (L : Libm) (trig : Trig) (op : BufOp) (m : PixelType) (b : ImageBuffer Fl m.ch) (hi : b.Inv) (w h : Nat)
    (hs : match op with | .resize nw nh _ => w = nw ∧ h = nh | .thumbnail nw nh => w = nw ∧ h = nh | _ => w = b.width ∧ h = b.height)
    (hw : w < 2 ^ 32) (hh : h < 2 ^ 32) : Post (HasSize w h) (op.onFloat L trig m b) := by
  have hc : m.ch < 256 := by cases m <;> decide
  cases op <;> obtain ⟨rfl, rfl⟩ := hs
  · exact resize_post hc _ _ b hi _ _ hw hh _
  · exact thumbnailF_post hc b _ _ hw hh
  · exact blur_post hc _ _ b hw hh _
  · exact fastBlur_post hc _ _ b hi _
  · exact unsharpenF_post hc _ b hw hh _ _
  · exact filter3x3_post hc _ b hw hh _
  · exact contrast_post hc _ b hw hh _
  · exact brightenF_post hc _ b hw hh _
  · exact huerotateF_post hc _ b hw hh _

end Verif
