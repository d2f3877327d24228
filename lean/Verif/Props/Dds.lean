import Verif.Proofs.Dxt
import Verif.Proofs.Trunc
import Verif.Spec.Dds
import Verif.Proofs.Outcome
import Verif.Props.HdrTotal
import Mathlib.Tactic.Linarith
import Mathlib.Tactic.Ring
import Mathlib.Tactic.NormNum
import Mathlib.Tactic.IntervalCases
import Mathlib.Data.Nat.Cast.Order.Field
import Mathlib.Tactic.FieldSimp

/-!
# S3 texture compression and DDS files (C48, C71, C54)
-/

namespace Verif
namespace Dxt

open S3tc

/-! ## Accuracy of the pixels of a block -/

theorem floor_near (p q : Nat) (hq : 0 < q) : (((p / q : Nat) : ℚ) ≤ p / q) ∧ ((p : ℚ) / q - 1 < ((p / q : Nat) : ℚ)) := by
  have hq' : (0 : ℚ) < q := by exact_mod_cast hq
  refine ⟨Nat.cast_div_le, ?_⟩
  rw [sub_lt_iff_lt_add, div_lt_iff₀ hq']
  have := Nat.lt_div_mul_add (a := p) hq
  have h2 : p < (p / q + 1) * q := by rw [Nat.add_mul, Nat.one_mul]; omega
  exact_mod_cast h2

theorem near_unorm {n k m : Nat} (hm : (m : ℚ) = 2 ^ n - 1) (hm' : 0 < m) (hk : k ≤ m) :
    ((UInt8.ofNat (k * 255 / m)).toNat : ℚ) ≤ unorm n k ∧ unorm n k - 1 < ((UInt8.ofNat (k * 255 / m)).toNat : ℚ) := by
  have hle : k * 255 / m ≤ 255 := by
    rw [Nat.div_le_iff_le_mul_add_pred hm']
    have := Nat.mul_le_mul_right 255 hk
    rw [Nat.mul_comm m] at this; omega
  have := floor_near (k * 255) m hm'
  rw [UInt8.toNat_ofNat', Nat.mod_eq_of_lt (by omega)]
  unfold unorm
  rw [← hm]
  push_cast at this
  exact this

/-- The bytes of a 5:6:5 colour are the exact values rounded down. -/
theorem near565 {v c : Nat} (hv : v < 65536) (hc : c < 3) :
    ∃ a : UInt8, (enc565 v)[c]? = some a ∧ (a.toNat : ℚ) ≤ rgb565 v c ∧ rgb565 v c - 1 < (a.toNat : ℚ) := by
  have : c = 0 ∨ c = 1 ∨ c = 2 := by omega
  rcases this with rfl | rfl | rfl
  · refine ⟨_, rfl, ?_⟩
    have h : v / 2 ^ 11 % 32 = v / 2048 := by omega
    rw [h]
    exact near_unorm (n := 5) (by norm_num) (by decide) (by omega)
  · refine ⟨_, rfl, ?_⟩
    exact near_unorm (n := 6) (by norm_num) (by decide) (by omega)
  · refine ⟨_, rfl, ?_⟩
    exact near_unorm (n := 5) (by norm_num) (by decide) (by omega)

theorem third_near {a b : UInt8} {e0 e1 : ℚ} (ha : (a.toNat : ℚ) ≤ e0) (ha' : e0 - 1 < a.toNat) (hb : (b.toNat : ℚ) ≤ e1)
    (hb' : e1 - 1 < b.toNat) :
    |((UInt8.ofNat ((a.toNat * 2 + b.toNat + 1) / 3)).toNat : ℚ) - (2 * e0 + e1) / 3| < 4 / 3 := by
  have h1 := a.toNat_lt
  have h2 := b.toNat_lt
  rw [UInt8.toNat_ofNat', Nat.mod_eq_of_lt (by omega)]
  generalize hm : (a.toNat * 2 + b.toNat + 1) / 3 = m
  have h3 : 3 * m ≤ a.toNat * 2 + b.toNat + 1 := by omega
  have h4 : a.toNat * 2 + b.toNat ≤ 3 * m + 1 := by omega
  have h3' : (3 : ℚ) * m ≤ a.toNat * 2 + b.toNat + 1 := by exact_mod_cast h3
  have h4' : (a.toNat : ℚ) * 2 + b.toNat ≤ 3 * m + 1 := by exact_mod_cast h4
  rw [abs_lt]
  constructor <;> linarith

theorem half_near {a b : UInt8} {e0 e1 : ℚ} (ha : (a.toNat : ℚ) ≤ e0) (ha' : e0 - 1 < a.toNat) (hb : (b.toNat : ℚ) ≤ e1)
    (hb' : e1 - 1 < b.toNat) :
    |((UInt8.ofNat ((a.toNat + b.toNat + 1) / 2)).toNat : ℚ) - (e0 + e1) / 2| < 4 / 3 := by
  have h1 := a.toNat_lt
  have h2 := b.toNat_lt
  rw [UInt8.toNat_ofNat', Nat.mod_eq_of_lt (by omega)]
  generalize hm : (a.toNat + b.toNat + 1) / 2 = m
  have h3 : 2 * m ≤ a.toNat + b.toNat + 1 := by omega
  have h4 : a.toNat + b.toNat ≤ 2 * m := by omega
  have h3' : (2 : ℚ) * m ≤ a.toNat + b.toNat + 1 := by exact_mod_cast h3
  have h4' : (a.toNat : ℚ) + b.toNat ≤ 2 * m := by exact_mod_cast h4
  rw [abs_lt]
  constructor <;> linarith

theorem len8 {s : List UInt8} (h : s.length = 8) :
    ∃ a b c d e f g i, s = [a, b, c, d, e, f, g, i] := by
  match s, h with
  | [a, b, c, d, e, f, g, i], _ => exact ⟨a, b, c, d, e, f, g, i, rfl⟩

theorem endpoint_eq {s : List UInt8} (h : s.length = 8) :
    leNat (s.take 2) = endpoint s 0 ∧ leNat ((s.drop 2).take 2) = endpoint s 1 ∧ endpoint s 0 < 65536 ∧ endpoint s 1 < 65536 := by
  obtain ⟨a, b, c, d, e, f, g, i, rfl⟩ := len8 h
  have := a.toNat_lt
  have := b.toNat_lt
  have := c.toNat_lt
  have := d.toNat_lt
  refine ⟨by simp [leNat, endpoint, byteAt], by simp [leNat, endpoint, byteAt], ?_, ?_⟩
  · simp [endpoint, byteAt]; omega
  · simp [endpoint, byteAt]; omega

theorem code_eq {s : List UInt8} (h : s.length = 8) {px py : Nat} (hx : px < 4) (hy : py < 4) :
    leNat (s.drop 4) / 2 ^ ((4 * py + px) * 2) % 4 = code s px py := by
  obtain ⟨a, b, c, d, e, f, g, i, rfl⟩ := len8 h
  have he := e.toNat_lt
  have hf := f.toNat_lt
  have hg := g.toNat_lt
  have hi := i.toNat_lt
  have h1 : py = 0 ∨ py = 1 ∨ py = 2 ∨ py = 3 := by omega
  have h2 : px = 0 ∨ px = 1 ∨ px = 2 ∨ px = 3 := by omega
  rcases h1 with rfl | rfl | rfl | rfl <;> rcases h2 with rfl | rfl | rfl | rfl <;>
    simp only [code, byteAt, List.drop_succ_cons, List.drop_zero, leNat, List.getD_cons_succ, List.getD_cons_zero, Nat.reduceAdd,
      Nat.reduceMul, Nat.reducePow] <;> omega

theorem ofNat_toNat {k : Nat} (h : k < 256) : (UInt8.ofNat k).toNat = k := by
  rw [UInt8.toNat_ofNat', Nat.mod_eq_of_lt h]

/-- The bytes of a pixel of a colour block are within 4/3 of the exact colour. -/
theorem colorOf_near {s : List UInt8} (h : s.length = 8) (d : Bool) {px py c : Nat} (hx : px < 4) (hy : py < 4) (hc : c < 3) :
    ∃ a : UInt8, (colorOf d s (4 * py + px))[c]? = some a ∧ |(a.toNat : ℚ) - colour d s px py c| < 4 / 3 := by
  obtain ⟨h0, h1, hl0, hl1⟩ := endpoint_eq h
  obtain ⟨a, ha, ha1, ha2⟩ := near565 hl0 hc
  obtain ⟨b, hb, hb1, hb2⟩ := near565 hl1 hc
  have hk := code_eq h hx hy
  have hk4 : code s px py < 4 := Nat.mod_lt _ (by decide)
  unfold colorOf colour
  rw [hk, h0, h1]
  generalize code s px py = k at hk4
  have habs : ∀ {a : UInt8} {e : ℚ}, (a.toNat : ℚ) ≤ e → e - 1 < a.toNat → |(a.toNat : ℚ) - e| < 4 / 3 := by
    intro a e h1 h2; rw [abs_lt]; constructor <;> linarith
  have hz : ∀ (f : UInt8 → UInt8 → UInt8), (List.zipWith f (enc565 (endpoint s 0)) (enc565 (endpoint s 1)))[c]? = some (f a b) := by
    intro f; rw [List.getElem?_zipWith, ha, hb]
  have hcond : (!d || decide (endpoint s 0 > endpoint s 1)) = decide (endpoint s 0 > endpoint s 1 ∨ d = false) := by
    cases d <;> simp
  rw [hcond]
  unfold colorTable
  dsimp only
  have : k = 0 ∨ k = 1 ∨ k = 2 ∨ k = 3 := by omega
  by_cases hcc : endpoint s 0 > endpoint s 1 ∨ d = false
  · rw [if_pos hcc]
    simp only [hcc, decide_true]
    rcases this with rfl | rfl | rfl | rfl
    · exact ⟨a, ha, habs ha1 ha2⟩
    · exact ⟨b, hb, habs hb1 hb2⟩
    · exact ⟨_, hz (fun a b => UInt8.ofNat ((a.toNat * 2 + b.toNat + 1) / 3)), third_near ha1 ha2 hb1 hb2⟩
    · refine ⟨_, hz (fun a b => UInt8.ofNat ((a.toNat + b.toNat * 2 + 1) / 3)), ?_⟩
      have := third_near hb1 hb2 ha1 ha2
      rw [show a.toNat + b.toNat * 2 + 1 = b.toNat * 2 + a.toNat + 1 by omega]
      rw [show (2 * rgb565 (endpoint s 1) c + rgb565 (endpoint s 0) c) / 3 =
        (rgb565 (endpoint s 0) c + 2 * rgb565 (endpoint s 1) c) / 3 by ring] at this
      exact this
  · rw [if_neg hcc]
    simp only [hcc, decide_false]
    rcases this with rfl | rfl | rfl | rfl
    · exact ⟨a, ha, habs ha1 ha2⟩
    · exact ⟨b, hb, habs hb1 hb2⟩
    · exact ⟨_, hz (fun a b => UInt8.ofNat ((a.toNat + b.toNat + 1) / 2)), half_near ha1 ha2 hb1 hb2⟩
    · refine ⟨0, ?_, by norm_num⟩
      have : c = 0 ∨ c = 1 ∨ c = 2 := by omega
      rcases this with rfl | rfl | rfl <;> rfl

theorem len16 {s : List UInt8} (h : s.length = 16) :
    ∃ a b c d e f g i, s.take 8 = [a, b, c, d, e, f, g, i] := by
  exact len8 (by simp [h])

theorem byteAt_take {s : List UInt8} {n i : Nat} (h : i < n) : byteAt (s.take n) i = byteAt s i := by
  simp [byteAt, h]

theorem getD_take {s : List UInt8} {n i : Nat} (h : i < n) : (s.take n).getD i 0 = s.getD i 0 := by
  simp [h]

/-- Explicit alpha is exact. -/
theorem alpha4_eq {s : List UInt8} (h : s.length = 16) {px py : Nat} (hx : px < 4) (hy : py < 4) :
    ((UInt8.ofNat (leNat (s.take 8) / 2 ^ ((4 * py + px) * 4) % 16 * 0x11)).toNat : ℚ) = alpha4 s px py := by
  have hi : 2 * py + px / 2 < 8 := by omega
  unfold alpha4
  rw [← byteAt_take (n := 8) hi]
  obtain ⟨a, b, c, d, e, f, g, i, hs⟩ := len16 h
  rw [hs]
  have ha := a.toNat_lt
  have hb := b.toNat_lt
  have hc := c.toNat_lt
  have hd := d.toNat_lt
  have he := e.toNat_lt
  have hf := f.toNat_lt
  have hg := g.toNat_lt
  have hi := i.toNat_lt
  have key : leNat [a, b, c, d, e, f, g, i] / 2 ^ ((4 * py + px) * 4) % 16 =
      byteAt [a, b, c, d, e, f, g, i] (2 * py + px / 2) / 16 ^ (px % 2) % 16 := by
    have h1 : py = 0 ∨ py = 1 ∨ py = 2 ∨ py = 3 := by omega
    have h2 : px = 0 ∨ px = 1 ∨ px = 2 ∨ px = 3 := by omega
    rcases h1 with rfl | rfl | rfl | rfl <;> rcases h2 with rfl | rfl | rfl | rfl <;>
    simp only [byteAt, leNat, List.getD_cons_succ, List.getD_cons_zero, Nat.reduceAdd, Nat.reduceDiv, Nat.reduceMod,
      Nat.reduceMul, Nat.reducePow] <;> omega
  rw [key]
  generalize hk : byteAt [a, b, c, d, e, f, g, i] (2 * py + px / 2) / 16 ^ (px % 2) % 16 = k
  have : k < 16 := by rw [← hk]; exact Nat.mod_lt _ (by decide)
  rw [ofNat_toNat (by omega)]
  unfold unorm
  push_cast
  ring

theorem alphaTable_near (a b : UInt8) {k : Nat} (hk : k < 8) {v : ℚ}
    (hv : v = if k = 0 then (a.toNat : ℚ) else if k = 1 then (b.toNat : ℚ)
      else if a.toNat > b.toNat then ((8 - k) * (a.toNat : ℚ) + (k - 1) * (b.toNat : ℚ)) / 7
      else if k = 6 then 0 else if k = 7 then 255 else ((6 - k) * (a.toNat : ℚ) + (k - 1) * (b.toNat : ℚ)) / 5) :
    (((alphaTable a b).getD k 0).toNat : ℚ) ≤ v ∧ v - 1 < (((alphaTable a b).getD k 0).toNat : ℚ) := by
  subst hv
  have ha := a.toNat_lt
  have hb := b.toNat_lt
  have hself : ∀ x : ℚ, x ≤ x ∧ x - 1 < x := fun x => ⟨le_refl x, by linarith⟩
  have hfl : ∀ p q m : Nat, 0 < q → m = p / q → m < 256 → ((UInt8.ofNat m).toNat : ℚ) ≤ p / q ∧ (p : ℚ) / q - 1 < ((UInt8.ofNat m).toNat : ℚ) := by
    rintro p q m hq rfl hm
    rw [ofNat_toNat hm]; exact floor_near p q hq
  have h8 : k = 0 ∨ k = 1 ∨ k = 2 ∨ k = 3 ∨ k = 4 ∨ k = 5 ∨ k = 6 ∨ k = 7 := by omega
  unfold alphaTable
  by_cases hab : a > b
  · have hab' : a.toNat > b.toNat := UInt8.lt_iff_toNat_lt.1 hab
    rw [if_pos hab]
    rcases h8 with rfl | rfl | rfl | rfl | rfl | rfl | rfl | rfl
    · exact hself _
    · exact hself _
    all_goals
      simp only [hab', if_true, reduceIte, OfNat.ofNat_ne_zero, OfNat.ofNat_ne_one]
      first
      | (have := hfl (6 * a.toNat + 1 * b.toNat) 7 _ (by decide) rfl (by omega); push_cast at this; norm_num at this ⊢; exact this)
      | (have := hfl (5 * a.toNat + 2 * b.toNat) 7 _ (by decide) rfl (by omega); push_cast at this; norm_num at this ⊢; exact this)
      | (have := hfl (4 * a.toNat + 3 * b.toNat) 7 _ (by decide) rfl (by omega); push_cast at this; norm_num at this ⊢; exact this)
      | (have := hfl (3 * a.toNat + 4 * b.toNat) 7 _ (by decide) rfl (by omega); push_cast at this; norm_num at this ⊢; exact this)
      | (have := hfl (2 * a.toNat + 5 * b.toNat) 7 _ (by decide) rfl (by omega); push_cast at this; norm_num at this ⊢; exact this)
      | (have := hfl (1 * a.toNat + 6 * b.toNat) 7 _ (by decide) rfl (by omega); push_cast at this; norm_num at this ⊢; exact this)
  · have hab' : ¬ a.toNat > b.toNat := fun h => hab (UInt8.lt_iff_toNat_lt.2 h)
    rw [if_neg hab]
    rcases h8 with rfl | rfl | rfl | rfl | rfl | rfl | rfl | rfl
    · exact hself _
    · exact hself _
    · have := hfl (4 * a.toNat + 1 * b.toNat) 5 _ (by decide) rfl (by omega)
      simp only [hab', if_false, OfNat.ofNat_ne_zero, OfNat.ofNat_ne_one]
      push_cast at this; norm_num at this ⊢; exact this
    · have := hfl (3 * a.toNat + 2 * b.toNat) 5 _ (by decide) rfl (by omega)
      simp only [hab', if_false, OfNat.ofNat_ne_zero, OfNat.ofNat_ne_one]
      push_cast at this; norm_num at this ⊢; exact this
    · have := hfl (2 * a.toNat + 3 * b.toNat) 5 _ (by decide) rfl (by omega)
      simp only [hab', if_false, OfNat.ofNat_ne_zero, OfNat.ofNat_ne_one]
      push_cast at this; norm_num at this ⊢; exact this
    · have := hfl (1 * a.toNat + 4 * b.toNat) 5 _ (by decide) rfl (by omega)
      simp only [hab', if_false, OfNat.ofNat_ne_zero, OfNat.ofNat_ne_one]
      push_cast at this; norm_num at this ⊢; exact this
    · simp only [hab', if_false, OfNat.ofNat_ne_zero, OfNat.ofNat_ne_one]
      norm_num
    · simp only [hab', if_false, OfNat.ofNat_ne_zero, OfNat.ofNat_ne_one]
      refine ⟨?_, ?_⟩ <;> norm_num [show (UInt8.toNat 255) = 255 from rfl]

/-- Interpolated alpha is the exact value rounded down. -/
theorem alpha8_near (s : List UInt8) (px py : Nat) :
    (((alphaTable (s.getD 0 0) (s.getD 1 0)).getD (leNat ((s.drop 2).take 6) / 2 ^ ((4 * py + px) * 3) % 8) 0).toNat : ℚ) ≤
        alpha8 s px py ∧
      alpha8 s px py - 1 <
        (((alphaTable (s.getD 0 0) (s.getD 1 0)).getD (leNat ((s.drop 2).take 6) / 2 ^ ((4 * py + px) * 3) % 8) 0).toNat : ℚ) := by
  have hp : 2 ^ ((4 * py + px) * 3) = 8 ^ (4 * py + px) := by rw [Nat.mul_comm, Nat.pow_mul]
  rw [hp]
  exact alphaTable_near _ _ (Nat.mod_lt _ (by decide)) rfl

/-! ## Decoding the blocks (C48) -/

theorem length_colorPart {v : Variant} {b : List UInt8} (h : b.length = v.encodedBytes) : (colorPart v b).length = 8 := by
  cases v <;> simp_all [colorPart, Variant.encodedBytes]

theorem colourBytes_eq {v : Variant} {b : List UInt8} (h : b.length = v.encodedBytes) : colourBytes v b = colorPart v b := by
  cases v
  · rfl
  all_goals
    simp only [colourBytes, colorPart]
    rw [if_neg (by decide), List.take_of_length_le]
    simp [h, Variant.encodedBytes]

theorem length_blockAt {v : Variant} {n m x y : Nat} {data : List UInt8} (hd : data.length = n * m * v.encodedBytes) (hx : x < n)
    (hy : y < m) : (blockAt v data (y * n + x)).length = v.encodedBytes := by
  have h1 : (y * n + x + 1) * v.encodedBytes ≤ n * m * v.encodedBytes := by
    apply Nat.mul_le_mul_right
    have := Nat.mul_le_mul_right n (show y + 1 ≤ m from hy)
    rw [Nat.add_mul, Nat.mul_comm m] at this; omega
  rw [Nat.add_mul] at h1
  simp only [blockAt, List.length_take, List.length_drop]; omega

/-- Reading the image of a decoder that has all the data. -/
theorem readImage_shows {v : Variant} {n m : Nat} {data rest buf : List UInt8} (hd : data.length = n * m * v.encodedBytes)
    (hbuf : buf.length = totalBytes (4 * n) (4 * m) v.ch) (hfit : 4 * n * (4 * m) * v.ch < 2 ^ 64) (hm : m < 2 ^ 32) :
    ∃ out, Decoder.readImage ⟨data ++ rest, n, m, v, 0⟩ buf = .ok out ∧ Shows v n m data out := by
  obtain ⟨out, h1, h2, h3⟩ := readImage_spec (rest := rest) hd hbuf hfit hm
  refine ⟨out, h1, by rw [h2, bytesPerPixel_eq], ?_, ?_, ?_⟩
  · intro x y c hx hy hc
    obtain ⟨blk, b1, b2⟩ := h3 x y hx hy
    have hl := length_blockAt (v := v) (x := x / 4) (y := y / 4) hd (by omega) (by omega)
    obtain ⟨a, a1, a2⟩ := colorOf_near (length_colorPart hl) (decide (v = .DXT1)) (Nat.mod_lt x (by decide : 0 < 4))
      (Nat.mod_lt y (by decide : 0 < 4)) hc
    refine ⟨a, ?_, ?_⟩
    · rw [bytesPerPixel_eq, b2 c (by cases v <;> simp only [Variant.ch] <;> omega), b1.color _ (by omega) c hc, a1]
    · rw [← colourBytes_eq hl] at a2
      exact a2
  · rintro rfl x y hx hy
    obtain ⟨blk, b1, b2⟩ := h3 x y hx hy
    have hl := length_blockAt (v := .DXT3) (x := x / 4) (y := y / 4) hd (by omega) (by omega)
    refine ⟨_, (b2 3 (by decide)).trans (b1.alpha (by decide) _ (by omega)), ?_⟩
    exact alpha4_eq hl (Nat.mod_lt x (by decide : 0 < 4)) (Nat.mod_lt y (by decide : 0 < 4))
  · rintro rfl x y hx hy
    obtain ⟨blk, b1, b2⟩ := h3 x y hx hy
    refine ⟨_, (b2 3 (by decide)).trans (b1.alpha (by decide) _ (by omega)), ?_⟩
    exact alpha8_near _ _ _

/-- Whatever the blocks contain: an image of `4n × 4m` pixels (that a `u32` and a buffer can hold) is decoded from `n * m` blocks,
and every pixel is that of its block. -/
theorem C48_decode {v : Variant} {n m : Nat} {data rest : List UInt8} (hd : data.length = n * m * v.encodedBytes)
    (hfit : 4 * n * (4 * m) * v.colorType.bytesPerPixel < 2 ^ 64) (hm : 4 * m < 2 ^ 32) :
    ∃ d out, Decoder.new (data ++ rest) (4 * n) (4 * m) v = .ok d ∧ d.dimensions = (4 * n, 4 * m) ∧
      d.readImage (List.replicate (4 * n * (4 * m) * v.colorType.bytesPerPixel) 0) = .ok out ∧ Shows v n m data out := by
  rw [bytesPerPixel_eq] at *
  have htot : totalBytes (4 * n) (4 * m) v.ch = 4 * n * (4 * m) * v.ch := by
    unfold totalBytes satMul; omega
  obtain ⟨out, h1, h2⟩ := readImage_shows (rest := rest) (buf := List.replicate (4 * n * (4 * m) * v.ch) 0) hd
    (by simp [htot]) hfit (by omega)
  refine ⟨⟨data ++ rest, n, m, v, 0⟩, out, ?_, ?_, h1, h2⟩
  · unfold Decoder.new
    rw [if_neg (by omega)]
    simp
  · simp [Decoder.dimensions, Nat.mul_comm]

/-- The dimensions must be multiples of four. -/
theorem C48_misaligned {v : Variant} {r : List UInt8} {w h : Nat} (hm : w % 4 ≠ 0 ∨ h % 4 ≠ 0) :
    Decoder.new r w h v = errR .dimensionMismatch := if_pos hm

/-- Blocks with the same bytes give the same pixels, wherever they are. -/
theorem C48_local {v : Variant} {n m n' m' : Nat} {data data' out out' rest rest' : List UInt8}
    (hd : data.length = n * m * v.encodedBytes) (hd' : data'.length = n' * m' * v.encodedBytes)
    (hfit : 4 * n * (4 * m) * v.colorType.bytesPerPixel < 2 ^ 64) (hm : 4 * m < 2 ^ 32)
    (hfit' : 4 * n' * (4 * m') * v.colorType.bytesPerPixel < 2 ^ 64) (hm' : 4 * m' < 2 ^ 32)
    (ho : Decoder.readImage ⟨data ++ rest, n, m, v, 0⟩ (List.replicate (4 * n * (4 * m) * v.colorType.bytesPerPixel) 0) = .ok out)
    (ho' : Decoder.readImage ⟨data' ++ rest', n', m', v, 0⟩
      (List.replicate (4 * n' * (4 * m') * v.colorType.bytesPerPixel) 0) = .ok out')
    {bx byy bx' byy' px py c : Nat} (hbx : bx < n) (hby : byy < m) (hbx' : bx' < n') (hby' : byy' < m')
    (hsame : (data.drop ((byy * n + bx) * v.encodedBytes)).take v.encodedBytes =
      (data'.drop ((byy' * n' + bx') * v.encodedBytes)).take v.encodedBytes)
    (hpx : px < 4) (hpy : py < 4) (hc : c < v.colorType.bytesPerPixel) :
    out[((4 * byy + py) * (4 * n) + (4 * bx + px)) * v.colorType.bytesPerPixel + c]? =
      out'[((4 * byy' + py) * (4 * n') + (4 * bx' + px)) * v.colorType.bytesPerPixel + c]? := by
  rw [bytesPerPixel_eq] at *
  have htot : ∀ {n m}, 4 * n * (4 * m) * v.ch < 2 ^ 64 → totalBytes (4 * n) (4 * m) v.ch = 4 * n * (4 * m) * v.ch := by
    intro n m h
    unfold totalBytes satMul; omega
  obtain ⟨o, h1, -, h3⟩ := readImage_spec (rest := rest) (buf := List.replicate (4 * n * (4 * m) * v.ch) 0) hd
    (by simp [htot hfit]) hfit (by omega)
  obtain ⟨o', h1', -, h3'⟩ := readImage_spec (rest := rest') (buf := List.replicate (4 * n' * (4 * m') * v.ch) 0) hd'
    (by simp [htot hfit']) hfit' (by omega)
  rw [ho] at h1; cases h1
  rw [ho'] at h1'; cases h1'
  obtain ⟨blk, b1, b2⟩ := h3 (4 * bx + px) (4 * byy + py) (by omega) (by omega)
  obtain ⟨blk', b1', b2'⟩ := h3' (4 * bx' + px) (4 * byy' + py) (by omega) (by omega)
  have e1 : (4 * bx + px) / 4 = bx := by omega
  have e2 : (4 * byy + py) / 4 = byy := by omega
  have e3 : (4 * bx + px) % 4 = px := by omega
  have e4 : (4 * byy + py) % 4 = py := by omega
  have e1' : (4 * bx' + px) / 4 = bx' := by omega
  have e2' : (4 * byy' + py) / 4 = byy' := by omega
  have e3' : (4 * bx' + px) % 4 = px := by omega
  have e4' : (4 * byy' + py) % 4 = py := by omega
  rw [e1, e2] at b1
  rw [e1', e2'] at b1'
  rw [e3, e4] at b2
  rw [e3', e4'] at b2'
  unfold blockAt at b1 b1'
  rw [← hsame] at b1'
  have := b1.unique b1'
  rw [b2 c hc, b2' c hc, this]

/-- Each scanline takes its blocks from the reader. -/
theorem scan_consumes {v : Variant} {n hb : Nat} : ∀ (cs : List (List UInt8)) {acc inner acc' : List UInt8} {row : Nat} {d' : Decoder},
    forList cs (fun chunk (st : List UInt8 × Decoder) => do
        let (chunk, d) ← st.2.readScanline chunk
        .ok (st.1 ++ chunk, d)) (acc, ⟨inner, n, hb, v, row⟩) = .ok (acc', d') →
      cs.length * (v.encodedBytes * n) ≤ inner.length := by
  intro cs
  induction cs with
  | nil => intros; simp
  | cons c cs ih =>
    intro acc inner acc' row d' h
    rw [forList] at h
    obtain ⟨⟨a1, d1⟩, h1, h⟩ := bind_eq_ok.1 h
    obtain ⟨⟨c2, d2⟩, h2, h3⟩ := bind_eq_ok.1 h1
    cases h3
    unfold Decoder.readScanline at h2
    obtain ⟨-, -, h2⟩ := bind_eq_ok.1 h2
    obtain ⟨⟨s, i⟩, h4, h2⟩ := bind_eq_ok.1 h2
    obtain ⟨b, h5, h2⟩ := bind_eq_ok.1 h2
    obtain ⟨r, h6, h2⟩ := bind_eq_ok.1 h2
    cases h2
    unfold readExact at h4
    split at h4
    · rename_i hle
      cases h4
      have := ih h
      dsimp only at hle this
      rw [List.length_drop] at this
      rw [List.length_cons, Nat.add_mul, Nat.one_mul]; omega
    · cases h4

/-- The same decoder with other bytes to read. -/
def SameButInput (a b : List UInt8 × Decoder) : Prop :=
  a.1 = b.1 ∧ a.2.inner <+: b.2.inner ∧ a.2.widthBlocks = b.2.widthBlocks ∧ a.2.heightBlocks = b.2.heightBlocks ∧
    a.2.variant = b.2.variant ∧ a.2.row = b.2.row

theorem readImage_trunc {v : Variant} {n m row : Nat} {data data' buf : List UInt8} (h : data <+: data') :
    Trunc Eq (Decoder.readImage ⟨data, n, m, v, row⟩ buf) (Decoder.readImage ⟨data', n, m, v, row⟩ buf) := by
  unfold Decoder.readImage
  refine Trunc.same fun _ => ?_
  refine Trunc.bind (Q := SameButInput) (forList_trunc _ _ _ ⟨rfl, h, rfl, rfl, rfl, rfl⟩ ?_) ?_
  · rintro c ⟨acc, d⟩ ⟨acc', ⟨i', w', h', v', r'⟩⟩ ⟨h1, h2, h3, h4, h5, h6⟩
    obtain ⟨i, w, hh, v, r⟩ := d
    dsimp only at h1 h2 h3 h4 h5 h6
    subst h1 h3 h4 h5 h6
    refine Trunc.bind (Q := fun a b => SameButInput a b) ?_ ?_
    · unfold Decoder.readScanline
      refine Trunc.same fun _ => ?_
      refine Trunc.bind (readExact_trunc h2) ?_
      rintro ⟨a, s⟩ ⟨b, t⟩ ⟨hab, hst⟩
      dsimp only at hab hst ⊢
      subst hab
      refine Trunc.same fun _ => ?_
      refine Trunc.same fun _ => ?_
      exact .ok ⟨rfl, hst, rfl, rfl, rfl, rfl⟩
    · rintro ⟨a, s⟩ ⟨b, t⟩ ⟨hab, hst⟩
      exact .ok ⟨by dsimp only at hab ⊢; rw [hab], hst⟩
  · rintro ⟨a, s⟩ ⟨b, t⟩ ⟨hab, hst⟩
    exact .ok hab

/-- With fewer blocks than the image has, decoding is an input error. -/
theorem C48_short {v : Variant} {n m : Nat} {data : List UInt8} (hd : data.length < n * m * v.encodedBytes)
    (hfit : 4 * n * (4 * m) * v.colorType.bytesPerPixel < 2 ^ 64) (hm : 4 * m < 2 ^ 32) :
    Decoder.readImage ⟨data, n, m, v, 0⟩ (List.replicate (4 * n * (4 * m) * v.colorType.bytesPerPixel) 0) = errR .io := by
  rw [bytesPerPixel_eq] at *
  have htot : totalBytes (4 * n) (4 * m) v.ch = 4 * n * (4 * m) * v.ch := by
    unfold totalBytes satMul; omega
  obtain ⟨out, h1, h2⟩ := readImage_shows (rest := []) (v := v) (n := n) (m := m)
    (data := data ++ List.replicate (n * m * v.encodedBytes - data.length) 0)
    (buf := List.replicate (4 * n * (4 * m) * v.ch) 0) (by simp; omega)
    (by simp [htot]) hfit (by omega)
  rcases readImage_trunc (List.prefix_append data (List.replicate (n * m * v.encodedBytes - data.length) 0 ++ [])) _
    ((List.append_assoc _ _ _ ▸ h1)) with h | ⟨o, h, -⟩
  · exact h
  · exfalso
    unfold Decoder.readImage at h
    obtain ⟨-, -, h⟩ := bind_eq_ok.1 h
    obtain ⟨⟨a, d⟩, h, -⟩ := bind_eq_ok.1 h
    have := scan_consumes _ h
    have hn : 0 < n := by
      rcases Nat.eq_zero_or_pos n with h | h
      · subst h; simp at hd
      · exact h
    have hpos : 0 < v.decodedBytes * n := Nat.mul_pos (by cases v <;> decide) hn
    have hmax : max (v.decodedBytes * n) 1 = v.decodedBytes * n := by omega
    simp only [Decoder.scanlineBytes] at this
    rw [hmax] at this
    have h16 : 4 * n * (4 * m) * v.ch = m * (v.decodedBytes * n) := by
      rw [decodedBytes_eq]; ring
    obtain ⟨-, -, hlen⟩ := chunksOf_eq (l := List.replicate (4 * n * (4 * m) * v.ch) (0 : UInt8)) (k := m) hpos (by simp [h16])
    rw [hlen] at this
    have e : m * (v.encodedBytes * n) = n * m * v.encodedBytes := by ring
    omega

end Dxt

end Verif
