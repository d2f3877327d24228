import Verif.Model.JpegDct
import Verif.Proofs.JpegHuff
import Verif.Proofs.Float

/-! # Lemmas on the forward cosine transform of the JPEG encoder -/

namespace Verif
namespace Jpeg

theorem wrap32_eq {v : Int} (h : -2 ^ 31 ≤ v ∧ v < 2 ^ 31) : wrap32 v = v := by
  unfold wrap32
  omega

theorem i32_ok {v : Int} (h : -2 ^ 31 ≤ v ∧ v < 2 ^ 31) : i32 v = .ok v := if_pos h

/-- The differences that the odd coefficients depend on, and the common factor. -/
def oddOut (u0 u1 u2 u3 : Int) : Int × Int × Int × Int :=
  let z := (u0 + u2 + (u1 + u3)) * 9633 + 1024
  let t12 := (u0 + u2) * -3196 + z
  let t13 := (u1 + u3) * -16069 + z
  (u0 * 12299 + ((u0 + u3) * -7373 + t12), u1 * 25172 + ((u1 + u2) * -20995 + t13),
    u2 * 16819 + ((u1 + u2) * -20995 + t12), u3 * 2446 + ((u0 + u3) * -7373 + t13))

/-- What a row is transformed to. -/
def rowOut (a0 a1 a2 a3 a4 a5 a6 a7 : Int) : List Int :=
  let t10 := a0 + a7 + (a3 + a4)
  let t12 := a0 + a7 - (a3 + a4)
  let t11 := a1 + a6 + (a2 + a5)
  let t13 := a1 + a6 - (a2 + a5)
  let z := (t12 + t13) * 4433 + 1024
  let o := oddOut (a0 - a7) (a1 - a6) (a2 - a5) (a3 - a4)
  [(t10 + t11 - 1024) * 4, o.1 / 2 ^ 11, (z + t12 * 6270) / 2 ^ 11, o.2.1 / 2 ^ 11,
    (t10 - t11) * 4, o.2.2.1 / 2 ^ 11, (z - t13 * 15137) / 2 ^ 11, o.2.2.2 / 2 ^ 11]

set_option maxRecDepth 4096 in
theorem fdctRow_ok {a0 a1 a2 a3 a4 a5 a6 a7 : Int} (h0 : 0 ≤ a0 ∧ a0 ≤ 255) (h1 : 0 ≤ a1 ∧ a1 ≤ 255) (h2 : 0 ≤ a2 ∧ a2 ≤ 255)
    (h3 : 0 ≤ a3 ∧ a3 ≤ 255) (h4 : 0 ≤ a4 ∧ a4 ≤ 255) (h5 : 0 ≤ a5 ∧ a5 ≤ 255) (h6 : 0 ≤ a6 ∧ a6 ≤ 255) (h7 : 0 ≤ a7 ∧ a7 ≤ 255) :
    fdctRow a0 a1 a2 a3 a4 a5 a6 a7 = .ok (rowOut a0 a1 a2 a3 a4 a5 a6 a7) := by
  unfold fdctRow
  iterate 60 (first | rw [i32_ok (by omega), ok_bind] | skip)
  rw [wrap32_eq (by omega), wrap32_eq (by omega)]
  rfl

/-- What a column is transformed to. -/
def colOut (a0 a1 a2 a3 a4 a5 a6 a7 : Int) : List Int :=
  let t10 := a0 + a7 + (a3 + a4) + 2
  let t12 := a0 + a7 - (a3 + a4)
  let t11 := a1 + a6 + (a2 + a5)
  let t13 := a1 + a6 - (a2 + a5)
  let z := (t12 + t13) * 4433 + 16384
  let o := oddOut (a0 - a7) (a1 - a6) (a2 - a5) (a3 - a4)
  [(t10 + t11) / 2 ^ 2, o.1 / 2 ^ 15, (z + t12 * 6270) / 2 ^ 15, o.2.1 / 2 ^ 15,
    (t10 - t11) / 2 ^ 2, o.2.2.1 / 2 ^ 15, (z - t13 * 15137) / 2 ^ 15, o.2.2.2 / 2 ^ 15]

set_option maxRecDepth 4096 in
theorem fdctCol_ok {a0 a1 a2 a3 a4 a5 a6 a7 : Int} (h0 : -4096 ≤ a0 ∧ a0 ≤ 4096) (h1 : -4096 ≤ a1 ∧ a1 ≤ 4096)
    (h2 : -4096 ≤ a2 ∧ a2 ≤ 4096) (h3 : -4096 ≤ a3 ∧ a3 ≤ 4096) (h4 : -4096 ≤ a4 ∧ a4 ≤ 4096)
    (h5 : -4096 ≤ a5 ∧ a5 ≤ 4096) (h6 : -4096 ≤ a6 ∧ a6 ≤ 4096) (h7 : -4096 ≤ a7 ∧ a7 ≤ 4096) :
    fdctCol a0 a1 a2 a3 a4 a5 a6 a7 = .ok (colOut a0 a1 a2 a3 a4 a5 a6 a7) := by
  unfold fdctCol
  iterate 60 (first | rw [i32_ok (by omega), ok_bind] | skip)
  rfl

/-- The coefficients after the first pass. -/
def mid (f : Nat → Int) (y u : Nat) : Int :=
  (rowOut (f (y * 8)) (f (y * 8 + 1)) (f (y * 8 + 2)) (f (y * 8 + 3)) (f (y * 8 + 4)) (f (y * 8 + 5)) (f (y * 8 + 6)) (f (y * 8 + 7))).getD u 0

/-- The coefficients after the second pass. -/
def out (f : Nat → Int) (v u : Nat) : Int :=
  (colOut (mid f 0 u) (mid f 1 u) (mid f 2 u) (mid f 3 u) (mid f 4 u) (mid f 5 u) (mid f 6 u) (mid f 7 u)).getD v 0

theorem rowOut_bound {a0 a1 a2 a3 a4 a5 a6 a7 : Int} (h0 : 0 ≤ a0 ∧ a0 ≤ 255) (h1 : 0 ≤ a1 ∧ a1 ≤ 255) (h2 : 0 ≤ a2 ∧ a2 ≤ 255)
    (h3 : 0 ≤ a3 ∧ a3 ≤ 255) (h4 : 0 ≤ a4 ∧ a4 ≤ 255) (h5 : 0 ≤ a5 ∧ a5 ≤ 255) (h6 : 0 ≤ a6 ∧ a6 ≤ 255) (h7 : 0 ≤ a7 ∧ a7 ≤ 255)
    (u : Nat) : (u = 0 → -4096 ≤ (rowOut a0 a1 a2 a3 a4 a5 a6 a7).getD u 0 ∧ (rowOut a0 a1 a2 a3 a4 a5 a6 a7).getD u 0 ≤ 4064) ∧
      (u ≠ 0 → -4080 ≤ (rowOut a0 a1 a2 a3 a4 a5 a6 a7).getD u 0 ∧ (rowOut a0 a1 a2 a3 a4 a5 a6 a7).getD u 0 ≤ 4080) := by
  unfold rowOut oddOut
  dsimp only
  rcases u with _ | _ | _ | _ | _ | _ | _ | _ | u
  all_goals
    refine ⟨fun h => ?_, fun h => ?_⟩
    all_goals first
      | exact absurd rfl h
      | exact absurd h (by omega)
      | (simp only [List.getD_cons_succ, List.getD_cons_zero, List.getD_nil]; omega)

theorem colOut_bound {a0 a1 a2 a3 a4 a5 a6 a7 : Int} {l : Int} (_hl : l = 4064 ∨ l = 4080)
    (h0 : -8160 + l ≤ a0 ∧ a0 ≤ l) (h1 : -8160 + l ≤ a1 ∧ a1 ≤ l)
    (h2 : -8160 + l ≤ a2 ∧ a2 ≤ l) (h3 : -8160 + l ≤ a3 ∧ a3 ≤ l) (h4 : -8160 + l ≤ a4 ∧ a4 ≤ l)
    (h5 : -8160 + l ≤ a5 ∧ a5 ≤ l) (h6 : -8160 + l ≤ a6 ∧ a6 ≤ l) (h7 : -8160 + l ≤ a7 ∧ a7 ≤ l)
    (v : Nat) : (v = 0 → -16320 + 2 * l ≤ (colOut a0 a1 a2 a3 a4 a5 a6 a7).getD v 0 ∧ (colOut a0 a1 a2 a3 a4 a5 a6 a7).getD v 0 ≤ 2 * l) ∧
      (v ≠ 0 → -8160 ≤ (colOut a0 a1 a2 a3 a4 a5 a6 a7).getD v 0 ∧ (colOut a0 a1 a2 a3 a4 a5 a6 a7).getD v 0 ≤ 8160) := by
  unfold colOut oddOut
  dsimp only
  rcases v with _ | _ | _ | _ | _ | _ | _ | _ | v
  all_goals
    refine ⟨fun h => ?_, fun h => ?_⟩
    all_goals first
      | exact absurd rfl h
      | exact absurd h (by omega)
      | (simp only [List.getD_cons_succ, List.getD_cons_zero, List.getD_nil]; omega)

theorem mid_bound {f : Nat → Int} (hf : ∀ i, i < 64 → 0 ≤ f i ∧ f i ≤ 255) (y u : Nat) (hy : y < 8) :
    (u = 0 → -4096 ≤ mid f y u ∧ mid f y u ≤ 4064) ∧ (u ≠ 0 → -4080 ≤ mid f y u ∧ mid f y u ≤ 4080) :=
  rowOut_bound (hf _ (by omega)) (hf _ (by omega)) (hf _ (by omega)) (hf _ (by omega)) (hf _ (by omega)) (hf _ (by omega))
    (hf _ (by omega)) (hf _ (by omega)) u

/-- The coefficients are bounded; all except the first one by 8160. -/
theorem out_bound {f : Nat → Int} (hf : ∀ i, i < 64 → 0 ≤ f i ∧ f i ≤ 255) (v u : Nat) :
    -8192 ≤ out f v u ∧ out f v u ≤ 8160 ∧ ((v ≠ 0 ∨ u ≠ 0) → -8160 ≤ out f v u) ∧ (v = 0 ∧ u = 0 → out f v u ≤ 8128) := by
  by_cases hu : u = 0
  · have hb := fun y hy => (mid_bound hf y u hy).1 hu
    have := colOut_bound (.inl rfl) (hb 0 (by omega)) (hb 1 (by omega)) (hb 2 (by omega)) (hb 3 (by omega)) (hb 4 (by omega)) (hb 5 (by omega))
      (hb 6 (by omega)) (hb 7 (by omega)) v
    unfold out
    omega
  · have hb := fun y hy => (mid_bound hf y u hy).2 hu
    have := colOut_bound (.inr rfl) (hb 0 (by omega)) (hb 1 (by omega)) (hb 2 (by omega)) (hb 3 (by omega)) (hb 4 (by omega)) (hb 5 (by omega))
      (hb 6 (by omega)) (hb 7 (by omega)) v
    unfold out
    omega

/-- The transform of a block never overflows, and its result is known. -/
theorem fdct_ok (samples : List Nat) (hl : samples.length = 64) (hs : ∀ v ∈ samples, v ≤ 255) :
    fdct samples = .ok ((List.range 64).map fun j => out (fun i => (samples.getD i 0 : Nat)) (j / 8) (j % 8)) := by
  obtain ⟨f, hf⟩ : ∃ f : Nat → Int, f = fun i => ((samples.getD i 0 : Nat) : Int) := ⟨_, rfl⟩
  have hget : ∀ i, i < 64 → samples[i]? = some (samples.getD i 0) := by
    intro i hi
    rw [List.getD_eq_getElem?_getD, List.getElem?_eq_getElem (by omega)]; rfl
  have hfb : ∀ i, i < 64 → 0 ≤ f i ∧ f i ≤ 255 := by
    intro i hi
    have := hs _ (List.mem_of_getElem? (hget i hi))
    rw [hf]; dsimp only; omega
  rw [← hf]
  unfold fdct
  obtain ⟨c1, e1, hl1, h1⟩ := forRange_inv (n := 8) (f := fun y coeffs => (do
      let y0 := y * 8
      let a0 ← getR samples y0
      let a1 ← getR samples (y0 + 1)
      let a2 ← getR samples (y0 + 2)
      let a3 ← getR samples (y0 + 3)
      let a4 ← getR samples (y0 + 4)
      let a5 ← getR samples (y0 + 5)
      let a6 ← getR samples (y0 + 6)
      let a7 ← getR samples (y0 + 7)
      let row ← fdctRow a0 a1 a2 a3 a4 a5 a6 a7
      .ok (coeffs.mapIdx fun j c => if j / 8 = y then row.getD (j % 8) 0 else c) : R (List Int)))
    (fun y c => c.length = 64 ∧ ∀ j, j < 64 → j / 8 < y → c[j]? = some (mid f (j / 8) (j % 8))) (s := List.replicate 64 0)
    ⟨by simp, fun j _ h => absurd h (by omega)⟩ (by
      intro y hy c ⟨hcl, hc⟩
      refine ⟨c.mapIdx fun j c => if j / 8 = y then mid f y (j % 8) else c, ?_, ?_, ?_⟩
      · dsimp only
        rw [getR_of (hget _ (by omega)), ok_bind, getR_of (hget _ (by omega)), ok_bind, getR_of (hget _ (by omega)), ok_bind,
          getR_of (hget _ (by omega)), ok_bind, getR_of (hget _ (by omega)), ok_bind, getR_of (hget _ (by omega)), ok_bind,
          getR_of (hget _ (by omega)), ok_bind, getR_of (hget _ (by omega)), ok_bind]
        have hfb' := hfb
        rw [hf] at hfb'
        dsimp only at hfb'
        rw [fdctRow_ok (hfb' _ (by omega)) (hfb' _ (by omega)) (hfb' _ (by omega)) (hfb' _ (by omega)) (hfb' _ (by omega)) (hfb' _ (by omega))
          (hfb' _ (by omega)) (hfb' _ (by omega)), ok_bind, hf]
        rfl
      · simp [hcl]
      · intro j hj hjy
        rw [List.getElem?_mapIdx, List.getElem?_eq_getElem (by omega), Option.map_some]
        by_cases h : j / 8 = y
        · rw [if_pos h, h]
        · rw [if_neg h, ← List.getElem?_eq_getElem (by omega)]
          exact hc j hj (by omega))
  obtain ⟨c2, e2, hl2, h2⟩ := forRangeRev_inv (n := 8) (f := fun x coeffs => (do
      let a0 ← getR coeffs x
      let a1 ← getR coeffs (x + 8)
      let a2 ← getR coeffs (x + 8 * 2)
      let a3 ← getR coeffs (x + 8 * 3)
      let a4 ← getR coeffs (x + 8 * 4)
      let a5 ← getR coeffs (x + 8 * 5)
      let a6 ← getR coeffs (x + 8 * 6)
      let a7 ← getR coeffs (x + 8 * 7)
      let col ← fdctCol a0 a1 a2 a3 a4 a5 a6 a7
      .ok (coeffs.mapIdx fun j c => if j % 8 = x then col.getD (j / 8) 0 else c) : R (List Int)))
    (fun x c => c.length = 64 ∧ ∀ j, j < 64 → c[j]? = some (if j % 8 < x then mid f (j / 8) (j % 8) else out f (j / 8) (j % 8))) (s := c1)
    ⟨hl1, fun j hj => by rw [if_pos (by omega)]; exact h1 j hj (by omega)⟩ (by
      intro x hx c ⟨hcl, hc⟩
      refine ⟨c.mapIdx fun j c => if j % 8 = x then out f (j / 8) x else c, ?_, ?_, ?_⟩
      · have hg : ∀ y, y < 8 → getR c (x + 8 * y) = .ok (mid f y x) := by
          intro y hy
          apply getR_of
          rw [hc _ (by omega), if_pos (by omega), show (x + 8 * y) / 8 = y by omega, show (x + 8 * y) % 8 = x by omega]
        have hb : ∀ y, y < 8 → -4096 ≤ mid f y x ∧ mid f y x ≤ 4096 := by
          intro y hy
          have := mid_bound hfb y x hy
          by_cases h0 : x = 0
          · have := this.1 h0; omega
          · have := this.2 h0; omega
        rw [show getR c x = .ok (mid f 0 x) from hg 0 (by omega), ok_bind, show getR c (x + 8) = .ok (mid f 1 x) from hg 1 (by omega), ok_bind,
          hg 2 (by omega), ok_bind, hg 3 (by omega), ok_bind, hg 4 (by omega), ok_bind, hg 5 (by omega), ok_bind,
          hg 6 (by omega), ok_bind, hg 7 (by omega), ok_bind]
        rw [fdctCol_ok (hb 0 (by omega)) (hb 1 (by omega)) (hb 2 (by omega)) (hb 3 (by omega)) (hb 4 (by omega)) (hb 5 (by omega))
          (hb 6 (by omega)) (hb 7 (by omega)), ok_bind]
        rfl
      · simp [hcl]
      · intro j hj
        rw [List.getElem?_mapIdx, List.getElem?_eq_getElem (by omega), Option.map_some]
        by_cases h : j % 8 = x
        · rw [if_pos h, if_neg (by omega), h]
        · rw [if_neg h, ← List.getElem?_eq_getElem (by omega), hc j hj]
          by_cases h' : j % 8 < x
          · rw [if_pos h', if_pos (by omega)]
          · rw [if_neg h', if_neg (by omega)])
  rw [e1, ok_bind, e2]
  congr 1
  apply List.ext_getElem?
  intro j
  by_cases hj : j < 64
  · rw [h2 j hj, List.getElem?_map, List.getElem?_range hj]; rfl
  · rw [List.getElem?_eq_none (by omega), List.getElem?_eq_none (by simp; omega)]

/-! ## Quantisation -/

theorem rne_neg (q : ℚ) : rne (-q) = -rne q := by
  have h1 := Int.floor_le q
  have h2 := Int.lt_floor_add_one q
  by_cases hq : q = ⌊q⌋
  · rw [hq, ← Int.cast_neg, rne_int, rne_int]
  · have hlt : (⌊q⌋ : ℚ) < q := lt_of_le_of_ne h1 (Ne.symm hq)
    have hf : ⌊-q⌋ = -⌊q⌋ - 1 := by
      rw [Int.floor_eq_iff]
      push_cast
      constructor <;> linarith
    unfold rne
    rw [hf]
    push_cast
    split_ifs <;> first | omega | (exfalso; linarith)

theorem rnd_neg (F : Fmt) (q : ℚ) : F.rnd (-q) = -F.rnd q := by
  have hu : F.unit (-q) = F.unit q := by unfold Fmt.unit; rw [abs_neg]
  unfold Fmt.rnd
  rw [hu, neg_div, rne_neg]
  push_cast
  ring

theorem roundHalfAway_neg (q : ℚ) : roundHalfAway (-q) = -roundHalfAway q := by
  unfold roundHalfAway
  rcases lt_trichotomy q 0 with h | h | h
  · rw [if_pos (by linarith), if_neg (by linarith)]; simp
  · subst h; norm_num
  · rw [if_neg (by linarith), if_pos (by linarith)]; simp

theorem round_div (n q : ℕ) (hn : n ≤ 2 ^ 13) (h1 : 1 ≤ q) (h2 : q ≤ 255) :
    roundHalfAway (f32.rnd ((n : ℚ) / q)) = roundHalfAway ((n : ℚ) / q) := by
  have hq : (0 : ℚ) < q := by exact_mod_cast h1
  have hx0 : (0 : ℚ) ≤ (n : ℚ) / q := by positivity
  rw [roundHalfAway_eq (f32.rnd_nonneg hx0), roundHalfAway_eq hx0]
  obtain ⟨k, hk⟩ : ∃ k : ℕ, (2 * n + q) / (2 * q) = k := ⟨_, rfl⟩
  have hk1 : k * (2 * q) ≤ 2 * n + q := hk ▸ Nat.div_mul_le_self _ _
  have hk2 : 2 * n + q + 1 ≤ (k + 1) * (2 * q) := by
    have := Nat.lt_div_mul_add (a := 2 * n + q) (b := 2 * q) (by omega)
    rw [hk] at this
    rw [Nat.add_mul]; omega
  have e1 : ((k : ℤ) : ℚ) ≤ (n : ℚ) / q + 1 / 2 := by
    have : ((k : ℕ) : ℚ) * (2 * q) ≤ 2 * n + q := by exact_mod_cast hk1
    have h3 : (n : ℚ) / q + 1 / 2 = (2 * n + q) / (2 * q) := by field_simp
    rw [h3, le_div_iff₀ (by positivity)]
    exact_mod_cast this
  have e2 : (n : ℚ) / q + 1 / 2 + 1 / (2 * q) ≤ k + 1 := by
    have : 2 * (n : ℚ) + q + 1 ≤ (k + 1) * (2 * q) := by exact_mod_cast hk2
    have h3 : (n : ℚ) / q + 1 / 2 + 1 / (2 * q) = (2 * n + q + 1) / (2 * q) := by field_simp
    rw [h3, div_le_iff₀ (by positivity)]
    exact this
  have hx : (n : ℚ) / q ≤ 2 ^ 13 := by
    have : (n : ℚ) ≤ 2 ^ 13 := by exact_mod_cast hn
    have h1' : (1 : ℚ) ≤ q := by exact_mod_cast h1
    rw [div_le_iff₀ hq]
    nlinarith
  have hq2 : 1 / (2 * 255 : ℚ) ≤ 1 / (2 * q) := by
    have : (q : ℚ) ≤ 255 := by exact_mod_cast h2
    apply one_div_le_one_div_of_le (by positivity)
    linarith
  have herr : f32.rnd ((n : ℚ) / q) < (n : ℚ) / q + 1 / (2 * 255) := by
    have h := rnd_near_abs (F := f32) (.inl rfl) hx0
    have h3 := (abs_le.1 h).2
    have hp : (2 : ℚ) ^ f32.p = 16777216 := by norm_num [f32]
    simp only [hp] at h3
    rcases le_total ((n : ℚ) / q / 16777216) (2 ^ (-150 : ℤ)) with hle | hle
    · norm_num at h3 hle ⊢; linarith
    · norm_num at h3 hle ⊢; linarith
  have hlow : ((k : ℤ) : ℚ) ≤ f32.rnd ((n : ℚ) / q) + 1 / 2 := by
    rcases Nat.eq_zero_or_pos k with rfl | hkp
    · have := f32.rnd_nonneg hx0
      push_cast; linarith
    · have hrep : f32.rnd (((2 * k - 1 : ℤ) : ℚ) * 2 ^ (-1 : ℤ)) = ((2 * k - 1 : ℤ) : ℚ) * 2 ^ (-1 : ℤ) := by
        apply f32.rnd_exact
        · rw [abs_of_nonneg (by omega)]
          have hkb : k ≤ 2 ^ 14 := by
            have : (k : ℚ) ≤ 2 ^ 13 + 1 / 2 := by push_cast at e1; linarith
            have : (k : ℚ) ≤ 2 ^ 14 := le_trans this (by norm_num)
            exact_mod_cast this
          have : (2 : ℤ) ^ f32.p = 16777216 := by decide
          rw [this]; omega
        · decide
      have hm := f32.rnd_mono (by decide) (q := ((2 * k - 1 : ℤ) : ℚ) * 2 ^ (-1 : ℤ)) (r := (n : ℚ) / q)
        (by push_cast; have : (1 : ℚ) ≤ k := by exact_mod_cast hkp
            have : (0 : ℚ) ≤ 2 * k - 1 := by linarith
            positivity)
        (by push_cast at e1 ⊢; norm_num; linarith)
      rw [hrep] at hm
      push_cast at hm ⊢
      norm_num at hm
      linarith
  have f1 : ⌊(n : ℚ) / q + 1 / 2⌋ = k := by
    rw [Int.floor_eq_iff]
    refine ⟨e1, ?_⟩
    have : (0 : ℚ) < 1 / (2 * q) := by positivity
    push_cast; linarith
  have f2 : ⌊f32.rnd ((n : ℚ) / q) + 1 / 2⌋ = k := by
    rw [Int.floor_eq_iff]
    refine ⟨hlow, ?_⟩
    push_cast; linarith
  rw [f1, f2]

theorem roundHalfAway_bound (n q : ℕ) (h1 : 1 ≤ q) : 0 ≤ roundHalfAway ((n : ℚ) / q) ∧ roundHalfAway ((n : ℚ) / q) ≤ n := by
  have hq : (1 : ℚ) ≤ q := by exact_mod_cast h1
  have hx0 : (0 : ℚ) ≤ (n : ℚ) / q := by positivity
  refine ⟨roundHalfAway_nonneg hx0, ?_⟩
  rw [roundHalfAway_eq hx0]
  have : (n : ℚ) / q ≤ n := div_le_self (by positivity) hq
  have h3 : ⌊(n : ℚ) / q + 1 / 2⌋ ≤ ⌊(n : ℚ) + 1 / 2⌋ := Int.floor_le_floor (by linarith)
  have h4 : ⌊(n : ℚ) + 1 / 2⌋ = n := by
    rw [Int.floor_eq_iff]; push_cast; constructor <;> linarith
  omega

theorem tdiv8 (d : Int) : 0 ≤ d ∧ d.tdiv 8 = d / 8 ∨ d < 0 ∧ d.tdiv 8 = -(-d / 8) := by
  rcases Int.le_total 0 d with h | h
  · exact .inl ⟨h, Int.tdiv_eq_ediv_of_nonneg h⟩
  · rcases Int.lt_or_eq_of_le h with h' | h'
    · refine .inr ⟨h', ?_⟩
      have := Int.neg_tdiv (-d) 8
      rw [Int.neg_neg, Int.tdiv_eq_ediv_of_nonneg (a := -d) (by omega)] at this
      exact this
    · subst h'; exact .inl ⟨by decide, by decide⟩

/-- The quantised coefficient is the exact quotient of the eighth of the coefficient (rounded towards zero) and the table entry,
rounded to nearest: the floating-point arithmetic does not matter. -/
theorem quantize_eq (dct : Int) (q : ℕ) (hd : -2 ^ 16 ≤ dct ∧ dct ≤ 2 ^ 16) (h1 : 1 ≤ q) (h2 : q ≤ 255) :
    quantize dct q = roundHalfAway (((dct.tdiv 8 : Int) : ℚ) / q) ∧
      (0 ≤ quantize dct q ∧ quantize dct q ≤ dct.tdiv 8 ∨ quantize dct q ≤ 0 ∧ dct.tdiv 8 ≤ quantize dct q) := by
  obtain ⟨n, hn⟩ : ∃ n, dct.tdiv 8 = n := ⟨_, rfl⟩
  have hnb : -2 ^ 13 ≤ n ∧ n ≤ 2 ^ 13 := by
    rcases tdiv8 dct with h | h <;> omega
  have hq : (0 : ℚ) < q := by exact_mod_cast h1
  have hnr : f32.rnd (n : ℚ) = n := f32.rnd_int (by rw [abs_lt]; have : (2 : ℤ) ^ f32.p = 16777216 := by decide
                                                    omega) (by decide)
  have hlim : (2 : ℚ) ^ f32.emax = 2 ^ 128 := by norm_num [f32]
  have hnq : |(n : ℚ)| ≤ 2 ^ 13 := by
    rw [abs_le]
    exact ⟨by exact_mod_cast hnb.1, by exact_mod_cast hnb.2⟩
  have ho : f32.ofRat (n : ℚ) = .fin n := by
    unfold Fmt.ofRat
    rw [hnr, if_pos (by rw [hlim]; norm_num at hnq ⊢; linarith)]
  have hqn : Fl.ofNat f32 q = .fin q := ofNat_fin wide32 (by simp [f32]; omega)
  -- the rounded quotient, by cases on the sign
  obtain ⟨m, hm⟩ : ∃ m : ℕ, n = m ∨ n = -(m : ℤ) := ⟨n.natAbs, by omega⟩
  have hm13 : m ≤ 2 ^ 13 := by omega
  have hb := roundHalfAway_bound m q h1
  have hrd := round_div m q hm13 h1 h2
  have hmx : f32.rnd ((m : ℚ) / q) ≤ m := by
    apply rnd_le_nat wide32 (by positivity) (by simp [f32]; omega)
    have h1' : (1 : ℚ) ≤ q := by exact_mod_cast h1
    exact div_le_self (by positivity) h1'
  have hm0 := f32.rnd_nonneg (q := (m : ℚ) / q) (by positivity)
  have hmq : (m : ℚ) ≤ 2 ^ 13 := by exact_mod_cast hm13
  have key : Fl.round (Fl.div f32 (f32.ofRat (n : ℚ)) (Fl.ofNat f32 q)) = .fin (roundHalfAway ((n : ℚ) / q)) := by
    rw [ho, hqn]
    unfold Fl.div
    dsimp only
    rw [if_neg hq.ne']
    rcases hm with rfl | rfl
    · unfold Fmt.ofRat
      rw [if_pos (by
        rw [hlim]; push_cast
        rw [abs_of_nonneg hm0]; exact lt_of_le_of_lt (hmx.trans hmq) (by norm_num))]
      unfold Fl.round
      push_cast
      rw [hrd]
    · unfold Fmt.ofRat
      push_cast
      rw [neg_div, rnd_neg, if_pos (by
        rw [hlim, abs_neg, abs_of_nonneg hm0]; exact lt_of_le_of_lt (hmx.trans hmq) (by norm_num))]
      unfold Fl.round
      dsimp only
      rw [roundHalfAway_neg, roundHalfAway_neg, hrd]
  have hval : n = m ∧ roundHalfAway ((n : ℚ) / q) = roundHalfAway ((m : ℚ) / q) ∨
      n = -(m : ℤ) ∧ roundHalfAway ((n : ℚ) / q) = -roundHalfAway ((m : ℚ) / q) := by
    rcases hm with rfl | rfl
    · left; exact ⟨rfl, by push_cast; rfl⟩
    · right; exact ⟨rfl, by push_cast; rw [neg_div, roundHalfAway_neg]⟩
  have hz : toI32 (.fin ((roundHalfAway ((n : ℚ) / q) : ℤ) : ℚ)) = roundHalfAway ((n : ℚ) / q) := by
    unfold toI32
    dsimp only
    rw [Int.floor_intCast, Int.ceil_intCast, ite_self]
    omega
  unfold quantize
  rw [hn, key, hz]
  refine ⟨rfl, ?_⟩
  omega

end Jpeg
end Verif
