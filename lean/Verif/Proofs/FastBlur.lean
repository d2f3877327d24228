import Verif.Model.FastBlur
import Verif.Spec.FastBlur
import Verif.Props.Filter3x3
import Verif.Proofs.JpegHuff

/-!
# `fast_blur`: windows and box widths
-/

namespace Verif
open GenericImageView GenericImage LawfulView LawfulImage
open Jpeg (getR setR)

variable {ch : Nat}

/-- The samples of a `w × h` picture of `ch` channels. -/
def Holds (s : List Nat) (w h ch : Nat) (v : Nat → Nat → Nat → Nat) : Prop :=
  ∀ x y c, x < w → y < h → c < ch → s[(y * w + x) * ch + c]? = some (v x y c)

theorem ext_ok {s : List Nat} {w h : Nat} {v : Nat → Nat → Nat → Nat} (hs : Holds s w h ch v) (hw : 0 < w) {x : Int} {y c : Nat}
    (hy : y < h) (hc : c < ch) : extendedF s w h x y c ch = .ok (v (min x.toNat (w - 1)) y c) := by
  unfold extendedF
  dsimp only
  have hx : (clampZ x 0 (w - 1 : Int)).toNat = min x.toNat (w - 1) := by
    unfold clampZ; split_ifs <;> omega
  have hy' : (clampZ y 0 (h - 1 : Int)).toNat = y := by
    unfold clampZ; split_ifs <;> omega
  rw [hx, hy']
  apply Jpeg.getR_of
  rw [channelIdx, Nat.mul_comm]
  exact hs _ _ _ (by omega) hy hc

/-- The sum of a window. -/
def boxSum (r n : Nat) (v : Nat → Nat) (x : Nat) : Nat := ∑ d ∈ Finset.range (2 * r + 1), v (min (x + d - r) (n - 1))

theorem boxSum_step (r n : Nat) (v : Nat → Nat) (x : Nat) :
    boxSum r n v (x + 1) + v (min (x - r) (n - 1)) = boxSum r n v x + v (min (x + r + 1) (n - 1)) := by
  unfold boxSum
  have h1 := Finset.sum_range_succ' (fun d => v (min (x + d - r) (n - 1))) (2 * r + 1)
  have h2 := Finset.sum_range_succ (fun d => v (min (x + d - r) (n - 1))) (2 * r + 1)
  rw [h1] at h2
  have e1 : ∀ d, x + (d + 1) - r = x + 1 + d - r := by omega
  simp only [e1, Nat.add_zero] at h2
  rw [h2, show x + 1 + 2 * r - r = x + r + 1 by omega]

theorem boxSum_le {r n M : Nat} {v : Nat → Nat} (hn : 0 < n) (hv : ∀ i, i < n → v i ≤ M) (x : Nat) : boxSum r n v x ≤ (2 * r + 1) * M := by
  have := Finset.sum_le_card_nsmul (Finset.range (2 * r + 1)) (fun d => v (min (x + d - r) (n - 1))) M (fun d _ => hv _ (by omega))
  simpa [boxSum] using this

theorem add_nat {a b : Nat} (h : a + b ≤ 2 ^ 24) : (Fl.fin (a : ℚ)).add f32 (.fin (b : ℚ)) = .fin ((a + b : ℕ) : ℚ) := by
  rw [fl_add, ← Nat.cast_add, show f32.ofRat ((a + b : ℕ) : ℚ) = Fl.ofNat f32 (a + b) from rfl, ofNat32 h]

theorem sub_nat {a b : Nat} (hab : b ≤ a) (h : a ≤ 2 ^ 24) : (Fl.fin (a : ℚ)).sub f32 (.fin (b : ℚ)) = .fin ((a - b : ℕ) : ℚ) := by
  rw [fl_sub, ← Nat.cast_sub hab, show f32.ofRat ((a - b : ℕ) : ℚ) = Fl.ofNat f32 (a - b) from rfl, ofNat32 (by omega)]

theorem firstSum_ok {T : Prim} {s : List Nat} {w h r : Nat} {v : Nat → Nat → Nat → Nat} (hs : Holds s w h ch v) (hw : 0 < w)
    {row c M : Nat} (hy : row < h) (hc : c < ch) (hM : ∀ i, i < w → v i row c ≤ M) (hr : (2 * r + 1) * M ≤ 2 ^ 24) (hr' : r < 2 ^ 62) :
    firstSum (Samp.uint T) s w h r row c ch = .ok (.fin (boxSum r w (fun i => v i row c) 0 : ℕ)) := by
  have hM24 : M ≤ 2 ^ 24 := le_trans (Nat.le_mul_of_pos_left M (by omega)) hr
  unfold firstSum
  dsimp only
  have e1 : asIsize r = r := by unfold asIsize; rw [if_pos (by omega)]
  have e2 : asIsize (r + 1) = r + 1 := by unfold asIsize; rw [if_pos (by omega)]; simp
  rw [e1, e2, show ((r : Int) + 1 - -(r : Int)).toNat = 2 * r + 1 by omega]
  obtain ⟨s', h1, h2⟩ := forRange_inv (n := 2 * r + 1) (f := fun i sum => do
      .ok (Fl.add f32 sum ((Samp.uint T).toF32 (← extendedF s w h (-(r : Int) + i) row c ch)))) (s := Fl.fin 0)
    (fun k t => t = .fin ((∑ d ∈ Finset.range k, v (min (0 + d - r) (w - 1)) row c : ℕ) : ℚ))
    (by simp)
    (by
      intro i hi t ht
      rw [ext_ok hs hw hy hc, ok_bind, ht]
      refine ⟨_, rfl, ?_⟩
      have hle := hM (min (0 + i - r) (w - 1)) (by omega)
      show (Fl.fin _).add f32 (Fl.ofNat f32 _) = _
      rw [show (-(r : Int) + i).toNat = 0 + i - r by omega, ofNat32 (by omega)]
      have hb : ∑ d ∈ Finset.range (i + 1), v (min (0 + d - r) (w - 1)) row c ≤ (2 * r + 1) * M := by
        have := Finset.sum_le_card_nsmul (Finset.range (i + 1)) (fun d => v (min (0 + d - r) (w - 1)) row c) M (fun d _ => hM _ (by omega))
        simp only [Finset.card_range, nsmul_eq_mul, Nat.cast_id] at this
        exact this.trans (Nat.mul_le_mul_right _ hi)
      rw [Finset.sum_range_succ] at hb
      rw [add_nat (by omega), Finset.sum_range_succ])
  rw [h1, h2]
  rfl

/-- One sample: the mean is written and the window moves on. -/
theorem step_ok {T : Prim} (hT : T.bits ≤ 16) {s : List Nat} {w h r : Nat} {v : Nat → Nat → Nat → Nat} (hs : Holds s w h ch v) (hw : 0 < w)
    {row c : Nat} (hy : row < h) (hc : c < ch) (hM : ∀ i, i < w → v i row c ≤ T.max) (hr : (2 * r + 1) * T.max < 2 ^ 24)
    {column : Nat} (hcol : column < 2 ^ 32) {out : List Nat} (ho : channelIdx c (row + column * h) ch < out.length) :
    blurStep (Samp.uint T) s w h r ch row column c out (.fin (boxSum r w (fun i => v i row c) column : ℕ)) =
      .ok (out.set (channelIdx c (row + column * h) ch) (boxMean r w (fun i => v i row c) column),
        .fin (boxSum r w (fun i => v i row c) (column + 1) : ℕ)) := by
  have hbits : T.max < 2 ^ 16 := by cases T <;> simp_all [Prim.max, Prim.bits]
  have hmax : 1 ≤ T.max := by cases T <;> simp [Prim.max, Prim.bits]
  have hr2 : 2 * r + 1 < 2 ^ 24 := lt_of_le_of_lt (Nat.le_mul_of_pos_right _ hmax) hr
  set W := boxSum r w (fun i => v i row c) column with hW
  have hWle : W ≤ (2 * r + 1) * T.max := boxSum_le hw hM column
  have hWle' : boxSum r w (fun i => v i row c) (column + 1) ≤ (2 * r + 1) * T.max := boxSum_le hw hM (column + 1)
  have hstep := boxSum_step r w (fun i => v i row c) column
  rw [← hW] at hstep
  have hden : ((Fl.fin 2).mul f32 (Fl.ofNat f32 r)).add f32 (.fin 1) = .fin ((2 * r + 1 : ℕ) : ℤ) := by
    rw [ofNat32 (by omega), fl_mul, show (2 : ℚ) * r = ((2 * r : ℕ) : ℚ) by push_cast; ring,
      show f32.ofRat ((2 * r : ℕ) : ℚ) = Fl.ofNat f32 (2 * r) from rfl, ofNat32 (by omega)]
    have := add_nat (a := 2 * r) (b := 1) (by omega)
    simpa using this
  obtain ⟨g, hg1, hg2⟩ := quotient hT (s := (W : ℕ)) (d := ((2 * r + 1 : ℕ) : ℤ)) (by rw [abs_of_nonneg (by positivity)]; exact_mod_cast (by omega : W < 2 ^ 24))
    (by exact_mod_cast (by omega : 2 * r + 1 ≠ 0)) (by rw [abs_of_nonneg (by positivity)]; exact_mod_cast (by omega : 2 * r + 1 ≤ 2 ^ 24))
  have hgm : g = boxMean r w (fun i => v i row c) column := by
    have e : ((W : ℕ) : ℚ) / ((2 * r + 1 : ℕ) : ℚ) ≤ T.max := by
      rw [div_le_iff₀ (by positivity)]
      have : W ≤ T.max * (2 * r + 1) := by rw [Nat.mul_comm]; exact hWle
      exact_mod_cast this
    have e2 : (((W : ℕ) : ℤ) : ℚ) / (((2 * r + 1 : ℕ) : ℤ) : ℚ) = ((W : ℕ) : ℚ) / ((2 * r + 1 : ℕ) : ℚ) := by push_cast; rfl
    rw [e2, min_eq_left e, max_eq_right (by positivity)] at hg2
    have e3 : ⌊((W : ℕ) : ℚ) / ((2 * r + 1 : ℕ) : ℚ)⌋ = ((W / (2 * r + 1) : ℕ) : ℤ) := by
      rw [Rat.floor_natCast_div_natCast]
      rfl
    rw [e3] at hg2
    exact_mod_cast hg2
  unfold blurStep
  dsimp only
  have h0 : (Samp.uint T).toF32 (Samp.uint T).min = .fin 0 := by
    show Fl.ofNat f32 0 = _
    rw [ofNat32 (by norm_num)]; simp
  rw [hden, h0]
  have hg1' : (Samp.uint T).cast (clampF ((Fl.fin ((W : ℕ) : ℚ)).div f32 (.fin (((2 * r + 1 : ℕ) : ℤ) : ℚ))) (.fin 0) ((Samp.uint T).toF32 (Samp.uint T).max)) = some g := hg1
  rw [hg1']
  have e1 : asIsize r = r := by unfold asIsize; rw [if_pos (by omega)]
  have e2 : asIsize column = column := by unfold asIsize; rw [if_pos (by omega)]
  have e3 : asIsize (column + r + 1) = (column + r + 1 : ℕ) := by unfold asIsize; rw [if_pos (by omega)]
  show (do let out ← setR out _ g; _) = _
  unfold setR
  rw [if_pos ho, ok_bind, ext_ok hs hw hy hc, ok_bind, ext_ok hs hw hy hc, ok_bind, e1, e2, e3, hgm,
    show ((column : Int) - r).toNat = column - r by omega, Int.toNat_natCast]
  congr 2
  have ha := hM (min (column - r) (w - 1)) (by omega)
  have hb := hM (min (column + r + 1) (w - 1)) (by omega)
  show ((Fl.fin _).sub f32 (Fl.ofNat f32 _)).add f32 (Fl.ofNat f32 _) = _
  have haW : v (min (column - r) (w - 1)) row c ≤ W := by
    rw [hW]
    unfold boxSum
    have := Finset.single_le_sum (f := fun d => v (min (column + d - r) (w - 1)) row c) (fun _ _ => Nat.zero_le _) (Finset.mem_range.2 (show 0 < 2 * r + 1 by omega))
    simpa using this
  rw [ofNat32 (by omega), ofNat32 (by omega), sub_nat haW (by omega), add_nat (by omega)]
  congr 2
  omega

/-- Half a box blur: means along the rows, transposed. -/
theorem half_ok {T : Prim} (hT : T.bits ≤ 16) {s : List Nat} {w h r : Nat} {v : Nat → Nat → Nat → Nat} (hs : Holds s w h ch v) (hw : 0 < w)
    (hw32 : w < 2 ^ 32) (hsz : w * h * ch < 2 ^ 64) (hch : 0 < ch)
    (hM : ∀ x y c, x < w → y < h → c < ch → v x y c ≤ T.max) (hr : (2 * r + 1) * T.max < 2 ^ 24) :
    ∃ out, horizontalHalf (Samp.uint T) s w h r ch = .ok out ∧ out.length = w * h * ch ∧
      Holds out h w ch fun y x c => boxMean r w (fun i => v i y c) x := by
  have hmax : 1 ≤ T.max := by cases T <;> simp [Prim.max, Prim.bits]
  have hr2 : 2 * r + 1 < 2 ^ 24 := lt_of_le_of_lt (Nat.le_mul_of_pos_right _ hmax) hr
  have hwh : w * h < 2 ^ 64 := lt_of_le_of_lt (Nat.le_mul_of_pos_right _ hch) hsz
  have hix : ∀ x y c, channelIdx c (y + x * h) ch = (x * h + y) * ch + c := by
    intro x y c; unfold channelIdx; rw [Nat.mul_comm, Nat.add_comm y]
  have hidx : ∀ x y c, x < w → y < h → c < ch → (x * h + y) * ch + c < w * h * ch := by
    intro x y c hx hy hc
    have h1 := idx_lt (w := h) (h := w) hy hx
    have h2 := idx_lt (w := ch) (h := h * w) hc h1
    rw [Nat.mul_comm ch, Nat.mul_comm h] at h2
    exact h2
  have hinj : ∀ x y c x' y' c', y < h → c < ch → y' < h → c' < ch → (x * h + y) * ch + c = (x' * h + y') * ch + c' →
      x = x' ∧ y = y' ∧ c = c' := by
    intro x y c x' y' c' hy hc hy' hc' he
    obtain ⟨h1, h2⟩ := idx_inj hc hc' he
    obtain ⟨h3, h4⟩ := idx_inj hy hy' h2
    exact ⟨h4, h3, h1⟩
  unfold horizontalHalf
  rw [mulC_ok hwh, ok_bind, mulC_ok hsz, ok_bind]
  -- what has been written before `(row, column, channel)`
  let Done : Nat → Nat → Nat → List Nat → Prop := fun row column channel out => out.length = w * h * ch ∧
    ∀ x y c, x < w → y < h → c < ch → (y < row ∨ y = row ∧ (x < column ∨ x = column ∧ c < channel)) →
      out[(x * h + y) * ch + c]? = some (boxMean r w (fun i => v i y c) x)
  obtain ⟨out, h1, h2, h3⟩ := forRange_inv (n := h) (f := fun row out => do
    let vals ← forRange ch (fun channel (vals : Nat → Fl) => do
      let v ← firstSum (Samp.uint T) s w h r row channel ch
      .ok fun c => if c = channel then v else vals c) (fun _ => .fin 0)
    let s ← forRange w (fun column s_1 =>
      forRange ch (fun channel (s_2 : List Nat × (Nat → Fl)) => do
        let (out, v) ← blurStep (Samp.uint T) s w h r ch row column channel s_2.1 (s_2.2 channel)
        .ok (out, fun c => if c = channel then v else s_2.2 c)) s_1) (out, vals)
    .ok s.1) (s := List.replicate (w * h * ch) (Samp.uint T).zero)
    (fun row out => Done row 0 0 out) ⟨List.length_replicate, by omega⟩
    (by
      intro row hrow out hd
      obtain ⟨vals, g1, g2⟩ := forRange_inv (n := ch) (f := fun channel (vals : Nat → Fl) => do
          let v ← firstSum (Samp.uint T) s w h r row channel ch
          .ok fun c => if c = channel then v else vals c) (s := fun _ => Fl.fin 0)
        (fun k vals => ∀ c, c < k → vals c = .fin (boxSum r w (fun i => v i row c) 0 : ℕ)) (by omega)
        (by
          intro c hc vals hv
          rw [firstSum_ok hs hw hrow hc (fun i hi => hM i row c hi hrow hc) hr.le (by omega), ok_bind]
          refine ⟨_, rfl, fun c' hc' => ?_⟩
          by_cases he : c' = c
          · rw [if_pos he, he]
          · rw [if_neg he]; exact hv c' (by omega))
      obtain ⟨⟨out', vals'⟩, g3, g4, g5⟩ := forRange_inv (n := w) (f := fun column s_1 =>
          forRange ch (fun channel (s_2 : List Nat × (Nat → Fl)) => do
            let (out, v) ← blurStep (Samp.uint T) s w h r ch row column channel s_2.1 (s_2.2 channel)
            .ok (out, fun c => if c = channel then v else s_2.2 c)) s_1) (s := (out, vals))
        (fun column t => Done row column 0 t.1 ∧ ∀ c, c < ch → t.2 c = .fin (boxSum r w (fun i => v i row c) column : ℕ))
        ⟨hd, g2⟩
        (by
          intro column hcol t ⟨t1, t2⟩
          obtain ⟨t', u1, u2, u3⟩ := forRange_inv (n := ch) (f := fun channel (s_2 : List Nat × (Nat → Fl)) => do
              let (out, v) ← blurStep (Samp.uint T) s w h r ch row column channel s_2.1 (s_2.2 channel)
              .ok (out, fun c => if c = channel then v else s_2.2 c)) (s := t)
            (fun k t => Done row column k t.1 ∧ ∀ c, c < ch → t.2 c =
              .fin (boxSum r w (fun i => v i row c) (if c < k then column + 1 else column) : ℕ))
            ⟨t1, fun c hc => by rw [t2 c hc, if_neg (by omega)]⟩
            (by
              intro c hc t ⟨⟨d1, d2⟩, d3⟩
              have ho : channelIdx c (row + column * h) ch < t.1.length := by
                rw [hix, d1]; exact hidx _ _ _ hcol hrow hc
              have hv := d3 c hc
              rw [if_neg (by omega)] at hv
              rw [hv, step_ok hT hs hw hrow hc (fun i hi => hM i row c hi hrow hc) hr (by omega) ho, ok_bind]
              refine ⟨_, rfl, ⟨by simpa using d1, ?_⟩, ?_⟩
              · intro x y c' hx hy hc' hdone
                dsimp only
                rw [hix]
                by_cases he : (column * h + row) * ch + c = (x * h + y) * ch + c'
                · obtain ⟨e1, e2, e3⟩ := hinj _ _ _ _ _ _ hrow hc hy hc' he
                  subst e1 e2 e3
                  rw [List.getElem?_set_self (by rw [d1]; exact hidx _ _ _ hcol hrow hc)]
                · rw [List.getElem?_set_ne he]
                  refine d2 x y c' hx hy hc' ?_
                  rcases hdone with h | ⟨h, h' | ⟨h', h''⟩⟩
                  · exact Or.inl h
                  · exact Or.inr ⟨h, Or.inl h'⟩
                  · refine Or.inr ⟨h, Or.inr ⟨h', ?_⟩⟩
                    have : c' ≠ c := fun e => he (by rw [h, h', e])
                    omega
              · intro c' hc'
                dsimp only
                by_cases he : c' = c
                · rw [if_pos he, he, if_pos (by omega)]
                · rw [if_neg he, d3 c' hc']
                  by_cases hlt : c' < c
                  · rw [if_pos hlt, if_pos (by omega)]
                  · rw [if_neg hlt, if_neg (by omega)])
          refine ⟨t', u1, ⟨u2.1, fun x y c hx hy hc hdone => u2.2 x y c hx hy hc (by omega)⟩, fun c hc => ?_⟩
          rw [u3 c hc, if_pos hc])
      rw [g1, ok_bind, g3, ok_bind]
      exact ⟨out', rfl, g4.1, fun x y c hx hy hc hdone => g4.2 x y c hx hy hc (by omega)⟩)
  exact ⟨out, h1, h2, fun y x c hy hx hc => h3 x y c hx hy hc (by omega)⟩

/-! ## The box widths -/

/-- `f32::sqrt` is accurate: IEEE 754 requires the correctly rounded root, which is exact for 1, at least 1 from there on, and
whose square is within `2^-22` of the argument. -/
structure Libm.SqrtOk (L : Libm) : Prop where
  one : L.sqrt (.fin 1) = .fin 1
  near : ∀ q : ℚ, 1 ≤ q → q ≤ 2 ^ 40 → f32.rnd q = q → ∃ s : ℚ, L.sqrt (.fin q) = .fin s ∧ 1 ≤ s ∧ |s ^ 2 - q| ≤ q / 2 ^ 22

theorem rnd_step {q e : ℚ} {y : ℚ} (h : |q - y| ≤ e) (h0 : 0 ≤ y) : |f32.rnd q - y| ≤ e + (y + e) / 2 ^ 24 + 1 / 2 ^ 100 := by
  have h1 := rnd_err32 q
  have h2 : |q| ≤ y + e := by
    rw [abs_le] at h ⊢
    constructor <;> linarith [h.1, h.2]
  have h3 : |q| / 2 ^ 24 ≤ (y + e) / 2 ^ 24 := by gcongr
  rw [abs_le] at h h1 ⊢
  constructor <;> linarith [h.1, h.2, h1.1, h1.2]

/-- The argument of the square root. -/
theorem ideal_ok {sigma : ℚ} (hs : |sigma| ≤ 2 ^ 15) : ∃ s2 q : ℚ, (Fl.fin sigma).mul f32 (.fin sigma) = .fin s2 ∧ 0 ≤ s2 ∧
    |s2 - sigma ^ 2| ≤ sigma ^ 2 / 2 ^ 24 + 1 / 2 ^ 100 ∧
    (((Fl.fin 12).mul f32 (.fin s2)).div f32 (Fl.ofNat f32 3)).add f32 (.fin 1) = .fin q ∧ f32.rnd q = q ∧
    1 ≤ q ∧ |q - (4 * sigma ^ 2 + 1)| ≤ (4 * sigma ^ 2 + 1) / 2 ^ 21 := by
  set X := sigma ^ 2 with hX
  have hX0 : 0 ≤ X := sq_nonneg _
  have hX1 : X ≤ 2 ^ 30 := by
    rw [hX, ← sq_abs]
    calc |sigma| ^ 2 ≤ (2 ^ 15) ^ 2 := by gcongr
      _ = 2 ^ 30 := by norm_num
  have e0 : sigma * sigma = X := by rw [hX, sq]
  have h1 := rnd_err32 X
  rw [abs_of_nonneg hX0] at h1
  have h1' := h1
  set s2 := f32.rnd X
  have hs20 : 0 ≤ s2 := f32.rnd_nonneg hX0
  rw [abs_le] at h1
  have h2 := rnd_step (q := 12 * s2) (y := 12 * X) (e := 12 * (X / 2 ^ 24 + 1 / 2 ^ 100)) (by rw [abs_le]; constructor <;> linarith [h1.1, h1.2]) (by positivity)
  set d := f32.rnd (12 * s2)
  have hd0 : 0 ≤ d := f32.rnd_nonneg (by positivity)
  rw [abs_le] at h2
  have h3 := rnd_step (q := d / 3) (y := 4 * X) (e := X * 10 / 2 ^ 24 + 10 / 2 ^ 100) (by rw [abs_le]; constructor <;> linarith [h2.1, h2.2]) (by positivity)
  set e := f32.rnd (d / 3)
  rw [abs_le] at h3
  have h4 := rnd_step (q := e + 1) (y := 4 * X + 1) (e := X * 15 / 2 ^ 24 + 15 / 2 ^ 100) (by rw [abs_le]; constructor <;> linarith [h3.1, h3.2]) (by positivity)
  set q := f32.rnd (e + 1)
  rw [abs_le] at h4
  have he0 : 0 ≤ e := f32.rnd_nonneg (by positivity)
  refine ⟨s2, q, ?_, hs20, h1', ?_, rnd_idem _, ?_, ?_⟩
  · rw [fl_mul, e0, ofRat32]
    rw [abs_of_nonneg hX0]; linarith [show (2 : ℚ) ^ 30 ≤ 2 ^ 127 by norm_num]
  · have hb : s2 ≤ 2 ^ 31 := by linarith [h1.2]
    have hd : d ≤ 2 ^ 36 := by linarith [h2.2]
    have he : e ≤ 2 ^ 36 := by linarith [h3.2]
    have b1 : |12 * s2| ≤ 2 ^ 127 := by
      rw [abs_of_nonneg (by positivity)]; linarith [show (12 : ℚ) * 2 ^ 31 ≤ 2 ^ 127 by norm_num]
    have b2 : |d / 3| ≤ 2 ^ 127 := by
      rw [abs_of_nonneg (by positivity)]; linarith [show (2 : ℚ) ^ 36 ≤ 2 ^ 127 by norm_num]
    have b3 : |e + 1| ≤ 2 ^ 127 := by
      rw [abs_of_nonneg (by positivity)]; linarith [show (2 : ℚ) ^ 36 + 1 ≤ 2 ^ 127 by norm_num]
    have h3' : Fl.ofNat f32 3 = .fin 3 := by rw [ofNat32 (by norm_num)]; norm_num
    rw [h3', fl_mul, ofRat32 b1, fl_div _ (by norm_num), ofRat32 b2, fl_add, ofRat32 b3]
  · have := f32.rnd_mono' (by decide) (show (1 : ℚ) ≤ e + 1 by linarith)
    have e1 : f32.rnd 1 = 1 := by simpa using rnd_nat32 (n := 1) (by norm_num)
    rwa [e1] at this
  · rw [abs_le]
    constructor <;> linarith [h4.1, h4.2]

set_option maxHeartbeats 1000000 in
/-- The number of the narrower boxes. -/
theorem count_ok {sigma s2 : ℚ} {wl : ℕ} (h1 : 1 ≤ wl) (h2 : wl ≤ 2 ^ 17) (hs : sigma ^ 2 ≤ 2 ^ 30) (hs20 : 0 ≤ s2)
    (hs2 : |s2 - sigma ^ 2| ≤ sigma ^ 2 / 2 ^ 24 + 1 / 2 ^ 100)
    (hlo : (wl : ℚ) ^ 2 ≤ (4 * sigma ^ 2 + 1) * (1 + 1 / 2 ^ 20)) (hhi : 4 * sigma ^ 2 + 1 ≤ ((wl : ℚ) + 2) ^ 2 * (1 + 1 / 2 ^ 20)) :
    ∃ (M : ℚ) (m : ℕ), (((Fl.fin (1 / 4)).mul f32 (Fl.ofNat f32 3)).mul f32 ((Fl.fin wl).add f32 (.fin 3))).sub f32
      (((Fl.fin 3).mul f32 (.fin s2)).mul f32 ((Fl.fin 1).div f32 ((Fl.fin wl).add f32 (.fin 1)))) = .fin M ∧
      (Fl.fin M).round.toUSat 64 = m ∧ m ≤ 3 ∧
      |3 / 4 * ((wl : ℚ) + 3) - 3 * sigma ^ 2 / (wl + 1) - m| ≤ 3 / 5 := by
  have hX0 : 0 ≤ sigma ^ 2 := sq_nonneg _
  set X := sigma ^ 2
  set N : ℚ := wl + 1 with hN
  have hw1 : (1 : ℚ) ≤ wl := by exact_mod_cast h1
  have hw2 : (wl : ℚ) ≤ 2 ^ 17 := by exact_mod_cast h2
  have hN2 : 2 ≤ N := by linarith
  have hN17 : N ≤ 2 ^ 17 + 1 := by linarith
  have hwN : (wl : ℚ) = N - 1 := by linarith
  rw [hwN] at hlo hhi
  -- the exact value
  set Q := 3 * X / N with hQ
  have hQN : Q * N = 3 * X := by rw [hQ]; field_simp
  have hQ0 : 0 ≤ Q := by positivity
  set E := 3 / 4 * (N + 2) - Q with hE
  have hEN : E * N = 3 / 4 * ((N + 1) ^ 2 - (4 * X + 1)) := by rw [hE]; linarith [hQN]
  have hElo : -(1 / 10) ≤ E := by
    by_contra hc
    rw [not_le] at hc
    nlinarith
  have hEhi : E ≤ 31 / 10 := by
    by_contra hc
    rw [not_le] at hc
    nlinarith
  have hQhi : Q ≤ 2 ^ 17 := by linarith
  -- the computed value
  rw [abs_le] at hs2
  have r1 := rnd_step (q := 3 * s2) (y := 3 * X) (e := 3 * (X / 2 ^ 24 + 1 / 2 ^ 100)) (by rw [abs_le]; constructor <;> linarith [hs2.1, hs2.2]) (by positivity)
  set p := f32.rnd (3 * s2)
  have hp0 : 0 ≤ p := f32.rnd_nonneg (by positivity)
  rw [abs_le] at r1
  have hNinv : 0 ≤ 1 / N := by positivity
  have r2 := rnd_err32 (1 / N)
  rw [abs_of_nonneg hNinv] at r2
  set g := f32.rnd (1 / N)
  have hg0 : 0 ≤ g := f32.rnd_nonneg hNinv
  have r2' : |g * N - 1| ≤ 2 / 2 ^ 24 := by
    have e : g * N - 1 = (g - 1 / N) * N := by field_simp
    rw [e, abs_mul, abs_of_pos (by linarith : 0 < N)]
    calc |g - 1 / N| * N ≤ (1 / N / 2 ^ 24 + 1 / 2 ^ 100) * N := by gcongr
      _ = 1 / 2 ^ 24 + N / 2 ^ 100 := by field_simp
      _ ≤ 2 / 2 ^ 24 := by linarith
  rw [abs_le] at r2'
  have hpX : p ≤ 3 * X * (1 + 3 / 2 ^ 24) + 10 / 2 ^ 100 := by linarith [r1.2]
  have hpX' : 3 * X * (1 - 3 / 2 ^ 24) - 10 / 2 ^ 100 ≤ p := by linarith [r1.1]
  have hpg : |p * g - Q| ≤ Q * 6 / 2 ^ 24 + 20 / 2 ^ 100 := by
    have e : (p * g - Q) * N = p * (g * N) - 3 * X := by linarith [hQN]
    have u1 : p * (g * N) ≤ p * (1 + 2 / 2 ^ 24) := by
      refine mul_le_mul_of_nonneg_left ?_ hp0; linarith [r2'.2]
    have u2 : p * (1 - 2 / 2 ^ 24) ≤ p * (g * N) := by
      refine mul_le_mul_of_nonneg_left ?_ hp0; linarith [r2'.1]
    rw [abs_le]
    constructor
    · by_contra hc
      rw [not_le] at hc
      nlinarith
    · by_contra hc
      rw [not_le] at hc
      nlinarith
  have r3 := rnd_step hpg hQ0
  set hh := f32.rnd (p * g)
  rw [abs_le] at r3
  have hhQ : |hh - Q| ≤ 1 / 16 := by
    rw [abs_le]
    constructor <;> linarith [r3.1, r3.2]
  rw [abs_le] at hhQ
  set A := 3 / 4 * (N + 2) with hA
  have r4 := rnd_err32 (A - hh)
  have hAh : |A - hh| ≤ 4 := by
    rw [abs_le]
    constructor <;> linarith [hhQ.1, hhQ.2]
  set M := f32.rnd (A - hh)
  rw [abs_le] at r4
  have hME : |M - E| ≤ 1 / 15 := by
    rw [abs_le]
    constructor <;> linarith [r4.1, r4.2, hhQ.1, hhQ.2]
  rw [abs_le] at hME
  have hXb : X ≤ 2 ^ 30 := hs
  have q1 : ((Fl.fin (1 / 4)).mul f32 (Fl.ofNat f32 3)) = .fin (3 / 4) := by
    have h3' : Fl.ofNat f32 3 = .fin 3 := by rw [ofNat32 (by norm_num)]; norm_num
    rw [h3', fl_mul, ofRat32 (by rw [abs_of_nonneg (by norm_num)]; norm_num), rnd_dyadic (q := 1 / 4 * 3) 3 (-2) (by norm_num) (by norm_num) (by norm_num)]
    norm_num
  have q2 : (Fl.fin (wl : ℚ)).add f32 (.fin 3) = .fin (N + 2) := by
    have := add_nat (a := wl) (b := 3) (by omega)
    rw [show N + 2 = ((wl + 3 : ℕ) : ℚ) by rw [hN]; push_cast; ring]
    simpa using this
  have q3 : (Fl.fin (wl : ℚ)).add f32 (.fin 1) = .fin N := by
    have := add_nat (a := wl) (b := 1) (by omega)
    rw [show N = ((wl + 1 : ℕ) : ℚ) by rw [hN]; push_cast; ring]
    simpa using this
  have q4 : (Fl.fin (3 / 4)).mul f32 (.fin (N + 2)) = .fin A := by
    rw [fl_mul, ofRat32 (by rw [abs_of_nonneg (by positivity)]; linarith [show (2 : ℚ) ^ 17 + 3 ≤ 2 ^ 127 by norm_num]),
      rnd_dyadic (q := 3 / 4 * (N + 2)) (3 * ((wl + 3 : ℕ) : ℤ)) (-2) (by rw [hN]; push_cast; norm_num; ring) (by rw [abs_of_nonneg (by positivity)]; omega) (by norm_num)]
  have q5 : (Fl.fin 3).mul f32 (.fin s2) = .fin p := by
    rw [fl_mul, ofRat32 (by rw [abs_of_nonneg (by positivity)]; linarith [hs2.2, show (4 : ℚ) * 2 ^ 30 + 1 ≤ 2 ^ 127 by norm_num])]
  have q6 : (Fl.fin 1).div f32 (.fin N) = .fin g := by
    rw [fl_div _ (by linarith), ofRat32 (by
      rw [abs_of_nonneg hNinv, div_le_iff₀ (by linarith)]
      linarith [show (1 : ℚ) ≤ 2 ^ 127 * 2 by norm_num])]
  have hpg' : |p * g| ≤ 2 ^ 127 := by
    rw [abs_of_nonneg (by positivity)]
    rw [abs_le] at hpg
    linarith [hpg.2, show (2 : ℚ) ^ 18 + 1 ≤ 2 ^ 127 by norm_num]
  have q7 : (Fl.fin p).mul f32 (.fin g) = .fin hh := by rw [fl_mul, ofRat32 hpg']
  have q8 : (Fl.fin A).sub f32 (.fin hh) = .fin M := by
    rw [fl_sub, ofRat32 (hAh.trans (by norm_num))]
  have hround : ∃ m : ℕ, roundHalfAway M = m ∧ m ≤ 3 ∧ |M - m| ≤ 1 / 2 := by
    by_cases h0 : 0 ≤ M
    · have h3 := roundHalfAway_nonneg h0
      have h4 := roundHalfAway_error h0
      obtain ⟨m, hm⟩ : ∃ m : ℕ, roundHalfAway M = m := ⟨(roundHalfAway M).toNat, by omega⟩
      rw [hm] at h4
      refine ⟨m, hm, ?_, by rw [abs_sub_comm]; exact_mod_cast h4⟩
      rw [abs_le] at h4
      have : (m : ℚ) < 4 := by
        have := h4.2
        push_cast at this
        linarith [hME.2]
      have : m < 4 := by exact_mod_cast this
      omega
    · rw [not_le] at h0
      refine ⟨0, ?_, by omega, ?_⟩
      · unfold roundHalfAway
        rw [if_neg (by linarith)]
        have : ⌊-M + 1 / 2⌋ = 0 := by
          rw [Int.floor_eq_iff]
          push_cast
          constructor <;> linarith [hME.1]
        rw [this]; simp
      · rw [abs_le]
        push_cast
        constructor <;> linarith [hME.1]
  obtain ⟨m, m1, m2, m3⟩ := hround
  refine ⟨M, m, ?_, ?_, m2, ?_⟩
  · rw [q1, q2, q3, q4, q5, q6, q7, q8]
  · show min ⌊((roundHalfAway M : ℤ) : ℚ)⌋.toNat _ = m
    rw [m1]
    simp only [Int.floor_intCast, Int.toNat_natCast]
    omega
  · rw [abs_le] at m3 ⊢
    have : (wl : ℚ) + 3 = N + 2 := by linarith
    rw [this]
    constructor <;> linarith [m3.1, m3.2, hME.1, hME.2]

theorem boxes_ok {L : Libm} (hL : L.SqrtOk) {sigma : ℚ} (hs : |sigma| ≤ 2 ^ 15) : ∃ wl m : ℕ, wl % 2 = 1 ∧ m ≤ 3 ∧
    boxesForGauss L (.fin sigma) 3 = (List.range 3).map (fun i => if i < m then wl else wl + 2) ∧ (wl : ℚ) ≤ 2 * |sigma| + 1 ∧
    |3 / 4 * ((wl : ℚ) + 3) - 3 * sigma ^ 2 / (wl + 1) - m| ≤ 3 / 5 := by
  obtain ⟨s2, q, e1, hs20, hs2, e2, hq, hq1, hq2⟩ := ideal_ok hs
  have hX0 : 0 ≤ sigma ^ 2 := sq_nonneg _
  have hX1 : sigma ^ 2 ≤ 2 ^ 30 := by
    rw [← sq_abs]
    calc |sigma| ^ 2 ≤ (2 ^ 15) ^ 2 := by gcongr
      _ = 2 ^ 30 := by norm_num
  rw [abs_le] at hq2
  obtain ⟨s, e3, hs1, hs3⟩ := hL.near q hq1 (by linarith [hq2.2]) hq
  rw [abs_le] at hs3
  have hfl : (1 : ℤ) ≤ ⌊s⌋ := Int.le_floor.2 (by simpa using hs1)
  obtain ⟨n, hn⟩ : ∃ n : ℕ, ⌊s⌋ = n := ⟨⌊s⌋.toNat, by omega⟩
  have hn1 : 1 ≤ n := by omega
  have hns : (n : ℚ) ≤ s := by
    have := Int.floor_le s
    rw [hn] at this
    exact_mod_cast this
  have hns' : s < n + 1 := by
    have := Int.lt_floor_add_one s
    rw [hn] at this
    exact_mod_cast this
  have hs4 : s ≤ 2 ^ 17 := by
    refine le_of_sq_le_sq ?_ (by norm_num)
    linarith [hs3.2, hq2.2]
  have hn17 : n ≤ 2 ^ 17 := by
    have : (n : ℚ) ≤ 2 ^ 17 := hns.trans hs4
    exact_mod_cast this
  set wl := if n % 2 = 0 then n - 1 else n with hwl
  have hwl1 : wl % 2 = 1 ∧ 1 ≤ wl ∧ wl ≤ n ∧ n ≤ wl + 1 := by
    rw [hwl]; split <;> omega
  obtain ⟨w1, w2, w3, w4⟩ := hwl1
  have ev : (Fl.fin (n : ℚ)).isEven = decide (n % 2 = 0) := by
    unfold Fl.isEven
    have : ⌊(n : ℚ) / 2⌋ = (n / 2 : ℕ) := by
      have := Rat.floor_natCast_div_natCast n 2
      simpa using this
    show decide ((n : ℚ) = 2 * ((⌊(n : ℚ) / 2⌋ : ℤ) : ℚ)) = _
    rw [this]
    congr 1
    rw [eq_iff_iff]
    constructor
    · intro h
      have : n = 2 * (n / 2) := by exact_mod_cast h
      omega
    · intro h
      have : n = 2 * (n / 2) := by omega
      exact_mod_cast this
  have ewl : (if (Fl.fin (n : ℚ)).isEven then (Fl.fin (n : ℚ)).sub f32 (.fin 1) else .fin (n : ℚ)) = .fin (wl : ℚ) := by
    rw [ev, hwl]
    by_cases h : n % 2 = 0
    · rw [if_pos (by simpa using h), if_pos h]
      have := sub_nat (a := n) (b := 1) hn1 (by omega)
      simpa using this
    · rw [if_neg (by simpa using h), if_neg h]
  have hwq : (wl : ℚ) ≤ n := by exact_mod_cast w3
  have hwq' : (n : ℚ) ≤ wl + 1 := by exact_mod_cast w4
  have hwq0 : (1 : ℚ) ≤ wl := by exact_mod_cast w2
  have hlo : (wl : ℚ) ^ 2 ≤ (4 * sigma ^ 2 + 1) * (1 + 1 / 2 ^ 20) := by
    have : (wl : ℚ) ^ 2 ≤ s ^ 2 := by gcongr; linarith
    linarith [hs3.2, hq2.2]
  have hhi : 4 * sigma ^ 2 + 1 ≤ ((wl : ℚ) + 2) ^ 2 * (1 + 1 / 2 ^ 20) := by
    have : s ^ 2 ≤ ((wl : ℚ) + 2) ^ 2 := by gcongr; linarith
    linarith [hs3.1, hq2.1]
  obtain ⟨M, m, c1, c2, c3, c4⟩ := count_ok w2 (by omega) hX1 hs20 hs2 hlo hhi
  refine ⟨wl, m, w1, c3, ?_, ?_, c4⟩
  · have eW : (Fl.fin s).floor = .fin (n : ℚ) := by
      show Fl.fin ((⌊s⌋ : ℤ) : ℚ) = _
      rw [hn]; simp
    have eu : (Fl.fin (wl : ℚ)).add f32 (.fin 2) = .fin ((wl + 2 : ℕ) : ℚ) := by
      have := add_nat (a := wl) (b := 2) (by omega)
      simpa using this
    have u1 : ∀ k : ℕ, k ≤ 2 ^ 24 → (Fl.fin (k : ℚ)).toUSat 64 = k := by
      intro k hk
      unfold Fl.toUSat
      simp only [Int.floor_natCast, Int.toNat_natCast]
      omega
    unfold boxesForGauss
    simp only [e1, e2, e3, eW, ewl, c1, c2, eu, u1 wl (by omega), u1 (wl + 2) (by omega)]
  · by_cases h3 : wl = 1
    · rw [h3]; push_cast; linarith [abs_nonneg sigma]
    have hwl3 : 3 ≤ wl := by omega
    have hw3 : (3 : ℚ) ≤ wl := by exact_mod_cast hwl3
    refine le_of_sq_le_sq ?_ (by positivity)
    have hsq : sigma ^ 2 = |sigma| ^ 2 := (sq_abs _).symm
    rw [hsq] at hlo hX1
    have h1 : 1 ≤ |sigma| := by
      by_contra hc
      rw [not_le] at hc
      have ha : |sigma| ^ 2 ≤ 1 ^ 2 := by gcongr
      have hw9 : (3 : ℚ) ^ 2 ≤ (wl : ℚ) ^ 2 := by gcongr
      linarith
    have ha : |sigma| * |sigma| ≤ 2 ^ 15 * |sigma| := by gcongr
    have e9 : (2 * |sigma| + 1) ^ 2 = 4 * (|sigma| * |sigma|) + 4 * |sigma| + 1 := by ring
    rw [e9]
    rw [sq |sigma|] at hlo
    linarith

end Verif
