import Verif.Props.FastBlur
import Verif.Proofs.Contrast

/-!
# `fast_blur` on `f32` samples
-/

namespace Verif
open GenericImageView GenericImage LawfulView LawfulImage
open Jpeg (getR setR)

variable {ch : Nat}

/-- The samples of a `w × h` picture of `ch` channels. -/
def HoldsF (s : List Fl) (w h ch : Nat) (v : Nat → Nat → Nat → Fl) : Prop :=
  ∀ x y c, x < w → y < h → c < ch → s[(y * w + x) * ch + c]? = some (v x y c)

theorem ext_okF {s : List Fl} {w h : Nat} {v : Nat → Nat → Nat → Fl} (hs : HoldsF s w h ch v) (hw : 0 < w) {x : Int} {y c : Nat}
    (hy : y < h) (hc : c < ch) : extendedF s w h x y c ch = .ok (v (min x.toNat (w - 1)) y c) := by
  unfold extendedF
  dsimp only
  have hx : (clampZ x 0 (w - 1 : Int)).toNat = min x.toNat (w - 1) := by
    unfold clampZ; split_ifs <;> omega
  have hy' : (clampZ y 0 (h - 1 : Int)).toNat = y := by
    unfold clampZ; split_ifs <;> omega
  rw [hx, hy']
  apply Jpeg.getR_of
  rw [channelIdx, Nat.mul_comm]
  exact hs _ _ _ (by omega) hy hc

/-- The sum of the first `k` values of the first window, rounded at each step. -/
def firstF (r n : Nat) (v : Nat → Fl) : Nat → Fl
  | 0 => .fin 0
  | k + 1 => (firstF r n v k).add f32 (v (min (0 + k - r) (n - 1)))

/-- The running sum at column `x`. -/
def runF (r n : Nat) (v : Nat → Fl) : Nat → Fl
  | 0 => firstF r n v (2 * r + 1)
  | x + 1 => ((runF r n v x).sub f32 (v (min (x - r) (n - 1)))).add f32 (v (min (x + r + 1) (n - 1)))

/-- The mean that is written at column `x`. -/
def meanF (r n : Nat) (v : Nat → Fl) (x : Nat) : Fl :=
  clampF ((runF r n v x).div f32 (((Fl.fin 2).mul f32 (Fl.ofNat f32 r)).add f32 (.fin 1))) (.fin 0) (.fin 1)

theorem firstSum_okF {s : List Fl} {w h r : Nat} {v : Nat → Nat → Nat → Fl} (hs : HoldsF s w h ch v) (hw : 0 < w)
    {row c : Nat} (hy : row < h) (hc : c < ch) (hr' : r < 2 ^ 62) :
    firstSum Samp.float s w h r row c ch = .ok (runF r w (fun i => v i row c) 0) := by
  unfold firstSum
  dsimp only
  have e1 : asIsize r = r := by unfold asIsize; rw [if_pos (by omega)]
  have e2 : asIsize (r + 1) = r + 1 := by unfold asIsize; rw [if_pos (by omega)]; simp
  rw [e1, e2, show ((r : Int) + 1 - -(r : Int)).toNat = 2 * r + 1 by omega]
  obtain ⟨s', h1, h2⟩ := forRange_inv (n := 2 * r + 1) (f := fun i sum => do
      .ok (Fl.add f32 sum (Samp.float.toF32 (← extendedF s w h (-(r : Int) + i) row c ch)))) (s := Fl.fin 0)
    (fun k t => t = firstF r w (fun i => v i row c) k) rfl
    (by
      intro i hi t ht
      rw [ext_okF hs hw hy hc, ok_bind, ht, show (-(r : Int) + i).toNat = 0 + i - r by omega]
      exact ⟨_, rfl, rfl⟩)
  rw [h1, h2]
  rfl

/-- One sample: the mean is written and the window moves on. -/
theorem step_okF {s : List Fl} {w h r : Nat} {v : Nat → Nat → Nat → Fl} (hs : HoldsF s w h ch v) (hw : 0 < w)
    {row c : Nat} (hy : row < h) (hc : c < ch) (hr : r < 2 ^ 62)
    {column : Nat} (hcol : column < 2 ^ 32) {out : List Fl} (ho : channelIdx c (row + column * h) ch < out.length) :
    blurStep Samp.float s w h r ch row column c out (runF r w (fun i => v i row c) column) =
      .ok (out.set (channelIdx c (row + column * h) ch) (meanF r w (fun i => v i row c) column),
        runF r w (fun i => v i row c) (column + 1)) := by
  unfold blurStep
  have e1 : asIsize r = r := by unfold asIsize; rw [if_pos (by omega)]
  have e2 : asIsize column = column := by unfold asIsize; rw [if_pos (by omega)]
  have e3 : asIsize (column + r + 1) = (column + r + 1 : ℕ) := by unfold asIsize; rw [if_pos (by omega)]
  show (do let out ← setR out _ (meanF r w (fun i => v i row c) column); _) = _
  unfold setR
  rw [if_pos ho, ok_bind, ext_okF hs hw hy hc, ok_bind, ext_okF hs hw hy hc, ok_bind, e1, e2, e3,
    show ((column : Int) - r).toNat = column - r by omega, Int.toNat_natCast]
  rfl

/-- Half a box blur: means along the rows, transposed. -/
theorem half_okF {s : List Fl} {w h r : Nat} {v : Nat → Nat → Nat → Fl} (hs : HoldsF s w h ch v) (hw : 0 < w)
    (hw32 : w < 2 ^ 32) (hsz : w * h * ch < 2 ^ 64) (hch : 0 < ch) (hr : r < 2 ^ 62) :
    ∃ out, horizontalHalf Samp.float s w h r ch = .ok out ∧ out.length = w * h * ch ∧
      HoldsF out h w ch fun y x c => meanF r w (fun i => v i y c) x := by
  have hwh : w * h < 2 ^ 64 := lt_of_le_of_lt (Nat.le_mul_of_pos_right _ hch) hsz
  have hix : ∀ x y c, channelIdx c (y + x * h) ch = (x * h + y) * ch + c := by
    intro x y c; unfold channelIdx; rw [Nat.mul_comm, Nat.add_comm y]
  have hidx : ∀ x y c, x < w → y < h → c < ch → (x * h + y) * ch + c < w * h * ch := by
    intro x y c hx hy hc
    have h1 := idx_lt (w := h) (h := w) hy hx
    have h2 := idx_lt (w := ch) (h := h * w) hc h1
    rw [Nat.mul_comm ch, Nat.mul_comm h] at h2
    exact h2
  have hinj : ∀ x y c x' y' c', y < h → c < ch → y' < h → c' < ch → (x * h + y) * ch + c = (x' * h + y') * ch + c' →
      x = x' ∧ y = y' ∧ c = c' := by
    intro x y c x' y' c' hy hc hy' hc' he
    obtain ⟨h1, h2⟩ := idx_inj hc hc' he
    obtain ⟨h3, h4⟩ := idx_inj hy hy' h2
    exact ⟨h4, h3, h1⟩
  unfold horizontalHalf
  rw [mulC_ok hwh, ok_bind, mulC_ok hsz, ok_bind]
  -- what has been written before `(row, column, channel)`
  let Done : Nat → Nat → Nat → List Fl → Prop := fun row column channel out => out.length = w * h * ch ∧
    ∀ x y c, x < w → y < h → c < ch → (y < row ∨ y = row ∧ (x < column ∨ x = column ∧ c < channel)) →
      out[(x * h + y) * ch + c]? = some (meanF r w (fun i => v i y c) x)
  obtain ⟨out, h1, h2, h3⟩ := forRange_inv (n := h) (f := fun row out => do
    let vals ← forRange ch (fun channel (vals : Nat → Fl) => do
      let v ← firstSum Samp.float s w h r row channel ch
      .ok fun c => if c = channel then v else vals c) (fun _ => .fin 0)
    let s ← forRange w (fun column s_1 =>
      forRange ch (fun channel (s_2 : List Fl × (Nat → Fl)) => do
        let (out, v) ← blurStep Samp.float s w h r ch row column channel s_2.1 (s_2.2 channel)
        .ok (out, fun c => if c = channel then v else s_2.2 c)) s_1) (out, vals)
    .ok s.1) (s := List.replicate (w * h * ch) Samp.float.zero)
    (fun row out => Done row 0 0 out) ⟨List.length_replicate, by omega⟩
    (by
      intro row hrow out hd
      obtain ⟨vals, g1, g2⟩ := forRange_inv (n := ch) (f := fun channel (vals : Nat → Fl) => do
          let v ← firstSum Samp.float s w h r row channel ch
          .ok fun c => if c = channel then v else vals c) (s := fun _ => Fl.fin 0)
        (fun k vals => ∀ c, c < k → vals c = runF r w (fun i => v i row c) 0) (by omega)
        (by
          intro c hc vals hv
          rw [firstSum_okF hs hw hrow hc (by omega), ok_bind]
          refine ⟨_, rfl, fun c' hc' => ?_⟩
          by_cases he : c' = c
          · rw [if_pos he, he]
          · rw [if_neg he]; exact hv c' (by omega))
      obtain ⟨⟨out', vals'⟩, g3, g4, g5⟩ := forRange_inv (n := w) (f := fun column s_1 =>
          forRange ch (fun channel (s_2 : List Fl × (Nat → Fl)) => do
            let (out, v) ← blurStep Samp.float s w h r ch row column channel s_2.1 (s_2.2 channel)
            .ok (out, fun c => if c = channel then v else s_2.2 c)) s_1) (s := (out, vals))
        (fun column t => Done row column 0 t.1 ∧ ∀ c, c < ch → t.2 c = runF r w (fun i => v i row c) column)
        ⟨hd, g2⟩
        (by
          intro column hcol t ⟨t1, t2⟩
          obtain ⟨t', u1, u2, u3⟩ := forRange_inv (n := ch) (f := fun channel (s_2 : List Fl × (Nat → Fl)) => do
              let (out, v) ← blurStep Samp.float s w h r ch row column channel s_2.1 (s_2.2 channel)
              .ok (out, fun c => if c = channel then v else s_2.2 c)) (s := t)
            (fun k t => Done row column k t.1 ∧ ∀ c, c < ch → t.2 c =
              runF r w (fun i => v i row c) (if c < k then column + 1 else column))
            ⟨t1, fun c hc => by rw [t2 c hc, if_neg (by omega)]⟩
            (by
              intro c hc t ⟨⟨d1, d2⟩, d3⟩
              have ho : channelIdx c (row + column * h) ch < t.1.length := by
                rw [hix, d1]; exact hidx _ _ _ hcol hrow hc
              have hv := d3 c hc
              rw [if_neg (by omega)] at hv
              rw [hv, step_okF hs hw hrow hc hr (by omega) ho, ok_bind]
              refine ⟨_, rfl, ⟨by simpa using d1, ?_⟩, ?_⟩
              · intro x y c' hx hy hc' hdone
                dsimp only
                rw [hix]
                by_cases he : (column * h + row) * ch + c = (x * h + y) * ch + c'
                · obtain ⟨e1, e2, e3⟩ := hinj _ _ _ _ _ _ hrow hc hy hc' he
                  subst e1 e2 e3
                  rw [List.getElem?_set_self (by rw [d1]; exact hidx _ _ _ hcol hrow hc)]
                · rw [List.getElem?_set_ne he]
                  refine d2 x y c' hx hy hc' ?_
                  rcases hdone with h | ⟨h, h' | ⟨h', h''⟩⟩
                  · exact Or.inl h
                  · exact Or.inr ⟨h, Or.inl h'⟩
                  · refine Or.inr ⟨h, Or.inr ⟨h', ?_⟩⟩
                    have : c' ≠ c := fun e => he (by rw [h, h', e])
                    omega
              · intro c' hc'
                dsimp only
                by_cases he : c' = c
                · rw [if_pos he, he, if_pos (by omega)]
                · rw [if_neg he, d3 c' hc']
                  by_cases hlt : c' < c
                  · rw [if_pos hlt, if_pos (by omega)]
                  · rw [if_neg hlt, if_neg (by omega)])
          refine ⟨t', u1, ⟨u2.1, fun x y c hx hy hc hdone => u2.2 x y c hx hy hc (by omega)⟩, fun c hc => ?_⟩
          rw [u3 c hc, if_pos hc])
      rw [g1, ok_bind, g3, ok_bind]
      exact ⟨out', rfl, g4.1, fun x y c hx hy hc hdone => g4.2 x y c hx hy hc (by omega)⟩)
  exact ⟨out, h1, h2, fun y x c hy hx hc => h3 x y c hx hy hc (by omega)⟩

/-! ## Rounding errors -/

/-- One rounding of a number of magnitude at most `7/6 N`. -/
theorem small_round {q N : ℚ} (hN : 1 ≤ N) (hN2 : N ≤ 2 ^ 24) (h : |q| ≤ 7 / 6 * N) :
    ∃ f, f32.ofRat q = .fin f ∧ |f - q| ≤ 4 / 3 * N / 2 ^ 24 := by
  refine ⟨f32.rnd q, ofRat32 (h.trans ?_), (rnd_err32 q).trans ?_⟩
  · calc 7 / 6 * N ≤ 7 / 6 * 2 ^ 24 := by linarith
      _ ≤ 2 ^ 127 := by norm_num
  · have : (1 : ℚ) / 2 ^ 100 ≤ 1 / 6 / 2 ^ 24 := by norm_num
    calc |q| / 2 ^ 24 + 1 / 2 ^ 100 ≤ 7 / 6 * N / 2 ^ 24 + 1 / 6 * N / 2 ^ 24 := by
          refine add_le_add (by gcongr) (this.trans ?_)
          gcongr
          linarith
      _ = _ := by ring

theorem window_bounds {r n : Nat} {q : Nat → ℚ} (hn : 0 < n) (hq : ∀ i, i < n → 0 ≤ q i ∧ q i ≤ 1) (x k : Nat) :
    0 ≤ ∑ d ∈ Finset.range k, q (min (x + d - r) (n - 1)) ∧ ∑ d ∈ Finset.range k, q (min (x + d - r) (n - 1)) ≤ k := by
  constructor
  · exact Finset.sum_nonneg fun d _ => (hq _ (by omega)).1
  · have := Finset.sum_le_card_nsmul (Finset.range k) (fun d => q (min (x + d - r) (n - 1))) 1 fun d _ => (hq _ (by omega)).2
    simpa using this

theorem firstF_near {r n : Nat} {q : Nat → ℚ} (hn : 0 < n) (hq : ∀ i, i < n → 0 ≤ q i ∧ q i ≤ 1) (hr : 2 * r + 1 ≤ 2 ^ 21) :
    ∀ k, k ≤ 2 * r + 1 → ∃ f, firstF r n (fun i => .fin (q i)) k = .fin f ∧
      |f - ∑ d ∈ Finset.range k, q (min (0 + d - r) (n - 1))| ≤ 4 / 3 * (2 * r + 1 : ℕ) * k / 2 ^ 24 := by
  intro k
  have hN : (1 : ℚ) ≤ ((2 * r + 1 : ℕ) : ℚ) := by exact_mod_cast (by omega : 1 ≤ 2 * r + 1)
  have hN2 : ((2 * r + 1 : ℕ) : ℚ) ≤ 2 ^ 21 := by exact_mod_cast hr
  induction k with
  | zero => intro _; exact ⟨0, rfl, by simp⟩
  | succ k ih =>
    intro hk
    obtain ⟨f, f1, f2⟩ := ih (by omega)
    have hb := window_bounds (r := r) hn hq 0 (k + 1)
    have hkN : ((k + 1 : ℕ) : ℚ) ≤ ((2 * r + 1 : ℕ) : ℚ) := by exact_mod_cast hk
    rw [Finset.sum_range_succ] at hb ⊢
    set N : ℚ := ((2 * r + 1 : ℕ) : ℚ)
    set s := ∑ d ∈ Finset.range k, q (min (0 + d - r) (n - 1))
    have hE : 4 / 3 * N * k / 2 ^ 24 ≤ 1 / 6 * N := by
      have : (k : ℚ) ≤ 2 ^ 21 := by push_cast at hkN; linarith
      rw [div_le_iff₀ (by norm_num)]
      nlinarith
    rw [abs_le] at f2
    obtain ⟨g, g1, g2⟩ := small_round (q := f + q (min (0 + k - r) (n - 1))) (N := N) hN (by linarith [show (2 : ℚ) ^ 21 ≤ 2 ^ 24 by norm_num])
      (by rw [abs_le]; constructor <;> linarith [hb.1, hb.2])
    refine ⟨g, ?_, ?_⟩
    · show (firstF r n _ k).add f32 _ = _
      rw [f1, fl_add, g1]
    · rw [abs_le] at g2 ⊢
      have e : 4 / 3 * N * ((k + 1 : ℕ) : ℚ) / 2 ^ 24 = 4 / 3 * N * k / 2 ^ 24 + 4 / 3 * N / 2 ^ 24 := by push_cast; ring
      rw [e]
      constructor <;> linarith

/-- The exact sum of a window. -/
def boxSumQ (r n : Nat) (v : Nat → ℚ) (x : Nat) : ℚ := ∑ d ∈ Finset.range (2 * r + 1), v (min (x + d - r) (n - 1))

theorem boxSumQ_step (r n : Nat) (v : Nat → ℚ) (x : Nat) :
    boxSumQ r n v (x + 1) + v (min (x - r) (n - 1)) = boxSumQ r n v x + v (min (x + r + 1) (n - 1)) := by
  unfold boxSumQ
  have h1 := Finset.sum_range_succ' (fun d => v (min (x + d - r) (n - 1))) (2 * r + 1)
  have h2 := Finset.sum_range_succ (fun d => v (min (x + d - r) (n - 1))) (2 * r + 1)
  rw [h1] at h2
  have e1 : ∀ d, x + (d + 1) - r = x + 1 + d - r := by omega
  simp only [e1, Nat.add_zero] at h2
  rw [h2, show x + 1 + 2 * r - r = x + r + 1 by omega]

theorem runF_near {r n : Nat} {q : Nat → ℚ} (hn : 0 < n) (hq : ∀ i, i < n → 0 ≤ q i ∧ q i ≤ 1) (hr : 2 * r + 1 + 2 * n ≤ 2 ^ 21) :
    ∀ x, x ≤ n → ∃ f, runF r n (fun i => .fin (q i)) x = .fin f ∧
      |f - boxSumQ r n q x| ≤ 4 / 3 * (2 * r + 1 : ℕ) * (2 * r + 1 + 2 * x : ℕ) / 2 ^ 24 := by
  intro x
  have hN : (1 : ℚ) ≤ ((2 * r + 1 : ℕ) : ℚ) := by exact_mod_cast (by omega : 1 ≤ 2 * r + 1)
  have hN2 : ((2 * r + 1 : ℕ) : ℚ) ≤ 2 ^ 21 := by exact_mod_cast (by omega : 2 * r + 1 ≤ 2 ^ 21)
  induction x with
  | zero => intro _; exact firstF_near hn hq (by omega) _ le_rfl
  | succ x ih =>
    intro hx
    obtain ⟨f, f1, f2⟩ := ih (by omega)
    have hb := window_bounds (r := r) hn hq x (2 * r + 1)
    have hb' := window_bounds (r := r) hn hq (x + 1) (2 * r + 1)
    have hst := boxSumQ_step r n q x
    have hk : ((2 * r + 1 + 2 * x : ℕ) : ℚ) + 2 ≤ 2 ^ 21 := by exact_mod_cast (by omega : 2 * r + 1 + 2 * x + 2 ≤ 2 ^ 21)
    have ha : q (min (x - r) (n - 1)) ≤ boxSumQ r n q x := by
      have := Finset.single_le_sum (f := fun d => q (min (x + d - r) (n - 1))) (fun _ _ => (hq _ (by omega)).1) (Finset.mem_range.2 (show 0 < 2 * r + 1 by omega))
      simpa [boxSumQ] using this
    have ha0 := (hq (min (x - r) (n - 1)) (by omega)).1
    change 0 ≤ boxSumQ r n q x ∧ boxSumQ r n q x ≤ _ at hb
    change 0 ≤ boxSumQ r n q (x + 1) ∧ boxSumQ r n q (x + 1) ≤ _ at hb'
    set N : ℚ := ((2 * r + 1 : ℕ) : ℚ)
    set K : ℚ := ((2 * r + 1 + 2 * x : ℕ) : ℚ) with hK
    have hE : 4 / 3 * N * K / 2 ^ 24 + 4 / 3 * N / 2 ^ 24 ≤ 1 / 6 * N := by
      rw [← add_div, div_le_iff₀ (by norm_num)]
      nlinarith
    have hE0 : 0 ≤ 4 / 3 * N / 2 ^ 24 := by positivity
    rw [abs_le] at f2
    obtain ⟨g, g1, g2⟩ := small_round (q := f - q (min (x - r) (n - 1))) (N := N) hN (by linarith [show (2 : ℚ) ^ 21 ≤ 2 ^ 24 by norm_num])
      (by rw [abs_le]; constructor <;> linarith [hb.1, hb.2])
    rw [abs_le] at g2
    obtain ⟨e, e1, e2⟩ := small_round (q := g + q (min (x + r + 1) (n - 1))) (N := N) hN (by linarith [show (2 : ℚ) ^ 21 ≤ 2 ^ 24 by norm_num])
      (by rw [abs_le]; constructor <;> linarith [hb'.1, hb'.2])
    refine ⟨e, ?_, ?_⟩
    · show ((runF r n _ x).sub f32 _).add f32 _ = _
      rw [f1, fl_sub, g1, fl_add, e1]
    · rw [abs_le] at e2 ⊢
      have e3 : 4 / 3 * N * ((2 * r + 1 + 2 * (x + 1) : ℕ) : ℚ) / 2 ^ 24 = 4 / 3 * N * K / 2 ^ 24 + 4 / 3 * N / 2 ^ 24 + 4 / 3 * N / 2 ^ 24 := by
        rw [hK]; push_cast; ring
      rw [e3]
      constructor <;> linarith

/-- The rounding error of one half of a box blur. -/
def halfErr (r n : Nat) : ℚ := 4 / 3 * (2 * r + 1 + 2 * n : ℕ) / 2 ^ 24

theorem meanF_near {r n : Nat} {q : Nat → ℚ} (hn : 0 < n) (hq : ∀ i, i < n → 0 ≤ q i ∧ q i ≤ 1) (hr : 2 * r + 1 + 2 * n ≤ 2 ^ 21)
    {x : Nat} (hx : x < n) : ∃ f, meanF r n (fun i => .fin (q i)) x = .fin f ∧ 0 ≤ f ∧ f ≤ 1 ∧ |f - boxMeanQ r n q x| ≤ halfErr r n := by
  obtain ⟨f, f1, f2⟩ := runF_near hn hq hr x hx.le
  have hN : (1 : ℚ) ≤ ((2 * r + 1 : ℕ) : ℚ) := by exact_mod_cast (by omega : 1 ≤ 2 * r + 1)
  have hb := window_bounds (r := r) hn hq x (2 * r + 1)
  have hden : ((Fl.fin 2).mul f32 (Fl.ofNat f32 r)).add f32 (.fin 1) = .fin ((2 * r + 1 : ℕ) : ℚ) := by
    rw [ofNat32 (by omega), fl_mul, show (2 : ℚ) * r = ((2 * r : ℕ) : ℚ) by push_cast; ring,
      show f32.ofRat ((2 * r : ℕ) : ℚ) = Fl.ofNat f32 (2 * r) from rfl, ofNat32 (by omega)]
    have := add_nat (a := 2 * r) (b := 1) (by omega)
    simpa using this
  change 0 ≤ boxSumQ r n q x ∧ boxSumQ r n q x ≤ _ at hb
  have hm : boxMeanQ r n q x = boxSumQ r n q x / (2 * r + 1 : ℕ) := rfl
  have hk : ((2 * r + 1 + 2 * x : ℕ) : ℚ) + 2 ≤ ((2 * r + 1 + 2 * n : ℕ) : ℚ) := by exact_mod_cast (by omega : 2 * r + 1 + 2 * x + 2 ≤ 2 * r + 1 + 2 * n)
  have hk2 : ((2 * r + 1 + 2 * n : ℕ) : ℚ) ≤ 2 ^ 21 := by exact_mod_cast hr
  unfold halfErr
  set N : ℚ := ((2 * r + 1 : ℕ) : ℚ)
  set K : ℚ := ((2 * r + 1 + 2 * x : ℕ) : ℚ)
  set M : ℚ := ((2 * r + 1 + 2 * n : ℕ) : ℚ)
  have hm0 : 0 ≤ boxMeanQ r n q x ∧ boxMeanQ r n q x ≤ 1 := by
    rw [hm]
    exact ⟨div_nonneg hb.1 (by linarith), by rw [div_le_one (by linarith)]; exact hb.2⟩
  have hq1 : |f / N - boxMeanQ r n q x| ≤ 4 / 3 * K / 2 ^ 24 := by
    rw [hm, ← sub_div, abs_div, abs_of_pos (show 0 < N by linarith), div_le_iff₀ (by linarith)]
    calc _ ≤ _ := f2
      _ = _ := by ring
  have hE : 4 / 3 * K / 2 ^ 24 ≤ 1 / 6 := by
    rw [div_le_iff₀ (by norm_num)]
    linarith
  rw [abs_le] at hq1
  obtain ⟨g, g1, g2⟩ := small_round (q := f / N) (N := 1) le_rfl (by norm_num) (by rw [abs_le]; constructor <;> linarith [hm0.1, hm0.2])
  refine ⟨max 0 (min g 1), ?_, le_max_left _ _, max_le (by norm_num) (min_le_right _ _), ?_⟩
  · unfold meanF
    rw [f1, hden, fl_div f (show N ≠ 0 by linarith), g1, clampF_fin (by norm_num)]
  · have hg : |g - boxMeanQ r n q x| ≤ 4 / 3 * M / 2 ^ 24 := by
      rw [abs_le] at g2 ⊢
      have : 4 / 3 * K / 2 ^ 24 + 4 / 3 * 1 / 2 ^ 24 ≤ 4 / 3 * M / 2 ^ 24 := by
        rw [← add_div]
        gcongr
        linarith
      constructor <;> linarith
    have : |max 0 (min g 1) - boxMeanQ r n q x| ≤ |g - boxMeanQ r n q x| := by
      rcases le_total g 0 with h | h
      · rw [min_eq_left (by linarith), max_eq_left h]
        rw [abs_of_nonpos (by linarith [hm0.1]), abs_of_nonpos (by linarith [hm0.1])]
        linarith
      · rcases le_total g 1 with h1 | h1
        · rw [min_eq_left h1, max_eq_right h]
        · rw [min_eq_right h1, max_eq_right (by norm_num), abs_of_nonneg (by linarith [hm0.2]), abs_of_nonneg (by linarith [hm0.2])]
          linarith
    exact this.trans hg

end Verif
