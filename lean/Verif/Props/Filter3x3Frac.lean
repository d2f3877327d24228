import Verif.Props.Filter3x3
import Mathlib.Algebra.BigOperators.Ring.Finset

/-!
# C86 for kernels of fractions
-/

namespace Verif
open GenericImageView GenericImage LawfulView LawfulImage

variable {α : Type} {ch : Nat}

/-- One addition of the sum: its error. -/
theorem add_near {B e t s p : ℚ} (hB : B ≤ 2 ^ 100) (he : e = 21 / 10 * B / 2 ^ 24 + 3 / 2 ^ 100) {j : ℕ} (hj : j ≤ 9)
    (ht : |t - s| ≤ j * e) (hs : |s| + |p| ≤ B) {p' : ℚ} (hp : |p' - p| ≤ |p| / 2 ^ 24 + 1 / 2 ^ 100) :
    ∃ t', (Fl.fin t).add f32 (.fin p') = .fin t' ∧ |t' - (s + p)| ≤ (j + 1 : ℕ) * e := by
  have hB0 : 0 ≤ B := le_trans (add_nonneg (abs_nonneg _) (abs_nonneg _)) hs
  have he0 : 0 ≤ e := by rw [he]; positivity
  have hj9 : (j : ℚ) * e ≤ 9 * e := mul_le_mul_of_nonneg_right (by exact_mod_cast hj) he0
  have hps : |p| ≤ B := le_trans (le_add_of_nonneg_left (abs_nonneg _)) hs
  have a1 : |t + p'| ≤ B + 9 * e + (B / 2 ^ 24 + 1 / 2 ^ 100) := by
    have e1 : t + p' = (s + p) + (t - s) + (p' - p) := by ring
    rw [e1]
    refine (abs_add_le _ _).trans (add_le_add ((abs_add_le _ _).trans (add_le_add ((abs_add_le _ _).trans hs) (ht.trans hj9))) (hp.trans ?_))
    linarith
  have a2 : |t + p'| ≤ 2 ^ 127 := a1.trans (by rw [he]; linarith)
  refine ⟨f32.rnd (t + p'), by rw [fl_add, ofRat32 a2], ?_⟩
  have a3 := rnd_err32 (t + p')
  have e2 : f32.rnd (t + p') - (s + p) = (f32.rnd (t + p') - (t + p')) + (t - s) + (p' - p) := by ring
  rw [e2]
  refine (abs_add_le _ _).trans ?_
  refine (add_le_add (abs_add_le _ _) le_rfl).trans ?_
  push_cast
  have h4 : (j + 1 : ℚ) * e = j * e + e := by ring
  rw [h4]
  have : |t + p'| / 2 ^ 24 ≤ (B + 9 * e + (B / 2 ^ 24 + 1 / 2 ^ 100)) / 2 ^ 24 := by gcongr
  linarith

/-- The sum of a kernel. -/
theorem kernel_foldQ {B e : ℚ} (hB : B ≤ 2 ^ 100) (he : e = 21 / 10 * B / 2 ^ 24 + 3 / 2 ^ 100) :
    ∀ (l : List ℚ) (j : ℕ) (t s : ℚ), j + l.length ≤ 9 → |t - s| ≤ j * e → |s| + (l.map fun k => |k|).sum ≤ B →
    ∃ t', (l.map Fl.fin).foldl (Fl.add f32) (.fin t) = .fin t' ∧ |t' - (s + l.sum)| ≤ (j + l.length : ℕ) * e := by
  intro l
  induction l with
  | nil => intro j t s _ h _; exact ⟨t, rfl, by simpa using h⟩
  | cons k l ih =>
    intro j t s hj ht hs
    simp only [List.map_cons, List.sum_cons, List.length_cons] at hs hj
    have hsum : 0 ≤ (l.map fun k => |k|).sum := by
      refine List.sum_nonneg fun z hz => ?_
      obtain ⟨w, -, rfl⟩ := List.mem_map.1 hz
      exact abs_nonneg _
    obtain ⟨t1, e1, h1⟩ := add_near hB he (by omega) ht (p := k) (p' := k) (by linarith) (by simp; positivity)
    obtain ⟨t2, e2, h2⟩ := ih (j + 1) t1 (s + k) (by omega) h1 (by have := abs_add_le s k; linarith)
    refine ⟨t2, by rw [List.map_cons, List.foldl_cons, e1, e2], ?_⟩
    rw [List.sum_cons, List.length_cons, ← add_assoc]
    rw [show j + (l.length + 1) = j + 1 + l.length by omega]
    exact h2

theorem taps_foldQ {img : Type} [GenericImageView img (Pix Nat ch)] {T : Prim} {M : ℕ} {i : img} {x y : Nat} (P : Int × Int → Pix Nat ch)
    (hM : ∀ ab c, channels4 (Samp.uint T) (P ab) c ≤ M) (hM' : M ≤ 2 ^ 24) {B e : ℚ} (hB : B ≤ 2 ^ 100) (he : e = 21 / 10 * B / 2 ^ 24 + 3 / 2 ^ 100) :
    ∀ (l : List (ℚ × (Int × Int))) (j : ℕ) (t s : Fin 4 → ℚ), j + l.length ≤ 9 → (∀ c, |t c - s c| ≤ j * e) →
      (∀ kab ∈ l, getPixel i (((x + 1 : Nat) + kab.2.1) % 2 ^ 32).toNat (((y + 1 : Nat) + kab.2.2) % 2 ^ 32).toNat = .ok (P kab.2)) →
      (∀ c, |s c| + (l.map fun kab => |kab.1|).sum * M ≤ B) →
      ∃ t' : Fin 4 → ℚ, forList (l.map fun kab => ((Fl.fin kab.1), kab.2)) (fun kt (t : Pix Fl 4) => do
        let x0 : Int := (x + 1 : Nat) + kt.2.1
        let y0 : Int := (y + 1 : Nat) + kt.2.2
        let p ← getPixel i (x0 % 2 ^ 32).toNat (y0 % 2 ^ 32).toNat
        .ok fun c => (t c).add f32 (((Samp.uint T).toF32 (channels4 (Samp.uint T) p c)).mul f32 kt.1)) (fun c => .fin (t c)) =
        .ok (fun c => .fin (t' c)) ∧
      ∀ c, |t' c - (s c + (l.map fun kab => ((channels4 (Samp.uint T) (P kab.2) c : ℕ) : ℚ) * kab.1).sum)| ≤ (j + l.length : ℕ) * e := by
  intro l
  induction l with
  | nil => intro j t s _ h _ _; exact ⟨t, by simp [forList], by simpa using h⟩
  | cons kab l ih =>
    intro j t s hj ht hp hs
    simp only [List.map_cons, List.sum_cons, List.length_cons] at hs hj
    have hsum : 0 ≤ (l.map fun kab => |kab.1|).sum := by
      refine List.sum_nonneg fun z hz => ?_
      obtain ⟨w, -, rfl⟩ := List.mem_map.1 hz
      exact abs_nonneg _
    have step : ∀ c, |((channels4 (Samp.uint T) (P kab.2) c : ℕ) : ℚ) * kab.1| ≤ |kab.1| * M := by
      intro c
      rw [abs_mul, abs_of_nonneg (by positivity), mul_comm]
      exact mul_le_mul_of_nonneg_left (by exact_mod_cast hM _ _) (abs_nonneg _)
    have hM0 : (0 : ℚ) ≤ (l.map fun kab => |kab.1|).sum * M := mul_nonneg hsum (by positivity)
    have one : ∀ c, ∃ t1, (Fl.fin (t c)).add f32 (((Samp.uint T).toF32 (channels4 (Samp.uint T) (P kab.2) c)).mul f32 (Fl.fin kab.1)) = .fin t1 ∧
        |t1 - (s c + (channels4 (Samp.uint T) (P kab.2) c : ℕ) * kab.1)| ≤ (j + 1 : ℕ) * e := by
      intro c
      have e1 : (Samp.uint T).toF32 (channels4 (Samp.uint T) (P kab.2) c) = .fin ((channels4 (Samp.uint T) (P kab.2) c : ℕ) : ℚ) := by
        have := hM kab.2 c
        show Fl.ofNat f32 _ = _
        rw [ofNat32 (by omega)]
      have h1 := step c
      have h2 := hs c
      rw [add_mul] at h2
      have h5 := abs_nonneg (s c)
      rw [e1, fl_mul, ofRat32 (by linarith)]
      exact add_near hB he (by omega) (ht c) (by linarith) (rnd_err32 _)
    choose t1 e1 h1 using one
    obtain ⟨t2, e2, h2⟩ := ih (j + 1) t1 (fun c => s c + (channels4 (Samp.uint T) (P kab.2) c : ℕ) * kab.1) (by omega) h1
      (fun k hk => hp k (by simp [hk])) (by
        intro c
        have h1 := step c
        have h2 := hs c
        have h3 := abs_add_le (s c) ((channels4 (Samp.uint T) (P kab.2) c : ℕ) * kab.1)
        rw [add_mul] at h2
        linarith)
    refine ⟨t2, ?_, ?_⟩
    · rw [List.map_cons, forList]
      simp only [hp kab (by simp), ok_bind, e1]
      exact e2
    · intro c
      rw [List.map_cons, List.sum_cons, List.length_cons, ← add_assoc, show j + (l.length + 1) = j + 1 + l.length by omega]
      exact h2 c

/-- Dividing, clamping and truncating. -/
theorem quotientQ {T : Prim} (hT : T.bits ≤ 16) {t g : ℚ} (hg : g ≠ 0) (h : |t / g| ≤ 2 ^ 127) :
    ∃ v : Nat, (clampF ((Fl.fin t).div f32 (.fin g)) (.fin 0) (Fl.ofNat f32 T.max)).castU T.bits = some v ∧
      (v : ℤ) = ⌊max 0 (min (f32.rnd (t / g)) T.max)⌋ := by
  have hbits : T.max < 2 ^ 16 := by cases T <;> simp_all [Prim.max, Prim.bits]
  have hpow : T.max + 1 = 2 ^ T.bits := by cases T <;> rfl
  rw [ofNat32 (show T.max ≤ 2 ^ 24 by omega), fl_div _ hg, ofRat32 h]
  generalize f32.rnd (t / g) = r
  have hM0 : (0 : ℚ) ≤ (T.max : ℕ) := by positivity
  have cast : ∀ q : ℚ, 0 ≤ q → q ≤ (T.max : ℕ) → (Fl.fin q).castU T.bits = some ⌊q⌋.toNat := by
    intro q h1 h2
    unfold Fl.castU
    dsimp only
    rw [if_pos]
    refine ⟨by linarith, ?_⟩
    have : ((T.max + 1 : ℕ) : ℚ) = 2 ^ T.bits := by rw [hpow]; push_cast; rfl
    rw [← this]; push_cast; linarith
  unfold clampF
  by_cases hr0 : r < 0
  · rw [if_pos (by simpa [Fl.lt] using hr0), cast 0 le_rfl hM0]
    refine ⟨_, rfl, ?_⟩
    rw [max_eq_left ((min_le_left _ _).trans hr0.le)]; simp
  rw [if_neg (by simpa [Fl.lt] using hr0)]
  by_cases hrM : (T.max : ℚ) < r
  · rw [if_pos (by simpa [Fl.lt] using hrM), cast _ hM0 le_rfl]
    refine ⟨_, rfl, ?_⟩
    rw [min_eq_right hrM.le, max_eq_right hM0]; simp
  rw [if_neg (by simpa [Fl.lt] using hrM), cast _ (by linarith) (by linarith)]
  refine ⟨_, rfl, ?_⟩
  rw [Int.toNat_of_nonneg (Int.floor_nonneg.2 (by linarith)), min_eq_left (by linarith), max_eq_right (by linarith)]

/-- The kernel as the slice a caller passes: row by row. -/
def kernelOfQ (k : Nat → Nat → ℚ) : List Fl :=
  [.fin (k 0 0), .fin (k 1 0), .fin (k 2 0), .fin (k 0 1), .fin (k 1 1), .fin (k 2 1), .fin (k 0 2), .fin (k 1 2), .fin (k 2 2)]

/-- The same as a list of numbers. -/
def kernelQ (k : Nat → Nat → ℚ) : List ℚ := [k 0 0, k 1 0, k 2 0, k 0 1, k 1 1, k 2 1, k 0 2, k 1 2, k 2 2]

/-- C86, fractional weights: let `g` be the sum of the weights as it is computed (one if that is zero), which is the sum up to rounding. In the interior
every sample is the weighted sum of the nine neighbours divided by `g`, up to an error of `24 / 2^24` of the sum of the absolute weights times
the largest sample, clamped and rounded down; the border is black. For weights of up to `2^80` in all and `g` of at least `2^-20`. -/
theorem C86_weighted {I : Type} [GenericImageView I (Pix Nat ch)] [LawfulView I (Pix Nat ch)] (T : Prim) (hT : T.bits ≤ 16)
    (img : I) (wf : WF img) (hr : SamplesOk T img) (hc : ch ≤ 4) (hw0 : 0 < widthOf img) (hh0 : 0 < heightOf img)
    (hs : widthOf img * heightOf img * ch < 2 ^ 64) (k : Nat → Nat → ℚ)
    (hk : ∑ j ∈ Finset.range 3, ∑ i ∈ Finset.range 3, |k i j| ≤ 2 ^ 80) (pix : Nat → Nat → Pix Nat ch)
    (hp : ∀ x y, x < widthOf img → y < heightOf img → getPixel img x y = .ok (pix x y)) :
    ∃ s : ℚ, |s - ∑ j ∈ Finset.range 3, ∑ i ∈ Finset.range 3, k i j| ≤
        20 / 2 ^ 24 * (∑ j ∈ Finset.range 3, ∑ i ∈ Finset.range 3, |k i j|) + 1 / 2 ^ 90 ∧
      ∀ g, g = (if s = 0 then 1 else s) → 1 / 2 ^ 20 ≤ |g| →
      ∃ b, filter3x3 (Samp.uint T) img (kernelOfQ k) = .ok b ∧ b.width = widthOf img ∧ b.height = heightOf img ∧
        ∀ x y, x < widthOf img → y < heightOf img → ∃ p, b.getPixel x y = .ok p ∧ ∀ c,
        if 0 < x ∧ x + 1 < widthOf img ∧ 0 < y ∧ y + 1 < heightOf img then
          ∃ q, |q - conv3Q k (fun i j => (pix i j c : ℕ)) x y / g| ≤
              24 / 2 ^ 24 * ((∑ j ∈ Finset.range 3, ∑ i ∈ Finset.range 3, |k i j|) * T.max) / |g| + 1 / 2 ^ 70 ∧
            (p c : ℤ) = ⌊max 0 (min q T.max)⌋
        else p c = 0 := by
  set w := widthOf img with ew
  set h := heightOf img with eh
  have hw : w < 2 ^ 32 := width_lt wf
  have hh : h < 2 ^ 32 := height_lt wf
  have hr' : ∀ x y, x < w → y < h → ∀ c, pix x y c ≤ T.max := fun x y hx hy c => hr x y _ hx hy (hp x y hx hy) c
  have hbits : T.max < 2 ^ 16 := by cases T <;> simp_all [Prim.max, Prim.bits]
  have eA : ∑ j ∈ Finset.range 3, ∑ i ∈ Finset.range 3, |k i j| =
      |k 0 0| + |k 1 0| + |k 2 0| + (|k 0 1| + |k 1 1| + |k 2 1|) + (|k 0 2| + |k 1 2| + |k 2 2|) := by
    simp only [Finset.sum_range_succ, Finset.sum_range_zero, zero_add]
  rw [eA] at hk ⊢
  set A := |k 0 0| + |k 1 0| + |k 2 0| + (|k 0 1| + |k 1 1| + |k 2 1|) + (|k 0 2| + |k 1 2| + |k 2 2|) with hA
  have hA0 : 0 ≤ A := by positivity
  have hMQ : ((T.max : ℕ) : ℚ) ≤ 2 ^ 16 := by
    have : T.max ≤ 2 ^ 16 := by omega
    exact_mod_cast this
  have hM0 : (0 : ℚ) ≤ (T.max : ℕ) := by positivity
  have hB0 : 0 ≤ A * (T.max : ℕ) := mul_nonneg hA0 hM0
  have hB : A * (T.max : ℕ) ≤ 2 ^ 96 := by
    calc A * (T.max : ℕ) ≤ 2 ^ 80 * 2 ^ 16 := mul_le_mul hk hMQ hM0 (by norm_num)
      _ = 2 ^ 96 := by norm_num
  -- the sum of the kernel
  obtain ⟨s, hfold, hs1⟩ := kernel_foldQ (B := A) (hk.trans (by norm_num)) rfl (kernelQ k) 0 0 0 (by simp [kernelQ]) (by simp) (by
    simp only [kernelQ, abs_zero, List.map_cons, List.map_nil, List.sum_cons, List.sum_nil]
    linarith)
  have hfold : (kernelOfQ k).foldl (Fl.add f32) (.fin 0) = .fin s := hfold
  have hsumk : (kernelQ k).sum = ∑ j ∈ Finset.range 3, ∑ i ∈ Finset.range 3, k i j := by
    simp [kernelQ, Finset.sum_range_succ]; ring
  rw [zero_add, hsumk] at hs1
  refine ⟨s, hs1.trans ?_, ?_⟩
  · have : ((0 + (kernelQ k).length : ℕ) : ℚ) = 9 := by simp [kernelQ]
    rw [this]
    linarith
  intro g hg hg1
  have hg0 : g ≠ 0 := by
    rintro rfl
    rw [abs_zero] at hg1
    norm_num at hg1
  have hgain : (if Fl.fin s = .fin 0 then Fl.fin 1 else Fl.fin s) = Fl.fin g := by
    rw [hg]
    by_cases h0 : s = 0
    · rw [if_pos h0, h0]; simp
    · rw [if_neg h0, if_neg (fun h => h0 (Fl.fin.inj h))]
  have hgpos : 0 < |g| := abs_pos.2 hg0
  -- the sum of the neighbours
  let P : Nat → Nat → Int × Int → Pix Nat ch := fun x y ab =>
    if ab ∈ taps3x3 then pix ((x + 1 : Nat) + ab.1).toNat ((y + 1 : Nat) + ab.2).toNat else fun _ => 0
  let L : List (ℚ × (Int × Int)) := (kernelQ k).zip taps3x3
  have hLsum : (L.map fun kab => |kab.1|).sum = A := by
    simp [L, kernelQ, taps3x3, hA]; ring
  have hLlen : L.length = 9 := by simp [L, kernelQ, taps3x3]
  have hzip : (kernelOfQ k).zip taps3x3 = L.map fun kab => (Fl.fin kab.1, kab.2) := rfl
  have hPM : ∀ x y, x + 2 < w → y + 2 < h → ∀ ab c, channels4 (Samp.uint T) (P x y ab) c ≤ T.max := by
    intro x y hx hy ab c
    have : ∀ c, P x y ab c ≤ T.max := by
      intro c
      by_cases hab : ab ∈ taps3x3
      · simp only [P, if_pos hab]
        simp only [taps3x3, List.mem_cons, List.mem_nil_iff, or_false] at hab
        rcases hab with rfl | rfl | rfl | rfl | rfl | rfl | rfl | rfl | rfl <;> refine hr' _ _ ?_ ?_ c <;> (dsimp only; omega)
      · simp only [P, if_neg hab]; omega
    exact_mod_cast channels4_le this c
  have hget : ∀ x y, x + 2 < w → y + 2 < h → ∀ kab ∈ L,
      getPixel img (((x + 1 : Nat) + kab.2.1) % 2 ^ 32).toNat (((y + 1 : Nat) + kab.2.2) % 2 ^ 32).toNat = .ok (P x y kab.2) := by
    intro x y hx hy kab hm
    have hab : kab.2 ∈ taps3x3 := (List.of_mem_zip hm).2
    obtain ⟨kv, a, b⟩ := kab
    simp only [P, if_pos hab]
    simp only [taps3x3, List.mem_cons, List.mem_nil_iff, or_false, Prod.mk.injEq] at hab
    have ha : -1 ≤ a ∧ a ≤ 1 ∧ -1 ≤ b ∧ b ≤ 1 := by omega
    rw [Int.emod_eq_of_lt (by omega) (by omega), Int.emod_eq_of_lt (by omega) (by omega)]
    exact hp _ _ (by omega) (by omega)
  let V : Nat → Nat → Fin 4 → ℚ := fun x y c => (L.map fun kab => ((channels4 (Samp.uint T) (P x y kab.2) c : ℕ) : ℚ) * kab.1).sum
  have hV : ∀ x y, x + 2 < w → y + 2 < h → ∀ c, |V x y c| ≤ A * (T.max : ℕ) := by
    intro x y hx hy c
    have h1 : ∀ l : List (ℚ × (Int × Int)), |(l.map fun kab => ((channels4 (Samp.uint T) (P x y kab.2) c : ℕ) : ℚ) * kab.1).sum| ≤
        (l.map fun kab => |kab.1|).sum * (T.max : ℕ) := by
      intro l
      induction l with
      | nil => simp
      | cons q l ih =>
        simp only [List.map_cons, List.sum_cons, add_mul]
        refine (abs_add_le _ _).trans (add_le_add ?_ ih)
        rw [abs_mul, abs_of_nonneg (by positivity), mul_comm]
        exact mul_le_mul_of_nonneg_left (by exact_mod_cast hPM x y hx hy _ _) (abs_nonneg _)
    have := h1 L
    rwa [hLsum] at this
  set e := 21 / 10 * (A * (T.max : ℕ)) / 2 ^ 24 + 3 / 2 ^ 100 with he
  have he0 : 0 ≤ e := by rw [he]; positivity
  have tot : ∀ x y, ∃ t : Fin 4 → ℚ, x + 2 < w → y + 2 < h →
      forList ((kernelOfQ k).zip taps3x3) (fun kt (t : Pix Fl 4) => do
        let x0 : Int := (x + 1 : Nat) + kt.2.1
        let y0 : Int := (y + 1 : Nat) + kt.2.2
        let p ← getPixel img (x0 % 2 ^ 32).toNat (y0 % 2 ^ 32).toNat
        .ok fun c => (t c).add f32 (((Samp.uint T).toF32 (channels4 (Samp.uint T) p c)).mul f32 kt.1)) (fun _ => Fl.fin 0) =
        .ok (fun c => .fin (t c)) ∧ ∀ c, |t c - V x y c| ≤ 9 * e := by
    intro x y
    by_cases hxy : x + 2 < w ∧ y + 2 < h
    · obtain ⟨t, h1, h2⟩ := taps_foldQ (T := T) (M := T.max) (i := img) (x := x) (y := y) (P x y) (hPM x y hxy.1 hxy.2) (by omega)
        (hB.trans (by norm_num)) he L 0 (fun _ => 0) (fun _ => 0) (by rw [hLlen]) (fun c => by simp) (hget x y hxy.1 hxy.2)
        (by intro c; rw [hLsum, abs_zero, zero_add])
      refine ⟨t, fun _ _ => ⟨by rw [hzip]; exact h1, fun c => ?_⟩⟩
      have := h2 c
      rw [hLlen, zero_add] at this
      exact_mod_cast this
    · exact ⟨fun _ => 0, fun h1 h2 => absurd ⟨h1, h2⟩ hxy⟩
  choose t ht using tot
  have htV : ∀ x y, x + 2 < w → y + 2 < h → ∀ c, |t x y c / g| ≤ 2 ^ 127 ∧
      |f32.rnd (t x y c / g) - V x y c / g| ≤ 24 / 2 ^ 24 * (A * (T.max : ℕ)) / |g| + 1 / 2 ^ 70 := by
    intro x y hx hy c
    have h1 := (ht x y hx hy).2 c
    have h2 := hV x y hx hy c
    have h3 : |t x y c| ≤ A * (T.max : ℕ) + 9 * e := by
      have : t x y c = V x y c + (t x y c - V x y c) := by ring
      rw [this]
      exact (abs_add_le _ _).trans (add_le_add h2 h1)
    have hginv : 1 / |g| ≤ 2 ^ 20 := by
      rw [div_le_iff₀ hgpos]; linarith
    have hginv0 : 0 ≤ 1 / |g| := by positivity
    have h4 : |t x y c / g| ≤ (A * (T.max : ℕ) + 9 * e) * (1 / |g|) := by
      rw [abs_div, div_eq_mul_one_div]
      exact mul_le_mul_of_nonneg_right h3 hginv0
    refine ⟨h4.trans ?_, ?_⟩
    · calc (A * (T.max : ℕ) + 9 * e) * (1 / |g|) ≤ 2 ^ 100 * 2 ^ 20 := mul_le_mul (by rw [he]; linarith) hginv hginv0 (by norm_num)
        _ ≤ 2 ^ 127 := by norm_num
    · have h5 := rnd_err32 (t x y c / g)
      have e1 : f32.rnd (t x y c / g) - V x y c / g = (f32.rnd (t x y c / g) - t x y c / g) + (t x y c - V x y c) / g := by ring
      have h6 : |(t x y c - V x y c) / g| ≤ 9 * e * (1 / |g|) := by
        rw [abs_div, div_eq_mul_one_div]
        exact mul_le_mul_of_nonneg_right h1 hginv0
      rw [e1]
      refine (abs_add_le _ _).trans ?_
      have h7 : (A * (T.max : ℕ) + 9 * e) * (1 / |g|) / 2 ^ 24 + 9 * e * (1 / |g|) ≤
          (24 / 2 ^ 24 * (A * (T.max : ℕ)) + 30 / 2 ^ 100) * (1 / |g|) := by
        have : (A * (T.max : ℕ) + 9 * e) * (1 / |g|) / 2 ^ 24 + 9 * e * (1 / |g|) = ((A * (T.max : ℕ) + 9 * e) / 2 ^ 24 + 9 * e) * (1 / |g|) := by ring
        rw [this]
        refine mul_le_mul_of_nonneg_right ?_ hginv0
        rw [he]
        linarith
      have h8 : (24 / 2 ^ 24 * (A * (T.max : ℕ)) + 30 / 2 ^ 100) * (1 / |g|) =
          24 / 2 ^ 24 * (A * (T.max : ℕ)) / |g| + 30 / 2 ^ 100 * (1 / |g|) := by ring
      have h9 : |t x y c / g| / 2 ^ 24 ≤ (A * (T.max : ℕ) + 9 * e) * (1 / |g|) / 2 ^ 24 := by gcongr
      linarith
  have key : ∀ x y c, ∃ v : Nat, x + 2 < w → y + 2 < h →
      (clampF ((Fl.fin (t x y c)).div f32 (.fin g)) (.fin 0) (Fl.ofNat f32 T.max)).castU T.bits = some v ∧
      (v : ℤ) = ⌊max 0 (min (f32.rnd (t x y c / g)) T.max)⌋ := by
    intro x y c
    by_cases hxy : x + 2 < w ∧ y + 2 < h
    · obtain ⟨v, h1⟩ := quotientQ hT hg0 (htV x y hxy.1 hxy.2 c).1
      exact ⟨v, fun _ _ => h1⟩
    · exact ⟨0, fun h1 h2 => absurd ⟨h1, h2⟩ hxy⟩
  choose v hv using key
  obtain ⟨b, e1, e2⟩ := fill_interior (z := (0 : Nat)) (ch := ch) (w := w) (h := h) (by omega) hw0 hh0 hw hh hs
    (fun x y => do
      let t ← forList ((kernelOfQ k).zip taps3x3) (fun kt t => do
        let x0 : Int := (x + 1 : Nat) + kt.2.1
        let y0 : Int := (y + 1 : Nat) + kt.2.2
        let p ← getPixel img (x0 % 2 ^ 32).toNat (y0 % 2 ^ 32).toNat
        .ok fun c => (t c).add f32 (((Samp.uint T).toF32 (channels4 (Samp.uint T) p c)).mul f32 kt.1)) (fun _ => Fl.fin 0)
      let sample (c : Fin 4) : R Nat := unwrapR ((Samp.uint T).cast (clampF ((t c).div f32 (.fin g)) (.fin 0) ((Samp.uint T).toF32 (Samp.uint T).max)))
      let a ← sample 0
      let b ← sample 1
      let c ← sample 2
      let d ← sample 3
      .ok (fromChannels4 (Samp.uint T) (px4 a b c d)))
    (fun x y => fromChannels4 (Samp.uint T) (v x y))
    (by
      intro x y hx hy
      rw [(ht x y hx hy).1]
      simp only [ok_bind]
      have hc4 : ∀ c, unwrapR ((Samp.uint T).cast (clampF ((Fl.fin (t x y c)).div f32 (.fin g)) (.fin 0) ((Samp.uint T).toF32 (Samp.uint T).max))) = .ok (v x y c) := by
        intro c
        show unwrapR ((clampF _ _ (Fl.ofNat f32 T.max)).castU T.bits) = _
        rw [(hv x y c hx hy).1]; rfl
      simp only [hc4, ok_bind]
      congr 2
      funext c
      rcases c with ⟨_ | _ | _ | _ | n, hn⟩
      all_goals first | rfl | omega)
  refine ⟨b, ?_, e2.width, e2.height, ?_⟩
  · rw [← e1]
    unfold filter3x3
    simp only [← ew, ← eh, hfold, hgain, bind_assoc, ok_bind]
    rfl
  · intro x y hx hy
    refine ⟨_, e2.pixel x y hx hy, fun c => ?_⟩
    split_ifs with hin
    · have hc4 : c.val < 4 := by omega
      have e' : fromChannels4 (ch := ch) (Samp.uint T) (v (x - 1) (y - 1)) c = v (x - 1) (y - 1) ⟨c.val, hc4⟩ := by
        simp [fromChannels4, hc4]
      rw [e', (hv (x - 1) (y - 1) ⟨c.val, hc4⟩ (by omega) (by omega)).2]
      refine ⟨_, ?_, rfl⟩
      refine le_trans (le_of_eq ?_) (htV (x - 1) (y - 1) (by omega) (by omega) ⟨c.val, hc4⟩).2
      congr 3
      have hP : ∀ a b : Int, (a, b) ∈ taps3x3 → channels4 (Samp.uint T) (P (x - 1) (y - 1) (a, b)) ⟨c.val, hc4⟩ =
          pix ((x : Int) + a).toNat ((y : Int) + b).toNat c := by
        intro a b hab
        have e3 : ((x - 1 + 1 : Nat) : Int) = x := by omega
        have e4 : ((y - 1 + 1 : Nat) : Int) = y := by omega
        simp only [P, if_pos hab, e3, e4]
        simp [channels4]
      simp only [V, L, kernelQ, taps3x3, List.zip_cons_cons, List.zip_nil_right, List.map_cons, List.map_nil, List.sum_cons, List.sum_nil]
      rw [hP _ _ (by decide), hP _ _ (by decide), hP _ _ (by decide), hP _ _ (by decide), hP _ _ (by decide), hP _ _ (by decide),
        hP _ _ (by decide), hP _ _ (by decide), hP _ _ (by decide)]
      unfold conv3Q
      simp only [Finset.sum_range_succ, Finset.sum_range_zero, zero_add]
      have ex : ((x : Int) + -1).toNat = x - 1 + 0 ∧ ((x : Int) + 0).toNat = x - 1 + 1 ∧ ((x : Int) + 1).toNat = x - 1 + 2 := by omega
      have ey : ((y : Int) + -1).toNat = y - 1 + 0 ∧ ((y : Int) + 0).toNat = y - 1 + 1 ∧ ((y : Int) + 1).toNat = y - 1 + 2 := by omega
      rw [ex.1, ex.2.1, ex.2.2, ey.1, ey.2.1, ey.2.2]
      ring
    · rfl

/-- C86, averages: with weights that are not negative, every sample of the interior is the weighted mean of its nine neighbours, up to an error of
`2^-18` of the largest sample, rounded down. -/
theorem C86_mean {I : Type} [GenericImageView I (Pix Nat ch)] [LawfulView I (Pix Nat ch)] (T : Prim) (hT : T.bits ≤ 16)
    (img : I) (wf : WF img) (hr : SamplesOk T img) (hc : ch ≤ 4) (hw0 : 0 < widthOf img) (hh0 : 0 < heightOf img)
    (hs : widthOf img * heightOf img * ch < 2 ^ 64) (k : Nat → Nat → ℚ) (hk0 : ∀ i j, 0 ≤ k i j)
    (hk1 : 1 / 2 ^ 10 ≤ ∑ j ∈ Finset.range 3, ∑ i ∈ Finset.range 3, k i j)
    (hk2 : ∑ j ∈ Finset.range 3, ∑ i ∈ Finset.range 3, k i j ≤ 2 ^ 80) (pix : Nat → Nat → Pix Nat ch)
    (hp : ∀ x y, x < widthOf img → y < heightOf img → getPixel img x y = .ok (pix x y)) :
    ∃ b, filter3x3 (Samp.uint T) img (kernelOfQ k) = .ok b ∧ b.width = widthOf img ∧ b.height = heightOf img ∧
      ∀ x y, 0 < x → x + 1 < widthOf img → 0 < y → y + 1 < heightOf img → ∃ p, b.getPixel x y = .ok p ∧ ∀ c, ∃ q,
        |q - conv3Q k (fun i j => (pix i j c : ℕ)) x y / ∑ j ∈ Finset.range 3, ∑ i ∈ Finset.range 3, k i j| ≤ (T.max : ℕ) / 2 ^ 18 ∧
        (p c : ℤ) = ⌊max 0 (min q T.max)⌋ := by
  have habs : ∑ j ∈ Finset.range 3, ∑ i ∈ Finset.range 3, |k i j| = ∑ j ∈ Finset.range 3, ∑ i ∈ Finset.range 3, k i j :=
    Finset.sum_congr rfl fun j _ => Finset.sum_congr rfl fun i _ => abs_of_nonneg (hk0 i j)
  obtain ⟨s, h1, h2⟩ := C86_weighted T hT img wf hr hc hw0 hh0 hs k (habs ▸ hk2) pix hp
  rw [habs] at h1 h2
  set S := ∑ j ∈ Finset.range 3, ∑ i ∈ Finset.range 3, k i j with hS
  have hSp : 0 < S := lt_of_lt_of_le (by norm_num) hk1
  have hs1 : S * (1 - 1 / 2 ^ 19) ≤ s := by
    have := (abs_le.1 h1).1
    linarith
  have hs2 : S / 2 ≤ s := by linarith
  have hsp : 0 < s := by linarith
  obtain ⟨b, e1, e2, e3, e4⟩ := h2 s (by rw [if_neg hsp.ne']) (by rw [abs_of_pos hsp]; linarith)
  refine ⟨b, e1, e2, e3, fun x y x0 x1 y0 y1 => ?_⟩
  obtain ⟨p, e5, e6⟩ := e4 x y (by omega) (by omega)
  refine ⟨p, e5, fun c => ?_⟩
  have e7 := e6 c
  rw [if_pos ⟨x0, x1, y0, y1⟩] at e7
  obtain ⟨q, e8, e9⟩ := e7
  refine ⟨q, ?_, e9⟩
  set N := conv3Q k (fun i j => ((pix i j c : ℕ) : ℚ)) x y with hN
  have hM1 : (1 : ℚ) ≤ (T.max : ℕ) := by
    have : 1 ≤ T.max := by cases T <;> simp_all [Prim.max, Prim.bits]
    exact_mod_cast this
  have hN0 : 0 ≤ N := Finset.sum_nonneg fun j _ => Finset.sum_nonneg fun i _ => mul_nonneg (hk0 i j) (by positivity)
  have hNM : N ≤ S * (T.max : ℕ) := by
    rw [hN, hS, Finset.sum_mul]
    unfold conv3Q
    refine Finset.sum_le_sum fun j hj => ?_
    rw [Finset.sum_mul]
    refine Finset.sum_le_sum fun i hi => mul_le_mul_of_nonneg_left ?_ (hk0 i j)
    rw [Finset.mem_range] at hi hj
    dsimp only
    exact_mod_cast hr _ _ _ (by omega) (by omega) (hp (x - 1 + i) (y - 1 + j) (by omega) (by omega)) c
  rw [abs_of_pos hsp] at e8
  have d1 : |N / s - N / S| ≤ (21 / 2 ^ 24) * (T.max : ℕ) := by
    have : N / s - N / S = N / S * ((S - s) / s) := by field_simp
    rw [this, abs_mul, abs_of_nonneg (by positivity : 0 ≤ N / S), abs_div, abs_of_pos hsp, mul_comm]
    refine mul_le_mul ?_ (by rw [div_le_iff₀ hSp]; linarith) (by positivity) (by norm_num)
    rw [div_le_iff₀ hsp, abs_sub_comm]
    refine h1.trans ?_
    linarith
  have d2 : 24 / 2 ^ 24 * (S * (T.max : ℕ)) / s ≤ 25 / 2 ^ 24 * (T.max : ℕ) := by
    rw [div_le_iff₀ hsp]
    have : (T.max : ℕ) * (S * (1 - 1 / 2 ^ 19)) ≤ (T.max : ℕ) * s := mul_le_mul_of_nonneg_left hs1 (by positivity)
    have h0 : 0 ≤ (T.max : ℕ) * S := by positivity
    linarith
  have e10 : q - N / S = (q - N / s) + (N / s - N / S) := by ring
  rw [e10]
  refine (abs_add_le _ _).trans ?_
  linarith

/-! The blur kernel (1/9 each, as `f32`) and a picture of 3x3. -/

/-- A kernel of nine times the `f32` nearest to one ninth. -/
def ninth : Nat → Nat → ℚ := fun _ _ => 14913081 / 2 ^ 27

set_option maxRecDepth 8192 in
example : (∀ i j, 0 ≤ ninth i j) ∧ 1 / 2 ^ 10 ≤ ∑ j ∈ Finset.range 3, ∑ i ∈ Finset.range 3, ninth i j ∧
    ∑ j ∈ Finset.range 3, ∑ i ∈ Finset.range 3, ninth i j ≤ 2 ^ 80 ∧ f32.rnd (1 / 9) = ninth 0 0 := by
  refine ⟨fun i j => by unfold ninth; norm_num, ?_, ?_, by decide +kernel⟩ <;>
    simp only [Finset.sum_range_succ, Finset.sum_range_zero, ninth] <;> norm_num

/-- A kernel with the sum zero. -/
def zeroSum : Nat → Nat → ℚ := fun i j =>
  if i = 0 ∧ j = 0 then 1 else if i = 1 ∧ j = 0 then 1 / 2 ^ 24 else if i = 1 ∧ j = 2 then -1 else if i = 2 ∧ j = 2 then -1 / 2 ^ 24 else 0

/-- A picture of 3x3. -/
def cornerImage : ImageBuffer Nat 1 := ⟨3, 3, [255, 0, 0, 0, 0, 0, 0, 10, 0]⟩

/-- C86 for weights that add up to zero, but not in `f32`: 1 + 2^-24 - 1 - 2^-24 is computed as -2^-24, and the sum of the neighbours is divided by that
instead of by one: black instead of 245 (for the neighbours 255 and 10 under the weights 1 and -1). -/
theorem C86_zero_sum_false : ∃ (k : Nat → Nat → ℚ) (b : ImageBuffer Nat 1) (img : ImageBuffer Nat 1),
    (∀ i j, f32.rnd (k i j) = k i j) ∧ ∑ j ∈ Finset.range 3, ∑ i ∈ Finset.range 3, k i j = 0 ∧
    conv3Q k (fun i j => ((img.data.getD (3 * j + i) 0 : ℕ) : ℚ)) 1 1 = 245 ∧
    filter3x3 (Samp.uint .u8) img (kernelOfQ k) = .ok b ∧ b.data = [0, 0, 0, 0, 0, 0, 0, 0, 0] := by
  refine ⟨zeroSum, ⟨3, 3, [0, 0, 0, 0, 0, 0, 0, 0, 0]⟩, cornerImage, ?_, ?_, ?_, ?_, rfl⟩
  · intro i j
    unfold zeroSum
    repeat' split
    · exact rnd_dyadic 1 0 (by norm_num) (by norm_num) (by norm_num)
    · exact rnd_dyadic 1 (-24) (by norm_num) (by norm_num) (by norm_num)
    · exact rnd_dyadic (-1) 0 (by norm_num) (by norm_num) (by norm_num)
    · exact rnd_dyadic (-1) (-24) (by norm_num) (by norm_num) (by norm_num)
    · exact f32.rnd_zero
  · simp [Finset.sum_range_succ, zeroSum]
    norm_num
  · simp [conv3Q, Finset.sum_range_succ, zeroSum, cornerImage]
    norm_num
  · decide +kernel

end Verif
