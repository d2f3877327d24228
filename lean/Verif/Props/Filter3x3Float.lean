import Verif.Props.Filter3x3Frac
import Verif.Proofs.FloatThumbnail

/-!
# C125: `filter3x3` of `f32` pictures
-/

namespace Verif
open GenericImageView GenericImage LawfulView LawfulImage

variable {ch : Nat}

theorem taps_foldF {img : Type} [GenericImageView img (Pix Fl ch)] {i : img} {x y : Nat} (P : Int × Int → Fin ch → ℚ)
    (hM : ∀ ab c, 0 ≤ four (P ab) c ∧ four (P ab) c ≤ 1) {B e : ℚ} (hB : B ≤ 2 ^ 100) (he : e = 21 / 10 * B / 2 ^ 24 + 3 / 2 ^ 100) :
    ∀ (l : List (ℚ × (Int × Int))) (j : ℕ) (t s : Fin 4 → ℚ), j + l.length ≤ 9 → (∀ c, |t c - s c| ≤ j * e) →
      (∀ kab ∈ l, getPixel i (((x + 1 : Nat) + kab.2.1) % 2 ^ 32).toNat (((y + 1 : Nat) + kab.2.2) % 2 ^ 32).toNat = .ok (fun c => .fin (P kab.2 c))) →
      (∀ c, |s c| + (l.map fun kab => |kab.1|).sum ≤ B) →
      ∃ t' : Fin 4 → ℚ, forList (l.map fun kab => ((Fl.fin kab.1), kab.2)) (fun kt (t : Pix Fl 4) => do
        let x0 : Int := (x + 1 : Nat) + kt.2.1
        let y0 : Int := (y + 1 : Nat) + kt.2.2
        let p ← getPixel i (x0 % 2 ^ 32).toNat (y0 % 2 ^ 32).toNat
        .ok fun c => (t c).add f32 ((Samp.float.toF32 (channels4 Samp.float p c)).mul f32 kt.1)) (fun c => .fin (t c)) =
        .ok (fun c => .fin (t' c)) ∧
      ∀ c, |t' c - (s c + (l.map fun kab => four (P kab.2) c * kab.1).sum)| ≤ (j + l.length : ℕ) * e := by
  intro l
  induction l with
  | nil => intro j t s _ h _ _; exact ⟨t, by simp [forList], by simpa using h⟩
  | cons kab l ih =>
    intro j t s hj ht hp hs
    simp only [List.map_cons, List.sum_cons, List.length_cons] at hs hj
    have hsum : 0 ≤ (l.map fun kab => |kab.1|).sum := by
      refine List.sum_nonneg fun z hz => ?_
      obtain ⟨w, -, rfl⟩ := List.mem_map.1 hz
      exact abs_nonneg _
    have step : ∀ c, |four (P kab.2) c * kab.1| ≤ |kab.1| := by
      intro c
      rw [abs_mul, abs_of_nonneg (hM _ _).1]
      have := mul_le_mul_of_nonneg_right (hM kab.2 c).2 (abs_nonneg kab.1)
      linarith
    have one : ∀ c, ∃ t1, (Fl.fin (t c)).add f32 ((Samp.float.toF32 (channels4 Samp.float (fun c => Fl.fin (P kab.2 c)) c)).mul f32 (Fl.fin kab.1)) = .fin t1 ∧
        |t1 - (s c + four (P kab.2) c * kab.1)| ≤ (j + 1 : ℕ) * e := by
      intro c
      have e1 : Samp.float.toF32 (channels4 Samp.float (fun c => Fl.fin (P kab.2 c)) c) = .fin (four (P kab.2) c) := by
        rw [channels4_four]; rfl
      have h1 := step c
      have h2 := hs c
      have h5 := abs_nonneg (s c)
      rw [e1, fl_mul, ofRat32 (by linarith)]
      exact add_near hB he (by omega) (ht c) (by linarith) (rnd_err32 _)
    choose t1 e1 h1 using one
    obtain ⟨t2, e2, h2⟩ := ih (j + 1) t1 (fun c => s c + four (P kab.2) c * kab.1) (by omega) h1
      (fun k hk => hp k (by simp [hk])) (by
        intro c
        have h1 := step c
        have h2 := hs c
        have h3 := abs_add_le (s c) (four (P kab.2) c * kab.1)
        linarith)
    refine ⟨t2, ?_, ?_⟩
    · rw [List.map_cons, forList]
      simp only [hp kab (by simp), ok_bind, e1]
      exact e2
    · intro c
      rw [List.map_cons, List.sum_cons, List.length_cons, ← add_assoc, show j + (l.length + 1) = j + 1 + l.length by omega]
      exact h2 c

set_option maxHeartbeats 1000000 in
/-- **C125: `filter3x3` of an `f32` image** with samples between 0 and 1: let `g` be the sum of the weights as it is computed (one if that is zero), which is the
sum up to rounding. In the interior every sample is the weighted sum of the nine neighbours divided by `g`, up to an error of `24 / 2^24` of the sum of the
absolute weights, cut to the range from 0 to 1; the border is black. For weights of up to `2^80` in all and `g` of at least `2^-20`. -/
theorem C125_weighted {I : Type} [GenericImageView I (Pix Fl ch)] [LawfulView I (Pix Fl ch)]
    (img : I) (wf : WF img) (hc : ch ≤ 4) (hw0 : 0 < widthOf img) (hh0 : 0 < heightOf img)
    (hs : widthOf img * heightOf img * ch < 2 ^ 64) (k : Nat → Nat → ℚ)
    (hk : ∑ j ∈ Finset.range 3, ∑ i ∈ Finset.range 3, |k i j| ≤ 2 ^ 80) (val : Nat → Nat → Fin ch → ℚ)
    (hp : ∀ x y, x < widthOf img → y < heightOf img → getPixel img x y = .ok (fun c => .fin (val x y c)))
    (hv : ∀ x y, x < widthOf img → y < heightOf img → ∀ c, 0 ≤ val x y c ∧ val x y c ≤ 1) :
    ∃ s : ℚ, |s - ∑ j ∈ Finset.range 3, ∑ i ∈ Finset.range 3, k i j| ≤
        20 / 2 ^ 24 * (∑ j ∈ Finset.range 3, ∑ i ∈ Finset.range 3, |k i j|) + 1 / 2 ^ 90 ∧
      ∀ g, g = (if s = 0 then 1 else s) → 1 / 2 ^ 20 ≤ |g| →
      ∃ b, filter3x3 Samp.float img (kernelOfQ k) = .ok b ∧ b.width = widthOf img ∧ b.height = heightOf img ∧
        ∀ x y, x < widthOf img → y < heightOf img → ∃ p : Fin ch → ℚ, b.getPixel x y = .ok (fun c => .fin (p c)) ∧ ∀ c,
        if 0 < x ∧ x + 1 < widthOf img ∧ 0 < y ∧ y + 1 < heightOf img then
          ∃ q, |q - conv3Q k (fun i j => val i j c) x y / g| ≤
              24 / 2 ^ 24 * (∑ j ∈ Finset.range 3, ∑ i ∈ Finset.range 3, |k i j|) / |g| + 1 / 2 ^ 70 ∧
            p c = max 0 (min q 1)
        else p c = 0 := by
  set w := widthOf img with ew
  set h := heightOf img with eh
  have hw : w < 2 ^ 32 := width_lt wf
  have hh : h < 2 ^ 32 := height_lt wf
  have eA : ∑ j ∈ Finset.range 3, ∑ i ∈ Finset.range 3, |k i j| =
      |k 0 0| + |k 1 0| + |k 2 0| + (|k 0 1| + |k 1 1| + |k 2 1|) + (|k 0 2| + |k 1 2| + |k 2 2|) := by
    simp only [Finset.sum_range_succ, Finset.sum_range_zero, zero_add]
  rw [eA] at hk ⊢
  set A := |k 0 0| + |k 1 0| + |k 2 0| + (|k 0 1| + |k 1 1| + |k 2 1|) + (|k 0 2| + |k 1 2| + |k 2 2|) with hA
  have hA0 : 0 ≤ A := by positivity
  -- the sum of the kernel
  obtain ⟨s, hfold, hs1⟩ := kernel_foldQ (B := A) (hk.trans (by norm_num)) rfl (kernelQ k) 0 0 0 (by simp [kernelQ]) (by simp) (by
    simp only [kernelQ, abs_zero, List.map_cons, List.map_nil, List.sum_cons, List.sum_nil]
    linarith)
  have hfold : (kernelOfQ k).foldl (Fl.add f32) (.fin 0) = .fin s := hfold
  have hsumk : (kernelQ k).sum = ∑ j ∈ Finset.range 3, ∑ i ∈ Finset.range 3, k i j := by
    simp [kernelQ, Finset.sum_range_succ]; ring
  rw [zero_add, hsumk] at hs1
  refine ⟨s, hs1.trans ?_, ?_⟩
  · have : ((0 + (kernelQ k).length : ℕ) : ℚ) = 9 := by simp [kernelQ]
    rw [this]
    linarith
  intro g hg hg1
  have hg0 : g ≠ 0 := by
    rintro rfl
    rw [abs_zero] at hg1
    norm_num at hg1
  have hgain : (if Fl.fin s = .fin 0 then Fl.fin 1 else Fl.fin s) = Fl.fin g := by
    rw [hg]
    by_cases h0 : s = 0
    · rw [if_pos h0, h0]; simp
    · rw [if_neg h0, if_neg (fun h => h0 (Fl.fin.inj h))]
  have hgpos : 0 < |g| := abs_pos.2 hg0
  -- the sum of the neighbours
  let P : Nat → Nat → Int × Int → Fin ch → ℚ := fun x y ab =>
    if ab ∈ taps3x3 then val ((x + 1 : Nat) + ab.1).toNat ((y + 1 : Nat) + ab.2).toNat else fun _ => 0
  let L : List (ℚ × (Int × Int)) := (kernelQ k).zip taps3x3
  have hLsum : (L.map fun kab => |kab.1|).sum = A := by
    simp [L, kernelQ, taps3x3, hA]; ring
  have hLlen : L.length = 9 := by simp [L, kernelQ, taps3x3]
  have hzip : (kernelOfQ k).zip taps3x3 = L.map fun kab => (Fl.fin kab.1, kab.2) := rfl
  have hPM : ∀ x y, x + 2 < w → y + 2 < h → ∀ ab c, 0 ≤ four (P x y ab) c ∧ four (P x y ab) c ≤ 1 := by
    intro x y hx hy ab c
    refine four_unit (fun c => ?_) c
    by_cases hab : ab ∈ taps3x3
    · simp only [P, if_pos hab]
      simp only [taps3x3, List.mem_cons, List.mem_nil_iff, or_false] at hab
      rcases hab with rfl | rfl | rfl | rfl | rfl | rfl | rfl | rfl | rfl <;> refine hv _ _ ?_ ?_ c <;> (dsimp only; omega)
    · simp only [P, if_neg hab]; norm_num
  have hget : ∀ x y, x + 2 < w → y + 2 < h → ∀ kab ∈ L,
      getPixel img (((x + 1 : Nat) + kab.2.1) % 2 ^ 32).toNat (((y + 1 : Nat) + kab.2.2) % 2 ^ 32).toNat = .ok (fun c => .fin (P x y kab.2 c)) := by
    intro x y hx hy kab hm
    have hab : kab.2 ∈ taps3x3 := (List.of_mem_zip hm).2
    obtain ⟨kv, a, b⟩ := kab
    simp only [P, if_pos hab]
    simp only [taps3x3, List.mem_cons, List.mem_nil_iff, or_false, Prod.mk.injEq] at hab
    have ha : -1 ≤ a ∧ a ≤ 1 ∧ -1 ≤ b ∧ b ≤ 1 := by omega
    rw [Int.emod_eq_of_lt (by omega) (by omega), Int.emod_eq_of_lt (by omega) (by omega)]
    exact hp _ _ (by omega) (by omega)
  let V : Nat → Nat → Fin 4 → ℚ := fun x y c => (L.map fun kab => four (P x y kab.2) c * kab.1).sum
  have hV : ∀ x y, x + 2 < w → y + 2 < h → ∀ c, |V x y c| ≤ A := by
    intro x y hx hy c
    have h1 : ∀ l : List (ℚ × (Int × Int)), |(l.map fun kab => four (P x y kab.2) c * kab.1).sum| ≤ (l.map fun kab => |kab.1|).sum := by
      intro l
      induction l with
      | nil => simp
      | cons q l ih =>
        simp only [List.map_cons, List.sum_cons]
        refine (abs_add_le _ _).trans (add_le_add ?_ ih)
        rw [abs_mul, abs_of_nonneg (hPM x y hx hy _ _).1]
        have := mul_le_mul_of_nonneg_right (hPM x y hx hy q.2 c).2 (abs_nonneg q.1)
        linarith
    have := h1 L
    rwa [hLsum] at this
  set e := 21 / 10 * A / 2 ^ 24 + 3 / 2 ^ 100 with he
  have he0 : 0 ≤ e := by rw [he]; positivity
  have tot : ∀ x y, ∃ t : Fin 4 → ℚ, x + 2 < w → y + 2 < h →
      forList ((kernelOfQ k).zip taps3x3) (fun kt (t : Pix Fl 4) => do
        let x0 : Int := (x + 1 : Nat) + kt.2.1
        let y0 : Int := (y + 1 : Nat) + kt.2.2
        let p ← getPixel img (x0 % 2 ^ 32).toNat (y0 % 2 ^ 32).toNat
        .ok fun c => (t c).add f32 ((Samp.float.toF32 (channels4 Samp.float p c)).mul f32 kt.1)) (fun _ => Fl.fin 0) =
        .ok (fun c => .fin (t c)) ∧ ∀ c, |t c - V x y c| ≤ 9 * e := by
    intro x y
    by_cases hxy : x + 2 < w ∧ y + 2 < h
    · obtain ⟨t, h1, h2⟩ := taps_foldF (i := img) (x := x) (y := y) (P x y) (hPM x y hxy.1 hxy.2)
        (hk.trans (by norm_num)) he L 0 (fun _ => 0) (fun _ => 0) (by rw [hLlen]) (fun c => by simp) (hget x y hxy.1 hxy.2)
        (by intro c; rw [hLsum, abs_zero, zero_add])
      refine ⟨t, fun _ _ => ⟨by rw [hzip]; exact h1, fun c => ?_⟩⟩
      have := h2 c
      rw [hLlen, zero_add] at this
      exact_mod_cast this
    · exact ⟨fun _ => 0, fun h1 h2 => absurd ⟨h1, h2⟩ hxy⟩
  choose t ht using tot
  have htV : ∀ x y, x + 2 < w → y + 2 < h → ∀ c, |t x y c / g| ≤ 2 ^ 127 ∧
      |f32.rnd (t x y c / g) - V x y c / g| ≤ 24 / 2 ^ 24 * A / |g| + 1 / 2 ^ 70 := by
    intro x y hx hy c
    have h1 := (ht x y hx hy).2 c
    have h2 := hV x y hx hy c
    have h3 : |t x y c| ≤ A + 9 * e := by
      have : t x y c = V x y c + (t x y c - V x y c) := by ring
      rw [this]
      exact (abs_add_le _ _).trans (add_le_add h2 h1)
    have hginv : 1 / |g| ≤ 2 ^ 20 := by
      rw [div_le_iff₀ hgpos]; linarith
    have hginv0 : 0 ≤ 1 / |g| := by positivity
    have h4 : |t x y c / g| ≤ (A + 9 * e) * (1 / |g|) := by
      rw [abs_div, div_eq_mul_one_div]
      exact mul_le_mul_of_nonneg_right h3 hginv0
    refine ⟨h4.trans ?_, ?_⟩
    · calc (A + 9 * e) * (1 / |g|) ≤ 2 ^ 100 * 2 ^ 20 := mul_le_mul (by rw [he]; linarith) hginv hginv0 (by norm_num)
        _ ≤ 2 ^ 127 := by norm_num
    · have h5 := rnd_err32 (t x y c / g)
      have e1 : f32.rnd (t x y c / g) - V x y c / g = (f32.rnd (t x y c / g) - t x y c / g) + (t x y c - V x y c) / g := by ring
      have h6 : |(t x y c - V x y c) / g| ≤ 9 * e * (1 / |g|) := by
        rw [abs_div, div_eq_mul_one_div]
        exact mul_le_mul_of_nonneg_right h1 hginv0
      rw [e1]
      refine (abs_add_le _ _).trans ?_
      have h7 : (A + 9 * e) * (1 / |g|) / 2 ^ 24 + 9 * e * (1 / |g|) ≤
          (24 / 2 ^ 24 * A + 30 / 2 ^ 100) * (1 / |g|) := by
        have : (A + 9 * e) * (1 / |g|) / 2 ^ 24 + 9 * e * (1 / |g|) = ((A + 9 * e) / 2 ^ 24 + 9 * e) * (1 / |g|) := by ring
        rw [this]
        refine mul_le_mul_of_nonneg_right ?_ hginv0
        rw [he]
        linarith
      have h8 : (24 / 2 ^ 24 * A + 30 / 2 ^ 100) * (1 / |g|) = 24 / 2 ^ 24 * A / |g| + 30 / 2 ^ 100 * (1 / |g|) := by ring
      have h9 : |t x y c / g| / 2 ^ 24 ≤ (A + 9 * e) * (1 / |g|) / 2 ^ 24 := by gcongr
      linarith
  let v : Nat → Nat → Fin 4 → ℚ := fun x y c => max 0 (min (f32.rnd (t x y c / g)) 1)
  have hvv : ∀ x y c, x + 2 < w → y + 2 < h →
      clampF ((Fl.fin (t x y c)).div f32 (.fin g)) (.fin 0) (.fin 1) = .fin (v x y c) := by
    intro x y c hx hy
    rw [fl_div _ hg0, ofRat32 (htV x y hx hy c).1, clampF_fin (by norm_num)]
  obtain ⟨b, e1, e2⟩ := fill_interior (z := Fl.fin 0) (ch := ch) (w := w) (h := h) (by omega) hw0 hh0 hw hh hs
    (fun x y => do
      let t ← forList ((kernelOfQ k).zip taps3x3) (fun kt t => do
        let x0 : Int := (x + 1 : Nat) + kt.2.1
        let y0 : Int := (y + 1 : Nat) + kt.2.2
        let p ← getPixel img (x0 % 2 ^ 32).toNat (y0 % 2 ^ 32).toNat
        .ok fun c => (t c).add f32 ((Samp.float.toF32 (channels4 Samp.float p c)).mul f32 kt.1)) (fun _ => Fl.fin 0)
      let sample (c : Fin 4) : R Fl := unwrapR (Samp.float.cast (clampF ((t c).div f32 (.fin g)) (.fin 0) (Samp.float.toF32 Samp.float.max)))
      let a ← sample 0
      let b ← sample 1
      let c ← sample 2
      let d ← sample 3
      .ok (fromChannels4 Samp.float (px4 a b c d)))
    (fun x y => fromChannels4 Samp.float (fun c => .fin (v x y c)))
    (by
      intro x y hx hy
      rw [(ht x y hx hy).1]
      simp only [ok_bind]
      have hc4 : ∀ c, unwrapR (Samp.float.cast (clampF ((Fl.fin (t x y c)).div f32 (.fin g)) (.fin 0) (Samp.float.toF32 Samp.float.max))) = .ok (.fin (v x y c)) := by
        intro c
        show unwrapR (some (clampF _ _ (.fin 1))) = _
        rw [hvv x y c hx hy]; rfl
      simp only [hc4, ok_bind]
      congr 2
      funext c
      rcases c with ⟨_ | _ | _ | _ | n, hn⟩
      all_goals first | rfl | omega)
  refine ⟨b, ?_, e2.width, e2.height, ?_⟩
  · rw [← e1]
    unfold filter3x3
    simp only [← ew, ← eh, hfold, hgain, bind_assoc, ok_bind]
    rfl
  · intro x y hx hy
    by_cases hin : 0 < x ∧ x + 1 < w ∧ 0 < y ∧ y + 1 < h
    · refine ⟨fun c => v (x - 1) (y - 1) ⟨c.val, by omega⟩, ?_, fun c => ?_⟩
      · rw [e2.pixel x y hx hy, if_pos hin]
        congr 1
        funext c
        simp [fromChannels4, show c.val < 4 by omega]
      rw [if_pos hin]
      have hc4 : c.val < 4 := by omega
      refine ⟨_, ?_, rfl⟩
      refine le_trans (le_of_eq ?_) (htV (x - 1) (y - 1) (by omega) (by omega) ⟨c.val, hc4⟩).2
      congr 3
      have hP : ∀ a b : Int, (a, b) ∈ taps3x3 → four (P (x - 1) (y - 1) (a, b)) ⟨c.val, hc4⟩ =
          val ((x : Int) + a).toNat ((y : Int) + b).toNat c := by
        intro a b hab
        have e3 : ((x - 1 + 1 : Nat) : Int) = x := by omega
        have e4 : ((y - 1 + 1 : Nat) : Int) = y := by omega
        simp only [P, if_pos hab, e3, e4]
        simp [four]
      simp only [V, L, kernelQ, taps3x3, List.zip_cons_cons, List.zip_nil_right, List.map_cons, List.map_nil, List.sum_cons, List.sum_nil]
      rw [hP _ _ (by decide), hP _ _ (by decide), hP _ _ (by decide), hP _ _ (by decide), hP _ _ (by decide), hP _ _ (by decide),
        hP _ _ (by decide), hP _ _ (by decide), hP _ _ (by decide)]
      unfold conv3Q
      simp only [Finset.sum_range_succ, Finset.sum_range_zero, zero_add]
      have ex : ((x : Int) + -1).toNat = x - 1 + 0 ∧ ((x : Int) + 0).toNat = x - 1 + 1 ∧ ((x : Int) + 1).toNat = x - 1 + 2 := by omega
      have ey : ((y : Int) + -1).toNat = y - 1 + 0 ∧ ((y : Int) + 0).toNat = y - 1 + 1 ∧ ((y : Int) + 1).toNat = y - 1 + 2 := by omega
      rw [ex.1, ex.2.1, ex.2.2, ey.1, ey.2.1, ey.2.2]
      ring
    · refine ⟨fun _ => 0, ?_, fun c => by rw [if_neg hin]⟩
      rw [e2.pixel x y hx hy, if_neg hin]

/-- **C125, averages**: with weights that are not negative, every sample of the interior is the weighted mean of its nine neighbours, up to an error of
`2^-18`. -/
theorem C125_mean {I : Type} [GenericImageView I (Pix Fl ch)] [LawfulView I (Pix Fl ch)]
    (img : I) (wf : WF img) (hc : ch ≤ 4) (hw0 : 0 < widthOf img) (hh0 : 0 < heightOf img)
    (hs : widthOf img * heightOf img * ch < 2 ^ 64) (k : Nat → Nat → ℚ) (hk0 : ∀ i j, 0 ≤ k i j)
    (hk1 : 1 / 2 ^ 10 ≤ ∑ j ∈ Finset.range 3, ∑ i ∈ Finset.range 3, k i j)
    (hk2 : ∑ j ∈ Finset.range 3, ∑ i ∈ Finset.range 3, k i j ≤ 2 ^ 80) (val : Nat → Nat → Fin ch → ℚ)
    (hp : ∀ x y, x < widthOf img → y < heightOf img → getPixel img x y = .ok (fun c => .fin (val x y c)))
    (hv : ∀ x y, x < widthOf img → y < heightOf img → ∀ c, 0 ≤ val x y c ∧ val x y c ≤ 1) :
    ∃ b, filter3x3 Samp.float img (kernelOfQ k) = .ok b ∧ b.width = widthOf img ∧ b.height = heightOf img ∧
      ∀ x y, 0 < x → x + 1 < widthOf img → 0 < y → y + 1 < heightOf img → ∃ p : Fin ch → ℚ, b.getPixel x y = .ok (fun c => .fin (p c)) ∧ ∀ c,
        |p c - conv3Q k (fun i j => val i j c) x y / ∑ j ∈ Finset.range 3, ∑ i ∈ Finset.range 3, k i j| ≤ 1 / 2 ^ 18 := by
  have habs : ∑ j ∈ Finset.range 3, ∑ i ∈ Finset.range 3, |k i j| = ∑ j ∈ Finset.range 3, ∑ i ∈ Finset.range 3, k i j :=
    Finset.sum_congr rfl fun j _ => Finset.sum_congr rfl fun i _ => abs_of_nonneg (hk0 i j)
  obtain ⟨s, h1, h2⟩ := C125_weighted img wf hc hw0 hh0 hs k (habs ▸ hk2) val hp hv
  rw [habs] at h1 h2
  set S := ∑ j ∈ Finset.range 3, ∑ i ∈ Finset.range 3, k i j with hS
  have hSp : 0 < S := lt_of_lt_of_le (by norm_num) hk1
  have hs1 : S * (1 - 1 / 2 ^ 19) ≤ s := by
    have := (abs_le.1 h1).1
    linarith
  have hs2 : S / 2 ≤ s := by linarith
  have hsp : 0 < s := by linarith
  obtain ⟨b, e1, e2, e3, e4⟩ := h2 s (by rw [if_neg hsp.ne']) (by rw [abs_of_pos hsp]; linarith)
  refine ⟨b, e1, e2, e3, fun x y x0 x1 y0 y1 => ?_⟩
  obtain ⟨p, e5, e6⟩ := e4 x y (by omega) (by omega)
  refine ⟨p, e5, fun c => ?_⟩
  have e7 := e6 c
  rw [if_pos ⟨x0, x1, y0, y1⟩] at e7
  obtain ⟨q, e8, e9⟩ := e7
  set N := conv3Q k (fun i j => val i j c) x y with hN
  have hin : ∀ i j, i < 3 → j < 3 → 0 ≤ val (x - 1 + i) (y - 1 + j) c ∧ val (x - 1 + i) (y - 1 + j) c ≤ 1 := fun i j hi hj =>
    hv _ _ (by omega) (by omega) c
  have hN0 : 0 ≤ N := Finset.sum_nonneg fun j hj => Finset.sum_nonneg fun i hi => mul_nonneg (hk0 i j)
    (hin i j (Finset.mem_range.1 hi) (Finset.mem_range.1 hj)).1
  have hNM : N ≤ S := by
    rw [hN, hS]
    unfold conv3Q
    refine Finset.sum_le_sum fun j hj => Finset.sum_le_sum fun i hi => ?_
    have := mul_le_mul_of_nonneg_left (hin i j (Finset.mem_range.1 hi) (Finset.mem_range.1 hj)).2 (hk0 i j)
    linarith
  rw [abs_of_pos hsp] at e8
  have d1 : |N / s - N / S| ≤ 21 / 2 ^ 24 := by
    have : N / s - N / S = N / S * ((S - s) / s) := by field_simp
    rw [this, abs_mul, abs_of_nonneg (by positivity : 0 ≤ N / S), abs_div, abs_of_pos hsp, mul_comm, ← mul_one ((21 : ℚ) / 2 ^ 24)]
    refine mul_le_mul ?_ (by rw [div_le_one hSp]; exact hNM) (by positivity) (by norm_num)
    rw [div_le_iff₀ hsp, abs_sub_comm]
    refine h1.trans ?_
    linarith
  have d2 : 24 / 2 ^ 24 * S / s ≤ 25 / 2 ^ 24 := by
    rw [div_le_iff₀ hsp]
    linarith
  have hq : |q - N / S| ≤ 1 / 2 ^ 18 := by
    have e10 : q - N / S = (q - N / s) + (N / s - N / S) := by ring
    rw [e10]
    refine (abs_add_le _ _).trans ?_
    linarith
  have m0 : 0 ≤ N / S := by positivity
  have m1 : N / S ≤ 1 := by rw [div_le_one hSp]; exact hNM
  rw [e9]
  refine le_trans ?_ hq
  rcases le_total q 0 with h | h
  · rw [min_eq_left (by linarith), max_eq_left h, abs_of_nonpos (by linarith), abs_of_nonpos (by linarith)]
    linarith
  · rcases le_total q 1 with h1 | h1
    · rw [min_eq_left h1, max_eq_right h]
    · rw [min_eq_right h1, max_eq_right (by norm_num), abs_of_nonneg (by linarith), abs_of_nonneg (by linarith)]
      linarith

/-! ## Samples beyond the range -/

/-- The statement is false for samples above 1: the identity kernel cuts them. -/
theorem C125_clip_false : filter3x3 Samp.float (⟨3, 3, List.replicate 9 (.fin 4)⟩ : ImageBuffer Fl 1) (kernelOfQ fun i j => if i = 1 ∧ j = 1 then 1 else 0) =
    .ok ⟨3, 3, [.fin 0, .fin 0, .fin 0, .fin 0, .fin 1, .fin 0, .fin 0, .fin 0, .fin 0]⟩ := by decide +kernel

/-- A picture without rows makes it panic. -/
theorem C125_empty_false (kernel : List Fl) : filter3x3 Samp.float (⟨5, 0, []⟩ : ImageBuffer Fl 1) kernel = panicR := by
  unfold filter3x3
  have h1 : ImageBuffer.new 1 Samp.float.zero (widthOf (⟨5, 0, []⟩ : ImageBuffer Fl 1)) (heightOf (⟨5, 0, []⟩ : ImageBuffer Fl 1)) =
      .ok ⟨5, 0, []⟩ := by decide +kernel
  have h2 : subC (heightOf (⟨5, 0, []⟩ : ImageBuffer Fl 1)) 1 = panicR := by decide +kernel
  simp only [h1, ok_bind, h2]
  rfl

/-! ## Instances -/

/-- A picture of 3×3 pixels. -/
def dot33F : ImageBuffer Fl 1 := ⟨3, 3, [.fin 0, .fin 0, .fin 0, .fin 0, .fin (9 / 16), .fin 0, .fin 0, .fin 0, .fin 0]⟩

theorem dot33F_wf : WF dot33F := ⟨by decide, by decide, by decide, by decide⟩

theorem dot33F_pix : ∀ x y, x < widthOf dot33F → y < heightOf dot33F →
    getPixel dot33F x y = .ok (fun _ : Fin 1 => Fl.fin (if x = 1 ∧ y = 1 then 9 / 16 else 0)) := by
  intro x y hx hy
  have hx' : x < 3 := hx
  have hy' : y < 3 := hy
  have : (x = 0 ∨ x = 1 ∨ x = 2) ∧ (y = 0 ∨ y = 1 ∨ y = 2) := by omega
  rcases this with ⟨rfl | rfl | rfl, rfl | rfl | rfl⟩ <;> decide +kernel

example : filter3x3 Samp.float dot33F (kernelOfQ fun _ _ => 1) =
    .ok ⟨3, 3, [.fin 0, .fin 0, .fin 0, .fin 0, .fin (1 / 16), .fin 0, .fin 0, .fin 0, .fin 0]⟩ := by decide +kernel

example : ∃ b, filter3x3 Samp.float dot33F (kernelOfQ fun _ _ => 1) = .ok b ∧ b.width = 3 := by
  obtain ⟨b, h1, h2, -⟩ := C125_mean dot33F dot33F_wf (by decide) (by decide) (by decide) (by decide) (fun _ _ => 1)
    (fun _ _ => by norm_num) (by norm_num [Finset.sum_range_succ]) (by norm_num [Finset.sum_range_succ]) _ dot33F_pix
    (fun x y _ _ _ => by split_ifs <;> norm_num)
  exact ⟨b, h1, h2⟩

end Verif
