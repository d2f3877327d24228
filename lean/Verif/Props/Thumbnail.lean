import Verif.Proofs.Thumbnail
import Verif.Props.SampleBetween

/-!
# C85: `thumbnail`
-/

namespace Verif
open GenericImageView GenericImage LawfulView LawfulImage

variable {ch : Nat}

theorem thumb_px4_eta {α : Type} (f : Pix α 4) : px4 (f 0) (f 1) (f 2) (f 3) = f := by
  funext c
  rcases c with ⟨_ | _ | _ | _ | n, hn⟩
  all_goals first | rfl | omega

theorem addPixel_ok {T : Prim} {s p : Pix Nat 4} (h : ∀ c, s c + p c < 2 ^ T.largerBits) :
    addPixel T s p = .ok fun c => s c + p c := by
  unfold addPixel
  rw [addC_ok (h 0), ok_bind, addC_ok (h 1), ok_bind, addC_ok (h 2), ok_bind, addC_ok (h 3), ok_bind]
  exact congrArg _ (thumb_px4_eta fun c => s c + p c)

/-- Adding up pixels. -/
theorem sum_loop {I : Type} [GenericImageView I (Pix Nat ch)] {T : Prim} {img : I} {fx fy : Nat → Nat} {V : Nat → Fin 4 → Nat}
    {Q : Nat → Pix Nat ch} {M n : Nat} {s0 : Pix Nat 4} (hQ : ∀ i, i < n → getPixel img (fx i) (fy i) = .ok (Q i))
    (hV : ∀ i, i < n → channels4 (Samp.uint T) (Q i) = V i) (hM : ∀ i c, i < n → V i c ≤ M)
    (hs : ∀ c, s0 c + n * M < 2 ^ T.largerBits) :
    forRange n (fun i s => do
      let k ← getPixel img (fx i) (fy i)
      addPixel T s (channels4 (Samp.uint T) k)) s0 = .ok fun c => s0 c + ∑ i ∈ Finset.range n, V i c := by
  obtain ⟨s, h1, h2, -⟩ := forRange_inv (n := n) (f := fun i s => do
      let k ← getPixel img (fx i) (fy i)
      addPixel T s (channels4 (Samp.uint T) k)) (s := s0)
    (fun k s => s = (fun c => s0 c + ∑ i ∈ Finset.range k, V i c) ∧ ∀ c, s c ≤ s0 c + k * M)
    ⟨by simp, by simp⟩
    (by
      intro i hi s ⟨e, hb⟩
      have hb' : ∀ c, s c + V i c ≤ s0 c + (i + 1) * M := by
        intro c
        have := hM i c hi
        have := hb c
        rw [Nat.add_mul, Nat.one_mul]
        omega
      refine ⟨fun c => s c + V i c, ?_, ?_, hb'⟩
      · simp only [hQ i hi, ok_bind, hV i hi]
        refine addPixel_ok fun c => ?_
        have h3 : (i + 1) * M ≤ n * M := Nat.mul_le_mul_right _ hi
        have := hs c
        have := hb' c
        omega
      · funext c
        rw [e, Finset.sum_range_succ]
        dsimp only
        omega)
  rw [h1, h2]

/-- Adding up two series of pixels. -/
theorem pair_loop {T : Prim} {V W : Nat → Fin 4 → Nat} {M n : Nat}
    {f : Nat → Pix Nat 4 × Pix Nat 4 → R (Pix Nat 4 × Pix Nat 4)}
    (hf : ∀ i, i < n → ∀ s, (∀ c, s.1 c + V i c < 2 ^ T.largerBits) → (∀ c, s.2 c + W i c < 2 ^ T.largerBits) →
      f i s = .ok (fun c => s.1 c + V i c, fun c => s.2 c + W i c))
    (hV : ∀ i c, i < n → V i c ≤ M) (hW : ∀ i c, i < n → W i c ≤ M) (hs : n * M < 2 ^ T.largerBits) :
    forRange n f (fun _ => 0, fun _ => 0) =
      .ok (fun c => ∑ i ∈ Finset.range n, V i c, fun c => ∑ i ∈ Finset.range n, W i c) := by
  obtain ⟨s, h1, h2, -⟩ := forRange_inv (n := n) (f := f) (s := (fun _ => 0, fun _ => 0))
    (fun k s => s = (fun c => ∑ i ∈ Finset.range k, V i c, fun c => ∑ i ∈ Finset.range k, W i c) ∧ ∀ c, s.1 c ≤ k * M ∧ s.2 c ≤ k * M)
    ⟨by simp, by simp⟩
    (by
      intro i hi s ⟨e, hb⟩
      have h3 : (i + 1) * M ≤ n * M := Nat.mul_le_mul_right _ hi
      have h4 : (i + 1) * M = i * M + M := by rw [Nat.add_mul, Nat.one_mul]
      refine ⟨_, hf i hi s (fun c => ?_) (fun c => ?_), ?_, fun c => ?_⟩
      · have := hV i c hi; have := (hb c).1; omega
      · have := hW i c hi; have := (hb c).2; omega
      · rw [e]
        simp only [Finset.sum_range_succ]
      · have := hV i c hi
        have := hW i c hi
        have := hb c
        dsimp only
        omega)
  rw [h1, h2]

/-- The mean of a block. -/
theorem block_ok {I : Type} [GenericImageView I (Pix Nat ch)] {T : Prim} (hT : T.bits ≤ 16) {img : I}
    {pix : Nat → Nat → Pix Nat ch} (hp : ∀ x y, x < widthOf img → y < heightOf img → getPixel img x y = .ok (pix x y))
    (hr : ∀ x y, x < widthOf img → y < heightOf img → ∀ c, pix x y c ≤ T.max) {l r b t : Nat} (hlr : l < r) (hrw : r ≤ widthOf img)
    (hbt : b < t) (hth : t ≤ heightOf img) (hs : (r - l) * (t - b) * (T.max + 1) ≤ 2 ^ 32) :
    thumbnailBlock T img l r b t = .ok fun c =>
      (blockSum (fun i j => channels4 (Samp.uint T) (pix i j) c) l (r - l) b (t - b) + (r - l) * (t - b) / 2) / ((r - l) * (t - b)) := by
  have hL : T.largerBits = 32 := by cases T <;> simp_all [Prim.largerBits, Prim.bits]
  set nx := r - l with hnx
  set ny := t - b with hny
  have hn0 : 0 < nx * ny := Nat.mul_pos (by omega) (by omega)
  have hs' : nx * ny * T.max + nx * ny ≤ 2 ^ 32 := by rw [Nat.mul_add, Nat.mul_one] at hs; exact hs
  have hnm : nx * ny ≤ nx * ny * T.max := Nat.le_mul_of_pos_right _ (by cases T <;> simp [Prim.max, Prim.bits])
  have hV : ∀ i j c, i < nx → j < ny → channels4 (Samp.uint T) (pix (l + i) (b + j)) c ≤ T.max := fun i j c hi hj =>
    channels4_le (hr _ _ (by omega) (by omega)) c
  have hblk : ∀ c, ∀ k ≤ ny, blockSum (fun i j => channels4 (Samp.uint T) (pix i j) c) l nx b k ≤ k * (nx * T.max) := by
    intro c k hk
    unfold blockSum
    have h1 : ∀ j ∈ Finset.range k, ∑ i ∈ Finset.range nx, channels4 (Samp.uint T) (pix (l + i) (b + j)) c ≤ nx * T.max := by
      intro j hj
      have h2 := Finset.sum_le_card_nsmul (Finset.range nx) (fun i => channels4 (Samp.uint T) (pix (l + i) (b + j)) c) T.max
        (fun i hi => hV i j c (Finset.mem_range.1 hi) (by have := Finset.mem_range.1 hj; omega))
      simpa using h2
    have h2 := Finset.sum_le_card_nsmul (Finset.range k) _ (nx * T.max) h1
    simpa using h2
  have hkn : ∀ k, k ≤ ny → k * (nx * T.max) ≤ nx * ny * T.max := by
    intro k hk
    calc k * (nx * T.max) ≤ ny * (nx * T.max) := Nat.mul_le_mul_right _ hk
      _ = nx * ny * T.max := by ring
  obtain ⟨s, h1, h2⟩ := forRange_inv (n := ny) (f := fun j sum =>
    forRange nx (fun i sum => do
      let k ← getPixel img (l + i) (b + j)
      addPixel T sum (channels4 (Samp.uint T) k)) sum) (s := fun _ => 0)
    (fun k s => s = fun c => blockSum (fun i j => channels4 (Samp.uint T) (pix i j) c) l nx b k)
    (by simp [blockSum])
    (by
      intro j hj s e
      refine ⟨_, sum_loop (img := img) (fx := fun i => l + i) (fy := fun _ => b + j) (Q := fun i => pix (l + i) (b + j))
        (V := fun i => channels4 (Samp.uint T) (pix (l + i) (b + j))) (M := T.max) (fun i hi => hp _ _ (by omega) (by omega)) (fun _ _ => rfl)
        (fun i c hi => hV i j c hi hj) (fun c => ?_), ?_⟩
      · rw [e, hL]
        dsimp only
        have := hblk c j (by omega)
        have := hkn (j + 1) (by omega)
        rw [Nat.add_mul, Nat.one_mul] at this
        omega
      · rw [e]
        funext c
        simp only [blockSum, Finset.sum_range_succ])
  have hmean : ∀ c, blockMean T (s c) (nx * ny / 2) (nx * ny) = .ok
      ((blockSum (fun i j => channels4 (Samp.uint T) (pix i j) c) l nx b ny + nx * ny / 2) / (nx * ny)) := by
    intro c
    rw [h2]
    dsimp only
    have h3 := hblk c ny (le_refl _)
    have h4 := hkn ny (le_refl _)
    unfold blockMean
    rw [addC_ok (by rw [hL]; omega), ok_bind]
    have h5 : (blockSum (fun i j => channels4 (Samp.uint T) (pix i j) c) l nx b ny + nx * ny / 2) / (nx * ny) ≤ T.max := by
      rw [← Nat.lt_succ_iff, Nat.div_lt_iff_lt_mul hn0, Nat.succ_mul, mul_comm T.max]
      omega
    unfold Prim.clampFrom Prim.castFrom
    rw [if_neg (Nat.not_lt.2 h5), if_neg (Nat.not_lt_zero _), if_pos h5]
  unfold thumbnailBlock
  rw [← hnx, ← hny, h1, ok_bind, subC_ok hlr.le, ok_bind, subC_ok hbt.le, ok_bind, mulC_ok (show nx * ny < 2 ^ 32 by omega), ok_bind]
  dsimp only
  simp only [hmean, ok_bind]
  congr 1
  exact thumb_px4_eta fun c => (blockSum (fun i j => channels4 (Samp.uint T) (pix i j) c) l nx b ny + nx * ny / 2) / (nx * ny)

/-- Truncation of a float close to a value between two integers. -/
theorem cast_near {T : Prim} {t X : ℚ} {L H : Nat} (h0 : 0 ≤ t) (ht : |t - X| ≤ 1 / 4) (hL : L ≤ X) (hH : X ≤ H) (hM : H ≤ T.max) :
    ∃ g, (Fl.fin t).castU T.bits = some g ∧ L ≤ g + 1 ∧ g ≤ H := by
  have hb := abs_le.1 ht
  have hlt : t < H + 1 := by linarith
  have hmax : (H : ℚ) + 1 ≤ 2 ^ T.bits := by
    have : H + 1 ≤ 2 ^ T.bits := by
      have : T.max + 1 = 2 ^ T.bits := by cases T <;> simp [Prim.max, Prim.bits]
      omega
    exact_mod_cast this
  have hf0 : 0 ≤ ⌊t⌋ := Int.floor_nonneg.2 h0
  have e : ((⌊t⌋.toNat : ℕ) : ℤ) = ⌊t⌋ := Int.toNat_of_nonneg hf0
  have eq : ((⌊t⌋.toNat : ℕ) : ℚ) = ((⌊t⌋ : ℤ) : ℚ) := by exact_mod_cast e
  refine ⟨⌊t⌋.toNat, ?_, ?_, ?_⟩
  · show (if _ then _ else _) = _
    rw [if_pos ⟨by linarith, by linarith⟩]
  · have h1 := Int.lt_floor_add_one t
    rw [← eq] at h1
    have : (L : ℚ) < (⌊t⌋.toNat : ℕ) + 2 := by linarith
    have : L < ⌊t⌋.toNat + 2 := by exact_mod_cast this
    omega
  · have h1 := Int.floor_le t
    rw [← eq] at h1
    have : ((⌊t⌋.toNat : ℕ) : ℚ) < H + 1 := by linarith
    have : ⌊t⌋.toNat < H + 1 := by exact_mod_cast this
    omega

/-- The complement of a fraction. -/
theorem one_sub_step {f : ℚ} (h0 : 0 ≤ f) (h1 : f ≤ 1) :
    ∃ g, (Fl.fin 1).sub f32 (.fin f) = .fin g ∧ 0 ≤ g ∧ g ≤ 1 ∧ |g - (1 - f)| ≤ 2 / 2 ^ 24 := by
  have hq0 : 0 ≤ 1 - f := by linarith
  refine ⟨f32.rnd (1 - f), ?_, f32.rnd_nonneg hq0, ?_, ?_⟩
  · rw [fl_sub, ofRat32]
    rw [abs_of_nonneg hq0]
    linarith [show (1 : ℚ) ≤ 2 ^ 127 by norm_num]
  · have := rnd_le32 (q := 1 - f) (n := 1) (by norm_num) (by push_cast; linarith)
    simpa using this
  · have r := rnd_err32 (1 - f)
    rw [abs_of_nonneg hq0] at r
    linarith [show (1 : ℚ) / 2 ^ 100 ≤ 1 / 2 ^ 25 by norm_num]

/-- The mean of two fractional parts. -/
theorem fraction_step {l r : ℚ} (hl : 0 ≤ l) (hr : 0 ≤ r) :
    ∃ f, ((Fl.fin l).fract.add f32 (Fl.fin r).fract).div f32 (.fin 2) = .fin f ∧ 0 ≤ f ∧ f ≤ 1 := by
  have e : ∀ {q : ℚ}, 0 ≤ q → (Fl.fin q).fract = .fin (q - ⌊q⌋) := by
    intro q hq
    show Fl.fin (if _ then _ else _) = _
    rw [if_pos hq]
  have b : ∀ q : ℚ, 0 ≤ q - ⌊q⌋ ∧ q - ⌊q⌋ ≤ 1 := fun q => ⟨by linarith [Int.floor_le q], by linarith [Int.lt_floor_add_one q]⟩
  have h0 : 0 ≤ l - ⌊l⌋ + (r - ⌊r⌋) := by linarith [(b l).1, (b r).1]
  have h2 : l - ⌊l⌋ + (r - ⌊r⌋) ≤ 2 := by linarith [(b l).2, (b r).2]
  have h3 : f32.rnd (l - ⌊l⌋ + (r - ⌊r⌋)) ≤ 2 := by
    have := rnd_le32 (q := l - ⌊l⌋ + (r - ⌊r⌋)) (n := 2) (by norm_num) (by push_cast; linarith)
    simpa using this
  have h4 := f32.rnd_nonneg h0
  rw [e hl, e hr, fl_add, ofRat32 (by rw [abs_of_nonneg h0]; linarith [show (2 : ℚ) ≤ 2 ^ 127 by norm_num]), fl_div _ (by norm_num),
    ofRat32 (by rw [abs_of_nonneg (by positivity)]; linarith [show (2 : ℚ) ≤ 2 ^ 127 by norm_num])]
  refine ⟨_, rfl, f32.rnd_nonneg (by positivity), ?_⟩
  have := rnd_le32 (q := f32.rnd (l - ⌊l⌋ + (r - ⌊r⌋)) / 2) (n := 1) (by norm_num) (by push_cast; linarith)
  simpa using this

/-- A weight divided by the number of pixels, times a sum. -/
theorem share_step {g G e : ℚ} {n A M : Nat} (hn0 : 0 < n) (hn : n ≤ 2 ^ 20) (hg0 : 0 ≤ g) (hg : g ≤ 1) (hG0 : 0 ≤ G) (hG : G ≤ 1)
    (hgG : |g - G| ≤ e) (he : e ≤ 2 / 2 ^ 24) (hA : A ≤ n * M) (hM : M < 2 ^ 16) :
    ∃ t, ((Fl.fin g).div f32 (Fl.ofNat f32 n)).mul f32 (Fl.ofNat f32 A) = .fin t ∧ 0 ≤ t ∧ |t - G * (A / n)| ≤ 1 / 32 := by
  have hn1 : (1 : ℚ) ≤ n := by exact_mod_cast hn0
  have hn2 : (n : ℚ) ≤ 2 ^ 20 := by exact_mod_cast hn
  have hA1 : (A : ℚ) ≤ n * M := by exact_mod_cast hA
  have hM1 : (M : ℚ) ≤ 2 ^ 16 := by exact_mod_cast hM.le
  have hA0 : (0 : ℚ) ≤ A := by positivity
  have hAn : (A : ℚ) / n ≤ 2 ^ 16 := by rw [div_le_iff₀ (by linarith)]; nlinarith
  have hA2 : (A : ℚ) ≤ 2 ^ 36 := by
    calc (A : ℚ) ≤ n * M := hA1
      _ ≤ 2 ^ 20 * 2 ^ 16 := by gcongr
      _ = 2 ^ 36 := by norm_num
  -- the share
  have hs0 : 0 ≤ g / n := by positivity
  have hsn : g / n ≤ 1 := by rw [div_le_one (by linarith)]; linarith
  have es : (Fl.fin g).div f32 (Fl.ofNat f32 n) = .fin (f32.rnd (g / n)) := by
    rw [ofNat32 (by omega), fl_div _ (by linarith), ofRat32]
    rw [abs_of_nonneg hs0]
    linarith [show (1 : ℚ) ≤ 2 ^ 127 by norm_num]
  set s := f32.rnd (g / n) with hsdef
  have s0 : 0 ≤ s := f32.rnd_nonneg hs0
  have hs := rnd_err32 (g / n)
  rw [abs_of_nonneg hs0, ← hsdef] at hs
  -- the sum
  have eA : Fl.ofNat f32 A = .fin (f32.rnd A) := by
    unfold Fl.ofNat
    rw [ofRat32]
    rw [abs_of_nonneg hA0]
    linarith [show (2 : ℚ) ^ 36 ≤ 2 ^ 127 by norm_num]
  set a := f32.rnd (A : ℚ) with hadef
  have a0 : 0 ≤ a := f32.rnd_nonneg hA0
  have ha := rnd_err32 (A : ℚ)
  rw [abs_of_nonneg hA0, ← hadef] at ha
  have hs' : |s * n - G| ≤ 4 / 2 ^ 24 := by
    have e1 : s * n - G = (s - g / n) * n + (g - G) := by field_simp; ring
    rw [e1]
    refine (abs_add_le _ _).trans ?_
    rw [abs_mul, abs_of_nonneg (show (0 : ℚ) ≤ n by linarith)]
    have h2 : |s - g / n| * n ≤ (g / n / 2 ^ 24 + 1 / 2 ^ 100) * n := by gcongr
    have h3 : (g / n / 2 ^ 24 + 1 / 2 ^ 100) * n = g / 2 ^ 24 + n / 2 ^ 100 := by field_simp
    have h4 : (n : ℚ) / 2 ^ 100 ≤ 2 ^ 20 / 2 ^ 100 := by gcongr
    have h5 : (2 : ℚ) ^ 20 / 2 ^ 100 ≤ 1 / 2 ^ 24 := by norm_num
    linarith
  have ha' : |a / n - A / n| ≤ 2 ^ 16 / 2 ^ 24 + 1 / 2 ^ 100 := by
    rw [← sub_div, abs_div, abs_of_nonneg (show (0 : ℚ) ≤ n by linarith), div_le_iff₀ (by linarith)]
    refine ha.trans ?_
    have : (A : ℚ) / 2 ^ 24 ≤ 2 ^ 16 * n / 2 ^ 24 := by
      gcongr
      calc (A : ℚ) ≤ n * M := hA1
        _ ≤ 2 ^ 16 * n := by rw [mul_comm]; gcongr
    have : (1 : ℚ) / 2 ^ 100 ≤ 1 / 2 ^ 100 * n := by linarith
    linarith [show (2 ^ 16 / 2 ^ 24 + 1 / 2 ^ 100) * (n : ℚ) = 2 ^ 16 * n / 2 ^ 24 + 1 / 2 ^ 100 * n by ring]
  have han : a / n ≤ 2 ^ 16 + 1 := by
    have := (abs_le.1 ha').2
    linarith [show (2 : ℚ) ^ 16 / 2 ^ 24 + 1 / 2 ^ 100 ≤ 1 by norm_num]
  have hprod : |s * a - G * (A / n)| ≤ 1 / 64 + 1 / 128 := by
    have e1 : s * a - G * (A / n) = (s * n - G) * (a / n) + G * (a / n - A / n) := by field_simp; ring
    rw [e1]
    refine (abs_add_le _ _).trans ?_
    rw [abs_mul, abs_mul, abs_of_nonneg hG0, abs_of_nonneg (show 0 ≤ a / n by positivity)]
    have h2 : |s * n - G| * (a / n) ≤ 4 / 2 ^ 24 * (2 ^ 16 + 1) := by gcongr
    have h3 : G * |a / n - A / n| ≤ 1 * (2 ^ 16 / 2 ^ 24 + 1 / 2 ^ 100) := by gcongr
    have : (4 : ℚ) / 2 ^ 24 * (2 ^ 16 + 1) + 1 * (2 ^ 16 / 2 ^ 24 + 1 / 2 ^ 100) ≤ 1 / 64 + 1 / 128 := by norm_num
    linarith
  have hsa0 : 0 ≤ s * a := by positivity
  have hsa : s * a ≤ 2 ^ 16 + 1 := by
    have := (abs_le.1 hprod).2
    have : G * (A / n) ≤ 1 * 2 ^ 16 := by gcongr
    linarith [show (1 : ℚ) / 64 + 1 / 128 ≤ 1 by norm_num]
  refine ⟨f32.rnd (s * a), ?_, f32.rnd_nonneg hsa0, ?_⟩
  · rw [es, eA, fl_mul, ofRat32]
    rw [abs_of_nonneg hsa0]
    linarith [show (2 : ℚ) ^ 16 + 1 ≤ 2 ^ 127 by norm_num]
  · have r := rnd_err32 (s * a)
    rw [abs_of_nonneg hsa0] at r
    have e1 : f32.rnd (s * a) - G * (A / n) = (f32.rnd (s * a) - s * a) + (s * a - G * (A / n)) := by ring
    rw [e1]
    refine (abs_add_le _ _).trans ?_
    have h2 : s * a / 2 ^ 24 ≤ (2 ^ 16 + 1) / 2 ^ 24 := by gcongr
    have : ((2 : ℚ) ^ 16 + 1) / 2 ^ 24 + 1 / 2 ^ 100 + (1 / 64 + 1 / 128) ≤ 1 / 32 := by norm_num
    linarith

/-- Interpolating between two sums. -/
theorem mixTwo_ok {T : Prim} (hT : T.bits ≤ 16) {f : ℚ} (hf0 : 0 ≤ f) (hf1 : f ≤ 1) {n A B L H : Nat} (hn0 : 0 < n) (hn : n ≤ 2 ^ 20)
    (hA : n * L ≤ A ∧ A ≤ n * H) (hB : n * L ≤ B ∧ B ≤ n * H) (hM : H ≤ T.max) :
    ∃ g, mixTwo T (((Fl.fin 1).sub f32 (.fin f)).div f32 (Fl.ofNat f32 n)) ((Fl.fin f).div f32 (Fl.ofNat f32 n)) A B = .ok g ∧
      L ≤ g + 1 ∧ g ≤ H := by
  have hbits : T.max < 2 ^ 16 := by cases T <;> simp_all [Prim.max, Prim.bits]
  obtain ⟨g, eg, g0, g1, hg⟩ := one_sub_step hf0 hf1
  obtain ⟨s, es, s0, hs⟩ := share_step (G := 1 - f) (e := 2 / 2 ^ 24) hn0 hn g0 g1 (by linarith) (by linarith) hg (le_refl _) hA.2 (by omega)
  obtain ⟨t, et, t0, ht⟩ := share_step (G := f) (e := 0) hn0 hn hf0 hf1 hf0 hf1 (by simp) (by norm_num) hB.2 (by omega)
  have hn1 : (0 : ℚ) < n := by exact_mod_cast hn0
  have bnd : ∀ {C : Nat}, n * L ≤ C ∧ C ≤ n * H → (L : ℚ) ≤ C / n ∧ (C : ℚ) / n ≤ H := by
    intro C hC
    have h1 : (n : ℚ) * L ≤ C := by exact_mod_cast hC.1
    have h2 : (C : ℚ) ≤ n * H := by exact_mod_cast hC.2
    rw [le_div_iff₀ hn1, div_le_iff₀ hn1]
    constructor <;> linarith
  obtain ⟨a1, a2⟩ := bnd hA
  obtain ⟨b1, b2⟩ := bnd hB
  have hH : (H : ℚ) ≤ 2 ^ 16 := by exact_mod_cast (by omega : H ≤ 2 ^ 16)
  have hs' := abs_le.1 hs
  have ht' := abs_le.1 ht
  have c1 : (L : ℚ) ≤ (1 - f) * (A / n) + f * (B / n) := by nlinarith
  have c2 : (1 - f) * (A / n) + f * (B / n) ≤ (H : ℚ) := by nlinarith
  obtain ⟨v, ev, v0, hv⟩ := add_step (K := 2 ^ 16 + 1) s0 t0 (by linarith) (by norm_num) (by norm_num) hs ht
  obtain ⟨k, ek, k1, k2⟩ := cast_near (T := T) (L := L) (H := H) v0
    (hv.trans (by norm_num)) c1 c2 hM
  refine ⟨k, ?_, k1, k2⟩
  unfold mixTwo
  rw [eg, es, et, ev, ek]
  rfl

/-- Interpolating between four samples. -/
theorem mixFour_ok {T : Prim} (hT : T.bits ≤ 16) {v h : ℚ} (hv0 : 0 ≤ v) (hv1 : v ≤ 1) (hh0 : 0 ≤ h) (hh1 : h ≤ 1) {br tr bl tl L H : Nat}
    (h1 : L ≤ br ∧ br ≤ H) (h2 : L ≤ tr ∧ tr ≤ H) (h3 : L ≤ bl ∧ bl ≤ H) (h4 : L ≤ tl ∧ tl ≤ H) (hM : H ≤ T.max) :
    ∃ g, mixFour T (((Fl.fin 1).sub f32 (.fin v)).mul f32 (.fin h)) ((Fl.fin v).mul f32 (.fin h))
        (((Fl.fin 1).sub f32 (.fin v)).mul f32 ((Fl.fin 1).sub f32 (.fin h))) ((Fl.fin v).mul f32 ((Fl.fin 1).sub f32 (.fin h)))
        br tr bl tl = .ok g ∧ L ≤ g + 1 ∧ g ≤ H := by
  have hbits : T.max < 2 ^ 16 := by cases T <;> simp_all [Prim.max, Prim.bits]
  have hmax : 1 ≤ T.max := by cases T <;> simp [Prim.max, Prim.bits]
  have hMq : (T.max : ℚ) ≤ 2 ^ 16 := by exact_mod_cast hbits.le
  have hMq1 : (1 : ℚ) ≤ T.max := by exact_mod_cast hmax
  have hHM : (H : ℚ) ≤ T.max := by exact_mod_cast hM
  obtain ⟨v', ev, w0, w1, hv⟩ := one_sub_step hv0 hv1
  obtain ⟨h', eh, k0, k1, hh⟩ := one_sub_step hh0 hh1
  have z : ∀ q : ℚ, |q - q| ≤ 0 := by simp
  -- weights
  have wt : ∀ {a b A B : ℚ}, 0 ≤ a → a ≤ 1 → 0 ≤ b → b ≤ 1 → 0 ≤ A → A ≤ 1 → |a - A| ≤ 2 / 2 ^ 24 → |b - B| ≤ 2 / 2 ^ 24 →
      ∃ t, (Fl.fin a).mul f32 (.fin b) = .fin t ∧ 0 ≤ t ∧ t ≤ 1 ∧ |t - A * B| ≤ 6 / 2 ^ 24 := by
    intro a b A B a0 a1 b0 b1 A0 A1 e1 e2
    obtain ⟨t, et, t0, t1, ht⟩ := mul_step (M := 1) a0 a1 b0 b1 A0 A1 (by norm_num) (by norm_num) e1 e2
    exact ⟨t, et, t0, t1 b1, ht.trans (by norm_num)⟩
  obtain ⟨a1, ea1, p1, q1, r1⟩ := wt (A := 1 - v) (B := h) w0 w1 hh0 hh1 (by linarith) (by linarith) hv (by norm_num)
  obtain ⟨a2, ea2, p2, q2, r2⟩ := wt (A := v) (B := h) hv0 hv1 hh0 hh1 hv0 hv1 (by norm_num) (by norm_num)
  obtain ⟨a3, ea3, p3, q3, r3⟩ := wt (A := 1 - v) (B := 1 - h) w0 w1 k0 k1 (by linarith) (by linarith) hv hh
  obtain ⟨a4, ea4, p4, q4, r4⟩ := wt (A := v) (B := 1 - h) hv0 hv1 k0 k1 hv0 hv1 (by norm_num) hh
  have tm : ∀ {a W : ℚ} {x : Nat}, 0 ≤ a → a ≤ 1 → 0 ≤ W → W ≤ 1 → |a - W| ≤ 6 / 2 ^ 24 → x ≤ T.max →
      ∃ t, (Fl.fin a).mul f32 (Fl.ofNat f32 x) = .fin t ∧ 0 ≤ t ∧ |t - W * x| ≤ 8 * T.max / 2 ^ 24 := by
    intro a W x a0 a1 W0 W1 e1 hx
    have hxq : (x : ℚ) ≤ T.max := by exact_mod_cast hx
    obtain ⟨t, et, t0, -, ht⟩ := mul_step (M := T.max) (b := x) (B := x) a0 a1 (by positivity) hxq W0 W1 hMq1
      (by linarith [show (2 : ℚ) ^ 16 ≤ 2 ^ 17 by norm_num]) e1 (z _)
    refine ⟨t, ?_, t0, ht.trans (by linarith)⟩
    rw [ofNat32 (by omega), et]
  have nn : ∀ {A B : ℚ}, 0 ≤ A → A ≤ 1 → 0 ≤ B → B ≤ 1 → 0 ≤ A * B ∧ A * B ≤ 1 := by
    intro A B hA hA1 hB hB1
    exact ⟨by positivity, by nlinarith⟩
  have n1 := nn (A := 1 - v) (B := h) (by linarith) (by linarith) hh0 hh1
  have n2 := nn (A := v) (B := h) hv0 hv1 hh0 hh1
  have n3 := nn (A := 1 - v) (B := 1 - h) (by linarith) (by linarith) (by linarith) (by linarith)
  have n4 := nn (A := v) (B := 1 - h) hv0 hv1 (by linarith) (by linarith)
  obtain ⟨m1, em1, x1, y1⟩ := tm p1 q1 n1.1 n1.2 r1 (h1.2.trans hM)
  obtain ⟨m2, em2, x2, y2⟩ := tm p2 q2 n2.1 n2.2 r2 (h2.2.trans hM)
  obtain ⟨m3, em3, x3, y3⟩ := tm p3 q3 n3.1 n3.2 r3 (h3.2.trans hM)
  obtain ⟨m4, em4, x4, y4⟩ := tm p4 q4 n4.1 n4.2 r4 (h4.2.trans hM)
  have bd : ∀ {W : ℚ} {x : Nat}, 0 ≤ W → L ≤ x ∧ x ≤ H → W * L ≤ W * x ∧ W * x ≤ W * H := by
    intro W x hW hx
    have : (L : ℚ) ≤ x := by exact_mod_cast hx.1
    have : (x : ℚ) ≤ H := by exact_mod_cast hx.2
    constructor <;> gcongr
  have b1 := bd n1.1 h1
  have b2 := bd n2.1 h2
  have b3 := bd n3.1 h3
  have b4 := bd n4.1 h4
  have hsumL : (1 - v) * h * L + v * h * L + (1 - v) * (1 - h) * L + v * (1 - h) * L = (L : ℚ) := by ring
  have hsumH : (1 - v) * h * H + v * h * H + (1 - v) * (1 - h) * H + v * (1 - h) * H = (H : ℚ) := by ring
  obtain ⟨t, et, t0, ht⟩ := sum4 (M := T.max) (e := 8 * T.max / 2 ^ 24) hMq1 (by linarith [show (2 : ℚ) ^ 16 ≤ 2 ^ 17 by norm_num]) (by linarith)
    x1 x2 x3 x4 y1 y2 y3 y4 (by positivity) (by positivity) (mul_nonneg n3.1 (by positivity)) (mul_nonneg n4.1 (by positivity)) (by linarith)
  obtain ⟨k, ek, l1, l2⟩ := cast_near (T := T) (L := L) (H := H) t0 (ht.trans (by linarith)) (by linarith) (by linarith) hM
  refine ⟨k, ?_, l1, l2⟩
  unfold mixFour
  rw [ev, eh, ea1, ea2, ea3, ea4, em1, em2, em3, em4, et, ek]
  rfl

/-- Four results, one for each channel. -/
theorem mix_pick {m : Fin 4 → R Nat} {B : Fin 4 → Nat → Nat → Prop} (hm : ∀ c L H, B c L H → ∃ g, m c = .ok g ∧ L ≤ g + 1 ∧ g ≤ H)
    (h0 : ∀ c, ∃ L H, B c L H) :
    ∃ P : Pix Nat 4, (do .ok (px4 (← m 0) (← m 1) (← m 2) (← m 3)) : R (Pix Nat 4)) = .ok P ∧
      ∀ c L H, B c L H → L ≤ P c + 1 ∧ P c ≤ H := by
  have key : ∀ c, ∃ g, m c = .ok g := by
    intro c
    obtain ⟨L, H, h⟩ := h0 c
    obtain ⟨g, e, -⟩ := hm c L H h
    exact ⟨g, e⟩
  choose g hg using key
  refine ⟨g, ?_, ?_⟩
  · simp only [hg, ok_bind]
    rw [thumb_px4_eta]
  · intro c L H h
    obtain ⟨g', e, h1⟩ := hm c L H h
    rw [hg c] at e
    cases e
    exact h1

/-- One output pixel. -/
theorem pixel_ok {I : Type} [GenericImageView I (Pix Nat ch)] {T : Prim} (hT : T.bits ≤ 16) {img : I}
    {pix : Nat → Nat → Pix Nat ch} (hp : ∀ x y, x < widthOf img → y < heightOf img → getPixel img x y = .ok (pix x y))
    (hr : ∀ x y, x < widthOf img → y < heightOf img → ∀ c, pix x y c ≤ T.max) (hw : widthOf img ≤ 2 ^ 20) (hh : heightOf img ≤ 2 ^ 20)
    {lx rx ly ry : ℚ} {a b a' b' : Nat} (hlx : 0 ≤ lx) (hrx : 0 ≤ rx) (hly : 0 ≤ ly) (hry : 0 ≤ ry)
    (h1 : a < widthOf img) (h2 : a ≤ b) (h3 : b ≤ widthOf img) (h4 : a = b → 0 < a)
    (h1' : a' < heightOf img) (h2' : a' ≤ b') (h3' : b' ≤ heightOf img) (h4' : a' = b' → 0 < a')
    (hs : (b - a) * (b' - a') * (T.max + 1) ≤ 2 ^ 32) (hsx : (b - a) * T.max < 2 ^ 32) (hsy : (b' - a') * T.max < 2 ^ 32) :
    ∃ P : Pix Nat 4, thumbnailPixel T img (.fin lx, .fin rx, a, b) (.fin ly, .fin ry, a', b') = .ok P ∧
      (∀ c L H, H ≤ T.max → (∀ i j, (a ≤ i ∧ i < b) ∨ (a = b ∧ a ≤ i + 1 ∧ i ≤ a) → (a' ≤ j ∧ j < b') ∨ (a' = b' ∧ a' ≤ j + 1 ∧ j ≤ a') →
        L ≤ channels4 (Samp.uint T) (pix i j) c ∧ channels4 (Samp.uint T) (pix i j) c ≤ H) → L ≤ P c + 1 ∧ P c ≤ H) ∧
      (a < b → a' < b' → ∀ c, P c =
        (blockSum (fun i j => channels4 (Samp.uint T) (pix i j) c) a (b - a) a' (b' - a') + (b - a) * (b' - a') / 2) / ((b - a) * (b' - a'))) := by
  have hL : T.largerBits = 32 := by cases T <;> simp_all [Prim.largerBits, Prim.bits]
  have hbits : T.max < 2 ^ 16 := by cases T <;> simp_all [Prim.max, Prim.bits]
  have hch : ∀ i j c, i < widthOf img → j < heightOf img → channels4 (Samp.uint T) (pix i j) c ≤ T.max := fun i j c hi hj =>
    channels4_le (hr _ _ hi hj) c
  -- bounds on a sum of `n` terms
  have sumB : ∀ (n : Nat) (v : Nat → Nat) (L H : Nat), (∀ i, i < n → L ≤ v i ∧ v i ≤ H) →
      n * L ≤ ∑ i ∈ Finset.range n, v i ∧ ∑ i ∈ Finset.range n, v i ≤ n * H := by
    intro n v L H hv
    have u1 := Finset.sum_le_card_nsmul (Finset.range n) v H (fun i hi => (hv i (Finset.mem_range.1 hi)).2)
    have u2 := Finset.card_nsmul_le_sum (Finset.range n) v L (fun i hi => (hv i (Finset.mem_range.1 hi)).1)
    simp only [Finset.card_range, nsmul_eq_mul, Nat.cast_id] at u1 u2
    exact ⟨u2, u1⟩
  rcases Nat.lt_or_eq_of_le h2 with hx | hx <;> rcases Nat.lt_or_eq_of_le h2' with hy | hy
  · -- a block
    refine ⟨_, ?_, ?_, fun _ _ c => rfl⟩
    · unfold thumbnailPixel
      dsimp only
      rw [if_pos ⟨by omega, by omega⟩]
      exact block_ok hT hp hr hx h3 hy h3' hs
    · intro c L H hHM hLH
      set nx := b - a
      set ny := b' - a'
      have hn0 : 0 < nx * ny := Nat.mul_pos (by omega) (by omega)
      have hrow : ∀ j, j < ny → nx * L ≤ ∑ i ∈ Finset.range nx, channels4 (Samp.uint T) (pix (a + i) (a' + j)) c ∧
          ∑ i ∈ Finset.range nx, channels4 (Samp.uint T) (pix (a + i) (a' + j)) c ≤ nx * H := fun j hj =>
        sumB nx _ L H fun i hi => hLH _ _ (Or.inl ⟨by omega, by omega⟩) (Or.inl ⟨by omega, by omega⟩)
      have hall := sumB ny (fun j => ∑ i ∈ Finset.range nx, channels4 (Samp.uint T) (pix (a + i) (a' + j)) c) _ _ hrow
      have hb : blockSum (fun i j => channels4 (Samp.uint T) (pix i j) c) a nx a' ny =
        ∑ j ∈ Finset.range ny, ∑ i ∈ Finset.range nx, channels4 (Samp.uint T) (pix (a + i) (a' + j)) c := rfl
      rw [← hb] at hall
      have e1 : ny * (nx * L) = L * (nx * ny) := by ring
      have e2 : ny * (nx * H) = H * (nx * ny) := by ring
      constructor
      · refine Nat.le_succ_of_le ?_
        rw [Nat.le_div_iff_mul_le hn0]
        omega
      · rw [← Nat.lt_succ_iff, Nat.div_lt_iff_lt_mul hn0, Nat.succ_mul]
        omega
  · -- `a' = b'`: interpolate vertically
    subst hy
    obtain ⟨f, ef, f0, f1⟩ := fraction_step hry hly
    have ha' := h4' rfl
    set nx := b - a with hnx
    have hloop := pair_loop (T := T) (V := fun i => channels4 (Samp.uint T) (pix (a + i) (a' - 1)))
      (W := fun i => channels4 (Samp.uint T) (pix (a + i) a')) (M := T.max) (n := nx)
      (f := fun i (s : Pix Nat 4 × Pix Nat 4) => do
        let kBot ← getPixel img (a + i) (a' - 1)
        let sumBot ← addPixel T s.1 (channels4 (Samp.uint T) kBot)
        let kTop ← getPixel img (a + i) (← addC 32 (a' - 1) 1)
        let sumTop ← addPixel T s.2 (channels4 (Samp.uint T) kTop)
        .ok (sumBot, sumTop))
      (by
        intro i hi s q1 q2
        rw [hp _ _ (by omega) (by omega), ok_bind, addPixel_ok q1, ok_bind, addC_ok (by omega), ok_bind,
          Nat.sub_add_cancel ha', hp _ _ (by omega) (by omega), ok_bind, addPixel_ok q2, ok_bind])
      (fun i c hi => hch _ _ c (by omega) (by omega)) (fun i c hi => hch _ _ c (by omega) (by omega)) (by rw [hL]; exact hsx)
    have hB : ∀ c L H, (H ≤ T.max ∧ ∀ i, i < nx → (L ≤ channels4 (Samp.uint T) (pix (a + i) (a' - 1)) c ∧ channels4 (Samp.uint T) (pix (a + i) (a' - 1)) c ≤ H) ∧
        (L ≤ channels4 (Samp.uint T) (pix (a + i) a') c ∧ channels4 (Samp.uint T) (pix (a + i) a') c ≤ H)) →
        ∃ g, mixTwo T (((Fl.fin 1).sub f32 (.fin f)).div f32 (Fl.ofNat f32 nx)) ((Fl.fin f).div f32 (Fl.ofNat f32 nx))
          (∑ i ∈ Finset.range nx, channels4 (Samp.uint T) (pix (a + i) (a' - 1)) c) (∑ i ∈ Finset.range nx, channels4 (Samp.uint T) (pix (a + i) a') c) = .ok g ∧
          L ≤ g + 1 ∧ g ≤ H := by
      intro c L H ⟨hH, hb⟩
      exact mixTwo_ok hT f0 f1 (by omega) (by omega) (sumB nx _ L H fun i hi => (hb i hi).1) (sumB nx _ L H fun i hi => (hb i hi).2) hH
    obtain ⟨P, e1, e2⟩ := mix_pick hB (fun c => ⟨0, T.max, le_refl _, fun i hi =>
      ⟨⟨Nat.zero_le _, hch _ _ c (by omega) (by omega)⟩, ⟨Nat.zero_le _, hch _ _ c (by omega) (by omega)⟩⟩⟩)
    refine ⟨P, ?_, ?_, fun _ h => absurd h (by omega)⟩
    · unfold thumbnailPixel
      dsimp only
      rw [if_neg (by omega), if_neg (by omega), if_pos (by omega), decide_eq_true ha', Bool.and_self, assertR_true, ok_bind,
        subC_ok ha', ok_bind]
      unfold thumbnailVertical
      rw [← hnx, hloop, ok_bind, subC_ok hx.le, ok_bind, ← hnx, ef]
      exact e1
    · intro c L H hHM hLH
      refine e2 c L H ⟨hHM, fun i hi => ⟨hLH _ _ (Or.inl ⟨by omega, by omega⟩) (Or.inr ⟨rfl, by omega, by omega⟩),
        hLH _ _ (Or.inl ⟨by omega, by omega⟩) (Or.inr ⟨rfl, by omega, by omega⟩)⟩⟩
  · -- `a = b`: interpolate horizontally
    subst hx
    obtain ⟨f, ef, f0, f1⟩ := fraction_step hlx hrx
    have ha := h4 rfl
    set ny := b' - a' with hny
    have hloop := pair_loop (T := T) (V := fun j => channels4 (Samp.uint T) (pix (a - 1) (a' + j)))
      (W := fun j => channels4 (Samp.uint T) (pix a (a' + j))) (M := T.max) (n := ny)
      (f := fun j (s : Pix Nat 4 × Pix Nat 4) => do
        let kLeft ← getPixel img (a - 1) (a' + j)
        let sumLeft ← addPixel T s.1 (channels4 (Samp.uint T) kLeft)
        let kRight ← getPixel img (← addC 32 (a - 1) 1) (a' + j)
        let sumRight ← addPixel T s.2 (channels4 (Samp.uint T) kRight)
        .ok (sumLeft, sumRight))
      (by
        intro i hi s q1 q2
        rw [hp _ _ (by omega) (by omega), ok_bind, addPixel_ok q1, ok_bind, addC_ok (by omega), ok_bind,
          Nat.sub_add_cancel ha, hp _ _ (by omega) (by omega), ok_bind, addPixel_ok q2, ok_bind])
      (fun i c hi => hch _ _ c (by omega) (by omega)) (fun i c hi => hch _ _ c (by omega) (by omega)) (by rw [hL]; exact hsy)
    have hB : ∀ c L H, (H ≤ T.max ∧ ∀ j, j < ny → (L ≤ channels4 (Samp.uint T) (pix (a - 1) (a' + j)) c ∧ channels4 (Samp.uint T) (pix (a - 1) (a' + j)) c ≤ H) ∧
        (L ≤ channels4 (Samp.uint T) (pix a (a' + j)) c ∧ channels4 (Samp.uint T) (pix a (a' + j)) c ≤ H)) →
        ∃ g, mixTwo T (((Fl.fin 1).sub f32 (.fin f)).div f32 (Fl.ofNat f32 ny)) ((Fl.fin f).div f32 (Fl.ofNat f32 ny))
          (∑ j ∈ Finset.range ny, channels4 (Samp.uint T) (pix (a - 1) (a' + j)) c) (∑ j ∈ Finset.range ny, channels4 (Samp.uint T) (pix a (a' + j)) c) = .ok g ∧
          L ≤ g + 1 ∧ g ≤ H := by
      intro c L H ⟨hH, hb⟩
      exact mixTwo_ok hT f0 f1 (by omega) (by omega) (sumB ny _ L H fun i hi => (hb i hi).1) (sumB ny _ L H fun i hi => (hb i hi).2) hH
    obtain ⟨P, e1, e2⟩ := mix_pick hB (fun c => ⟨0, T.max, le_refl _, fun i hi =>
      ⟨⟨Nat.zero_le _, hch _ _ c (by omega) (by omega)⟩, ⟨Nat.zero_le _, hch _ _ c (by omega) (by omega)⟩⟩⟩)
    refine ⟨P, ?_, ?_, fun h => absurd h (by omega)⟩
    · unfold thumbnailPixel
      dsimp only
      rw [if_neg (by omega), if_pos (by omega), decide_eq_true ha, Bool.and_self, assertR_true, ok_bind,
        subC_ok ha, ok_bind]
      unfold thumbnailHorizontal
      rw [← hny, hloop, ok_bind, subC_ok hy.le, ok_bind, ← hny, ef]
      exact e1
    · intro c L H hHM hLH
      refine e2 c L H ⟨hHM, fun i hi => ⟨hLH _ _ (Or.inr ⟨rfl, by omega, by omega⟩) (Or.inl ⟨by omega, by omega⟩),
        hLH _ _ (Or.inr ⟨rfl, by omega, by omega⟩) (Or.inl ⟨by omega, by omega⟩)⟩⟩
  · -- interpolate both ways
    subst hx hy
    obtain ⟨f, ef, f0, f1⟩ := fraction_step hry hly
    obtain ⟨g, eg, g0, g1⟩ := fraction_step hlx hrx
    have ha := h4 rfl
    have ha' := h4' rfl
    have hB : ∀ c L H, (H ≤ T.max ∧ ∀ i j, a ≤ i + 1 ∧ i ≤ a → a' ≤ j + 1 ∧ j ≤ a' →
          L ≤ channels4 (Samp.uint T) (pix i j) c ∧ channels4 (Samp.uint T) (pix i j) c ≤ H) →
        ∃ k, mixFour T (((Fl.fin 1).sub f32 (.fin f)).mul f32 (.fin g)) ((Fl.fin f).mul f32 (.fin g))
          (((Fl.fin 1).sub f32 (.fin f)).mul f32 ((Fl.fin 1).sub f32 (.fin g))) ((Fl.fin f).mul f32 ((Fl.fin 1).sub f32 (.fin g)))
          (channels4 (Samp.uint T) (pix a (a' - 1)) c) (channels4 (Samp.uint T) (pix a a') c) (channels4 (Samp.uint T) (pix (a - 1) (a' - 1)) c)
          (channels4 (Samp.uint T) (pix (a - 1) a') c) = .ok k ∧ L ≤ k + 1 ∧ k ≤ H := by
      intro c L H ⟨hH, hb⟩
      exact mixFour_ok hT f0 f1 g0 g1 (hb _ _ (by omega) (by omega)) (hb _ _ (by omega) (by omega)) (hb _ _ (by omega) (by omega))
        (hb _ _ (by omega) (by omega)) hH
    obtain ⟨P, e1, e2⟩ := mix_pick hB (fun c => ⟨0, T.max, le_refl _, fun i j hi hj => ⟨Nat.zero_le _, hch _ _ c (by omega) (by omega)⟩⟩)
    refine ⟨P, ?_, ?_, fun h => absurd h (by omega)⟩
    · unfold thumbnailPixel
      dsimp only
      rw [if_neg (by omega), if_neg (by omega), if_neg (by omega), subC_ok ha, ok_bind, subC_ok ha', ok_bind]
      unfold thumbnailBoth
      dsimp only
      rw [hp _ _ (by omega) (by omega), ok_bind, addC_ok (by omega), ok_bind, Nat.sub_add_cancel ha', hp _ _ (by omega) (by omega), ok_bind,
        addC_ok (by omega), ok_bind, Nat.sub_add_cancel ha, hp _ _ (by omega) (by omega), ok_bind, hp _ _ (by omega) (by omega), ok_bind, ef, eg]
      exact e1
    · intro c L H hHM hLH
      exact e2 c L H ⟨hHM, fun i j hi hj => hLH i j (Or.inr ⟨rfl, hi⟩) (Or.inr ⟨rfl, hj⟩)⟩

/-- The span is exact when the axis shrinks by an integer factor. -/
theorem thumb_exact {k newLen o : Nat} (hk : 0 < k) (ho : o < newLen) (h : k * newLen ≤ 2 ^ 20) :
    ∃ l r, thumbnailSpan (k * newLen) newLen o = (l, r, o * k, (o + 1) * k) := by
  have hn : (0 : ℚ) < newLen := by exact_mod_cast (by omega : 0 < newLen)
  have hkl : k ≤ 2 ^ 20 := le_trans (Nat.le_mul_of_pos_right k (by omega)) h
  have hnl : newLen ≤ 2 ^ 20 := le_trans (Nat.le_mul_of_pos_left newLen hk) h
  have h1 : (o + 1) * k ≤ k * newLen := by rw [Nat.mul_comm]; exact Nat.mul_le_mul_left _ ho
  have h2 : (o + 1) * k = o * k + k := by rw [Nat.add_mul, Nat.one_mul]
  have big : ∀ {m : Nat}, m ≤ 2 ^ 20 → |(m : ℚ)| ≤ 2 ^ 127 := by
    intro m hm
    rw [abs_of_nonneg (by positivity)]
    have : (m : ℚ) ≤ 2 ^ 20 := by exact_mod_cast hm
    exact this.trans (by norm_num)
  have er : (Fl.ofNat f32 (k * newLen)).div f32 (Fl.ofNat f32 newLen) = .fin k := by
    rw [ofNat32 (by omega), ofNat32 (by omega), fl_div _ hn.ne', Nat.cast_mul, mul_div_assoc, div_self hn.ne', mul_one,
      ofRat32 (big hkl), rnd_nat32 (by omega)]
  have el : (Fl.ofNat f32 o).mul f32 (.fin k) = .fin ((o * k : ℕ) : ℚ) := by
    rw [ofNat32 (by omega), fl_mul, ← Nat.cast_mul, ofRat32 (big (by omega)), rnd_nat32 (by omega)]
  have eu : (Fl.fin ((o * k : ℕ) : ℚ)).add f32 (.fin k) = .fin (((o + 1) * k : ℕ) : ℚ) := by
    rw [fl_add, ← Nat.cast_add, ← h2, ofRat32 (big (by omega)), rnd_nat32 (by omega)]
  have ec : ∀ m : Nat, m ≤ 2 ^ 20 → (Fl.fin (m : ℚ)).ceil.toUSat 32 = m := by
    intro m hm
    simp only [Fl.ceil, Fl.toUSat, Int.floor_intCast, Int.ceil_natCast]
    omega
  refine ⟨.fin ((o * k : ℕ) : ℚ), .fin (((o + 1) * k : ℕ) : ℚ), ?_⟩
  unfold thumbnailSpan
  rw [er]
  dsimp only
  rw [el, eu, ec _ (by omega), ec _ (by omega)]
  have e1 : clampN (o * k) 0 (k * newLen - 1) = o * k := by
    unfold clampN; rw [if_neg (by omega), if_neg (by omega)]
  have e2 : clampN ((o + 1) * k) (o * k) (k * newLen) = (o + 1) * k := by
    unfold clampN; rw [if_neg (by omega), if_neg (by omega)]
  rw [e1, e2]

theorem roundedMean_eq {s n : Nat} (hn : 0 < n) : ((s + n / 2) / n : ℕ) = roundedMean s n := by
  unfold roundedMean
  have hnq : (0 : ℚ) < n := by exact_mod_cast hn
  symm
  rw [Int.floor_eq_iff]
  set m := (s + n / 2) / n with hm
  have h1 : m * n ≤ s + n / 2 := Nat.div_mul_le_self _ _
  have h2 : s + n / 2 < (m + 1) * n := by
    rw [Nat.add_mul, Nat.one_mul]; exact Nat.lt_div_mul_add hn
  have h3 : 2 * (m * n) ≤ 2 * s + n := by omega
  have h4 : 2 * s + n < 2 * ((m + 1) * n) := by omega
  have h3q : (2 : ℚ) * (m * n) ≤ 2 * s + n := by exact_mod_cast h3
  have h4q : (2 : ℚ) * s + n < 2 * ((m + 1) * n) := by exact_mod_cast h4
  have e : (s : ℚ) / n + 1 / 2 = (2 * s + n) / (2 * n) := by field_simp
  constructor
  · rw [e, le_div_iff₀ (by positivity)]
    push_cast
    linarith
  · rw [e, div_lt_iff₀ (by positivity)]
    push_cast
    linarith

/-- All pixels of a thumbnail. -/
theorem thumb_main {I : Type} [GenericImageView I (Pix Nat ch)] [LawfulView I (Pix Nat ch)] (T : Prim) (hT : T.bits ≤ 16)
    (img : I) (_wf : WF img) (hr : SamplesOk T img) (hc : ch ≤ 4) (hw0 : 0 < widthOf img) (hh0 : 0 < heightOf img)
    (hw1 : widthOf img ≤ 2 ^ 20) (hh1 : heightOf img ≤ 2 ^ 20) (nw nh : Nat) (hnw : nw < 2 ^ 32) (hnh : nh < 2 ^ 32)
    (hs : nw * nh * ch < 2 ^ 64) (hsum : (widthOf img / nw + 2) * (heightOf img / nh + 2) * (T.max + 1) ≤ 2 ^ 32)
    (pix : Nat → Nat → Pix Nat ch) (hp : ∀ x y, x < widthOf img → y < heightOf img → getPixel img x y = .ok (pix x y)) :
    ∃ b, thumbnail T img nw nh = .ok b ∧ b.width = nw ∧ b.height = nh ∧
      ∀ x y, x < nw → y < nh → ∃ p l r bo tp fl fr fb ft, b.getPixel x y = .ok p ∧
        thumbnailSpan (widthOf img) nw x = (fl, fr, l, r) ∧ thumbnailSpan (heightOf img) nh y = (fb, ft, bo, tp) ∧
        r ≤ widthOf img ∧ tp ≤ heightOf img ∧
        (nw ≤ widthOf img → widthOf img * nw ≤ 2 ^ 21 → l < r) ∧ (nh ≤ heightOf img → heightOf img * nh ≤ 2 ^ 21 → bo < tp) ∧
        (∀ i, l ≤ i → i < r → Covers (widthOf img) nw x i) ∧ (∀ j, bo ≤ j → j < tp → Covers (heightOf img) nh y j) ∧
        (∀ c L H, H ≤ T.max → (∀ i j, Covers (widthOf img) nw x i → Covers (heightOf img) nh y j → L ≤ pix i j c ∧ pix i j c ≤ H) →
          L ≤ p c + 1 ∧ p c ≤ H) ∧
        (l < r → bo < tp → ∀ c, (p c : ℤ) = roundedMean (blockSum (fun i j => pix i j c) l (r - l) bo (tp - bo)) ((r - l) * (tp - bo))) := by
  have hr' : ∀ x y, x < widthOf img → y < heightOf img → ∀ c, pix x y c ≤ T.max := fun x y hx hy c => hr x y _ hx hy (hp x y hx hy) c
  have hmax : 1 ≤ T.max := by cases T <;> simp [Prim.max, Prim.bits]
  have key : ∀ x y, ∃ P : Pix Nat 4, x < nw → y < nh → ∃ l r bo tp fl fr fb ft,
      thumbnailPixel T img (thumbnailSpan (widthOf img) nw x) (thumbnailSpan (heightOf img) nh y) = .ok P ∧
      thumbnailSpan (widthOf img) nw x = (fl, fr, l, r) ∧ thumbnailSpan (heightOf img) nh y = (fb, ft, bo, tp) ∧
        r ≤ widthOf img ∧ tp ≤ heightOf img ∧
        (nw ≤ widthOf img → widthOf img * nw ≤ 2 ^ 21 → l < r) ∧ (nh ≤ heightOf img → heightOf img * nh ≤ 2 ^ 21 → bo < tp) ∧
        (∀ i, l ≤ i → i < r → Covers (widthOf img) nw x i) ∧ (∀ j, bo ≤ j → j < tp → Covers (heightOf img) nh y j) ∧
        (∀ c L H, H ≤ T.max → (∀ i j, Covers (widthOf img) nw x i → Covers (heightOf img) nh y j →
          L ≤ channels4 (Samp.uint T) (pix i j) c ∧ channels4 (Samp.uint T) (pix i j) c ≤ H) → L ≤ P c + 1 ∧ P c ≤ H) ∧
        (l < r → bo < tp → ∀ c, (P c : ℤ) = roundedMean (blockSum (fun i j => channels4 (Samp.uint T) (pix i j) c) l (r - l) bo (tp - bo)) ((r - l) * (tp - bo))) := by
    intro x y
    by_cases hxy : x < nw ∧ y < nh
    · obtain ⟨fl, fr, l, r, e1, p1, p2, p3, p4, p5, p6, p7, p8, p9⟩ := thumb_axis hw0 hw1 hxy.1 hnw
      obtain ⟨fb, ft, bo, tp, e2, q1, q2, q3, q4, q5, q6, q7, q8, q9⟩ := thumb_axis hh0 hh1 hxy.2 hnh
      generalize widthOf img / nw = Qx at *
      generalize heightOf img / nh = Qy at *
      have hx1 : (r - l) * (tp - bo) * (T.max + 1) ≤ 2 ^ 32 := by
        refine le_trans ?_ hsum
        exact Nat.mul_le_mul_right _ (Nat.mul_le_mul p7 q7)
      have hx2 : (r - l) * T.max < 2 ^ 32 := by
        have : (r - l) * T.max ≤ (Qx + 2) * T.max := Nat.mul_le_mul_right _ p7
        have : (Qx + 2) * 1 * (T.max + 1) ≤ (Qx + 2) * (Qy + 2) * (T.max + 1) := Nat.mul_le_mul_right _ (Nat.mul_le_mul_left _ (by omega))
        rw [Nat.mul_one, Nat.mul_add] at this
        omega
      have hx3 : (tp - bo) * T.max < 2 ^ 32 := by
        have : (tp - bo) * T.max ≤ (Qy + 2) * T.max := Nat.mul_le_mul_right _ q7
        have : 1 * (Qy + 2) * (T.max + 1) ≤ (Qx + 2) * (Qy + 2) * (T.max + 1) := Nat.mul_le_mul_right _ (Nat.mul_le_mul_right _ (by omega))
        rw [Nat.one_mul, Nat.mul_add] at this
        omega
      obtain ⟨P, g1, g2, g3⟩ := pixel_ok hT hp hr' hw1 hh1 p1 p2 q1 q2 p3 p4 p5 p6 q3 q4 q5 q6 hx1 hx2 hx3
      refine ⟨P, fun _ _ => ⟨l, r, bo, tp, _, _, _, _, by rw [e1, e2, g1], e1, e2, p5, q5, p9, q9, fun i a b => p8 i (Or.inl ⟨a, b⟩),
        fun j a b => q8 j (Or.inl ⟨a, b⟩), fun c L H hH hLH => g2 c L H hH fun i j hi hj => hLH i j (p8 i hi) (q8 j hj), fun a b c => ?_⟩⟩
      rw [g3 a b c]
      exact roundedMean_eq (Nat.mul_pos (by omega) (by omega))
    · exact ⟨fun _ => 0, fun a b => absurd ⟨a, b⟩ hxy⟩
  choose P hP using key
  obtain ⟨b, e1, e2⟩ := fill_rows (z := (0 : Nat)) (ch := ch) (w := nw) (h := nh) (by omega) hnw hnh hs
    (fun x y => do
      let avg ← thumbnailPixel T img (thumbnailSpan (widthOf img) nw x) (thumbnailSpan (heightOf img) nh y)
      .ok (fromChannels4 (Samp.uint T) avg))
    (fun x y => fromChannels4 (Samp.uint T) (P x y))
    (by
      intro x y hx hy
      obtain ⟨l, r, bo, tp, fl, fr, fb, ft, h, -⟩ := hP x y hx hy
      rw [h]
      rfl)
  refine ⟨b, ?_, e2.width, e2.height, ?_⟩
  · unfold thumbnail
    simp only [if_neg (show ¬ (heightOf img = 0 ∨ widthOf img = 0) by omega)]
    rw [← e1]
    simp only [bind_assoc, ok_bind]
  · intro x y hx hy
    obtain ⟨l, r, bo, tp, fl, fr, fb, ft, -, h1, h2, h3, h4, h5, h6, h7, h8, h9, h10⟩ := hP x y hx hy
    have hf : ∀ c : Fin ch, (fromChannels4 (Samp.uint T) (P x y) : Pix Nat ch) c = P x y ⟨c.val, by omega⟩ := by
      intro c; unfold fromChannels4; rw [dif_pos]
    have hg : ∀ (c : Fin ch) i j, channels4 (Samp.uint T) (pix i j) ⟨c.val, by omega⟩ = pix i j c := by
      intro c i j; unfold channels4; rw [dif_pos c.isLt]
    refine ⟨_, l, r, bo, tp, fl, fr, fb, ft, e2.pixel x y hx hy, h1, h2, h3, h4, h5, h6, h7, h8, ?_, ?_⟩
    · intro c L H hH hLH
      rw [hf]
      exact h9 _ L H hH fun i j hi hj => by rw [hg]; exact hLH i j hi hj
    · intro a b c
      rw [hf, h10 a b]
      simp only [hg]

/-- C85: `thumbnail` does not panic, gives the requested size, and every sample of the result is within the range of the source
samples that its span meets, or one below it. -/
theorem C85_within {I : Type} [GenericImageView I (Pix Nat ch)] [LawfulView I (Pix Nat ch)] (T : Prim) (hT : T.bits ≤ 16)
    (img : I) (wf : WF img) (hr : SamplesOk T img) (hc : ch ≤ 4) (hw0 : 0 < widthOf img) (hh0 : 0 < heightOf img)
    (hw1 : widthOf img ≤ 2 ^ 20) (hh1 : heightOf img ≤ 2 ^ 20) (nw nh : Nat) (hnw : nw < 2 ^ 32) (hnh : nh < 2 ^ 32)
    (hs : nw * nh * ch < 2 ^ 64) (hsum : (widthOf img / nw + 2) * (heightOf img / nh + 2) * (T.max + 1) ≤ 2 ^ 32)
    (pix : Nat → Nat → Pix Nat ch) (hp : ∀ x y, x < widthOf img → y < heightOf img → getPixel img x y = .ok (pix x y)) :
    ∃ b, thumbnail T img nw nh = .ok b ∧ b.width = nw ∧ b.height = nh ∧
      ∀ x y, x < nw → y < nh → ∃ p, b.getPixel x y = .ok p ∧ ∀ c L H, H ≤ T.max →
        (∀ i j, Covers (widthOf img) nw x i → Covers (heightOf img) nh y j → L ≤ pix i j c ∧ pix i j c ≤ H) → L ≤ p c + 1 ∧ p c ≤ H := by
  obtain ⟨b, h1, h2, h3, h4⟩ := thumb_main T hT img wf hr hc hw0 hh0 hw1 hh1 nw nh hnw hnh hs hsum pix hp
  refine ⟨b, h1, h2, h3, fun x y hx hy => ?_⟩
  obtain ⟨p, l, r, bo, tp, fl, fr, fb, ft, g1, -, -, -, -, -, -, -, -, g2, -⟩ := h4 x y hx hy
  exact ⟨p, g1, g2⟩

/-- C85, shrinking: every pixel is the mean of a block of source pixels, rounded to nearest; the block is not empty and consists
of pixels that the span of the output pixel meets. -/
theorem C85_shrink {I : Type} [GenericImageView I (Pix Nat ch)] [LawfulView I (Pix Nat ch)] (T : Prim) (hT : T.bits ≤ 16)
    (img : I) (wf : WF img) (hr : SamplesOk T img) (hc : ch ≤ 4) (hw0 : 0 < widthOf img) (hh0 : 0 < heightOf img)
    (hw1 : widthOf img ≤ 2 ^ 20) (hh1 : heightOf img ≤ 2 ^ 20) (nw nh : Nat) (hnw : nw ≤ widthOf img) (hnh : nh ≤ heightOf img)
    (hpw : widthOf img * nw ≤ 2 ^ 21) (hph : heightOf img * nh ≤ 2 ^ 21)
    (hsum : (widthOf img / nw + 2) * (heightOf img / nh + 2) * (T.max + 1) ≤ 2 ^ 32)
    (pix : Nat → Nat → Pix Nat ch) (hp : ∀ x y, x < widthOf img → y < heightOf img → getPixel img x y = .ok (pix x y)) :
    ∃ b, thumbnail T img nw nh = .ok b ∧ b.width = nw ∧ b.height = nh ∧
      ∀ x y, x < nw → y < nh → ∃ p l r bo tp, b.getPixel x y = .ok p ∧ l < r ∧ r ≤ widthOf img ∧ bo < tp ∧ tp ≤ heightOf img ∧
        (∀ i, l ≤ i → i < r → Covers (widthOf img) nw x i) ∧ (∀ j, bo ≤ j → j < tp → Covers (heightOf img) nh y j) ∧
        ∀ c, (p c : ℤ) = roundedMean (blockSum (fun i j => pix i j c) l (r - l) bo (tp - bo)) ((r - l) * (tp - bo)) := by
  have hs : nw * nh * ch < 2 ^ 64 := by
    calc nw * nh * ch ≤ 2 ^ 20 * 2 ^ 20 * 4 := Nat.mul_le_mul (Nat.mul_le_mul (by omega) (by omega)) hc
      _ < 2 ^ 64 := by norm_num
  obtain ⟨b, h1, h2, h3, h4⟩ := thumb_main T hT img wf hr hc hw0 hh0 hw1 hh1 nw nh (by omega) (by omega) hs hsum pix hp
  refine ⟨b, h1, h2, h3, fun x y hx hy => ?_⟩
  obtain ⟨p, l, r, bo, tp, fl, fr, fb, ft, g1, -, -, g2, g3, g4, g5, g6, g7, -, g8⟩ := h4 x y hx hy
  exact ⟨p, l, r, bo, tp, g1, g4 hnw hpw, g2, g5 hnh hph, g3, g6, g7, g8 (g4 hnw hpw) (g5 hnh hph)⟩

/-- C85, integer factors: when `kx × ky` source pixels make one output pixel, that pixel is the mean of exactly these, rounded
tp nearest. Every source pixel contributes to exactly one output pixel. -/
theorem C85_mean {I : Type} [GenericImageView I (Pix Nat ch)] [LawfulView I (Pix Nat ch)] (T : Prim) (hT : T.bits ≤ 16)
    (img : I) (wf : WF img) (hr : SamplesOk T img) (hc : ch ≤ 4) (kx ky nw nh : Nat) (hkx : 0 < kx) (hky : 0 < ky) (hnw : 0 < nw) (hnh : 0 < nh)
    (hw : widthOf img = kx * nw) (hh : heightOf img = ky * nh) (hw1 : widthOf img ≤ 2 ^ 20) (hh1 : heightOf img ≤ 2 ^ 20)
    (hsum : (kx + 2) * (ky + 2) * (T.max + 1) ≤ 2 ^ 32)
    (pix : Nat → Nat → Pix Nat ch) (hp : ∀ x y, x < widthOf img → y < heightOf img → getPixel img x y = .ok (pix x y)) :
    ∃ b, thumbnail T img nw nh = .ok b ∧ b.width = nw ∧ b.height = nh ∧
      ∀ x y, x < nw → y < nh → ∃ p, b.getPixel x y = .ok p ∧
        ∀ c, (p c : ℤ) = roundedMean (blockSum (fun i j => pix i j c) (x * kx) kx (y * ky) ky) (kx * ky) := by
  have hnw1 : nw ≤ 2 ^ 20 := by have := Nat.le_mul_of_pos_left nw hkx; omega
  have hnh1 : nh ≤ 2 ^ 20 := by have := Nat.le_mul_of_pos_left nh hky; omega
  have hs : nw * nh * ch < 2 ^ 64 := by
    calc nw * nh * ch ≤ 2 ^ 20 * 2 ^ 20 * 4 := Nat.mul_le_mul (Nat.mul_le_mul hnw1 hnh1) hc
      _ < 2 ^ 64 := by norm_num
  have e1 : widthOf img / nw = kx := by rw [hw]; exact Nat.mul_div_cancel _ hnw
  have e2 : heightOf img / nh = ky := by rw [hh]; exact Nat.mul_div_cancel _ hnh
  obtain ⟨b, h1, h2, h3, h4⟩ := thumb_main T hT img wf hr hc (by rw [hw]; exact Nat.mul_pos hkx hnw) (by rw [hh]; exact Nat.mul_pos hky hnh)
    hw1 hh1 nw nh (by omega) (by omega) hs (by rw [e1, e2]; exact hsum) pix hp
  refine ⟨b, h1, h2, h3, fun x y hx hy => ?_⟩
  obtain ⟨p, l, r, bo, tp, fl, fr, fb, ft, g1, g2, g3, -, -, -, -, -, -, -, g8⟩ := h4 x y hx hy
  obtain ⟨a1, a2, ea⟩ := thumb_exact hkx hx (by omega)
  obtain ⟨b1, b2, eb⟩ := thumb_exact hky hy (by omega)
  rw [hw, ea] at g2
  rw [hh, eb] at g3
  simp only [Prod.mk.injEq] at g2 g3
  obtain ⟨-, -, rfl, rfl⟩ := g2
  obtain ⟨-, -, rfl, rfl⟩ := g3
  have e3 : (x + 1) * kx = x * kx + kx := by rw [Nat.add_mul, Nat.one_mul]
  have e4 : (y + 1) * ky = y * ky + ky := by rw [Nat.add_mul, Nat.one_mul]
  rw [e3, e4] at g8
  simp only [Nat.add_sub_cancel_left] at g8
  exact ⟨p, g1, g8 (by omega) (by omega)⟩

/-! ## Limits and instances -/

/-- A loop whose steps panic or keep the invariant. -/
theorem forRange_panicOr {σ : Type} {n : Nat} {f : Nat → σ → R σ} (Inv : Nat → σ → Prop) {s : σ} (h0 : Inv 0 s)
    (hs : ∀ i, i < n → ∀ s, Inv i s → f i s = panicR ∨ ∃ s', f i s = .ok s' ∧ Inv (i + 1) s') :
    forRange n f s = panicR ∨ ∃ s', forRange n f s = .ok s' ∧ Inv n s' := by
  induction n with
  | zero => exact Or.inr ⟨s, rfl, h0⟩
  | succ n ih =>
    rcases ih (fun i hi => hs i (by omega)) with h | ⟨s', he, hi⟩
    · left; rw [forRange_succ, h]; rfl
    · rw [forRange_succ, he]
      exact hs n (by omega) s' hi

/-- A white 16-bit grey image of 257×257 pixels. -/
def white257 : ImageBuffer Nat 1 := ⟨257, 257, List.replicate (257 * 257) 65535⟩

theorem white257_wf : WF white257 := by
  have hl : white257.data.length = 257 * 257 := List.length_replicate
  exact ⟨by decide, by decide, by rw [hl]; decide, by rw [hl]; decide⟩

theorem white257_pix (x y : Nat) (hx : x < 257) (hy : y < 257) : getPixel white257 x y = .ok (fun _ => 65535) := by
  refine (ImageBuffer.getPixel_eq_ok white257_wf hx hy _).2 fun c => ?_
  show (List.replicate (257 * 257) 65535)[_]? = _
  rw [List.getElem?_replicate, if_pos]
  have : (c : Nat) = 0 := by omega
  show (y * 257 + x) * 1 + (c : Nat) < 257 * 257
  omega

/-- That `thumbnail` does not panic is false of 16-bit images: the sum of a white block of 257×257 pixels overflows. -/
theorem C85_total_false : SamplesOk .u16 white257 ∧ thumbnail .u16 white257 1 1 = panicR := by
  constructor
  · intro x y p hx hy hp c
    rw [white257_pix x y hx hy] at hp
    cases hp
    exact (by decide : 65535 ≤ Prim.u16.max)
  · have hb : thumbnailBlock .u16 white257 0 257 0 257 = panicR := by
      have hl : forRange 257 (fun j (sum : Pix Nat 4) => forRange 257 (fun i sum => do
            let k ← getPixel white257 (0 + i) (0 + j)
            addPixel .u16 sum (channels4 (Samp.uint .u16) k)) sum) (fun _ => 0) = panicR := by
        have hstep : ∀ i j (s : Pix Nat 4), i < 257 → j < 257 → s 0 = (j * 257 + i) * 65535 →
            (do let k ← getPixel white257 (0 + i) (0 + j); addPixel .u16 s (channels4 (Samp.uint .u16) k)) = panicR ∨
            ∃ s', (do let k ← getPixel white257 (0 + i) (0 + j); addPixel .u16 s (channels4 (Samp.uint .u16) k)) = .ok s' ∧
              (s' 0 = (j * 257 + (i + 1)) * 65535 ∧ s' 0 < 2 ^ 32) := by
          intro i j s hi hj hs
          rw [white257_pix _ _ (by omega) (by omega), ok_bind]
          have hc : ∀ c, channels4 (Samp.uint .u16) (fun _ : Fin 1 => 65535) c = 65535 := by decide
          have hadd : ∀ a b : Nat, addC 32 a b = panicR ∨ (addC 32 a b = .ok (a + b) ∧ a + b < 2 ^ 32) := by
            intro a b
            by_cases h : a + b < 2 ^ 32
            · exact Or.inr ⟨addC_ok h, h⟩
            · left; unfold addC; rw [if_neg h]
          unfold addPixel
          simp only [hc, show Prim.u16.largerBits = 32 from rfl]
          rcases hadd (s 0) 65535 with h | ⟨h, hl⟩
          · left; rw [h]; rfl
          · rw [h, ok_bind]
            rcases hadd (s 1) 65535 with h | ⟨h, -⟩
            · left; rw [h]; rfl
            · rw [h, ok_bind]
              rcases hadd (s 2) 65535 with h | ⟨h, -⟩
              · left; rw [h]; rfl
              · rw [h, ok_bind]
                rcases hadd (s 3) 65535 with h | ⟨h, -⟩
                · left; rw [h]; rfl
                · right
                  rw [h, ok_bind]
                  refine ⟨_, rfl, ?_, ?_⟩
                  · show s 0 + 65535 = _
                    omega
                  · exact hl
        have := forRange_panicOr (n := 257) (f := fun j (sum : Pix Nat 4) => forRange 257 (fun i sum => do
            let k ← getPixel white257 (0 + i) (0 + j)
            addPixel .u16 sum (channels4 (Samp.uint .u16) k)) sum) (s := fun _ => 0)
          (fun j s => s 0 = j * 257 * 65535 ∧ s 0 < 2 ^ 32) (by decide)
          (by
            intro j hj s ⟨hs, hlt⟩
            have := forRange_panicOr (n := 257) (f := fun i (sum : Pix Nat 4) => do
                let k ← getPixel white257 (0 + i) (0 + j)
                addPixel .u16 sum (channels4 (Samp.uint .u16) k)) (s := s)
              (fun i s => s 0 = (j * 257 + i) * 65535 ∧ s 0 < 2 ^ 32) ⟨by simpa using hs, hlt⟩
              (by
                intro i hi s ⟨hs, _⟩
                exact hstep i j s hi hj hs)
            rcases this with h | ⟨s', h, h1, h2⟩
            · exact Or.inl h
            · refine Or.inr ⟨s', h, ?_, h2⟩
              rw [h1]; ring)
        rcases this with h | ⟨s', -, h1, h2⟩
        · exact h
        · omega
      unfold thumbnailBlock
      simp only [Nat.sub_zero]
      rw [hl]
      rfl
    have hspan : thumbnailSpan 257 1 0 = (.fin 0, .fin 257, 0, 257) := by decide +kernel
    have hpix : thumbnailPixel .u16 white257 (thumbnailSpan 257 1 0) (thumbnailSpan 257 1 0) = panicR := by
      rw [hspan]
      unfold thumbnailPixel
      dsimp only
      rw [if_pos ⟨by decide, by decide⟩]
      exact hb
    unfold thumbnail
    rw [show widthOf white257 = 257 from rfl, show heightOf white257 = 257 from rfl]
    dsimp only
    rw [ImageBuffer.new_ok (by decide) (by decide) (by decide), ok_bind, if_neg (by decide)]
    rw [forRange_succ, show ∀ f (s : ImageBuffer Nat 1), forRange 0 f s = .ok s from fun _ _ => rfl, ok_bind, forRange_succ,
      show ∀ f (s : ImageBuffer Nat 1), forRange 0 f s = .ok s from fun _ _ => rfl, ok_bind, hpix]
    rfl

/-- Nor does it hold for 32-bit samples: enlarging a white image rounds the interpolated sample up to `2^32`. -/
theorem C85_wide_false : thumbnail .u32 (⟨2, 1, [2 ^ 32 - 1, 2 ^ 32 - 1]⟩ : ImageBuffer Nat 1) 4 1 = panicR := by decide +kernel

/-- A row of 16 pixels, one of them white. -/
def spot16 : ImageBuffer Nat 1 := ⟨16, 1, [0, 0, 0, 0, 0, 0, 0, 0, 255, 0, 0, 0, 0, 0, 0, 0]⟩

/-- The documentation's "each source pixel contributes to exactly one target pixel" is false of downscaling in general: shrinking
16 columns to 14, column 8 contributes to two. -/
theorem C85_once_false : thumbnail .u8 spot16 14 1 = .ok ⟨14, 1, [0, 0, 0, 0, 0, 0, 128, 128, 0, 0, 0, 0, 0, 0]⟩ := by decide +kernel

/-- An image of one colour is not kept when it is enlarged: the interpolated value is rounded down. -/
theorem C85_constant_false : thumbnail .u8 (⟨2, 1, [255, 255]⟩ : ImageBuffer Nat 1) 6 1 = .ok ⟨6, 1, [255, 255, 254, 255, 255, 255]⟩ := by
  decide +kernel

example : thumbnail .u8 grey22 1 1 = .ok ⟨1, 1, [25]⟩ := by decide +kernel
example : thumbnail .u8 grey22 1 3 = .ok ⟨1, 3, [15, 35, 35]⟩ := by decide +kernel
example : ∃ b, thumbnail .u8 grey22 1 1 = .ok b ∧ b.width = 1 ∧ b.height = 1 ∧
      ∀ x y, x < 1 → y < 1 → ∃ p, b.getPixel x y = .ok p ∧
        ∀ c, (p c : ℤ) = roundedMean (blockSum (fun i j => grey22Pix i j c) (x * 2) 2 (y * 2) 2) (2 * 2) :=
  C85_mean .u8 (by decide) grey22 grey22_wf grey22_samples (by decide) 2 2 1 1 (by decide) (by decide) (by decide) (by decide) rfl rfl (by decide)
    (by decide) (by decide) grey22Pix grey22_pix
example : ∃ b, thumbnail .u8 grey22 5 1 = .ok b ∧ b.width = 5 := by
  obtain ⟨b, h1, h2, -⟩ := C85_within .u8 (by decide) grey22 grey22_wf grey22_samples (by decide) (by decide) (by decide) (by decide) (by decide) 5 1
    (by decide) (by decide) (by decide) (by decide) grey22Pix grey22_pix
  exact ⟨b, h1, h2⟩
example : ∃ b, thumbnail .u8 grey22 2 1 = .ok b ∧ b.width = 2 := by
  obtain ⟨b, h1, h2, -⟩ := C85_shrink .u8 (by decide) grey22 grey22_wf grey22_samples (by decide) (by decide) (by decide) (by decide) (by decide) 2 1
    (by decide) (by decide) (by decide) (by decide) (by decide) grey22Pix grey22_pix
  exact ⟨b, h1, h2⟩

end Verif
