import Verif.Proofs.SampleLobes
import Verif.Proofs.SampleCubic
import Verif.Props.SampleLinear
import Verif.Props.SampleFloat

/-!
# Pictures resampled with kernels that have negative lobes
-/

namespace Verif
open GenericImageView GenericImage LawfulView LawfulImage

variable {ch : Nat}

theorem clamp_lip (t m : ℚ) {M : ℚ} (_hM : 0 ≤ M) : |max 0 (min t M) - max 0 (min m M)| ≤ |t - m| := by
  refine (max0_sub_le _ _).trans ?_
  rcases le_total t M with h1 | h1 <;> rcases le_total m M with h2 | h2
  · rw [min_eq_left h1, min_eq_left h2]
  · rw [min_eq_left h1, min_eq_right h2, abs_of_nonpos (by linarith), abs_of_nonpos (by linarith)]; linarith
  · rw [min_eq_right h1, min_eq_left h2, abs_of_nonneg (by linarith), abs_of_nonneg (by linarith)]; linarith
  · rw [min_eq_right h1, min_eq_right h2, sub_self, abs_zero]; exact abs_nonneg _

/-- At its own size an interpolating kernel takes each pixel as it is. -/
theorem interp_same {g : ℚ → ℚ} (g0 : g 0 = 1) (gz : ∀ k : ℤ, k ≠ 0 → g k = 0) {len o : Nat} (ho : o < len) (v : Nat → ℚ) :
    weighted len (fun i => g (offset len len o i)) v = v o := by
  have hl : (len : ℚ) ≠ 0 := by
    have : (0 : ℚ) < len := by exact_mod_cast (by omega : 0 < len)
    exact this.ne'
  have ht : ∀ i, g (offset len len o i) = if i = o then 1 else 0 := by
    intro i
    have hoff : offset len len o i = (((i : ℤ) - o : ℤ) : ℚ) := by
      unfold offset centre scale
      rw [div_self hl]
      push_cast
      simp
    rw [hoff]
    split_ifs with h
    · rw [h]; simpa using g0
    · exact gz _ (by omega)
  unfold weighted
  simp only [ht]
  simp [ho]

/-- Both axes. -/
theorem axis_two {f : Filter} {w nw x h : Nat} {gx gy : Nat → ℚ} {K ex ey : ℚ} (hK : 1 ≤ K)
    {lx nx ly ny : Nat} {ax ay : Nat → ℚ} (tx : Taps f w nw x lx nx ax K) (hey : 0 ≤ ey)
    (hx : ∀ (V : Nat → ℚ) (lo hi : ℚ), (∀ i, i < w → lo ≤ V i ∧ V i ≤ hi) → lo ≤ hi →
      |meanR nx ax (fun k => V (lx + k)) - weighted w gx V| ≤ ex * (hi - lo) ∧
        lo - (K - 1) / 2 * (hi - lo) ≤ weighted w gx V ∧ weighted w gx V ≤ hi + (K - 1) / 2 * (hi - lo))
    (hy : ∀ (V : Nat → ℚ) (lo hi : ℚ), (∀ i, i < h → lo ≤ V i ∧ V i ≤ hi) → lo ≤ hi →
      |meanR ny ay (fun k => V (ly + k)) - weighted h gy V| ≤ ey * (hi - lo) ∧
        lo - (K - 1) / 2 * (hi - lo) ≤ weighted h gy V ∧ weighted h gy V ≤ hi + (K - 1) / 2 * (hi - lo))
    {V : Nat → Nat → ℚ} {M : ℚ} (hM : 0 ≤ M) (hV : ∀ i j, i < w → j < h → 0 ≤ V i j ∧ V i j ≤ M) :
    |mean2 nx ny ax ay (fun i j => V (lx + i) (ly + j)) - weighted w gx fun i => weighted h gy fun j => V i j| ≤
      M * (K * (ex + ey)) := by
  set D : Nat → ℚ := fun i => weighted h gy fun j => V i j with hD
  set C : Nat → ℚ := fun i => meanR ny ay fun j => V i (ly + j) with hC
  have hspan := tx.span
  have hyi : ∀ i, i < w → |C i - D i| ≤ ey * M ∧ -((K - 1) / 2 * M) ≤ D i ∧ D i ≤ M + (K - 1) / 2 * M := by
    intro i hi
    obtain ⟨h1, h2, h3⟩ := hy (fun j => V i j) 0 M (fun j hj => hV i j hi hj) hM
    rw [sub_zero] at h1 h2 h3
    exact ⟨h1, by linarith, h3⟩
  have s1 := tx.mean_diff (u := fun i => C (lx + i)) (v := fun i => D (lx + i)) (e := ey * M) (by positivity)
    (fun i hi => (hyi _ (by omega)).1)
  have hK0 : 0 ≤ (K - 1) / 2 * M := mul_nonneg (by linarith) hM
  obtain ⟨s2, -, -⟩ := hx D (-((K - 1) / 2 * M)) (M + (K - 1) / 2 * M) (fun i hi => (hyi i hi).2) (by linarith)
  have e : mean2 nx ny ax ay (fun i j => V (lx + i) (ly + j)) - weighted w gx D =
      ((meanR nx ax fun i => C (lx + i)) - meanR nx ax fun i => D (lx + i)) +
      ((meanR nx ax fun i => D (lx + i)) - weighted w gx D) := by
    unfold mean2
    rw [sub_add_sub_cancel]
  rw [e]
  refine (abs_add_le _ _).trans ?_
  have e2 : ex * (M + (K - 1) / 2 * M - -((K - 1) / 2 * M)) = ex * (K * M) := by ring
  rw [e2] at s2
  linarith [show M * (K * (ex + ey)) = K * (ey * M) + ex * (K * M) by ring]

theorem meanR_all {n : ℕ} {a v : ℕ → ℚ} {m : ℚ} (hA : 0 < sumR n a) (h : ∀ i, i < n → v i = m) : meanR n a v = m := by
  unfold meanR
  rw [sumR_congr (g := fun j => a j * m) (fun j hj => by rw [h j hj]; ring), sumR_mul, mul_div_assoc, mul_comm,
    div_mul_cancel₀ _ hA.ne']

/-- Integer samples. -/
theorem signed_picture {I : Type} [GenericImageView I (Pix Nat ch)] {L : Libm} {T : Prim} (hT : T.bits ≤ 16) {ft : FilterType}
    {img : I} {w h nw nh : Nat} {pix : Nat → Nat → Pix Nat ch} (hd : dims img = (w, h)) (hc : ch ≤ 4)
    (hw0 : 0 < w) (hh0 : 0 < h) (hw : w ≤ 2 ^ 17) (hh : h ≤ 2 ^ 17) (hnw : nw ≤ 2 ^ 17) (hnh : nh ≤ 2 ^ 17)
    (hne : (nw, nh) ≠ (w, h))
    (hp : ∀ x y, x < w → y < h → getPixel img x y = .ok (pix x y)) (hr : ∀ x y, x < w → y < h → ∀ c, pix x y c ≤ T.max)
    {gx gy : Nat → Nat → ℚ} {K cx cy ex ey : ℚ} (hK : 1 ≤ K) (hey : 0 ≤ ey)
    (hax : ∀ x, x < nw → Axis (ft.method L) w nw x (gx x) K cx ex)
    (hay : ∀ y, y < nh → Axis (ft.method L) h nh y (gy y) K cy ey) :
    ∃ b, resize L (Samp.uint T) img nw nh ft = .ok b ∧ b.width = nw ∧ b.height = nh ∧
      ∀ x y, x < nw → y < nh → ∃ p, b.getPixel x y = .ok p ∧ ∀ c, p c ≤ T.max ∧
        |(p c : ℚ) - max 0 (min (weighted w (gx x) fun i => weighted h (gy y) fun j => (pix i j c : ℕ)) T.max)| ≤
          1 / 2 + T.max * (K * (ex + ey) + 6 * K ^ 3 * (cx + cy + 2) / 2 ^ 24) ∧
        ∀ v : Nat, (∀ i j, i < w → j < h → pix i j c = v) → |(p c : ℚ) - v| ≤ 1 / 2 + T.max * (6 * K ^ 3 * (cx + cy + 2) / 2 ^ 24) := by
  have kx : ∀ x, ∃ (left n : Nat) (a : Nat → ℚ), x < nw → Taps (ft.method L) w nw x left n a K ∧ (n : ℚ) ≤ cx ∧
      ∀ (V : Nat → ℚ) (lo hi : ℚ), (∀ i, i < w → lo ≤ V i ∧ V i ≤ hi) → lo ≤ hi →
        |meanR n a (fun k => V (left + k)) - weighted w (gx x) V| ≤ ex * (hi - lo) ∧
        lo - (K - 1) / 2 * (hi - lo) ≤ weighted w (gx x) V ∧ weighted w (gx x) V ≤ hi + (K - 1) / 2 * (hi - lo) := by
    intro x
    by_cases hx : x < nw
    · obtain ⟨l, n, a, h1⟩ := hax x hx
      exact ⟨l, n, a, fun _ => h1⟩
    · exact ⟨0, 0, fun _ => 0, fun hx' => absurd hx' hx⟩
  have ky : ∀ y, ∃ (left n : Nat) (a : Nat → ℚ), y < nh → Taps (ft.method L) h nh y left n a K ∧ (n : ℚ) ≤ cy ∧
      ∀ (V : Nat → ℚ) (lo hi : ℚ), (∀ i, i < h → lo ≤ V i ∧ V i ≤ hi) → lo ≤ hi →
        |meanR n a (fun k => V (left + k)) - weighted h (gy y) V| ≤ ey * (hi - lo) ∧
        lo - (K - 1) / 2 * (hi - lo) ≤ weighted h (gy y) V ∧ weighted h (gy y) V ≤ hi + (K - 1) / 2 * (hi - lo) := by
    intro y
    by_cases hy : y < nh
    · obtain ⟨l, n, a, h1⟩ := hay y hy
      exact ⟨l, n, a, fun _ => h1⟩
    · exact ⟨0, 0, fun _ => 0, fun hy' => absurd hy' hy⟩
  choose lx nx ax hx using kx
  choose ly ny ay hy using ky
  obtain ⟨b, e1, e2, e3, e4⟩ := resize_two (L := L) (ft := ft) hT hd hc hw0 hh0 hw hh hnw hnh hne hp hr
    (fun x h => (hx x h).1) (fun y h => (hy y h).1)
  refine ⟨b, e1, e2, e3, ?_⟩
  intro x y hx' hy'
  obtain ⟨p, p1, p2⟩ := e4 x y hx' hy'
  obtain ⟨tx, bx, mx⟩ := hx x hx'
  obtain ⟨ty, bY, my⟩ := hy y hy'
  refine ⟨p, p1, fun c => ⟨(p2 c).1, ?_⟩⟩
  obtain ⟨-, t, q1, q2⟩ := p2 c
  have hM0 : (0 : ℚ) ≤ T.max := by positivity
  have hE : 6 * K ^ 3 * T.max * (nx x + ny y + 2) / 2 ^ 24 ≤ T.max * (6 * K ^ 3 * (cx + cy + 2) / 2 ^ 24) := by
    rw [show 6 * K ^ 3 * T.max * ((nx x : ℚ) + ny y + 2) / 2 ^ 24 = T.max * (6 * K ^ 3 * ((nx x : ℚ) + ny y + 2) / 2 ^ 24) by ring]
    have : 0 ≤ K := by linarith
    gcongr
  have hspx := tx.span
  have hspy := ty.span
  constructor
  · have hm := axis_two hK tx hey mx my (V := fun i j => ((pix i j c : ℕ) : ℚ)) (M := T.max) hM0
      (fun i j hi hj => ⟨by positivity, by exact_mod_cast hr i j hi hj c⟩)
    set Z := weighted w (gx x) fun i => weighted h (gy y) fun j => ((pix i j c : ℕ) : ℚ)
    have s4 : |t - Z| ≤ T.max * (K * (ex + ey)) + T.max * (6 * K ^ 3 * (cx + cy + 2) / 2 ^ 24) := by
      have e : t - Z = (t - mean2 (nx x) (ny y) (ax x) (ay y) fun i j => ((pix (lx x + i) (ly y + j) c : ℕ) : ℚ)) +
        ((mean2 (nx x) (ny y) (ax x) (ay y) fun i j => ((pix (lx x + i) (ly y + j) c : ℕ) : ℚ)) - Z) := by ring
      rw [e]
      refine (abs_add_le _ _).trans ?_
      linarith
    have s5 := (clamp_lip t Z hM0).trans s4
    have e : (p c : ℚ) - max 0 (min Z T.max) = ((p c : ℚ) - max 0 (min t T.max)) + (max 0 (min t T.max) - max 0 (min Z T.max)) := by ring
    rw [e]
    refine (abs_add_le _ _).trans ?_
    linarith
  · intro v hv
    have hv1 : (v : ℚ) ≤ T.max := by
      have := hr 0 0 hw0 hh0 c
      rw [hv 0 0 hw0 hh0] at this
      exact_mod_cast this
    have hconst : mean2 (nx x) (ny y) (ax x) (ay y) (fun i j => ((pix (lx x + i) (ly y + j) c : ℕ) : ℚ)) = v := by
      refine meanR_all tx.pos fun i hi => meanR_all ty.pos fun j hj => ?_
      beta_reduce
      rw [hv _ _ (by omega) (by omega)]
    rw [hconst] at q1
    have h3 := clamp_near (t := t) (m := v) (M := T.max) (by positivity) hv1
    have e : (p c : ℚ) - v = ((p c : ℚ) - max 0 (min t T.max)) + (max 0 (min t T.max) - v) := by ring
    rw [e]
    refine (abs_add_le _ _).trans ?_
    linarith

/-- Float samples between 0 and 1. -/
theorem signed_picture_float {I : Type} [GenericImageView I (Pix Fl ch)] {L : Libm} {ft : FilterType}
    {img : I} {w h nw nh : Nat} {val : Nat → Nat → Fin ch → ℚ} (hd : dims img = (w, h)) (hc : ch ≤ 4)
    (hw0 : 0 < w) (hh0 : 0 < h) (hw : w ≤ 2 ^ 17) (hh : h ≤ 2 ^ 17) (hnw : nw ≤ 2 ^ 17) (hnh : nh ≤ 2 ^ 17)
    (hne : (nw, nh) ≠ (w, h))
    (hp : ∀ x y, x < w → y < h → getPixel img x y = .ok (fun c => .fin (val x y c)))
    (hv : ∀ x y, x < w → y < h → ∀ c, 0 ≤ val x y c ∧ val x y c ≤ 1)
    {gx gy : Nat → Nat → ℚ} {K cx cy ex ey : ℚ} (hK : 1 ≤ K) (hey : 0 ≤ ey)
    (hax : ∀ x, x < nw → Axis (ft.method L) w nw x (gx x) K cx ex)
    (hay : ∀ y, y < nh → Axis (ft.method L) h nh y (gy y) K cy ey) :
    ∃ b, resize L Samp.float img nw nh ft = .ok b ∧ b.width = nw ∧ b.height = nh ∧
      ∀ x y, x < nw → y < nh → ∃ p, b.getPixel x y = .ok p ∧ ∀ c, ∃ q, p c = .fin q ∧ 0 ≤ q ∧ q ≤ 1 ∧
        |q - max 0 (min (weighted w (gx x) fun i => weighted h (gy y) fun j => val i j c) 1)| ≤
          K * (ex + ey) + 6 * K ^ 3 * (cx + cy + 2) / 2 ^ 24 := by
  have key : ∀ x y (c : Fin 4), ∃ q : ℚ, x < nw → y < nh →
      nearestSample Samp.float (rowF (ft.method L) w nw (colF Samp.float (ft.method L) h nh fun x y (c : Fin ch) => .fin (val x y c)) x y c) =
        .ok (.fin q) ∧ 0 ≤ q ∧ q ≤ 1 ∧
      |q - max 0 (min (weighted w (gx x) fun i => weighted h (gy y) fun j => if hc : c.val < ch then val i j ⟨c.val, hc⟩ else 1) 1)| ≤
          K * (ex + ey) + 6 * K ^ 3 * (cx + cy + 2) / 2 ^ 24 := by
    intro x y c
    by_cases hxy : x < nw ∧ y < nh
    · obtain ⟨lx, nx, ax, tx, bx, mx⟩ := hax x hxy.1
      obtain ⟨ly, ny, ay, ty, bY, my⟩ := hay y hxy.2
      have hV : ∀ i j, i < w → j < h → 0 ≤ (if hc : c.val < ch then val i j ⟨c.val, hc⟩ else (1 : ℚ)) ∧
          (if hc : c.val < ch then val i j ⟨c.val, hc⟩ else (1 : ℚ)) ≤ 1 := by
        intro i j hi hj
        split_ifs with h
        · exact hv i j hi hj _
        · exact ⟨by norm_num, le_rfl⟩
      obtain ⟨t, e1, e2⟩ := two_pass_gen (S := Samp.float) (M := 1) le_rfl (by norm_num) tx ty
        (pix := fun x y (c : Fin ch) => .fin (val x y c)) (c := c) (V := fun i j => if hc : c.val < ch then val i j ⟨c.val, hc⟩ else 1)
        (by
          intro x y _ _
          unfold channels4
          split_ifs <;> rfl)
        (by
          intro x y hx hy
          have := hV x y hx hy
          rw [abs_of_nonneg this.1]; exact this.2)
      have hm := axis_two hK tx hey mx my (M := 1) (by norm_num) hV
      refine ⟨max 0 (min t 1), fun _ _ => ⟨by rw [e1, nearestSample_float], le_max_left _ _, max_le (by norm_num) (min_le_right _ _), ?_⟩⟩
      refine (clamp_lip _ _ (by norm_num)).trans ?_
      set Z := weighted w (gx x) fun i => weighted h (gy y) fun j => if hc : c.val < ch then val i j ⟨c.val, hc⟩ else 1
      have hE : 6 * K ^ 3 * 1 * (nx + ny + 2) / 2 ^ 24 ≤ 6 * K ^ 3 * (cx + cy + 2) / 2 ^ 24 := by
        have : 0 ≤ K := by linarith
        rw [mul_one]
        gcongr
      have e : t - Z = (t - mean2 nx ny ax ay fun i j => if hc : c.val < ch then val (lx + i) (ly + j) ⟨c.val, hc⟩ else 1) +
        ((mean2 nx ny ax ay fun i j => if hc : c.val < ch then val (lx + i) (ly + j) ⟨c.val, hc⟩ else 1) - Z) := by ring
      rw [e]
      refine (abs_add_le _ _).trans ?_
      linarith
    · exact ⟨0, fun h1 h2 => absurd ⟨h1, h2⟩ hxy⟩
  choose g hg using key
  have hmul : ∀ a b, a ≤ 2 ^ 17 → b ≤ 2 ^ 17 → a * b * 4 < 2 ^ 64 := by
    intro a b ha hb
    have : a * b ≤ 2 ^ 17 * 2 ^ 17 := Nat.mul_le_mul ha hb
    omega
  have h1 := hmul w nh hw hnh
  have h2 := hmul nw nh hnw hnh
  have h3 : nw * nh * ch ≤ nw * nh * 4 := Nat.mul_le_mul_left _ hc
  obtain ⟨b, e1, e2⟩ := resize_ok (L := L) (S := Samp.float) (ft := ft) hd hc hw0 hh0 (by omega) (by omega) (by omega)
    (by omega) hne h1 (by omega) hp (fun x y c => .fin (g x y c)) (fun x y c hx hy => (hg x y c hx hy).1)
  refine ⟨b, e1, e2.width, e2.height, ?_⟩
  intro x y hx hy
  refine ⟨_, e2.pixel x y hx hy, ?_⟩
  intro c
  have hc4 : c.val < 4 := by omega
  obtain ⟨-, g2, g3, g4⟩ := hg x y ⟨c.val, hc4⟩ hx hy
  refine ⟨g x y ⟨c.val, hc4⟩, by simp [fromChannels4, hc4], g2, g3, ?_⟩
  simpa using g4

end Verif
