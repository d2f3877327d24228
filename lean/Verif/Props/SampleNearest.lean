import Verif.Proofs.SampleTaps
import Verif.Props.Generic

/-!
# C81: `resize` — degenerate sizes and the nearest-neighbour filter
-/

namespace Verif
open GenericImageView GenericImage LawfulView LawfulImage

variable {α : Type} {ch : Nat}

/-- C81: resizing an image without pixels gives a blank image of the new size, for every filter. -/
theorem C81_empty {I : Type} [GenericImageView I (Pix α ch)] (L : Libm) (S : Samp α) (img : I) (nw nh : Nat)
    (ft : FilterType) (he : widthOf img = 0 ∨ heightOf img = 0) (hc : ch ≤ 4) (hw : nw < 2 ^ 32) (hh : nh < 2 ^ 32)
    (hs : nw * nh * ch < 2 ^ 64) :
    ∃ b, resize L S img nw nh ft = .ok b ∧ b.width = nw ∧ b.height = nh ∧
      ∀ x y, x < nw → y < nh → b.getPixel x y = .ok fun _ => S.zero := by
  unfold resize
  rw [if_pos he, ImageBuffer.new_ok (by omega) hw hs]
  refine ⟨_, rfl, rfl, rfl, ?_⟩
  intro x y hx hy
  have hi := ImageBuffer.new_inv (z := S.zero) hw hh hs
  rw [ImageBuffer.getPixel_eq_ok hi hx hy]
  intro c
  have := ImageBuffer.end_le hi (x := x) (y := y) hx hy
  simp only [List.length_replicate] at this
  rw [List.getElem?_replicate, if_pos]
  have := c.isLt
  dsimp only at *
  omega

/-- C81: resizing to the same size copies the image exactly, for every filter and sample type. -/
theorem C81_same_size {I : Type} [GenericImageView I (Pix α ch)] [LawfulView I (Pix α ch)] (L : Libm) (S : Samp α)
    (img : I) (ft : FilterType) (wf : WF img) (hc : ch ≤ 4) (hs : widthOf img * heightOf img * ch < 2 ^ 64) :
    ∃ b, resize L S img (widthOf img) (heightOf img) ft = .ok b ∧ b.width = widthOf img ∧ b.height = heightOf img ∧
      ∀ x y, x < widthOf img → y < heightOf img → b.getPixel x y = getPixel img x y := by
  have hw := width_lt wf
  have hh := height_lt wf
  by_cases he : widthOf img = 0 ∨ heightOf img = 0
  · obtain ⟨b, e1, e2, e3, -⟩ := C81_empty L S img (widthOf img) (heightOf img) ft he hc hw hh hs
    exact ⟨b, e1, e2, e3, by omega⟩
  unfold resize
  rw [if_neg he, if_pos (show (widthOf img, heightOf img) = dims img from rfl), ImageBuffer.new_ok (by omega) hw hs]
  have hi := ImageBuffer.new_inv (z := S.zero) hw hh hs
  have hcl := C07_copy_from_partial (⟨widthOf img, heightOf img, List.replicate (widthOf img * heightOf img * ch) S.zero⟩ :
    ImageBuffer α ch) img hi wf 0 0 (by omega) (by omega)
  unfold C07_claim at hcl
  rw [if_pos ⟨by simp [widthOf, dims], by simp [heightOf, dims]⟩] at hcl
  obtain ⟨d, e1, e2, e3, -⟩ := hcl
  simp only [ok_bind]
  rw [e1]
  have e2' : (d.width, d.height) = (widthOf img, heightOf img) := e2
  simp only [Prod.mk.injEq] at e2'
  refine ⟨d, rfl, e2'.1, e2'.2, ?_⟩
  intro x y hx hy
  have := e3 x y hx hy
  rw [Nat.zero_add, Nat.zero_add] at this
  exact this

/-- The pixels of a lawful view as a function. -/
theorem exists_pix {I P : Type} [GenericImageView I P] [LawfulView I P] [Inhabited P] {img : I} (wf : WF img) :
    ∃ pix : Nat → Nat → P, ∀ x y, x < widthOf img → y < heightOf img → getPixel img x y = .ok (pix x y) := by
  refine ⟨fun x y => (getPixel img x y).toOption.getD default, ?_⟩
  intro x y hx hy
  obtain ⟨p, hp⟩ := get_ok wf hx hy
  simp [hp, Except.toOption]

/-- Every sample of an image is in the range of its type. -/
def SamplesOk {I : Type} [GenericImageView I (Pix Nat ch)] (T : Prim) (img : I) : Prop :=
  ∀ x y p, x < widthOf img → y < heightOf img → getPixel img x y = .ok p → ∀ c, p c ≤ T.max

theorem channels4_le {T : Prim} {p : Pix Nat ch} (h : ∀ c, p c ≤ T.max) (c : Fin 4) :
    channels4 (Samp.uint T) p c ≤ T.max := by
  unfold channels4
  split
  · exact h _
  · exact le_rfl

theorem nearestSample_nat {T : Prim} (hT : T.bits ≤ 16) {n : Nat} (hn : n ≤ T.max) :
    nearestSample (Samp.uint T) (.fin n) = .ok n := by
  have hpow : 2 ^ T.bits ≤ 2 ^ 16 := Nat.pow_le_pow_right (by norm_num) hT
  have hmax : T.max = 2 ^ T.bits - 1 := rfl
  have hpos : 0 < 2 ^ T.bits := by positivity
  unfold nearestSample
  have e1 : (Samp.uint T).toF32 (Samp.uint T).min = .fin 0 := by
    show Fl.ofNat f32 0 = _
    rw [ofNat32 (by norm_num)]; norm_num
  have e2 : (Samp.uint T).toF32 (Samp.uint T).max = .fin T.max := by
    show Fl.ofNat f32 T.max = _
    exact ofNat32 (by omega)
  rw [e1, e2]
  have hc : clampF (.fin n) (.fin 0) (.fin T.max) = .fin n := by
    unfold clampF Fl.lt
    have h1 : ¬ ((n : ℚ) < 0) := by push Not; positivity
    have h2 : ¬ ((T.max : ℚ) < n) := by push Not; exact_mod_cast hn
    simp [h1, h2]
  rw [hc]
  show unwrapR (Fl.castU T.bits (Fl.fin ((roundHalfAway n : ℤ) : ℚ))) = _
  have hr : roundHalfAway (n : ℚ) = (n : ℤ) := roundHalfAway_near (by positivity) (by simp)
  rw [hr]
  unfold Fl.castU
  have h1 : (-1 : ℚ) < ((n : ℤ) : ℚ) ∧ ((n : ℤ) : ℚ) < 2 ^ T.bits := by
    constructor
    · have : (0 : ℚ) ≤ ((n : ℤ) : ℚ) := by push_cast; positivity
      linarith
    · have : n < 2 ^ T.bits := by omega
      exact_mod_cast this
  simp only [if_pos h1]
  simp [unwrapR]

/-- C81: `resize` with the nearest-neighbour filter copies, for every output pixel, the source pixel that contains its
centre, with unchanged samples. For 8-bit and 16-bit samples of any colour type and images of every size. -/
theorem C81_nearest {I : Type} [GenericImageView I (Pix Nat ch)] [LawfulView I (Pix Nat ch)] (L : Libm) (T : Prim)
    (hT : T.bits ≤ 16) (img : I) (wf : WF img) (hr : SamplesOk T img) (nw nh : Nat) (hc : ch ≤ 4) (hw0 : 0 < widthOf img)
    (hh0 : 0 < heightOf img) (hnw : nw < 2 ^ 32) (hnh : nh < 2 ^ 32) (hne : (nw, nh) ≠ (widthOf img, heightOf img))
    (hs : widthOf img * nh * 4 < 2 ^ 64) (hs' : nw * nh * ch < 2 ^ 64) :
    ∃ (b : ImageBuffer Nat ch) (sx sy : Nat → Nat), resize L (Samp.uint T) img nw nh .nearest = .ok b ∧ b.width = nw ∧ b.height = nh ∧
      (∀ x, x < nw → NearestIndex (widthOf img) nw x (sx x)) ∧
      (∀ y, y < nh → NearestIndex (heightOf img) nh y (sy y)) ∧
      (∀ x y, x < nw → y < nh → b.getPixel x y = getPixel img (sx x) (sy y)) ∧
      -- shrinking by an integer factor `k` picks the middle of each group of `k`
      (∀ k x, widthOf img = k * nw → k * nw ≤ 2 ^ 23 → x < nw → sx x = k * x + k / 2) ∧
      (∀ k y, heightOf img = k * nh → k * nh ≤ 2 ^ 23 → y < nh → sy y = k * y + k / 2) := by
  obtain ⟨pix, hp⟩ := exists_pix wf
  have hw := width_lt wf
  have hh := height_lt wf
  have hpow : 2 ^ T.bits ≤ 2 ^ 16 := Nat.pow_le_pow_right (by norm_num) hT
  have hmax : T.max = 2 ^ T.bits - 1 := rfl
  have key : ∀ len newLen o, 0 < len → len < 2 ^ 32 → o < newLen → newLen < 2 ^ 32 →
      ∃ s, sampleTaps ⟨boxKernel, .fin 0⟩ len newLen o = (s, [.fin 1]) ∧ NearestIndex len newLen o s ∧
        ∀ k, len = k * newLen → k * newLen ≤ 2 ^ 23 → s = k * o + k / 2 := by
    intro len newLen o h0 h ho h'
    obtain ⟨x, ex, rx, -, xpos, -⟩ := input_rel h0 h ho h'
    have hn : (0 : ℚ) < newLen := by exact_mod_cast (by omega : 0 < newLen)
    have hc : centre len newLen o ≤ len := by
      unfold centre
      have hoq : (o : ℚ) + 1 / 2 ≤ newLen := by
        have : (o : ℚ) + 1 ≤ newLen := by exact_mod_cast ho
        linarith
      calc ((o : ℚ) + 1 / 2) * (len / newLen) ≤ newLen * (len / newLen) := by gcongr
        _ = len := by field_simp
    have hc0 : 0 ≤ centre len newLen o := by unfold centre; positivity
    refine ⟨_, taps_nearest h0 h ho h' ex, ⟨by omega, ?_, ?_⟩, ?_⟩
    · refine le_trans ?_ rx.2
      have h1 : ((⌊x⌋.toNat : ℕ) : ℚ) ≤ x := by
        have : ((⌊x⌋.toNat : ℕ) : ℤ) = ⌊x⌋ := Int.toNat_of_nonneg (Int.floor_nonneg.2 xpos.le)
        have h2 := Int.floor_le x
        rw [← this] at h2
        exact_mod_cast h2
      have : ((min ⌊x⌋.toNat (len - 1) : ℕ) : ℚ) ≤ (⌊x⌋.toNat : ℕ) := by exact_mod_cast Nat.min_le_left _ _
      linarith
    · rcases le_total ⌊x⌋.toNat (len - 1) with hle | hle
      · rw [Nat.min_eq_left hle]
        have : ((⌊x⌋.toNat : ℕ) : ℤ) = ⌊x⌋ := Int.toNat_of_nonneg (Int.floor_nonneg.2 xpos.le)
        have h2 := Int.lt_floor_add_one x
        rw [← this] at h2
        have h3 := rx.1
        push_cast at h2
        linarith
      · rw [Nat.min_eq_right hle]
        have : ((len - 1 : ℕ) : ℚ) + 1 = len := by exact_mod_cast (by omega : len - 1 + 1 = len)
        rw [this]
        nlinarith
    · intro k hk hk'
      have hk0 : 0 < k := Nat.pos_of_ne_zero (by rintro rfl; omega)
      subst hk
      rw [input_exact hk0 ho hk'] at ex
      obtain rfl := Fl.fin.inj ex
      have hf : ⌊((o : ℚ) + 1 / 2) * k⌋ = ((k * o + k / 2 : ℕ) : ℤ) := by
        rw [Int.floor_eq_iff]
        have hm : k = 2 * (k / 2) + k % 2 := by omega
        have hm2 : k % 2 ≤ 1 := by omega
        have e : ((o : ℚ) + 1 / 2) * k = k * o + (k : ℚ) / 2 := by ring
        have hmq : (k : ℚ) = 2 * ((k / 2 : ℕ) : ℚ) + ((k % 2 : ℕ) : ℚ) := by exact_mod_cast hm
        have hmq2 : ((k % 2 : ℕ) : ℚ) ≤ 1 := by exact_mod_cast hm2
        have hmq3 : (0 : ℚ) ≤ ((k % 2 : ℕ) : ℚ) := by positivity
        rw [e]
        have e4 : (((k * o + k / 2 : ℕ) : ℤ) : ℚ) = k * o + ((k / 2 : ℕ) : ℚ) := by
          generalize k / 2 = j; push_cast; ring
        rw [e4]
        constructor <;> linarith
      rw [hf]
      have h1 : k * o + k ≤ k * newLen := by
        have : k * (o + 1) ≤ k * newLen := Nat.mul_le_mul_left _ ho
        linarith [Nat.mul_succ k o]
      rw [Int.toNat_natCast]
      omega
  choose! sx hsx using fun o (ho : o < nw) => key (widthOf img) nw o hw0 hw ho hnw
  choose! sy hsy using fun o (ho : o < nh) => key (heightOf img) nh o hh0 hh ho hnh
  have hcol : ∀ x y c, x < widthOf img → y < nh →
      colF (Samp.uint T) (FilterType.nearest.method L) (heightOf img) nh pix x y c =
        .fin ((channels4 (Samp.uint T) (pix x (sy y)) c : ℕ) : ℚ) := by
    intro x y c hx hy
    have e := (hsy y hy).1
    have hlt := (hsy y hy).2.1.1
    unfold colF
    rw [show FilterType.nearest.method L = ⟨boxKernel, .fin 0⟩ from rfl, e]
    have hle := channels4_le (hr x (sy y) _ hx hlt (hp _ _ hx hlt)) c
    refine dotF_one (by omega) ?_
    simp only [Nat.add_zero]
    exact ofNat32 (by omega)
  have hrow : ∀ x y c, x < nw → y < nh →
      rowF (FilterType.nearest.method L) (widthOf img) nw
        (colF (Samp.uint T) (FilterType.nearest.method L) (heightOf img) nh pix) x y c =
        .fin ((channels4 (Samp.uint T) (pix (sx x) (sy y)) c : ℕ) : ℚ) := by
    intro x y c hx hy
    have e := (hsx x hx).1
    have hlt := (hsx x hx).2.1.1
    have hlt' := (hsy y hy).2.1.1
    have hle := channels4_le (hr _ _ _ hlt hlt' (hp _ _ hlt hlt')) c
    unfold rowF
    rw [show FilterType.nearest.method L = ⟨boxKernel, .fin 0⟩ from rfl, e]
    refine dotF_one (by omega) ?_
    simp only [Nat.add_zero]
    exact hcol _ _ _ hlt hy
  obtain ⟨b, e1, e2⟩ := resize_ok (L := L) (S := Samp.uint T) (ft := .nearest) (img := img) (w := widthOf img)
    (h := heightOf img) (pix := pix) rfl hc hw0 hh0 hw hh hnw hnh hne hs hs' hp
    (fun x y => channels4 (Samp.uint T) (pix (sx x) (sy y))) (by
      intro x y c hx hy
      rw [hrow x y c hx hy]
      have hlt := (hsx x hx).2.1.1
      have hlt' := (hsy y hy).2.1.1
      exact nearestSample_nat hT (channels4_le (hr _ _ _ hlt hlt' (hp _ _ hlt hlt')) c))
  refine ⟨b, sx, sy, e1, e2.width, e2.height, fun x hx => (hsx x hx).2.1, fun y hy => (hsy y hy).2.1, ?_,
    fun k x h1 h2 hx => (hsx x hx).2.2 k h1 h2, fun k y h1 h2 hy => (hsy y hy).2.2 k h1 h2⟩
  intro x y hx hy
  rw [e2.pixel x y hx hy, hp _ _ (hsx x hx).2.1.1 (hsy y hy).2.1.1]
  congr 1
  funext c
  have := c.isLt
  simp [fromChannels4, channels4, show c.val < 4 by omega]

/-- C81: enlarging an axis by an integer factor repeats each source index that many times. -/
theorem C81_nearest_enlarge {len k o s : Nat} (h : NearestIndex len (k * len) o s) (ho : o < k * len)
    (hk : k * len ≤ 2 ^ 20) : s = o / k := by
  obtain ⟨h1, h2, h3⟩ := h
  have hk0 : 0 < k := Nat.pos_of_ne_zero (by rintro rfl; simp at ho)
  have hl0 : 0 < len := by omega
  have hkq : (0 : ℚ) < k := by exact_mod_cast hk0
  have hlq : (0 : ℚ) < len := by exact_mod_cast hl0
  have hc : centre len (k * len) o = (o + 1 / 2) / k := by
    unfold centre; push_cast; field_simp
  rw [hc] at h2 h3
  have hb : ((o : ℚ) + 1 / 2) ≤ 2 ^ 20 := by
    have : (o : ℚ) + 1 ≤ 2 ^ 20 := by exact_mod_cast (by omega : o + 1 ≤ 2 ^ 20)
    linarith
  have e2 : (s : ℚ) * k < o + 1 := by
    have : (s : ℚ) * k ≤ ((o + 1 / 2) / k * (1 + 1 / 2 ^ 21)) * k := by gcongr
    have e : ((o : ℚ) + 1 / 2) / k * (1 + 1 / 2 ^ 21) * k = (o + 1 / 2) + (o + 1 / 2) / 2 ^ 21 := by field_simp
    have : ((o : ℚ) + 1 / 2) / 2 ^ 21 ≤ 2 ^ 20 / 2 ^ 21 := by gcongr
    -- strict because the bound on `o` is
    have hb' : ((o : ℚ) + 1 / 2) < 2 ^ 20 := by
      have : (o : ℚ) + 1 ≤ 2 ^ 20 := by exact_mod_cast (by omega : o + 1 ≤ 2 ^ 20)
      linarith
    have : ((o : ℚ) + 1 / 2) / 2 ^ 21 < 2 ^ 20 / 2 ^ 21 := by gcongr
    have : (2 : ℚ) ^ 20 / 2 ^ 21 = 1 / 2 := by norm_num
    linarith
  have e3 : (o : ℚ) < (s + 1) * k := by
    have : ((o : ℚ) + 1 / 2) / k * (1 - 1 / 2 ^ 21) * k ≤ (s + 1) * k := by gcongr
    have e : ((o : ℚ) + 1 / 2) / k * (1 - 1 / 2 ^ 21) * k = (o + 1 / 2) - (o + 1 / 2) / 2 ^ 21 := by field_simp
    have hb' : ((o : ℚ) + 1 / 2) < 2 ^ 20 := by
      have : (o : ℚ) + 1 ≤ 2 ^ 20 := by exact_mod_cast (by omega : o + 1 ≤ 2 ^ 20)
      linarith
    have : ((o : ℚ) + 1 / 2) / 2 ^ 21 < 2 ^ 20 / 2 ^ 21 := by gcongr
    have : (2 : ℚ) ^ 20 / 2 ^ 21 = 1 / 2 := by norm_num
    linarith
  have e2' : s * k < o + 1 := by exact_mod_cast e2
  have e3' : o < (s + 1) * k := by exact_mod_cast e3
  symm
  rw [Nat.div_eq_iff hk0]
  have : (s + 1) * k = s * k + k := by ring
  omega

/-! ## The hypotheses are met -/

/-- A 2×2 grey image. -/
def grey22 : ImageBuffer Nat 1 := ⟨2, 2, [10, 20, 30, 40]⟩

theorem grey22_wf : WF grey22 := ⟨by decide, by decide, by decide, by decide⟩

/-- The samples of a buffer are in range when its data is. -/
theorem samplesOk_buffer {T : Prim} {b : ImageBuffer Nat ch} (hb : b.Inv) (h : ∀ v ∈ b.data, v ≤ T.max) :
    SamplesOk T b := by
  intro x y p hx hy hp c
  have := (ImageBuffer.getPixel_eq_ok hb hx hy p).1 hp c
  exact h _ (List.mem_of_getElem? this)

example (L : Libm) : ∃ (b : ImageBuffer Nat 1) (sx sy : Nat → Nat), resize L (Samp.uint .u8) grey22 4 1 .nearest = .ok b ∧
    (∀ x y, x < 4 → y < 1 → b.getPixel x y = getPixel grey22 (sx x) (sy y)) ∧ (∀ x, x < 4 → sx x = x / 2) ∧ sy 0 = 1 := by
  obtain ⟨b, sx, sy, e1, -, -, e4, -, e6, -, e8⟩ := C81_nearest L .u8 (by decide) grey22 grey22_wf
    (samplesOk_buffer grey22_wf (by decide)) 4 1 (by decide) (by decide) (by decide) (by decide) (by decide) (by decide)
    (by decide) (by decide)
  exact ⟨b, sx, sy, e1, e6, fun x hx => C81_nearest_enlarge (len := 2) (k := 2) (e4 x hx) hx (by decide),
    e8 2 0 (by decide) (by decide) (by decide)⟩

end Verif
