import Verif.Model.Buffer

/-!
# Lemmas about `ImageBuffer`
-/

namespace Verif

theorem sliceR_ok {α : Type} {data : List α} {s e : Nat} (h1 : s ≤ e) (h2 : e ≤ data.length) :
    sliceR data s e = .ok ((data.drop s).take (e - s)) := by simp [sliceR, h1, h2]

theorem getElem?_overwrite {α : Type} {data l : List α} {s : Nat} (h : s + l.length ≤ data.length)
    (i : Nat) : (overwrite data s l)[i]? =
      if i < s then data[i]? else if i < s + l.length then l[i - s]? else data[i]? := by
  unfold overwrite
  by_cases h1 : i < s
  · rw [List.append_assoc, List.getElem?_append_left (by simp; omega)]
    simp [h1]
  · by_cases h2 : i < s + l.length
    · rw [List.getElem?_append_left (by simp; omega), List.getElem?_append_right (by simp; omega)]
      have : min s data.length = s := by omega
      simp [h1, h2, this]
    · rw [List.getElem?_append_right (by simp; omega)]
      have : min s data.length = s := by omega
      simp only [h1, h2, if_false, List.length_append, List.length_take, this, List.getElem?_drop]
      congr 1; omega

@[simp] theorem length_overwrite {α : Type} {data l : List α} {s : Nat}
    (h : s + l.length ≤ data.length) : (overwrite data s l).length = data.length := by
  simp [overwrite]; omega

/-- `l` and `p` have the same channels. -/
theorem fromSlice_eq_ok {α : Type} {ch : Nat} {l : List α} {p : Pix α ch} :
    fromSlice ch l = .ok p ↔ l.length = ch ∧ ∀ c : Fin ch, l[c.val]? = some (p c) := by
  unfold fromSlice
  split
  · rename_i h
    constructor
    · intro hp; cases hp; exact ⟨h, fun c => by simp [List.getElem?_eq_getElem (by omega : c.val < l.length)]⟩
    · rintro ⟨-, hp⟩
      congr 1; funext c
      have := hp c
      rw [List.getElem?_eq_getElem (by omega : c.val < l.length)] at this
      exact Option.some.inj this
  · rename_i h
    simp [panicR]; intro h'; exact absurd h' h

@[simp] theorem Pix.length_toList {α : Type} {ch : Nat} (p : Pix α ch) : p.toList.length = ch := by
  simp [Pix.toList]

theorem Pix.getElem?_toList {α : Type} {ch : Nat} (p : Pix α ch) {i : Nat} (h : i < ch) :
    p.toList[i]? = some (p ⟨i, h⟩) := by
  simp [Pix.toList, h]

theorem fromSlice_toList {α : Type} {ch : Nat} (p : Pix α ch) : fromSlice ch p.toList = .ok p := by
  rw [fromSlice_eq_ok]; exact ⟨by simp, fun c => Pix.getElem?_toList p c.isLt⟩

/-- Linear index bound: the pixels of a `w × h` image fill `w * h` slots. -/
theorem idx_lt {w h x y : Nat} (hx : x < w) (hy : y < h) : y * w + x < w * h := by
  calc y * w + x < y * w + w := by omega
    _ = (y + 1) * w := by rw [Nat.succ_mul]
    _ ≤ h * w := Nat.mul_le_mul_right _ hy
    _ = w * h := Nat.mul_comm _ _

theorem idx_inj {w x y x' y' : Nat} (hx : x < w) (hx' : x' < w) (h : y * w + x = y' * w + x') :
    x = x' ∧ y = y' := by
  have h1 : (y * w + x) % w = x := by
    rw [Nat.mul_comm, Nat.mul_add_mod]; exact Nat.mod_eq_of_lt hx
  have h2 : (y' * w + x') % w = x' := by
    rw [Nat.mul_comm, Nat.mul_add_mod]; exact Nat.mod_eq_of_lt hx'
  have hxx : x = x' := by rw [← h1, ← h2, h]
  subst hxx
  have : y * w = y' * w := by omega
  exact ⟨rfl, Nat.eq_of_mul_eq_mul_right (by omega) this⟩

/-- Chunk bound: chunk `k` of size `ch` of `n` chunks ends inside. -/
theorem chunk_end_le {k n ch : Nat} (h : k < n) : k * ch + ch ≤ n * ch := by
  calc k * ch + ch = (k + 1) * ch := by rw [Nat.succ_mul]
    _ ≤ n * ch := Nat.mul_le_mul_right _ h

@[simp] theorem length_chunksExact {α : Type} (n : Nat) (l : List α) :
    (chunksExact n l).length = l.length / n := by simp [chunksExact]

theorem getElem?_chunksExact {α : Type} {n : Nat} {l : List α} {k : Nat} (h : k < l.length / n) :
    (chunksExact n l)[k]? = some ((l.drop (k * n)).take n) := by
  simp [chunksExact, h]

theorem mapM_ok {β γ : Type} {f : β → R γ} {l : List β} (h : ∀ x ∈ l, ∃ y, f x = .ok y) :
    ∃ ys, l.mapM f = .ok ys ∧ ys.length = l.length ∧
      ∀ i (h1 : i < l.length) (h2 : i < ys.length), f l[i] = .ok ys[i] := by
  induction l with
  | nil => exact ⟨[], rfl, rfl, fun i h1 => by simp at h1⟩
  | cons a l ih =>
    obtain ⟨y, hy⟩ := h a (by simp)
    obtain ⟨ys, h1, h2, h3⟩ := ih (fun x hx => h x (by simp [hx]))
    refine ⟨y :: ys, by rw [List.mapM_cons, hy, ok_bind, h1]; rfl, by simp [h2], ?_⟩
    intro i hi hi'
    cases i with
    | zero => exact hy
    | succ i => exact h3 i (by simpa using hi) (by simpa using hi')

namespace ImageBuffer
variable {α : Type} {ch : Nat}

/-- The invariant `from_raw`/`new` establish and no method breaks: dimensions are `u32`s and the
container (a slice, hence shorter than `2^64`) holds every pixel. -/
structure Inv (b : ImageBuffer α ch) : Prop where
  w32 : b.width < 2 ^ 32
  h32 : b.height < 2 ^ 32
  len64 : b.data.length < 2 ^ 64
  fits : b.width * b.height * ch ≤ b.data.length

theorem pixelIndicesUnchecked_ok {b : ImageBuffer α ch} (hb : b.Inv) {x y : Nat} (hx : x < b.width)
    (hy : y < b.height) : b.pixelIndicesUnchecked x y =
      .ok ((y * b.width + x) * ch, (y * b.width + x) * ch + ch) := by
  have h1 := idx_lt hx hy
  have h2 := chunk_end_le (ch := ch) h1
  have h3 := hb.fits
  have h4 := hb.len64
  have h5 : b.width * b.height < 2 ^ 64 := by
    calc b.width * b.height ≤ b.width * 2 ^ 32 := Nat.mul_le_mul_left _ (le_of_lt' hb.h32)
      _ < 2 ^ 32 * 2 ^ 32 := by apply Nat.mul_lt_mul_of_pos_right hb.w32; decide
      _ = 2 ^ 64 := by decide
  unfold pixelIndicesUnchecked
  rw [mulC_ok (by omega)]; simp only [ok_bind]
  rw [addC_ok (by omega)]; simp only [ok_bind]
  rw [mulC_ok (by omega)]; simp only [ok_bind]
  rw [addC_ok (by omega)]; rfl
where le_of_lt' {a b : Nat} (h : a < b) : a ≤ b := Nat.le_of_lt h

theorem pixelIndices_ok {b : ImageBuffer α ch} (hb : b.Inv) {x y : Nat} (hx : x < b.width)
    (hy : y < b.height) : b.pixelIndices x y =
      .ok (some ((y * b.width + x) * ch, (y * b.width + x) * ch + ch)) := by
  unfold pixelIndices
  rw [if_neg (by omega), pixelIndicesUnchecked_ok hb hx hy]; rfl

theorem end_le {b : ImageBuffer α ch} (hb : b.Inv) {x y : Nat} (hx : x < b.width)
    (hy : y < b.height) : (y * b.width + x) * ch + ch ≤ b.data.length := by
  have h1 := idx_lt hx hy
  have h2 := chunk_end_le (ch := ch) h1
  have h3 := hb.fits
  omega

/-- In-bounds reads succeed and return the stored channels. -/
theorem getPixel_eq_ok {b : ImageBuffer α ch} (hb : b.Inv) {x y : Nat} (hx : x < b.width)
    (hy : y < b.height) (p : Pix α ch) : b.getPixel x y = .ok p ↔
      ∀ c : Fin ch, b.data[(y * b.width + x) * ch + c.val]? = some (p c) := by
  unfold getPixel
  rw [pixelIndices_ok hb hx hy]; simp only [ok_bind]
  rw [sliceR_ok (by omega) (end_le hb hx hy)]
  simp only [ok_bind]
  rw [fromSlice_eq_ok]
  have := end_le hb hx hy
  simp only [List.length_take, List.length_drop]
  constructor
  · rintro ⟨-, h⟩ c
    have hc := h c
    rw [List.getElem?_take, if_pos (by omega), List.getElem?_drop] at hc
    exact hc
  · intro h
    refine ⟨by omega, fun c => ?_⟩
    rw [List.getElem?_take, if_pos (by omega), List.getElem?_drop]
    exact h c

theorem getPixel_exists {b : ImageBuffer α ch} (hb : b.Inv) {x y : Nat} (hx : x < b.width)
    (hy : y < b.height) : ∃ p, b.getPixel x y = .ok p := by
  have := end_le hb hx hy
  refine ⟨fun c => b.data[(y * b.width + x) * ch + c.val], ?_⟩
  rw [getPixel_eq_ok hb hx hy]
  intro c; simp

theorem getPixel_oob {b : ImageBuffer α ch} {x y : Nat} (h : ¬(x < b.width ∧ y < b.height)) :
    b.getPixel x y = panicR := by
  unfold getPixel pixelIndices
  rw [if_pos (by omega)]; rfl

theorem putPixel_oob {b : ImageBuffer α ch} {x y : Nat} (p : Pix α ch)
    (h : ¬(x < b.width ∧ y < b.height)) : b.putPixel x y p = panicR := by
  unfold putPixel pixelIndices
  rw [if_pos (by omega)]; rfl

theorem putPixel_ok {b : ImageBuffer α ch} (hb : b.Inv) {x y : Nat} (hx : x < b.width)
    (hy : y < b.height) (p : Pix α ch) : b.putPixel x y p =
      .ok { b with data := overwrite b.data ((y * b.width + x) * ch) p.toList } := by
  obtain ⟨q, hq⟩ := getPixel_exists hb hx hy
  unfold getPixel at hq
  unfold putPixel
  rw [pixelIndices_ok hb hx hy] at *; simp only [ok_bind] at *
  obtain ⟨l, hl, hq⟩ := bind_eq_ok.1 hq
  rw [hl]; simp only [ok_bind]
  rw [hq]; rfl

/-- The laws of an array of pixels. -/
theorem put_spec {b : ImageBuffer α ch} (hb : b.Inv) {x y : Nat} (hx : x < b.width)
    (hy : y < b.height) (p : Pix α ch) :
    ∃ b', b.putPixel x y p = .ok b' ∧ b'.Inv ∧ b'.width = b.width ∧ b'.height = b.height ∧
      b'.data.length = b.data.length ∧ b'.getPixel x y = .ok p ∧
      ∀ x' y', x' < b.width → y' < b.height → ¬(x' = x ∧ y' = y) →
        b'.getPixel x' y' = b.getPixel x' y' := by
  have hle := end_le hb hx hy
  refine ⟨_, putPixel_ok hb hx hy p, ?_⟩
  have hlen : (overwrite b.data ((y * b.width + x) * ch) p.toList).length = b.data.length :=
    length_overwrite (by simpa using hle)
  have hInv : Inv (α := α) (ch := ch)
      { b with data := overwrite b.data ((y * b.width + x) * ch) p.toList } :=
    ⟨hb.w32, hb.h32, by rw [hlen]; exact hb.len64, by rw [hlen]; exact hb.fits⟩
  refine ⟨hInv, rfl, rfl, hlen, ?_, ?_⟩
  · rw [getPixel_eq_ok hInv hx hy]
    intro c
    have hc := c.isLt
    show (overwrite b.data ((y * b.width + x) * ch) p.toList)[(y * b.width + x) * ch + c.val]? = _
    rw [getElem?_overwrite (by simpa using hle), if_neg (by omega), if_pos (by simp),
      Nat.add_sub_cancel_left, Pix.getElem?_toList p hc]
  · intro x' y' hx' hy' hne
    obtain ⟨q, hq⟩ := getPixel_exists hb hx' hy'
    rw [hq, getPixel_eq_ok hInv hx' hy']
    rw [getPixel_eq_ok hb hx' hy'] at hq
    intro c
    have hc := c.isLt
    rw [← hq c]
    show (overwrite b.data ((y * b.width + x) * ch) p.toList)[(y' * b.width + x') * ch + c.val]? = _
    rw [getElem?_overwrite (by simpa using hle)]
    have hk : y' * b.width + x' ≠ y * b.width + x := fun h => hne (idx_inj hx' hx h)
    rcases Nat.lt_or_gt_of_ne hk with h | h
    · have := chunk_end_le (ch := ch) h
      rw [if_pos (by omega)]
    · have := chunk_end_le (ch := ch) h
      rw [if_neg (by omega), if_neg (by simp; omega)]

instance : LawfulView (ImageBuffer α ch) (Pix α ch) where
  WF := Inv
  width_lt h := h.w32
  height_lt h := h.h32
  get_ok h hx hy := getPixel_exists h hx hy

instance : LawfulImage (ImageBuffer α ch) (Pix α ch) where
  put_ok p h hx hy := by
    obtain ⟨b', h1, h2, h3, h4, _, h5, h6⟩ := put_spec h hx hy p
    exact ⟨b', h1, h2, by simp [GenericImageView.dims, h3, h4], h5, h6⟩

/-! ### Construction -/

theorem imageBufferLen_eq {ch w h : Nat} (hc : ch < 256) (hw : w < 2 ^ 32) :
    imageBufferLen ch w h = if w * h * ch < 2 ^ 64 then some (w * h * ch) else none := by
  have h1 : ch * w < 2 ^ 64 := by
    calc ch * w ≤ 256 * w := Nat.mul_le_mul_right _ (by omega)
      _ < 2 ^ 64 := by omega
  have h2 : ch * w * h = w * h * ch := by rw [Nat.mul_assoc, Nat.mul_comm]
  unfold imageBufferLen checkedMul
  rw [if_pos h1]; simp only [Option.bind_some, h2]

theorem checkImageFits_iff {ch w h len : Nat} (hc : ch < 256) (hw : w < 2 ^ 32) :
    checkImageFits ch w h len = true ↔ w * h * ch < 2 ^ 64 ∧ w * h * ch ≤ len := by
  unfold checkImageFits
  rw [imageBufferLen_eq hc hw]
  by_cases hs : w * h * ch < 2 ^ 64
  · simp [hs]
  · simp [hs]

/-! ### Iteration -/

theorem innerPixels_ok {b : ImageBuffer α ch} (hb : b.Inv) (hc : ch < 256) :
    b.innerPixels = .ok (b.data.take (b.width * b.height * ch)) := by
  have h1 := hb.fits
  have h2 := hb.len64
  unfold innerPixels
  rw [imageBufferLen_eq hc hb.w32, if_pos (by omega)]
  simp only [unwrapR, ok_bind]
  rw [sliceR_ok (by omega) h1]; simp

/-- `pixels` yields pixel `(x, y)` at position `y * width + x`. -/
theorem pixels_ok {b : ImageBuffer α ch} (hb : b.Inv) (h0 : 0 < ch) (hc : ch < 256) :
    ∃ ps, b.pixels = .ok ps ∧ ps.length = b.width * b.height ∧
      ∀ x y, x < b.width → y < b.height →
        ∃ p, ps[y * b.width + x]? = some p ∧ b.getPixel x y = .ok p := by
  have h1 := hb.fits
  unfold pixels
  rw [innerPixels_ok hb hc]
  simp only [ok_bind]
  have hne : (ch != 0) = true := by simp; omega
  rw [hne]; simp only [assertR_true, ok_bind]
  have hlen : (chunksExact ch (b.data.take (b.width * b.height * ch))).length
      = b.width * b.height := by
    rw [length_chunksExact, List.length_take, Nat.min_eq_left h1, Nat.mul_div_cancel _ h0]
  have hpix : ∀ (k : Nat) (hk : k < b.width * b.height) (l : List α),
      (chunksExact ch (b.data.take (b.width * b.height * ch)))[k]? = some l →
      l.length = ch ∧ ∀ c, c < ch → l[c]? = b.data[k * ch + c]? := by
    intro k hk l hl
    have hce := chunk_end_le (ch := ch) hk
    rw [getElem?_chunksExact (by rw [List.length_take, Nat.min_eq_left h1, Nat.mul_div_cancel _ h0]; exact hk)] at hl
    cases hl
    constructor
    · simp; omega
    · intro c hc'
      rw [List.getElem?_take, if_pos hc', List.getElem?_drop, List.getElem?_take, if_pos (by omega)]
  obtain ⟨ps, he, hl, hg⟩ := mapM_ok (f := fromSlice ch)
    (l := chunksExact ch (b.data.take (b.width * b.height * ch))) (by
      intro l hl
      obtain ⟨k, hk, hkl⟩ := List.mem_iff_getElem.1 hl
      have := (hpix k (by omega) l (by rw [← hkl]; simp)).1
      exact ⟨_, dif_pos this⟩)
  refine ⟨ps, he, by omega, ?_⟩
  intro x y hx hy
  have hk := idx_lt hx hy
  have hk' : y * b.width + x < ps.length := by omega
  refine ⟨ps[y * b.width + x], by simp [hk'], ?_⟩
  have h3 := hg (y * b.width + x) (by omega) hk'
  rw [fromSlice_eq_ok] at h3
  rw [getPixel_eq_ok hb hx hy]
  intro c
  rw [← h3.2 c]
  exact ((hpix _ hk _ (by simp)).2 c c.isLt).symm

/-- Draining `EnumeratePixels` numbers the pixels in row-major order, continuing at `(x, y)`. -/
theorem drain_enumerate (w : Nat) (hw : 0 < w) (hw32 : w < 2 ^ 32) (ps : List (Pix α ch)) :
    ∀ (x y fuel : Nat), x ≤ w → ps.length < fuel → (y * w + x + ps.length) / w < 2 ^ 32 →
      drain EnumeratePixels.next fuel (⟨ps, x, y, w⟩ : EnumeratePixels α ch) =
        .ok (ps.zipIdx.map fun q => ((y * w + x + q.2) % w, (y * w + x + q.2) / w, q.1)) := by
  induction ps with
  | nil =>
    intro x y fuel hx hf hy
    obtain ⟨fuel, rfl⟩ : ∃ n, fuel = n + 1 := ⟨fuel - 1, by simp at hf; omega⟩
    simp only [drain, EnumeratePixels.next]
    split
    · have : x = w := by omega
      subst this
      have : y + 1 < 2 ^ 32 := by
        have : (y * x + x + 0) / x = y + 1 := by
          rw [Nat.add_zero, ← Nat.succ_mul, Nat.mul_div_cancel _ hw]
        simp only [List.length_nil] at hy; omega
      rw [addC_ok this]; simp [addC]
    · have : x + 1 < 2 ^ 32 := by omega
      simp only [ok_bind]; rw [addC_ok this]; simp
  | cons p ps ih =>
    intro x y fuel hx hf hy
    obtain ⟨fuel, rfl⟩ : ∃ n, fuel = n + 1 := ⟨fuel - 1, by simp at hf; omega⟩
    simp only [drain, EnumeratePixels.next]
    have key : ∀ x' y', x' < w → y' * w + x' = y * w + x →
        (do
          let __discr ← (addC 32 x' 1 >>= fun x1 =>
            (.ok (some (x', y', p), (⟨ps, x1, y', w⟩ : EnumeratePixels α ch)) : R _))
          match __discr.1 with
          | none => (.ok [] : R _)
          | some b => do .ok (b :: (← drain EnumeratePixels.next fuel __discr.2))) =
        .ok ((p :: ps).zipIdx.map fun q => ((y * w + x + q.2) % w, (y * w + x + q.2) / w, q.1)) := by
      intro x' y' hx' he
      rw [addC_ok (by omega : x' + 1 < 2 ^ 32)]
      simp only [ok_bind]
      rw [ih (x' + 1) y' fuel (by omega) (by simp at hf; omega) (by
        have : y' * w + (x' + 1) + ps.length = y * w + x + (p :: ps).length := by
          simp; omega
        rw [this]; exact hy)]
      simp only [ok_bind]
      congr 1
      rw [List.zipIdx_cons, List.map_cons]
      congr 1
      · simp only [Nat.add_zero, ← he]
        rw [Nat.add_comm, Nat.add_mul_mod_self_right, Nat.add_mul_div_right _ _ hw,
          Nat.mod_eq_of_lt hx', Nat.div_eq_of_lt hx', Nat.zero_add]
      · rw [List.zipIdx_succ, List.map_map]
        apply List.map_congr_left
        rintro ⟨q, k⟩ _
        simp only [Function.comp]
        have : y' * w + (x' + 1) + k = y * w + x + (k + 1) := by omega
        rw [this]
    by_cases hxw : w ≤ x
    · have hxe : x = w := by omega
      subst hxe
      have hy1 : y + 1 < 2 ^ 32 := by
        have h1 : (y * x + x) / x = y + 1 := by rw [← Nat.succ_mul, Nat.mul_div_cancel _ hw]
        have h2 : (y * x + x) / x ≤ (y * x + x + (p :: ps).length) / x :=
          Nat.div_le_div_right (by omega)
        omega
      rw [if_pos (Nat.le_refl _), addC_ok hy1]
      simp only [ok_bind]
      exact key 0 (y + 1) hw (by rw [Nat.succ_mul]; rfl)
    · rw [if_neg hxw]
      simp only [ok_bind]
      have := key x y (by omega) rfl
      rw [addC_ok (by omega : x + 1 < 2 ^ 32)] at this ⊢
      simp only [ok_bind] at this ⊢
      exact this

/-- Flattened pixels: channel `c` of pixel `k` is sample `k * ch + c`. -/
theorem getElem?_flat (ps : List (Pix α ch)) (k : Nat) (c : Fin ch) :
    (ps.flatMap Pix.toList)[k * ch + c.val]? = ps[k]?.map (fun p => p c) := by
  induction ps generalizing k with
  | nil => simp
  | cons p ps ih =>
    have hc := c.isLt
    rw [List.flatMap_cons]
    cases k with
    | zero =>
      rw [List.getElem?_append_left (by simp)]
      simp only [Nat.zero_mul, Nat.zero_add]
      rw [Pix.getElem?_toList p hc]; rfl
    | succ k =>
      rw [List.getElem?_append_right (by simp [Nat.succ_mul]; omega)]
      have : (k + 1) * ch + c.val - p.toList.length = k * ch + c.val := by
        simp [Nat.succ_mul]; omega
      rw [this, ih k]; rfl

@[simp] theorem length_flat (ps : List (Pix α ch)) :
    (ps.flatMap Pix.toList).length = ps.length * ch := by
  induction ps with
  | nil => simp
  | cons p ps ih => rw [List.flatMap_cons, List.length_append, ih]; simp [Nat.succ_mul]; omega

/-- Overwriting all pixels. -/
theorem setPixels_spec {b : ImageBuffer α ch} (hb : b.Inv) {ps : List (Pix α ch)}
    (hl : ps.length = b.width * b.height) :
    (b.setPixels ps).Inv ∧ (b.setPixels ps).width = b.width ∧ (b.setPixels ps).height = b.height ∧
      (b.setPixels ps).data.length = b.data.length ∧
      ∀ x y p, x < b.width → y < b.height → ps[y * b.width + x]? = some p →
        (b.setPixels ps).getPixel x y = .ok p := by
  have hle : 0 + (ps.flatMap Pix.toList).length ≤ b.data.length := by
    rw [Nat.zero_add, length_flat, hl]; exact hb.fits
  have hlen : (b.setPixels ps).data.length = b.data.length := length_overwrite hle
  have hInv : (b.setPixels ps).Inv :=
    ⟨hb.w32, hb.h32, by rw [hlen]; exact hb.len64, by rw [hlen]; exact hb.fits⟩
  refine ⟨hInv, rfl, rfl, hlen, ?_⟩
  intro x y p hx hy hp
  rw [getPixel_eq_ok hInv hx hy]
  intro c
  show (overwrite b.data 0 (ps.flatMap Pix.toList))[(y * b.width + x) * ch + c.val]? = _
  have hk := chunk_end_le (ch := ch) (idx_lt hx hy)
  rw [getElem?_overwrite hle, if_neg (by omega), if_pos (by rw [length_flat, hl]; omega), Nat.sub_zero,
    getElem?_flat, hp]; rfl

theorem new_ok {z : α} {w h : Nat} (hc : ch < 256) (hw : w < 2 ^ 32)
    (hs : w * h * ch < 2 ^ 64) : new ch z w h = .ok ⟨w, h, List.replicate (w * h * ch) z⟩ := by
  unfold new
  rw [imageBufferLen_eq hc hw, if_pos hs]; rfl

theorem new_inv {z : α} {w h : Nat} (hw : w < 2 ^ 32) (hh : h < 2 ^ 32)
    (hs : w * h * ch < 2 ^ 64) :
    (⟨w, h, List.replicate (w * h * ch) z⟩ : ImageBuffer α ch).Inv :=
  ⟨hw, hh, by simpa using hs, by simp⟩

/-- The rows are the pixels of each line. -/
theorem rows_ok {b : ImageBuffer α ch} (hb : b.Inv) (h0 : 0 < ch) (hc : ch < 256)
    (hw : 0 < b.width) :
    ∃ rs, b.rows = .ok rs ∧ rs.length = b.height ∧
      ∀ y, y < b.height → ∃ r, rs[y]? = some r ∧ r.length = b.width ∧
        ∀ x, x < b.width → ∃ p, r[x]? = some p ∧ b.getPixel x y = .ok p := by
  have h1 := hb.fits
  have h2 := hb.len64
  have hw32 := hb.w32
  have hrl : b.width * ch < 2 ^ 64 := by
    calc b.width * ch ≤ b.width * 256 := Nat.mul_le_mul_left _ (by omega)
      _ < 2 ^ 64 := by omega
  have hr0 : 0 < b.width * ch := Nat.mul_pos hw h0
  have hn : b.width * ch * b.height = b.width * b.height * ch := by
    rw [Nat.mul_assoc, Nat.mul_comm ch, Nat.mul_assoc]
  unfold rows
  rw [mulC_ok hrl]; simp only [ok_bind]
  rw [if_neg (by omega), mulC_ok (by rw [hn]; omega)]; simp only [ok_bind]
  rw [if_pos (by rw [hn]; exact h1)]
  generalize hW : b.width * ch = W at *
  have hWh : W * b.height ≤ b.data.length := by rw [hn]; exact h1
  have hdiv : (b.data.take (W * b.height)).length / W = b.height := by
    rw [List.length_take, Nat.min_eq_left hWh, Nat.mul_comm, Nat.mul_div_cancel _ hr0]
  -- one row
  have hrow : ∀ y, y < b.height → ∀ l,
      (chunksExact W (b.data.take (W * b.height)))[y]? = some l →
      ∃ r, (chunksExact ch l).mapM (fromSlice ch) = .ok r ∧ r.length = b.width ∧
        ∀ x, x < b.width → ∃ p, r[x]? = some p ∧ b.getPixel x y = .ok p := by
    intro y hy l hl
    have hye : y * W + W ≤ W * b.height := by
      rw [Nat.mul_comm W]; exact chunk_end_le hy
    rw [getElem?_chunksExact (by rw [hdiv]; exact hy)] at hl
    have hll : l.length = W := by cases hl; simp; omega
    have hle : ∀ i, i < W → l[i]? = b.data[y * W + i]? := by
      intro i hi; cases hl
      rw [List.getElem?_take, if_pos hi, List.getElem?_drop, List.getElem?_take, if_pos (by omega)]
    have hdl : l.length / ch = b.width := by rw [hll, ← hW, Nat.mul_div_cancel _ h0]
    have hpix : ∀ x, x < b.width → ∀ q, (chunksExact ch l)[x]? = some q →
        q.length = ch ∧ ∀ c, c < ch → q[c]? = b.data[(y * b.width + x) * ch + c]? := by
      intro x hx q hq
      have hxe : x * ch + ch ≤ W := by rw [← hW]; exact chunk_end_le hx
      rw [getElem?_chunksExact (by rw [hdl]; exact hx)] at hq
      cases hq
      refine ⟨by simp; omega, fun c hc' => ?_⟩
      rw [List.getElem?_take, if_pos hc', List.getElem?_drop, hle _ (by omega)]
      congr 1
      rw [← hW, Nat.add_mul, Nat.mul_assoc, Nat.add_assoc]
    obtain ⟨r, he, hrl', hg⟩ := mapM_ok (f := fromSlice ch) (l := chunksExact ch l) (by
      intro q hq
      obtain ⟨k, hk, hkl⟩ := List.mem_iff_getElem.1 hq
      have := (hpix k (by rw [length_chunksExact] at hk; omega) q (by rw [← hkl]; simp)).1
      exact ⟨_, dif_pos this⟩)
    rw [length_chunksExact, hdl] at hrl'
    refine ⟨r, he, hrl', fun x hx => ⟨r[x], by simp, ?_⟩⟩
    have h3 := hg x (by rw [length_chunksExact]; omega) (by omega)
    rw [fromSlice_eq_ok] at h3
    rw [getPixel_eq_ok hb hx hy]
    intro c
    rw [← h3.2 c]
    exact ((hpix _ hx _ (by simp)).2 c c.isLt).symm
  obtain ⟨rs, he, hl, hg⟩ := mapM_ok (f := fun row => (chunksExact ch row).mapM (fromSlice ch))
    (l := chunksExact W (b.data.take (W * b.height))) (by
      intro l hl
      obtain ⟨k, hk, hkl⟩ := List.mem_iff_getElem.1 hl
      obtain ⟨r, hr, -⟩ := hrow k (by rw [length_chunksExact] at hk; omega) l (by rw [← hkl]; simp)
      exact ⟨r, hr⟩)
  rw [length_chunksExact, hdiv] at hl
  refine ⟨rs, he, hl, fun y hy => ⟨rs[y], by simp, ?_⟩⟩
  have h3 := hg y (by rw [length_chunksExact]; omega) (by omega)
  obtain ⟨r, hr, hr2⟩ := hrow y hy _ (List.getElem?_eq_getElem (by rw [length_chunksExact]; omega))
  rw [h3] at hr; cases hr
  exact hr2

end ImageBuffer
end Verif
