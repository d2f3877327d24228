import Verif.Proofs.BmpRows
import Verif.Props.BmpTotal
import Verif.Spec.Bmp

/-!
# BMP: the pixels that the decoder produces
-/

namespace Verif
namespace Bmp

open BmpSpec (inRow)

theorem rows_flat (s : List UInt8) (k : Nat) : ∀ h : Nat, (List.range h).flatMap (fun i => (s.drop (i * k)).take k) = s.take (h * k) := by
  intro h
  induction h with
  | zero => simp
  | succ h ih => rw [List.range_succ, List.flatMap_append, ih, Nat.add_mul, Nat.one_mul, List.take_add]; simp

theorem reverse_rows {β : Type} (g : Nat → β) (h : Nat) : ((List.range h).map fun y => g (h - 1 - y)).reverse = (List.range h).map g := by
  apply List.ext_getElem
  · simp
  · intro i h1 h2
    simp only [List.length_reverse, List.length_map, List.length_range] at h1
    rw [List.getElem_reverse]
    simp only [List.getElem_map, List.getElem_range, List.length_map, List.length_range]
    congr 1
    omega

/-- The row loop on the data of all the rows. -/
theorem withRows_file {f : List UInt8 → List UInt8 → R (List UInt8 × List UInt8)} {w h c k : Nat}
    (hw : 1 ≤ w ∧ w ≤ 65535) (hh : h < 2 ^ 31) (hc : 1 ≤ c ∧ c ≤ 4) {buf : List UInt8} (hb : buf.length = w * h * c)
    (o : List UInt8 → List UInt8)
    (hf : ∀ b row t : List UInt8, b.length = k → row.length = w * c → f row (b ++ t) = .ok (o b, t)) (td : Bool) {s : List UInt8}
    (hs : h * k ≤ s.length) :
    withRows buf w h c td f s = .ok ((List.range h).flatMap fun y => o ((s.drop ((if td then y else h - 1 - y) * k)).take k), s.drop (h * k)) := by
  have hlen : ∀ i, i < h → ((s.drop (i * k)).take k).length = k := by
    intro i hi
    have : (i + 1) * k ≤ h * k := Nat.mul_le_mul_right k hi
    rw [Nat.add_mul] at this
    rw [List.length_take, List.length_drop]
    omega
  have hidx : ∀ y, y < h → (if td then y else h - 1 - y) < h := by intro y hy; split <;> omega
  have K := withRows_chain (f := f) hw hh hc hb id o (s.drop (h * k))
    ((List.range h).map fun y => (s.drop ((if td then y else h - 1 - y) * k)).take k) (by simp) (by
      intro x hx row t hrow
      obtain ⟨y, hy, rfl⟩ := List.mem_map.1 hx
      exact hf _ row t (hlen _ (hidx y (by simpa using hy))) hrow)
  have hsplit : s = (List.range h).flatMap (fun i => (s.drop (i * k)).take k) ++ s.drop (h * k) := by
    rw [rows_flat, List.take_append_drop]
  cases td with
  | true =>
    have K2 := K.2
    simp only [if_true] at K2 ⊢
    rw [List.flatMap_map, List.flatMap_map] at K2
    rw [show (List.flatMap (fun a => id (List.take k (List.drop (a * k) s))) (List.range h) ++ List.drop (h * k) s) = s from hsplit.symm] at K2
    exact K2
  | false =>
    have K1 := K.1
    simp only [Bool.false_eq_true, if_false] at K1 ⊢
    rw [reverse_rows (fun y => (s.drop (y * k)).take k) h, List.flatMap_map, List.flatMap_map] at K1
    rw [show (List.flatMap (fun a => id (List.take k (List.drop (a * k) s))) (List.range h) ++ List.drop (h * k) s) = s from hsplit.symm] at K1
    exact K1

/-- The pixels of a row. -/
def rowPixels (bits w : Nat) (pix : Nat → List UInt8) (b : List UInt8) : List UInt8 := (List.range w).flatMap fun x => pix (inRow bits b x)

/-- The pixel loop on the data of all the pixels. -/
theorem pixelLoop_file {f : List UInt8 → List UInt8 → R (List UInt8)} {n c w : Nat} (hn : 1 ≤ n) {pix : Nat → List UInt8}
    (hf : ∀ b p : List UInt8, b.length = n → p.length = c → f b p = .ok (pix (leNat b))) {ps : List (List UInt8)}
    (hps : ∀ p ∈ ps, p.length = c) (hw : ps.length = w) {b t : List UInt8} (hb : w * n ≤ b.length) :
    pixelLoop n f ps (b ++ t) = .ok (rowPixels (8 * n) w pix b, b.drop (w * n) ++ t) := by
  have K := pixelLoop_chain (f := f) (n := n) (c := c) (fun x => (b.drop (x * n)).take n) (fun x => pix (leNat ((b.drop (x * n)).take n)))
    (b.drop (w * n) ++ t) (List.range w) ps hps (by simp [hw]) (by
      intro x hx
      have hx' : x < w := by simpa using hx
      have : (x + 1) * n ≤ w * n := Nat.mul_le_mul_right n hx'
      rw [Nat.add_mul] at this
      have hl : ((b.drop (x * n)).take n).length = n := by rw [List.length_take, List.length_drop]; omega
      exact ⟨hl, fun p hp => hf _ p hl hp⟩)
  rw [rows_flat, ← List.append_assoc, List.take_append_drop] at K
  rw [K]
  congr 3
  funext x
  unfold inRow
  rw [if_neg (by omega), Nat.mul_div_cancel_left n (by omega)]

/-! ## Palette images -/

theorem getElem?_flatMapC {β : Type} {n : Nat} (hn : 0 < n) {g : UInt8 → List β} (hg : ∀ i, (g i).length = n) : ∀ (b : List UInt8) (x : Nat),
    x < n * b.length → (b.flatMap g)[x]? = (g (b.getD (x / n) 0))[x % n]? := by
  intro b
  induction b with
  | nil => intro x hx; simp at hx
  | cons i b ih =>
    intro x hx
    rw [List.flatMap_cons]
    by_cases h : x < n
    · rw [List.getElem?_append_left (by rw [hg]; exact h), Nat.div_eq_of_lt h, Nat.mod_eq_of_lt h]; rfl
    · rw [List.length_cons, Nat.mul_add, Nat.mul_one] at hx
      rw [List.getElem?_append_right (by rw [hg]; omega), hg, ih (x - n) (by omega)]
      obtain ⟨y, rfl⟩ : ∃ y, x = y + n := ⟨x - n, by omega⟩
      rw [Nat.add_sub_cancel, Nat.add_div_right _ hn, Nat.add_mod_right]
      rfl

theorem indices_eq {b : List UInt8} {bc w : Nat} (hbc : bc = 1 ∨ bc = 2 ∨ bc = 4 ∨ bc = 8) (hl : w * bc ≤ 8 * b.length) :
    (if bc = 1 then indices1 b else if bc = 2 then indices2 b else if bc = 4 then indices4 b else indices8 b).take w =
      (List.range w).map (inRow bc b) := by
  apply List.ext_getElem?
  intro x
  rw [List.getElem?_take, List.getElem?_map]
  by_cases hx : x < w
  · rw [if_pos hx, List.getElem?_range hx, Option.map_some]
    have hmul : x * bc + bc ≤ w * bc := by
      have := Nat.mul_le_mul_right bc (show x + 1 ≤ w by omega)
      rwa [Nat.add_mul, Nat.one_mul] at this
    unfold inRow
    rcases hbc with rfl | rfl | rfl | rfl
    · rw [if_pos rfl, if_pos (by decide)]
      unfold indices1
      rw [getElem?_flatMapC (n := 8) (by decide) (by intro i; simp) b x (by omega), Nat.mul_one]
      have := Nat.mod_lt x (show 8 > 0 by decide)
      rw [List.getElem?_map, List.getElem?_range this, Option.map_some]
    · rw [if_neg (by decide), if_pos rfl, if_pos (by decide)]
      unfold indices2
      rw [getElem?_flatMapC (n := 4) (by decide) (by intro i; rfl) b x (by omega)]
      rw [show x * 2 / 8 = x / 4 by omega, show x * 2 % 8 = x % 4 * 2 by omega]
      generalize b.getD (x / 4) 0 = i
      have := Nat.mod_lt x (show 4 > 0 by decide)
      rcases (show x % 4 = 0 ∨ x % 4 = 1 ∨ x % 4 = 2 ∨ x % 4 = 3 by omega) with h | h | h | h <;> rw [h] <;> simp
    · rw [if_neg (by decide), if_neg (by decide), if_pos rfl, if_pos (by decide)]
      unfold indices4
      rw [getElem?_flatMapC (n := 2) (by decide) (by intro i; rfl) b x (by omega)]
      rw [show x * 4 / 8 = x / 2 by omega, show x * 4 % 8 = x % 2 * 4 by omega]
      generalize b.getD (x / 2) 0 = i
      have hi := i.toNat_lt
      rcases (show x % 2 = 0 ∨ x % 2 = 1 by omega) with h | h <;> rw [h] <;> (simp; try omega)
    · rw [if_neg (by decide), if_neg (by decide), if_neg (by decide), if_neg (by decide)]
      unfold indices8
      have hxl : x < b.length := by omega
      rw [List.getElem?_map, List.getElem?_eq_getElem hxl, Option.map_some]
      rw [show 8 / 8 = 1 from rfl, Nat.mul_one, List.drop_eq_getElem_cons hxl, List.take_succ_cons, List.take_zero]
      rfl
  · rw [if_neg hx, List.getElem?_eq_none (by simp; omega)]; rfl

/-- The row of a palette image. -/
theorem paletteRow_file {d : Decoder} {pal : List Rgb} (hp : pal.length = 256) (hi : d.indexedColor = false) (hc : d.channels = 3)
    (hbc : d.bitCount = 1 ∨ d.bitCount = 2 ∨ d.bitCount = 4 ∨ d.bitCount = 8) {k : Nat} (hk : k = (d.bitCount * d.width + 31) / 32 * 4)
    {b row t : List UInt8} (hb : b.length = k) (hrow : row.length = d.width * 3) :
    paletteRow d pal k row (b ++ t) = .ok (rowPixels d.bitCount d.width (fun v => rgbBytes (lookup pal v)) b, t) := by
  have hl : d.width * d.bitCount ≤ 8 * b.length := by rw [hb, hk, Nat.mul_comm]; omega
  have K := indices_eq hbc hl
  unfold paletteRow
  rw [readExact_append' hb, ok_bind]
  dsimp only
  rw [hi, hc, if_neg (by simp)]
  obtain ⟨it, e1, ⟨g1, g2⟩, g3, g4⟩ := pixels_ok (c := 3) (by decide) hrow
  rw [e1, ok_bind]
  rw [g3, List.nil_append] at g1 g2
  have fin : ∀ is : List Nat, (∀ i ∈ is, i < 256) → is.take d.width = (List.range d.width).map (inRow d.bitCount b) →
      ∃ r, setRun pal is it = .ok r ∧ r.2.bytes = rowPixels d.bitCount d.width (fun v => rgbBytes (lookup pal v)) b := by
    intro is his heq
    have hlen : d.width ≤ is.length := by
      have := congrArg List.length heq
      rw [List.length_take, List.length_map, List.length_range] at this
      omega
    rw [setRun_done is it (by rw [hp]; exact his) g1]
    refine ⟨_, rfl, ?_⟩
    dsimp only
    rw [g2, heq, List.drop_of_length_le (by omega), g3, List.nil_append]
    unfold PixIter.bytes rowPixels
    rw [List.append_nil, List.map_map, List.flatMap_def]
    rfl
  obtain ⟨l8, l4, l2, l1⟩ := indices_lt b
  have tk : ∀ {is : List Nat}, (∀ i ∈ is, i < 256) → ∀ i ∈ is.take d.width, i < 256 := fun h i hi => h i (List.mem_of_mem_take hi)
  rcases hbc with h | h | h | h <;> rw [h] at K ⊢
  · rw [if_pos rfl]
    rw [if_pos rfl] at K
    obtain ⟨r, r1, r2⟩ := fin _ l1 (by rw [h]; exact K)
    rw [r1, ok_bind, ← h, ← r2]
  · rw [if_neg (by decide), if_pos rfl]
    rw [if_neg (by decide), if_pos rfl] at K
    obtain ⟨r, r1, r2⟩ := fin _ (tk l2) (by rw [h, List.take_take, Nat.min_self]; exact K)
    rw [r1, ok_bind, ← h, ← r2]
  · rw [if_neg (by decide), if_neg (by decide), if_pos rfl]
    rw [if_neg (by decide), if_neg (by decide), if_pos rfl] at K
    obtain ⟨r, r1, r2⟩ := fin _ (tk l4) (by rw [h, List.take_take, Nat.min_self]; exact K)
    rw [r1, ok_bind, ← h, ← r2]
  · rw [if_neg (by decide), if_neg (by decide), if_neg (by decide), if_pos rfl]
    rw [if_neg (by decide), if_neg (by decide), if_neg (by decide)] at K
    obtain ⟨r, r1, r2⟩ := fin _ (tk l8) (by rw [h, List.take_take, Nat.min_self]; exact K)
    rw [r1, ok_bind, ← h, ← r2]

/-! ## Pixels of whole bytes -/

/-- The sample of a bit field. -/
def sampleOf (g : Bitfield) (v : Nat) : UInt8 := match g.read v with | .ok b => b | .error _ => 0

/-- The samples of a pixel of bit fields. -/
def fieldSamples (f : Bitfields) (c v : Nat) : List UInt8 :=
  if c = 4 then [sampleOf f.r v, sampleOf f.g v, sampleOf f.b v, if f.a.len ≠ 0 then sampleOf f.a v else 255]
  else [sampleOf f.r v, sampleOf f.g v, sampleOf f.b v]

theorem sampleOf_ok {g : Bitfield} {v : Nat} {b : UInt8} (h : g.read v = .ok b) : sampleOf g v = b := by unfold sampleOf; rw [h]

theorem fieldsPixel_eq {f : Bitfields} (hf : f.Good) {c : Nat} (hc : c = 3 ∨ c = 4) (v : Nat) {p : List UInt8} (hp : p.length = c) :
    fieldsPixel f c v p = .ok (fieldSamples f c v) := by
  obtain ⟨g1, g2, g3, g4⟩ := hf
  obtain ⟨r, e1⟩ := read_ok g1 v
  obtain ⟨g, e2⟩ := read_ok g2 v
  obtain ⟨b, e3⟩ := read_ok g3 v
  unfold fieldsPixel fieldSamples
  rw [e1, e2, e3, ok_bind, ok_bind, ok_bind, sampleOf_ok e1, sampleOf_ok e2, sampleOf_ok e3]
  rcases hc with rfl | rfl
  · match p, hp with
    | [x, y, z], _ => rfl
  · match p, hp with
    | [x, y, z, t], _ =>
      by_cases h : f.a.len ≠ 0
      · obtain ⟨a, e4⟩ := read_ok (f := f.a) ⟨by omega, g4⟩ v
        rw [if_pos h, if_pos h, e4, sampleOf_ok e4]
        rfl
      · rw [if_neg h, if_neg h]; rfl

/-- The samples of a pixel of whole bytes. -/
def fullSamples (fmt : FullFormat) (v : Nat) : List UInt8 :=
  match fmt with
  | .RGB24 | .RGB32 => [UInt8.ofNat (v / 2 ^ 16), UInt8.ofNat (v / 2 ^ 8), UInt8.ofNat v]
  | .RGBA32 => [UInt8.ofNat (v / 2 ^ 16), UInt8.ofNat (v / 2 ^ 8), UInt8.ofNat v, UInt8.ofNat (v / 2 ^ 24)]
  | .Format888 => [UInt8.ofNat (v / 2 ^ 24), UInt8.ofNat (v / 2 ^ 16), UInt8.ofNat (v / 2 ^ 8)]

theorem u8_of (b : UInt8) (x : Nat) : UInt8.ofNat (b.toNat + 256 * x) = b := by
  apply UInt8.toNat_inj.1
  rw [UInt8.toNat_ofNat', Nat.add_mul_mod_self_left]
  exact Nat.mod_eq_of_lt b.toNat_lt

theorem u8_div (b : UInt8) (x n : Nat) : (b.toNat + 256 * x) / 2 ^ (8 + n) = x / 2 ^ n := by
  rw [Nat.pow_add, ← Nat.div_div_eq_div_mul]
  congr 1
  have := b.toNat_lt
  omega

theorem fullPixel_eq {fmt : FullFormat} {c : Nat} (hc : c = if fmt = .RGBA32 then 4 else 3) {b p : List UInt8} (hb : b.length = fmt.size)
    (hp : p.length = c) : fullPixel fmt c b p = .ok (fullSamples fmt (leNat b)) := by
  have e3 : ∀ b0 b1 b2 : UInt8, leNat [b0, b1, b2] = b0.toNat + 256 * (b1.toNat + 256 * (b2.toNat + 256 * 0)) := fun _ _ _ => rfl
  have e4 : ∀ b0 b1 b2 b3 : UInt8, leNat [b0, b1, b2, b3] = b0.toNat + 256 * (b1.toNat + 256 * (b2.toNat + 256 * (b3.toNat + 256 * 0))) :=
    fun _ _ _ _ => rfl
  cases fmt with
  | RGB24 =>
    match b, hb, p, hc ▸ hp with
    | [b0, b1, b2], _, [x, y, z], _ =>
      subst hc
      unfold fullSamples
      dsimp only
      rw [e3, show 16 = 8 + 8 from rfl, u8_div, show 8 = 8 + 0 from rfl, u8_div, u8_div, Nat.pow_zero, Nat.div_one, Nat.div_one, u8_of, u8_of, u8_of]
      rfl
  | RGB32 =>
    match b, hb, p, hc ▸ hp with
    | [b0, b1, b2, b3], _, [x, y, z], _ =>
      subst hc
      unfold fullSamples
      dsimp only
      rw [e4, show 16 = 8 + 8 from rfl, u8_div, show 8 = 8 + 0 from rfl, u8_div, u8_div, Nat.pow_zero, Nat.div_one, Nat.div_one, u8_of, u8_of, u8_of]
      rfl
  | RGBA32 =>
    match b, hb, p, hc ▸ hp with
    | [b0, b1, b2, b3], _, [x, y, z, t], _ =>
      subst hc
      unfold fullSamples
      dsimp only
      rw [e4, show 24 = 8 + (8 + 8) from rfl, u8_div, u8_div, show 16 = 8 + 8 from rfl, u8_div, show 8 = 8 + 0 from rfl, u8_div, u8_div, u8_div, Nat.pow_zero,
        Nat.div_one, Nat.div_one, Nat.div_one, u8_of, u8_of, u8_of, u8_of]
      rfl
  | Format888 =>
    match b, hb, p, hc ▸ hp with
    | [b0, b1, b2, b3], _, [x, y, z], _ =>
      subst hc
      unfold fullSamples
      dsimp only
      rw [e4, show 24 = 8 + (8 + 8) from rfl, u8_div, u8_div, show 16 = 8 + 8 from rfl, u8_div, show 8 = 8 + 0 from rfl, u8_div, u8_div, u8_div, Nat.pow_zero,
        Nat.div_one, Nat.div_one, Nat.div_one, u8_of, u8_of, u8_of]
      rfl

/-! ## All the image types -/

/-- The channels of an image that is not read for an icon. -/
structure Plain (d : Decoder) : Prop where
  good : d.Good
  type : d.imageType ≠ .RLE4 ∧ d.imageType ≠ .RLE8 ∧ d.imageType ≠ .RGBA32
  rgb16 : d.imageType = .RGB16 → d.bitCount = 16 ∧ d.channels = 3
  rgb24 : d.imageType = .RGB24 → d.bitCount = 24 ∧ d.channels = 3
  rgb32 : d.imageType = .RGB32 → d.bitCount = 32 ∧ d.channels = 3
  pal : d.imageType = .Palette → d.channels = 3
  fields16 : d.imageType = .Bitfields16 → d.bitCount = 16
  fields32 : d.imageType = .Bitfields32 → d.bitCount = 32
  fields : d.imageType = .Bitfields16 ∨ d.imageType = .Bitfields32 → ∀ f, d.bitfields = some f → d.channels = if f.a.len ≠ 0 then 4 else 3

/-- The samples of a pixel. -/
def pixOf (d : Decoder) (v : Nat) : List UInt8 :=
  match d.imageType with
  | .Palette => rgbBytes (lookup (d.palette.getD []) v)
  | .RGB16 => fieldSamples mask555 3 v
  | .RGB24 | .RGB32 => [UInt8.ofNat (v / 2 ^ 16), UInt8.ofNat (v / 2 ^ 8), UInt8.ofNat v]
  | .Bitfields16 | .Bitfields32 => match d.bitfields with
    | some f => fieldSamples f d.channels v
    | none => []
  | _ => []

/-- The bytes of row `y` from the top, `k` bytes each, of the pixel data `s`. -/
def rowBytesAt (d : Decoder) (k : Nat) (y : Nat) : List UInt8 :=
  ((d.reader.bytes.drop d.dataOffset).drop ((if d.topDown then y else d.height - 1 - y) * k)).take k

theorem read8 (s v : Nat) : Bitfield.read ⟨s, 8⟩ v = .ok (UInt8.ofNat (v / 2 ^ s)) := by
  show (Except.ok (UInt8.ofNat (v / 2 ^ s % 256)) : R UInt8) = _
  congr 1
  apply UInt8.toNat_inj.1
  rw [UInt8.toNat_ofNat', UInt8.toNat_ofNat']
  simp

theorem mask888_samples (v : Nat) : fieldSamples mask888 3 v = fullSamples .Format888 v := by
  unfold fieldSamples mask888 fullSamples
  rw [if_neg (by decide), sampleOf_ok (read8 24 v), sampleOf_ok (read8 16 v), sampleOf_ok (read8 8 v)]

theorem mask8888_samples (v : Nat) : fieldSamples mask8888 4 v = fullSamples .RGBA32 v := by
  unfold fieldSamples mask8888 fullSamples
  dsimp only
  rw [if_pos rfl, if_pos (by decide), sampleOf_ok (read8 24 v), sampleOf_ok (read8 16 v), sampleOf_ok (read8 8 v), sampleOf_ok (read8 0 v)]
  simp

theorem mask555_good : mask555.Good := by unfold mask555 Bitfields.Good Bitfield.Good; decide

theorem read16_file {d : Decoder} (hw : 1 ≤ d.width ∧ d.width ≤ 65535) (hh : d.height < 2 ^ 31) {f : Bitfields} (hf : f.Good)
    (hc : d.channels = 3 ∨ d.channels = 4) {k : Nat} (hk : k = (16 * d.width + 31) / 32 * 4) {buf : List UInt8}
    (hb : buf.length = d.width * d.height * d.channels) (hs : d.height * k ≤ (d.reader.bytes.drop d.dataOffset).length) :
    read16 d f buf = .ok ((List.range d.height).flatMap fun y => rowPixels 16 d.width (fieldSamples f d.channels) (rowBytesAt d k y)) := by
  unfold read16
  dsimp only
  rw [withRows_file hw hh (by omega) hb (k := k) (rowPixels 16 d.width (fieldSamples f d.channels)) (by
    intro b row t hbl hrow
    obtain ⟨it, e1, ⟨g1, g2⟩, g3, g4⟩ := pixels_ok (c := d.channels) (by omega) hrow
    rw [g3, List.nil_append] at g1 g2
    rw [e1, ok_bind, pixelLoop_file (n := 2) (by decide) (pix := fieldSamples f d.channels) (fun b p _ hp => fieldsPixel_eq hf hc _ hp) g1 g2
      (show d.width * 2 ≤ b.length by omega), ok_bind]
    dsimp only
    rw [readExact_append' (show (b.drop (d.width * 2)).length = d.width % 2 * 2 by rw [List.length_drop]; omega), ok_bind]) d.topDown hs, ok_bind]
  rfl

theorem read32_file {d : Decoder} (hw : 1 ≤ d.width ∧ d.width ≤ 65535) (hh : d.height < 2 ^ 31) {f : Bitfields} (hf : f.Good)
    (hc : d.channels = 3 ∨ d.channels = 4) {k : Nat} (hk : k = (32 * d.width + 31) / 32 * 4) {buf : List UInt8}
    (hb : buf.length = d.width * d.height * d.channels) (hs : d.height * k ≤ (d.reader.bytes.drop d.dataOffset).length) :
    read32 d f buf = .ok ((List.range d.height).flatMap fun y => rowPixels 32 d.width (fieldSamples f d.channels) (rowBytesAt d k y)) := by
  unfold read32
  dsimp only
  rw [withRows_file hw hh (by omega) hb (k := k) (rowPixels 32 d.width (fieldSamples f d.channels)) (by
    intro b row t hbl hrow
    obtain ⟨it, e1, ⟨g1, g2⟩, g3, g4⟩ := pixels_ok (c := d.channels) (by omega) hrow
    rw [g3, List.nil_append] at g1 g2
    rw [e1, ok_bind, pixelLoop_file (n := 4) (by decide) (pix := fieldSamples f d.channels) (fun b p _ hp => fieldsPixel_eq hf hc _ hp) g1 g2
      (show d.width * 4 ≤ b.length by omega), List.drop_of_length_le (by omega), List.nil_append]) d.topDown hs, ok_bind]
  rfl

theorem readFull_file {d : Decoder} (hw : 1 ≤ d.width ∧ d.width ≤ 65535) (hh : d.height < 2 ^ 31) {fmt : FullFormat}
    (hc : d.channels = if fmt = .RGBA32 then 4 else 3) {k : Nat} (hk : k = (8 * fmt.size * d.width + 31) / 32 * 4) {buf : List UInt8}
    (hb : buf.length = d.width * d.height * d.channels) (hs : d.height * k ≤ (d.reader.bytes.drop d.dataOffset).length) :
    readFull d fmt buf = .ok ((List.range d.height).flatMap fun y => rowPixels (8 * fmt.size) d.width (fullSamples fmt) (rowBytesAt d k y)) := by
  have hc' : d.channels = 3 ∨ d.channels = 4 := by rw [hc]; split <;> simp
  unfold readFull
  dsimp only
  rw [withRows_file hw hh (by omega) hb (k := k) (rowPixels (8 * fmt.size) d.width (fullSamples fmt)) (by
    intro b row t hbl hrow
    obtain ⟨it, e1, ⟨g1, g2⟩, g3, g4⟩ := pixels_ok (c := d.channels) (by omega) hrow
    rw [g3, List.nil_append] at g1 g2
    have hsz : fmt.size = 3 ∧ fmt = .RGB24 ∨ fmt.size = 4 ∧ fmt ≠ .RGB24 := by cases fmt <;> simp [FullFormat.size]
    have hle : d.width * fmt.size ≤ b.length := by
      rw [hbl, hk]
      rcases hsz with ⟨e, -⟩ | ⟨e, -⟩ <;> rw [e] <;> omega
    rw [e1, ok_bind, pixelLoop_file (n := fmt.size) (by omega) (pix := fullSamples fmt) (fun b p hb hp => fullPixel_eq hc hb hp) g1 g2 hle, ok_bind]
    dsimp only
    rw [readExact_append' (show (b.drop (d.width * fmt.size)).length = (if fmt = .RGB24 then (4 - d.width * 3 % 4) % 4 else 0) by
      rw [List.length_drop, hbl, hk]
      rcases hsz with ⟨e, e'⟩ | ⟨e, e'⟩
      · rw [e, if_pos e']; omega
      · rw [e, if_neg e']; omega), ok_bind]) d.topDown hs, ok_bind]
  rfl

theorem readPalettized_file {d : Decoder} (hw : 1 ≤ d.width ∧ d.width ≤ 65535) (hh : d.height < 2 ^ 31) (hi : d.indexedColor = false)
    (hbc : d.bitCount = 1 ∨ d.bitCount = 2 ∨ d.bitCount = 4 ∨ d.bitCount = 8) {p : List Rgb} (hp : d.palette = some p) (hpl : p.length = 256)
    (hc : d.channels = 3) {k : Nat} (hk : k = (d.bitCount * d.width + 31) / 32 * 4) {buf : List UInt8}
    (hb : buf.length = d.width * d.height * d.channels) (hs : d.height * k ≤ (d.reader.bytes.drop d.dataOffset).length) :
    readPalettized d buf = .ok ((List.range d.height).flatMap fun y =>
      rowPixels d.bitCount d.width (fun v => rgbBytes (lookup p v)) (rowBytesAt d k y)) := by
  unfold readPalettized
  rw [hp]
  dsimp only [unwrapR]
  rw [ok_bind, if_neg (by omega), ← hk, withRows_file hw hh (by omega) hb (k := k) (rowPixels d.bitCount d.width (fun v => rgbBytes (lookup p v))) (by
    intro b row t hbl hrow
    exact paletteRow_file hpl hi hc hbc hk hbl (by rw [hrow, hc])) d.topDown hs, ok_bind]
  rfl

/-- The image data of a file with uncompressed pixels. -/
theorem readImageData_file {d : Decoder} (hd : Plain d) {k : Nat} (hk : k = (d.bitCount * d.width + 31) / 32 * 4) {buf : List UInt8}
    (hb : buf.length = d.width * d.height * d.channels) (hs : d.height * k ≤ (d.reader.bytes.drop d.dataOffset).length) :
    readImageData d buf = .ok ((List.range d.height).flatMap fun y => rowPixels d.bitCount d.width (pixOf d) (rowBytesAt d k y)) := by
  have hw := hd.good.width
  have hh := hd.good.height
  have hc := (channels_eq hd.good.indexed).2.1
  have e : pixOf d = fun v => pixOf d v := rfl
  rw [e]
  unfold readImageData pixOf
  cases hty : d.imageType with
  | Palette =>
    obtain ⟨p, hp, hpl⟩ := hd.good.palette (.inl hty)
    rw [hp]
    exact readPalettized_file hw hh hd.good.indexed (hd.good.bits hty) hp hpl (hd.pal hty) hk hb hs
  | RGB16 =>
    obtain ⟨h1, h2⟩ := hd.rgb16 hty
    have := read16_file hw hh mask555_good hc (k := k) (by rw [hk, h1]) hb hs
    dsimp only
    rw [this, h1, h2]
  | RGB24 =>
    obtain ⟨h1, h2⟩ := hd.rgb24 hty
    have := readFull_file hw hh (fmt := .RGB24) (by rw [h2]; rfl) (k := k) (by rw [hk, h1]; rfl) hb hs
    dsimp only
    rw [this, h1]; rfl
  | RGB32 =>
    obtain ⟨h1, h2⟩ := hd.rgb32 hty
    have := readFull_file hw hh (fmt := .RGB32) (by rw [h2]; rfl) (k := k) (by rw [hk, h1]; rfl) hb hs
    dsimp only
    rw [this, h1]; rfl
  | RGBA32 => exact absurd hty hd.type.2.2
  | RLE8 => exact absurd hty hd.type.2.1
  | RLE4 => exact absurd hty hd.type.1
  | Bitfields16 =>
    obtain ⟨f, hf, hfg, -⟩ := hd.good.fields (.inl hty)
    have h1 := hd.fields16 hty
    rw [hf]
    dsimp only
    rw [h1]
    exact read16_file hw hh hfg hc (by rw [hk, h1]) hb hs
  | Bitfields32 =>
    obtain ⟨f, hf, hfg, -⟩ := hd.good.fields (.inr hty)
    have h1 := hd.fields32 hty
    have hch := hd.fields (.inr hty) f hf
    rw [hf]
    dsimp only
    rw [h1]
    split
    · rename_i h
      subst h
      have hc3 : d.channels = 3 := by rw [hch]; rfl
      rw [hc3, funext mask888_samples]
      exact readFull_file hw hh (fmt := .Format888) (by rw [hc3]; rfl) (by rw [hk, h1]; rfl) hb hs
    · split
      · rename_i h
        subst h
        have hc4 : d.channels = 4 := by rw [hch]; rfl
        rw [hc4, funext mask8888_samples]
        exact readFull_file hw hh (fmt := .RGBA32) (by rw [hc4]; rfl) (by rw [hk, h1]; rfl) hb hs
      · exact read32_file hw hh hfg hc (by rw [hk, h1]) hb hs

end Bmp
end Verif
