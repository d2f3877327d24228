import Verif.Model.Utils
import Verif.Proofs.Buffer

/-!
# Packed samples and palettes (C35, C36)
-/

namespace Verif
open ImageBuffer

/-! ## Helpers -/

theorem utils_forList_append {σ β : Type} (a b : List β) (f : β → σ → R σ) (s : σ) :
    forList (a ++ b) f s = (forList a f s >>= forList b f) := by
  induction a generalizing s with
  | nil => rfl
  | cons x a ih =>
    simp only [List.cons_append, forList]
    cases f x s with
    | error e => rfl
    | ok s' => simp only [ok_bind, ih]

theorem forList_map_range {σ β : Type} (n : Nat) (g : Nat → β) (f : β → σ → R σ) (s : σ) :
    forList ((List.range n).map g) f s = forRange n (fun k => f (g k)) s := by
  induction n generalizing s with
  | zero => rfl
  | succ n ih =>
    rw [List.range_succ, List.map_append, utils_forList_append, ih, forRange_succ]
    congr 1; funext s
    simp only [List.map_cons, List.map_nil, forList]
    cases f (g n) s <;> rfl

/-! ## C35 -/

/-- Specification: the sample number `x` of a packed row of bytes, most significant bits first. -/
def packedSample (bits : Nat) (row : List UInt8) (x : Nat) : Option Nat :=
  (row[x * bits / 8]?).map fun b => b.toNat / 2 ^ (8 - bits - x * bits % 8) % 2 ^ bits

/-- Bytes in a packed row that starts at a byte boundary. -/
def packedRowBytes (bits rowSize : Nat) : Nat := (rowSize * bits + 7) / 8

theorem extract_bits : ∀ (v : Fin 256) (p : Fin 14),
    let bk := [(1,0),(1,1),(1,2),(1,3),(1,4),(1,5),(1,6),(1,7),(2,0),(2,1),(2,2),(2,3),(4,0),(4,1)][p]
    ((UInt8.ofNat v.val &&& (((1 <<< UInt8.ofNat bk.1) - 1) <<< UInt8.ofNat (8 - bk.1 * (bk.2 + 1))))
      >>> UInt8.ofNat (8 - bk.1 * (bk.2 + 1))).toNat = v.val / 2 ^ (8 - bk.1 * (bk.2 + 1)) % 2 ^ bk.1 := by
  decide +kernel

theorem extract_bits' {bd k : Nat} (hb : bd = 1 ∨ bd = 2 ∨ bd = 4) (hk : k < 8 / bd) (v : UInt8) :
    ((v &&& (((1 <<< UInt8.ofNat bd) - 1) <<< UInt8.ofNat (8 - bd * (k + 1))))
      >>> UInt8.ofNat (8 - bd * (k + 1))).toNat = v.toNat / 2 ^ (8 - bd * (k + 1)) % 2 ^ bd := by
  have h := extract_bits ⟨v.toNat, v.toNat_lt⟩
  simp only [UInt8.ofNat_toNat] at h
  rcases hb with rfl | rfl | rfl
  · have : k < 8 := by omega
    match k, this with
    | 0, _ => exact h 0 | 1, _ => exact h 1 | 2, _ => exact h 2 | 3, _ => exact h 3
    | 4, _ => exact h 4 | 5, _ => exact h 5 | 6, _ => exact h 6 | 7, _ => exact h 7
  · have : k < 4 := by omega
    match k, this with
    | 0, _ => exact h 8 | 1, _ => exact h 9 | 2, _ => exact h 10 | 3, _ => exact h 11
  · have : k < 2 := by omega
    match k, this with
    | 0, _ => exact h 12 | 1, _ => exact h 13

/-- Number of samples kept among the first `i`, when of every `L` the first `S` are kept. -/
def keptCount (S L i : Nat) : Nat := i / L * S + min (i % L) S

theorem keptCount_step {S L i : Nat} (hL : 0 < L) (hS : S ≤ L) :
    keptCount S L (i + 1) = if i % L < S then keptCount S L i + 1 else keptCount S L i := by
  unfold keptCount
  have h1 := Nat.div_add_mod i L
  have h2 := Nat.mod_lt i hL
  by_cases hc : i % L + 1 = L
  · have e : i + 1 = L * (i / L + 1) := by rw [Nat.mul_add]; omega
    have e1 : (i + 1) / L = i / L + 1 := by rw [e, Nat.mul_div_cancel_left _ hL]
    have e2 : (i + 1) % L = 0 := by rw [e, Nat.mul_mod_right]
    rw [e1, e2, Nat.add_mul]
    split <;> omega
  · have e : i + 1 = (i % L + 1) + L * (i / L) := by omega
    have e1 : (i + 1) / L = i / L := by
      rw [e, Nat.add_mul_div_left _ _ hL, Nat.div_eq_of_lt (by omega)]; omega
    have e2 : (i + 1) % L = i % L + 1 := by
      rw [e, Nat.add_mul_mod_self_left, Nat.mod_eq_of_lt (by omega)]
    rw [e1, e2]
    split <;> omega

/-- Row length in samples, padding included. -/
theorem rowLen_eq {bd S : Nat} (hb : bd = 1 ∨ bd = 2 ∨ bd = 4) :
    S + (if S * bd % 8 = 0 then 0 else (8 - S * bd % 8) / bd) = packedRowBytes bd S * (8 / bd) := by
  unfold packedRowBytes
  rcases hb with rfl | rfl | rfl <;> split <;> omega

theorem scale_fits {bd n : Nat} (hb : bd = 1 ∨ bd = 2 ∨ bd = 4) (hn : n < 2 ^ bd) :
    n * (255 / (2 ^ bd - 1)) < 2 ^ 8 := by
  rcases hb with rfl | rfl | rfl <;> omega

/-- The value written for the sample number `k` of byte `v`. -/
def scaledAt (bd : Nat) (v : UInt8) (k : Nat) : UInt8 :=
  UInt8.ofNat (v.toNat / 2 ^ (8 - bd * (k + 1)) % 2 ^ bd * (255 / (2 ^ bd - 1)))

theorem expandBitsStep_ok {bd S L k : Nat} (hb : bd = 1 ∨ bd = 2 ∨ bd = 4) (hk : k < 8 / bd) (hL : 0 < L)
    (v : UInt8) (st : List UInt8 × Nat) :
    expandBitsStep bd S L v (k + 1) st =
      .ok (if st.2 % L < S then st.1 ++ [scaledAt bd v k] else st.1, st.2 + 1) := by
  have hsub : bd * (k + 1) ≤ 8 := by
    rcases hb with rfl | rfl | rfl <;> omega
  unfold expandBitsStep
  rw [subC_ok hsub]
  have hLb : (L != 0) = true := by simp; omega
  simp only [ok_bind, hLb, assertR_true]
  split
  · rw [extract_bits' hb hk]
    have hsc : (UInt8.ofNat (255 / (2 ^ bd - 1))).toNat = 255 / (2 ^ bd - 1) := by
      rcases hb with rfl | rfl | rfl <;> rfl
    rw [hsc, mulC_ok (scale_fits hb (Nat.mod_lt _ (by rcases hb with rfl | rfl | rfl <;> omega)))]
    rfl
  · rfl

/-- Specification of the state after `i` samples. -/
structure BitsInv (bd S L : Nat) (buf : List UInt8) (i : Nat) (st : List UInt8 × Nat) : Prop where
  idx : st.2 = i
  len : st.1.length = keptCount S L i
  val : ∀ j, j < i → j % L < S → ∃ v, buf[j / (8 / bd)]? = some v ∧
    st.1[j / L * S + j % L]? = some (scaledAt bd v (j % (8 / bd)))

theorem keptCount_mono_lt {S L i j : Nat} (hS : S ≤ L) (h : j < i) (hj : j % L < S) :
    j / L * S + j % L < keptCount S L i := by
  have hL : 0 < L := by omega
  induction i with
  | zero => omega
  | succ i ih =>
    rw [keptCount_step hL hS]
    by_cases hji : j = i
    · subst hji; rw [if_pos hj]; unfold keptCount; omega
    · have := ih (by omega)
      split <;> omega

theorem expandBits_inv {bd S : Nat} {buf : List UInt8} (hb : bd = 1 ∨ bd = 2 ∨ bd = 4) (hS : 0 < S)
    (h32 : S * bd < 2 ^ 32 - 8) : ∃ st, expandBits bd S buf = .ok st ∧
      ∃ n, BitsInv bd S (packedRowBytes bd S * (8 / bd)) buf (buf.length * (8 / bd)) (st, n) := by
  have hSL := rowLen_eq (S := S) hb
  generalize hLdef : packedRowBytes bd S * (8 / bd) = L at hSL ⊢
  have hL : 0 < L := by omega
  have hper : 0 < 8 / bd := by rcases hb with rfl | rfl | rfl <;> omega
  have hfit : S + (if S * bd % 8 = 0 then 0 else (8 - S * bd % 8) / bd) < 2 ^ 32 := by
    rcases hb with rfl | rfl | rfl <;> split <;> omega
  unfold expandBits
  rw [mulC_ok (by omega)]
  simp only [ok_bind]
  rw [addC_ok hfit, hSL]
  simp only [ok_bind]
  obtain ⟨st, he, hi⟩ := forList_inv (xs := buf)
    (f := fun v st => forRange (8 / bd) (fun k st => expandBitsStep bd S L v (k + 1) st) st)
    (fun pre _ st => BitsInv bd S L buf (pre.length * (8 / bd)) st) (s := ([], 0))
    (by
      refine ⟨by simp, ?_, ?_⟩
      · simp [keptCount]
      · intro j hj; simp at hj)
    (by
      intro pre v post hpre st hst
      have := forRange_inv (n := 8 / bd) (f := fun k st => expandBitsStep bd S L v (k + 1) st)
        (fun k st => BitsInv bd S L buf (pre.length * (8 / bd) + k) st) (s := st) (by simpa using hst)
        (by
          intro k hk st hst
          refine ⟨_, expandBitsStep_ok hb hk hL v st, ?_⟩
          obtain ⟨h1, h2, h3⟩ := hst
          generalize hi : pre.length * (8 / bd) + k = i at *
          have hdiv : i / (8 / bd) = pre.length := by
            rw [← hi, Nat.mul_comm, Nat.mul_add_div hper, Nat.div_eq_of_lt hk]; omega
          have hmod : i % (8 / bd) = k := by
            rw [← hi, Nat.mul_comm, Nat.mul_add_mod, Nat.mod_eq_of_lt hk]
          have hget : buf[i / (8 / bd)]? = some v := by rw [hdiv, ← hpre]; simp
          have hi' : pre.length * (8 / bd) + (k + 1) = i + 1 := by omega
          refine ⟨by simp only [h1]; omega, ?_, ?_⟩
          · rw [hi', keptCount_step hL (by omega)]
            dsimp only
            rw [h1]
            split <;> simp [h2]
          · intro j hj hjS
            dsimp only
            rw [h1]
            by_cases hji : j = i
            · subst hji
              refine ⟨v, hget, ?_⟩
              rw [if_pos hjS, hmod]
              have : j / L * S + j % L = st.1.length := by rw [h2]; unfold keptCount; omega
              rw [this]; simp
            · obtain ⟨v', g1, g2⟩ := h3 j (by omega) hjS
              refine ⟨v', g1, ?_⟩
              split
              · rw [List.getElem?_append_left, g2]
                rw [h2]; exact keptCount_mono_lt (by omega) (by omega) hjS
              · exact g2)
      obtain ⟨st', e, i⟩ := this
      refine ⟨st', e, ?_⟩
      simpa [Nat.add_mul] using i)
  refine ⟨st.1, by rw [he]; rfl, st.2, hi⟩

/-- Expanding packed 1, 2 or 4 bit rows: every sample of every row is extracted and scaled to 0..255; padding bits
at the row ends are skipped. -/
theorem C35_expand_bits (bits : Nat) (hb : bits = 1 ∨ bits = 2 ∨ bits = 4) (rowSize rows : Nat) (hS : 0 < rowSize)
    (h32 : rowSize * bits < 2 ^ 32 - 8) (buf : List UInt8)
    (hlen : buf.length = rows * packedRowBytes bits rowSize) :
    ∃ out, expandBits bits rowSize buf = .ok out ∧ out.length = rows * rowSize ∧
      ∀ r x, r < rows → x < rowSize → ∃ s,
        packedSample bits (buf.drop (r * packedRowBytes bits rowSize)) x = some s ∧ s < 2 ^ bits ∧
        out[r * rowSize + x]? = some (UInt8.ofNat (s * (255 / (2 ^ bits - 1)))) := by
  obtain ⟨out, he, n, hi⟩ := expandBits_inv (buf := buf) hb hS h32
  have hSL := rowLen_eq (S := rowSize) hb
  have hper : 0 < 8 / bits := by rcases hb with rfl | rfl | rfl <;> omega
  have hL : 0 < packedRowBytes bits rowSize * (8 / bits) := by omega
  refine ⟨out, he, ?_, ?_⟩
  · rw [hi.len, hlen, keptCount, Nat.mul_assoc, Nat.mul_div_cancel _ hL, Nat.mul_mod_left]
    simp
  · intro r x hr hx
    have hxL : x < packedRowBytes bits rowSize * (8 / bits) := by omega
    have hj : r * (packedRowBytes bits rowSize * (8 / bits)) + x < buf.length * (8 / bits) := by
      rw [hlen, Nat.mul_assoc]
      have : (r + 1) * (packedRowBytes bits rowSize * (8 / bits)) ≤
        rows * (packedRowBytes bits rowSize * (8 / bits)) := Nat.mul_le_mul_right _ hr
      rw [Nat.add_mul] at this; omega
    have hmod : (r * (packedRowBytes bits rowSize * (8 / bits)) + x) % (packedRowBytes bits rowSize * (8 / bits)) = x := by
      rw [Nat.mul_comm, Nat.mul_add_mod, Nat.mod_eq_of_lt hxL]
    have hdiv : (r * (packedRowBytes bits rowSize * (8 / bits)) + x) / (packedRowBytes bits rowSize * (8 / bits)) = r := by
      rw [Nat.mul_comm, Nat.mul_add_div hL, Nat.div_eq_of_lt hxL]; omega
    obtain ⟨v, g1, g2⟩ := hi.val _ hj (by rw [hmod]; exact hx)
    rw [hmod, hdiv] at g2
    have hd1 : (r * (packedRowBytes bits rowSize * (8 / bits)) + x) / (8 / bits) =
        r * packedRowBytes bits rowSize + x / (8 / bits) := by
      rw [← Nat.mul_assoc, Nat.mul_comm _ (8 / bits), Nat.mul_add_div hper]
    have hd2 : (r * (packedRowBytes bits rowSize * (8 / bits)) + x) % (8 / bits) = x % (8 / bits) := by
      rw [← Nat.mul_assoc, Nat.mul_comm _ (8 / bits), Nat.mul_add_mod]
    have hxd : x / (8 / bits) = x * bits / 8 := by
      rcases hb with rfl | rfl | rfl <;> omega
    have hexp : 8 - bits * (x % (8 / bits) + 1) = 8 - bits - x * bits % 8 := by
      rcases hb with rfl | rfl | rfl <;> omega
    rw [hd1, hxd] at g1
    rw [hd2] at g2
    refine ⟨v.toNat / 2 ^ (8 - bits - x * bits % 8) % 2 ^ bits, ?_, Nat.mod_lt _ (Nat.two_pow_pos _), ?_⟩
    · unfold packedSample
      rw [List.getElem?_drop, g1]; rfl
    · rw [g2, scaledAt, hexp]

/-- The extreme samples are mapped to 0 and 255. -/
theorem C35_scaling_full_range (bits : Nat) (hb : bits = 1 ∨ bits = 2 ∨ bits = 4) :
    (2 ^ bits - 1) * (255 / (2 ^ bits - 1)) = 255 := by
  rcases hb with rfl | rfl | rfl <;> rfl

-- Non-vacuity: two rows of three 2-bit samples.
example : expandBits 2 3 [0b00011000, 0b11100100] = .ok [0, 85, 170, 255, 170, 85] := by rfl
example : [0b00011000, 0b11100100].length = 2 * packedRowBytes 2 3 := by decide

/-- With `row_size = 0` and a non-empty buffer the function divides by zero (a panic). -/
theorem C35_zero_row_panics (bits : Nat) (hb : bits = 1 ∨ bits = 2 ∨ bits = 4) (v : UInt8) (buf : List UInt8) :
    expandBits bits 0 (v :: buf) = .error .panic := by
  rcases hb with rfl | rfl | rfl <;> rfl

/-! ## C36 -/

/-- Specification: the colour of a palette index. -/
def paletteRgba (palette : List (UInt8 × UInt8 × UInt8)) (transparent : Option UInt8) (i : UInt8) :
    Option (UInt8 × UInt8 × UInt8 × UInt8) :=
  (palette[i.toNat]?).map fun (r, g, b) => (r, g, b, if transparent = some i then 0 else 255)

theorem paletteColor_ok {palette : List (UInt8 × UInt8 × UInt8)} {t : Option UInt8} {i : UInt8} {l : List UInt8}
    {r g b a : UInt8} (h : paletteRgba palette t i = some (r, g, b, a)) :
    paletteColor palette t i l = .ok [r, g, b, a] := by
  unfold paletteRgba at h
  unfold paletteColor
  cases hp : palette[i.toNat]? with
  | none => simp [hp] at h
  | some c =>
    obtain ⟨r', g', b'⟩ := c
    rw [hp] at h
    simp only [Option.map_some, Option.some.injEq, Prod.mk.injEq] at h
    obtain ⟨rfl, rfl, rfl, rfl⟩ := h
    cases t <;> simp [unwrapR]

theorem paletteColor_panic {palette : List (UInt8 × UInt8 × UInt8)} {t : Option UInt8} {i : UInt8} {l : List UInt8}
    (h : palette.length ≤ i.toNat) : paletteColor palette t i l = .error .panic := by
  unfold paletteColor
  rw [List.getElem?_eq_none h]; rfl

theorem mask8 (v : UInt8) : (v &&& (UInt8.ofNat (2 ^ 8 - 1) <<< UInt8.ofNat 0)) >>> UInt8.ofNat 0 = v := by
  have h : ∀ n : Fin 256, (UInt8.ofNat n.val &&& (UInt8.ofNat (2 ^ 8 - 1) <<< UInt8.ofNat 0)) >>> UInt8.ofNat 0 =
    UInt8.ofNat n.val := by decide +kernel
  have := h ⟨v.toNat, v.toNat_lt⟩
  simpa using this

/-- The positions visited for four channels of eight bits. -/
theorem positions_4_8 (n : Nat) :
    (packedPositions n 8 0).zip (stepBy 4 (4 * n)) =
      (List.range (n - 1)).map fun k => ((0, n - 1 - k), 4 + k * 4) := by
  unfold packedPositions stepBy
  have e : (4 * n - 4 + (4 - 1)) / 4 = n - 1 := by omega
  rw [e]
  have e2 : ((List.range n).reverse.flatMap fun idx => (List.range (8 / 8)).map fun i => (i * 8, idx)) =
      (List.range n).reverse.map fun idx => (0, idx) := by
    rw [List.flatMap_def, show (fun idx => List.map (fun i => (i * 8, idx)) (List.range (8 / 8))) =
      fun idx : Nat => [(0, idx)] by funext idx; rfl]
    rw [← List.flatMap_def]
    induction (List.range n).reverse with
    | nil => rfl
    | cons a l ih => simp [ih]
  rw [e2, List.drop_zero]
  apply List.ext_getElem
  · simp
  · intro k h1 h2
    simp

/-- The loop of `expand_palette`. -/
theorem expandPacked_palette {palette : List (UInt8 × UInt8 × UInt8)} {t : Option UInt8} {d : List UInt8} {n : Nat}
    (hd : d.length = 4 * n) (h64 : n * 8 < 2 ^ 64)
    (hpal : ∀ (k : Nat) (i : UInt8), 0 < k → k < n → d[k]? = some i → i.toNat < palette.length) :
    ∃ o, expandPacked d 4 8 (paletteColor palette t) = .ok o ∧ o.length = 4 * n ∧
      (∀ q, q < 4 → q < 4 * n → o[q]? = d[q]?) ∧
      ∀ (k : Nat) (i : UInt8), 0 < k → k < n → d[k]? = some i → ∃ r g b a,
        paletteRgba palette t i = some (r, g, b, a) ∧ ∀ c, c < 4 → o[4 * k + c]? = [r, g, b, a][c]? := by
  unfold expandPacked
  have hb1 : ((4 : Nat) != 0) = true := rfl
  have hb2 : ((8 : Nat) != 0) = true := rfl
  rw [hb1, hb2]
  simp only [assertR_true, ok_bind]
  rw [hd, Nat.mul_div_cancel_left _ (by omega : 0 < 4), mulC_ok h64]
  simp only [ok_bind]
  rw [show n * 8 % 8 = 0 by omega, show n * 8 / 8 = n by omega, if_pos rfl, Nat.add_zero, positions_4_8,
    forList_map_range]
  obtain ⟨o, he, hi⟩ := forRange_inv (n := n - 1) (s := d)
    (f := fun k buf => do
      let j ← subC (4 * n) (4 + k * 4)
      let v ← unwrapR buf[n - 1 - k]?
      let pixel := (v &&& (UInt8.ofNat (2 ^ 8 - 1) <<< UInt8.ofNat 0)) >>> UInt8.ofNat 0
      let slice ← sliceR buf j (j + 4)
      let out ← paletteColor palette t pixel slice
      Except.ok (overwrite buf j out))
    (fun k o => o.length = 4 * n ∧ (∀ q, q < 4 * (n - k) → o[q]? = d[q]?) ∧
      ∀ (j : Nat) (i : UInt8), n - k ≤ j → j < n → d[j]? = some i → ∃ r g b a,
        paletteRgba palette t i = some (r, g, b, a) ∧ ∀ c, c < 4 → o[4 * j + c]? = [r, g, b, a][c]?)
    ⟨hd, fun _ _ => rfl, fun j i h1 h2 => by omega⟩
    (by
      intro k hk o ⟨h1, h2, h3⟩
      dsimp only
      rw [subC_ok (by omega)]
      simp only [ok_bind]
      have hlt : n - 1 - k < d.length := by omega
      have hget : o[n - 1 - k]? = some d[n - 1 - k] := by
        rw [h2 _ (by omega), List.getElem?_eq_getElem hlt]
      rw [hget]
      simp only [unwrapR, ok_bind]
      rw [mask8, sliceR_ok (by omega) (by omega)]
      simp only [ok_bind]
      have hdk : d[n - 1 - k]? = some d[n - 1 - k] := List.getElem?_eq_getElem hlt
      have hp := hpal (n - 1 - k) _ (by omega) (by omega) hdk
      obtain ⟨⟨r, g, b⟩, hc⟩ : ∃ c, palette[d[n - 1 - k].toNat]? = some c :=
        ⟨_, List.getElem?_eq_getElem hp⟩
      have hrg : paletteRgba palette t d[n - 1 - k] =
          some (r, g, b, if t = some d[n - 1 - k] then 0 else 255) := by
        simp [paletteRgba, hc]
      rw [paletteColor_ok hrg]
      simp only [ok_bind]
      refine ⟨_, rfl, ?_, ?_, ?_⟩
      · rw [length_overwrite (by simp; omega), h1]
      · intro q hq
        rw [getElem?_overwrite (by simp; omega), if_pos (by omega), h2 q (by omega)]
      · intro j i hj hjn hdj
        by_cases hjk : j = n - 1 - k
        · subst hjk
          rw [hdk] at hdj; cases hdj
          refine ⟨_, _, _, _, hrg, ?_⟩
          intro c hc
          rw [getElem?_overwrite (by simp; omega), if_neg (by omega), if_pos (by simp; omega)]
          congr 1; omega
        · obtain ⟨r', g', b', a', e1, e2⟩ := h3 j i (by omega) hjn hdj
          refine ⟨r', g', b', a', e1, ?_⟩
          intro c hc
          rw [getElem?_overwrite (by simp; omega), if_neg (by omega), if_neg (by simp; omega)]
          exact e2 c hc)
  refine ⟨o, he, hi.1, ?_, ?_⟩
  · intro q hq hq'; exact hi.2.1 q (by omega)
  · intro k i h1 h2 h3
    exact hi.2.2 k i (by omega) h2 h3

/-- `expand_palette` gives every pixel other than the one at (0, 0) its palette colour, alpha 0 exactly for the
transparent index, provided every index (other than the first) is in the palette; the dimensions are kept. What is
missing for the full property is the pixel at (0, 0): see `C36_first_pixel_false`. `4 * len < 2^63` holds for every
`Vec` that can exist after `resize`. -/
theorem C36_expand_palette_partial (img : ImageBuffer UInt8 1) (hi : img.Inv) (h63 : 4 * img.data.length < 2 ^ 63)
    (palette : List (UInt8 × UInt8 × UInt8)) (transparent : Option UInt8)
    (hpal : ∀ (k : Nat) (i : UInt8), 0 < k → img.data[k]? = some i → i.toNat < palette.length) :
    ∃ out, expandPalette img palette transparent = .ok out ∧ out.Inv ∧ out.width = img.width ∧
      out.height = img.height ∧
      ∀ x y p, x < img.width → y < img.height → (x, y) ≠ (0, 0) → img.getPixel x y = .ok p →
        ∃ q, out.getPixel x y = .ok q ∧ paletteRgba palette transparent (p 0) = some (q 0, q 1, q 2, q 3) := by
  have hfits := hi.fits
  have hw := hi.w32
  have hh := hi.h32
  unfold expandPalette
  have hcm : checkedMul 64 img.data.length 4 = some (img.data.length * 4) := by
    unfold checkedMul; rw [if_pos (by omega)]
  simp only [hcm, unwrapR, ok_bind]
  have hdlen : (img.data ++ List.replicate (img.data.length * 4 - img.data.length) (0 : UInt8)).length =
      4 * img.data.length := by simp; omega
  have hfr : fromRaw 4 img.width img.height
      (img.data ++ List.replicate (img.data.length * 4 - img.data.length) (0 : UInt8)) =
      some ⟨img.width, img.height, img.data ++ List.replicate (img.data.length * 4 - img.data.length) 0⟩ := by
    unfold fromRaw
    rw [if_pos]
    rw [checkImageFits_iff (by omega) hw, hdlen]
    omega
  rw [hfr]
  simp only [ok_bind]
  have hpre : ∀ k, k < img.data.length →
      (img.data ++ List.replicate (img.data.length * 4 - img.data.length) (0 : UInt8))[k]? = img.data[k]? :=
    fun k hk => List.getElem?_append_left hk
  obtain ⟨o, he, hol, -, hov⟩ := expandPacked_palette (palette := palette) (t := transparent) hdlen (by omega)
    (fun k i h0 hk hg => hpal k i h0 (by rw [← hpre k hk]; exact hg))
  rw [he]
  simp only [ok_bind]
  refine ⟨_, rfl, ?_, rfl, rfl, ?_⟩
  · refine ⟨hw, hh, ?_, ?_⟩ <;> dsimp only <;> omega
  · intro x y p hx hy hne hp
    have hInv : (⟨img.width, img.height, o⟩ : ImageBuffer UInt8 4).Inv := by
      refine ⟨hw, hh, ?_, ?_⟩ <;> dsimp only <;> omega
    have hk := idx_lt hx hy
    have hk0 : 0 < y * img.width + x := by
      rcases Nat.eq_zero_or_pos y with rfl | hy0
      · rcases Nat.eq_zero_or_pos x with rfl | hx0
        · simp at hne
        · omega
      · have : 1 * img.width ≤ y * img.width := Nat.mul_le_mul_right _ hy0
        omega
    rw [getPixel_eq_ok hi hx hy] at hp
    have hp0 := hp 0
    simp only [Nat.mul_one, Fin.val_zero, Nat.add_zero] at hp0
    obtain ⟨r, g, b, a, e1, e2⟩ := hov _ _ hk0 (by omega) ((hpre _ (by omega)).trans hp0)
    obtain ⟨q, hq⟩ := getPixel_exists hInv hx hy
    refine ⟨q, hq, ?_⟩
    rw [getPixel_eq_ok hInv hx hy] at hq
    have h0 := (hq 0).symm.trans ((congrArg (o[·]?) (by dsimp only; omega)).trans (e2 0 (by omega)))
    have h1 := (hq 1).symm.trans ((congrArg (o[·]?) (by dsimp only; omega)).trans (e2 1 (by omega)))
    have h2 := (hq 2).symm.trans ((congrArg (o[·]?) (by dsimp only; omega)).trans (e2 2 (by omega)))
    have h3 := (hq 3).symm.trans ((congrArg (o[·]?) (by dsimp only; omega)).trans (e2 3 (by omega)))
    simp at h0 h1 h2 h3
    rw [e1, h0, h1, h2, h3]

/-- The full property fails: the pixel at (0, 0) is never expanded. Here a 1×1 image with index 0 and the palette
colour (1, 2, 3) becomes transparent black instead of (1, 2, 3, 255). -/
theorem C36_first_pixel_false :
    ∃ (img : ImageBuffer UInt8 1) (palette : List (UInt8 × UInt8 × UInt8)) (out : ImageBuffer UInt8 4),
      img.Inv ∧ img.width = 1 ∧ img.height = 1 ∧ expandPalette img palette none = .ok out ∧
      (∀ (k : Nat) (i : UInt8), img.data[k]? = some i → i.toNat < palette.length) ∧
      paletteRgba palette none 0 = some (1, 2, 3, 255) ∧ img.data = [0] ∧ out.data = [0, 0, 0, 0] := by
  refine ⟨⟨1, 1, [0]⟩, [(1, 2, 3)], ⟨1, 1, [0, 0, 0, 0]⟩, ⟨by decide, by decide, by decide, by decide⟩, rfl, rfl,
    rfl, ?_, rfl, rfl, rfl⟩
  intro k i h
  cases k with
  | zero => simp at h; subst h; decide
  | succ k => simp at h

-- Non-vacuity
example : expandPalette ⟨2, 2, [0, 1, 0, 1]⟩ [(1, 2, 3), (4, 5, 6)] (some 1) =
    .ok ⟨2, 2, [0, 1, 0, 1, 4, 5, 6, 0, 1, 2, 3, 255, 4, 5, 6, 0]⟩ := by rfl

/-! ## Overflow check for file dimensions -/

/-- `check_dimension_overflow` says exactly when the byte count of an image overflows 64 bits. -/
theorem C35_check_dimension_overflow (w h bpp : Nat) (hw : w < 2 ^ 32) (hh : h < 2 ^ 32) (h0 : 0 < bpp) :
    checkDimensionOverflow w h bpp = .ok (decide (2 ^ 64 ≤ w * h * bpp)) := by
  unfold checkDimensionOverflow
  have hb : (bpp != 0) = true := by simp; omega
  have hm : w * h < 2 ^ 64 := by
    calc w * h ≤ (2 ^ 32 - 1) * (2 ^ 32 - 1) := Nat.mul_le_mul (by omega) (by omega)
      _ < 2 ^ 64 := by decide
  rw [hb, assertR_true, ok_bind, mulC_ok hm, ok_bind]
  congr 1
  apply decide_eq_decide.2
  rw [gt_iff_lt, Nat.div_lt_iff_lt_mul h0]
  omega

example : checkDimensionOverflow (2 ^ 32 - 1) (2 ^ 32 - 1) 4 = .ok true := by rfl

end Verif
