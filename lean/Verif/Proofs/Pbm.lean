import Verif.Model.PnmDecoder
import Verif.Model.PnmEncoder
import Verif.Props.Utils
import Verif.Proofs.Tga

/-!
# Packed bits of binary PBM files and 16-bit samples: helper lemmas
-/

namespace Verif

theorem chunksExact_append {α : Type} {n : Nat} (hn : 0 < n) {a : List α} (ha : a.length = n) (l : List α) :
    chunksExact n (a ++ l) = a :: chunksExact n l := by
  unfold chunksExact
  have h1 : (a ++ l).length / n = l.length / n + 1 := by
    rw [List.length_append, ha, Nat.add_div_left _ hn]
  rw [h1, List.range_succ_eq_map, List.map_cons, List.map_map]
  congr 1
  · simp [← ha]
  · apply List.map_congr_left
    intro k _
    simp only [Function.comp, Nat.succ_eq_add_one]
    rw [show (k + 1) * n = a.length + k * n by rw [ha, Nat.succ_mul]; omega, List.drop_append,
      List.drop_eq_nil_of_le (by omega), List.nil_append, Nat.add_sub_cancel_left]

theorem chunksExact_nil {α : Type} {n : Nat} : chunksExact n ([] : List α) = [] := by simp [chunksExact]

theorem chunksExact_flatMap {α β : Type} {n : Nat} (hn : 0 < n) (f : β → List α) (hf : ∀ b, (f b).length = n) (l : List β) :
    chunksExact n (l.flatMap f) = l.map f := by
  induction l with
  | nil => exact chunksExact_nil
  | cons b l ih => rw [List.flatMap_cons, chunksExact_append hn (hf b), ih, List.map_cons]

theorem length_flatMap_const {α β : Type} {n : Nat} (f : β → List α) (l : List β) (hf : ∀ b ∈ l, (f b).length = n) :
    (l.flatMap f).length = l.length * n := by
  induction l with
  | nil => simp
  | cons b l ih =>
    rw [List.flatMap_cons, List.length_append, hf b (by simp), ih (fun x hx => hf x (by simp [hx])), List.length_cons,
      Nat.succ_mul, Nat.add_comm]

@[simp] theorem length_chunksOf {α : Type} (n : Nat) (l : List α) : (chunksOf n l).length = (l.length + n - 1) / n := by
  simp [chunksOf]

theorem getElem?_chunksOf {α : Type} {n : Nat} {l : List α} {k : Nat} (h : k < (l.length + n - 1) / n) :
    (chunksOf n l)[k]? = some ((l.drop (k * n)).take n) := by
  simp [chunksOf, h]

/-- The part of a concatenation of pieces of length `n` that starts at the `r`-th. -/
theorem drop_flatMap_const {α β : Type} {n : Nat} (f : β → List α) (l : List β) (hf : ∀ b ∈ l, (f b).length = n) :
    ∀ r, (l.flatMap f).drop (r * n) = (l.drop r).flatMap f := by
  induction l with
  | nil => intro r; simp
  | cons b l ih =>
    intro r
    cases r with
    | zero => simp
    | succ r =>
      have hb := hf b (by simp)
      rw [List.flatMap_cons, Nat.succ_mul, List.drop_succ_cons, ← ih (fun x hx => hf x (by simp [hx])) r,
        Nat.add_comm, ← List.drop_drop, ← hb, List.drop_left]

namespace Pnm

theorem scale_one : ∀ v : Fin 256, scaleSample 8 1 v = if v.val = 0 then 0 else 255 := by decide +kernel

/-- Eight bits, the first the most significant. -/
def packBits (c : Nat → Bool) : UInt8 :=
  (List.range 8).foldl (fun byte i => if c i then byte ||| (1 <<< UInt8.ofNat (7 - i)) else byte) 0

theorem pbmByte_eq {V : Type} [DecidableEq V] [OfNat V 0] (bits : List V) :
    pbmByte bits = packBits (fun i => decide (bits[i]? = some 0)) := by
  unfold pbmByte packBits
  congr 1
  funext byte i
  rcases h : bits[i]? with _ | v <;> simp [h]

theorem packBits_bit (c : Nat → Bool) : ∀ i, i < 8 → (packBits c).toNat / 2 ^ (7 - i) % 2 = if c i then 1 else 0 := by
  have : ∀ b0 b1 b2 b3 b4 b5 b6 b7 : Bool, ∀ i : Fin 8,
    (packBits (fun k => [b0,b1,b2,b3,b4,b5,b6,b7].getD k false)).toNat / 2 ^ (7 - i.val) % 2 =
      if [b0,b1,b2,b3,b4,b5,b6,b7].getD i.val false then 1 else 0 := by decide +kernel
  intro i hi
  have h := this (c 0) (c 1) (c 2) (c 3) (c 4) (c 5) (c 6) (c 7) ⟨i, hi⟩
  have e : ∀ k, k < 8 → [c 0, c 1, c 2, c 3, c 4, c 5, c 6, c 7].getD k false = c k := by
    intro k hk
    match k, hk with
    | 0, _ => rfl
    | 1, _ => rfl
    | 2, _ => rfl
    | 3, _ => rfl
    | 4, _ => rfl
    | 5, _ => rfl
    | 6, _ => rfl
    | 7, _ => rfl
  rw [e i hi] at h
  have e2 : packBits (fun k => [c 0, c 1, c 2, c 3, c 4, c 5, c 6, c 7].getD k false) = packBits c := by
    unfold packBits; rfl
  rw [e2] at h
  exact h

/-- One row of a binary PBM raster. -/
def pbmRow {V : Type} [DecidableEq V] [OfNat V 0] (line : List V) : List UInt8 := (chunksOf 8 line).map pbmByte

theorem length_pbmRow {V : Type} [DecidableEq V] [OfNat V 0] (line : List V) :
    (pbmRow line).length = packedRowBytes 1 line.length := by
  simp [pbmRow, packedRowBytes]

theorem pbmRow_sample {V : Type} [DecidableEq V] [OfNat V 0] (line : List V) (rest : List UInt8) {x : Nat}
    (hx : x < line.length) :
    packedSample 1 (pbmRow line ++ rest) x = some (if line[x]? = some 0 then 1 else 0) := by
  unfold packedSample
  have h1 : x / 8 < (pbmRow line).length := by
    rw [length_pbmRow, packedRowBytes]; omega
  rw [Nat.mul_one, List.getElem?_append_left h1]
  have h2 : (pbmRow line)[x / 8]? = some (pbmByte ((line.drop (x / 8 * 8)).take 8)) := by
    rw [pbmRow, List.getElem?_map, getElem?_chunksOf (by omega)]
    rfl
  rw [h2, Option.map_some, pbmByte_eq]
  have h3 := packBits_bit (fun i => decide (((line.drop (x / 8 * 8)).take 8)[i]? = some 0)) (x % 8) (by omega)
  rw [show 8 - 1 - x % 8 = 7 - x % 8 by omega, show 2 ^ 1 = 2 by rfl, h3]
  have h4 : ((line.drop (x / 8 * 8)).take 8)[x % 8]? = line[x]? := by
    rw [List.getElem?_take_of_lt (by omega), List.getElem?_drop, show x / 8 * 8 + x % 8 = x by omega]
  simp only [h4, decide_eq_true_eq]

/-- The rows of a binary PBM raster. -/
theorem writePbmBits_rows {V : Type} [DecidableEq V] [OfNat V 0] {samples : List V} {w h : Nat} (hw : 0 < w)
    (hl : samples.length = h * w) :
    writePbmBits samples w = .ok ((chunksOf w samples).flatMap pbmRow) ∧
      ((chunksOf w samples).flatMap pbmRow).length = h * packedRowBytes 1 w ∧
      ∀ r, r < h → ∃ rest, ((chunksOf w samples).flatMap pbmRow).drop (r * packedRowBytes 1 w) =
        pbmRow ((samples.drop (r * w)).take w) ++ rest := by
  obtain ⟨-, c2, c3⟩ := chunksOf_eq hw hl
  have hrow : ∀ c ∈ chunksOf w samples, (pbmRow c).length = packedRowBytes 1 w := by
    intro c hc; rw [length_pbmRow, c2 c hc]
  refine ⟨?_, ?_, ?_⟩
  · unfold writePbmBits
    rw [subC_ok hw]
    rfl
  · rw [length_flatMap_const _ _ hrow, c3]
  · intro r hr
    rw [drop_flatMap_const _ _ hrow]
    have hlt : r < (chunksOf w samples).length := by omega
    rw [List.drop_eq_getElem_cons hlt, List.flatMap_cons]
    refine ⟨((chunksOf w samples).drop (r + 1)).flatMap pbmRow, ?_⟩
    · congr 2
      have := getElem?_chunksOf (n := w) (l := samples) (k := r) (by rw [← length_chunksOf]; exact hlt)
      rw [List.getElem?_eq_getElem hlt] at this
      exact Option.some.inj this

/-- `expand_bits` of a binary PBM raster, inverted: black for zero samples, white for others. -/
theorem expand_pbm {V : Type} [DecidableEq V] [OfNat V 0] {samples : List V} {w h : Nat} (hw : 0 < w)
    (hw32 : w < 2 ^ 32 - 8) (hl : samples.length = h * w) :
    ∃ out, expandBits 1 w ((chunksOf w samples).flatMap pbmRow) = .ok out ∧
      out.map (fun b => ~~~b) = samples.map fun v => if v = 0 then (0 : UInt8) else 255 := by
  obtain ⟨-, h2, h3⟩ := writePbmBits_rows hw hl
  obtain ⟨out, e1, e2, e3⟩ := C35_expand_bits 1 (.inl rfl) w h hw (by omega) _ h2
  refine ⟨out, e1, ?_⟩
  apply List.ext_getElem?
  intro i
  by_cases hi : i < h * w
  · have hr : i / w < h := (Nat.div_lt_iff_lt_mul hw).2 hi
    have hx : i % w < w := Nat.mod_lt _ hw
    obtain ⟨s, s1, s2, s3⟩ := e3 (i / w) (i % w) hr hx
    obtain ⟨rest, r1⟩ := h3 (i / w) hr
    have hidx : i / w * w + i % w = i := by rw [Nat.mul_comm]; exact Nat.div_add_mod i w
    have hlen : ((samples.drop (i / w * w)).take w).length = w := by
      rw [List.length_take, List.length_drop, hl]
      have : i / w * w + w ≤ h * w := by
        have := Nat.mul_le_mul_right w (show i / w + 1 ≤ h by omega)
        rw [Nat.succ_mul] at this; exact this
      omega
    rw [r1, pbmRow_sample _ _ (by rw [hlen]; exact hx)] at s1
    rw [List.getElem?_take_of_lt hx, List.getElem?_drop, hidx] at s1
    rw [hidx] at s3
    obtain ⟨v, hv⟩ : ∃ v, samples[i]? = some v := ⟨samples[i], List.getElem?_eq_getElem (by omega)⟩
    rw [List.getElem?_map, List.getElem?_map, s3, hv]
    rw [hv] at s1
    cases s1
    by_cases hv0 : v = 0
    · subst hv0; simp; decide
    · simp [hv0]; decide
  · rw [List.getElem?_eq_none (by simp; omega), List.getElem?_eq_none (by simp; omega)]

end Pnm
end Verif
