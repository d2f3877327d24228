import Verif.Proofs.PnmFile
import Verif.Proofs.PnmScale
import Verif.Props.Utils

/-!
# PNM rasters: the decoder against `Verif.Spec.Pnm`
-/

namespace Verif
namespace Pnm
open PnmSpec

theorem flatMap_single {α β : Type} (f : α → β) (l : List α) : (l.flatMap fun v => [f v]) = l.map f := by
  induction l <;> simp_all

/-! ## Binary samples of one byte -/

theorem bytes_iff {data : List UInt8} {raw : List Nat} :
    (raw.length ≤ data.length ∧ ∀ k, k < raw.length → ∃ b, data[k]? = some b ∧ raw[k]? = some b.toNat) ↔
      raw.length ≤ data.length ∧ raw = (data.take raw.length).map UInt8.toNat := by
  apply and_congr_right
  intro hl
  constructor
  · intro h
    apply List.ext_getElem?
    intro k
    rw [List.getElem?_map, List.getElem?_take]
    by_cases hk : k < raw.length
    · obtain ⟨b, h1, h2⟩ := h k hk
      rw [if_pos hk, h1, h2]; rfl
    · rw [if_neg hk, List.getElem?_eq_none (by omega)]; rfl
  · intro h k hk
    refine ⟨data[k]'(by omega), List.getElem?_eq_getElem _, ?_⟩
    conv => lhs; rw [h]
    rw [List.getElem?_map, List.getElem?_take, if_pos hk, List.getElem?_eq_getElem (by omega)]; rfl

theorem bytes_back (l : List UInt8) : ((l.map UInt8.toNat).flatMap fun v => [UInt8.ofNat v]) = l := by
  rw [flatMap_single, List.map_map]
  conv => rhs; rw [← List.map_id l]
  exact List.map_congr_left fun b _ => UInt8.ofNat_toNat

/-! ## Binary samples of two bytes -/

theorem beNat2 (a b : UInt8) : beNat [a, b] = a.toNat * 256 + b.toNat := by
  simp [beNat]

theorem beBytes_beNat (a b : UInt8) : beBytes 2 (beNat [a, b]) = [a, b] := by
  have ha := a.toNat_lt
  have hb := b.toNat_lt
  rw [beNat2]
  unfold beBytes
  simp only [leBytes, List.reverse_cons, List.reverse_nil, List.nil_append, List.cons_append]
  have h1 : (a.toNat * 256 + b.toNat) / 256 = a.toNat := by omega
  have h2 : UInt8.ofNat (a.toNat * 256 + b.toNat) = b := by
    apply UInt8.toNat_inj.1
    rw [UInt8.toNat_ofNat']
    omega
  simp [h1, h2]

theorem pair_get {data : List UInt8} {k : Nat} (hk : 2 * k + 1 < data.length) :
    (data.drop (k * 2)).take 2 = [data[2 * k]'(by omega), data[2 * k + 1]] := by
  rw [Nat.mul_comm k 2]
  rw [List.drop_eq_getElem_cons (show 2 * k < data.length by omega), List.drop_eq_getElem_cons hk]
  rfl

theorem words_iff {data : List UInt8} {raw : List Nat} :
    (2 * raw.length ≤ data.length ∧ ∀ k, k < raw.length →
      ∃ a b, data[2 * k]? = some a ∧ data[2 * k + 1]? = some b ∧ raw[k]? = some (a.toNat * 256 + b.toNat)) ↔
      2 * raw.length ≤ data.length ∧ raw = (chunksExact 2 (data.take (2 * raw.length))).map beNat := by
  apply and_congr_right
  intro hl
  have hlen : (data.take (2 * raw.length)).length / 2 = raw.length := by rw [List.length_take]; omega
  have key : ∀ k, (hk : k < raw.length) → (chunksExact 2 (data.take (2 * raw.length)))[k]? = some [data[2 * k]'(by omega), data[2 * k + 1]'(by omega)] := by
    intro k hk
    rw [getElem?_chunksExact (by omega), pair_get (by rw [List.length_take]; omega)]
    simp
  constructor
  · intro h
    apply List.ext_getElem?
    intro k
    rw [List.getElem?_map]
    by_cases hk : k < raw.length
    · obtain ⟨a, b, h1, h2, h3⟩ := h k hk
      rw [key k hk, h3]
      rw [List.getElem?_eq_getElem (by omega)] at h1 h2
      cases h1; cases h2
      rw [Option.map_some, beNat2]
    · rw [List.getElem?_eq_none (by omega), List.getElem?_eq_none (by rw [length_chunksExact]; omega)]; rfl
  · intro h k hk
    refine ⟨_, _, List.getElem?_eq_getElem (by omega), List.getElem?_eq_getElem (by omega), ?_⟩
    conv => lhs; rw [h]
    rw [List.getElem?_map, key k hk, Option.map_some, beNat2]

theorem words_back {le : Bool} {n : Nat} {l : List UInt8} (hl : l.length = 2 * n) :
    (((chunksExact 2 l).map beNat).flatMap fun v => native16 le (beBytes 2 v)) = (chunksExact 2 l).flatMap (native16 le) := by
  rw [List.flatMap_map]
  apply List.flatMap_congr
  intro c hc
  obtain ⟨k, hk, rfl⟩ := List.getElem_of_mem hc
  rw [length_chunksExact, hl] at hk
  have := getElem?_chunksExact (n := 2) (l := l) (k := k) (by omega)
  rw [List.getElem?_eq_getElem (by rw [length_chunksExact]; omega)] at this
  rw [Option.some.inj this, pair_get (by omega), beBytes_beNat]

/-! ## Binary bits -/

theorem expand_zero : expandBits 1 0 [] = .ok [] := by decide

theorem shade_bit {b : Nat} (h : b < 2) : ~~~(UInt8.ofNat (b * (255 / (2 ^ 1 - 1)))) = shade b := by
  have : b = 0 ∨ b = 1 := by omega
  rcases this with rfl | rfl <;> decide

theorem bits_bin {w h : Nat} (hw : w < 2 ^ 32 - 8) {data : List UInt8} (hd : h * ((w + 7) / 8) ≤ data.length) :
    ∃ (out : List UInt8) (raw : List Nat), expandBits 1 w (data.take ((w + 7) / 8 * h)) = .ok out ∧ raw.length = w * h ∧ (out.map fun b => ~~~b) = raw.map shade ∧
      ∀ x y, x < w → y < h → ∃ b, data[y * ((w + 7) / 8) + x / 8]? = some b ∧ raw[y * w + x]? = some (bit b (x % 8)) := by
  rcases Nat.eq_zero_or_pos w with rfl | hw0
  · refine ⟨[], [], ?_, by simp, rfl, fun x y hx => absurd hx (by omega)⟩
    rw [show (0 + 7) / 8 * h = 0 by omega, List.take_zero]
    exact expand_zero
  have hp : packedRowBytes 1 w = (w + 7) / 8 := by unfold packedRowBytes; rw [Nat.mul_one]
  obtain ⟨out, he, hl, hi⟩ := C35_expand_bits 1 (.inl rfl) w h hw0 (by omega) (data.take ((w + 7) / 8 * h)) (by
    rw [List.length_take, hp, Nat.mul_comm _ h]; omega)
  have key : ∀ x y, x < w → y < h → ∃ b, data[y * ((w + 7) / 8) + x / 8]? = some b ∧
      out[y * w + x]? = some (UInt8.ofNat (bit b (x % 8) * (255 / (2 ^ 1 - 1)))) := by
    intro x y hx hy
    obtain ⟨s, h1, h2, h3⟩ := hi y x hy hx
    unfold packedSample at h1
    rw [hp, List.getElem?_drop, Nat.mul_one, List.getElem?_take] at h1
    split at h1
    · obtain ⟨b, hb, hs⟩ := Option.map_eq_some_iff.1 h1
      refine ⟨b, hb, ?_⟩
      rw [h3, ← hs]
      unfold bit
      rw [show 8 - 1 - x % 8 = 7 - x % 8 by omega]
    · cases h1
  refine ⟨out, out.map fun b => if b = 0 then 0 else 1, he, by rw [List.length_map, hl, Nat.mul_comm], ?_, ?_⟩
  · rw [List.map_map]
    apply List.map_congr_left
    intro v hv
    obtain ⟨k, hk, rfl⟩ := List.getElem_of_mem hv
    rw [hl] at hk
    have e : k / w * w + k % w = k := Nat.div_add_mod' k w
    obtain ⟨b, -, hb⟩ := key (k % w) (k / w) (Nat.mod_lt _ hw0) (by rw [Nat.div_lt_iff_lt_mul hw0]; omega)
    rw [e, List.getElem?_eq_getElem (by omega)] at hb
    rw [Option.some.inj hb]
    have hbit : bit b (k % w % 8) = 0 ∨ bit b (k % w % 8) = 1 := by unfold bit; omega
    rcases hbit with h | h <;> rw [h] <;> decide
  · intro x y hx hy
    obtain ⟨b, h1, h2⟩ := key x y hx hy
    refine ⟨b, h1, ?_⟩
    rw [List.getElem?_map, h2, Option.map_some]
    have hbit : bit b (x % 8) = 0 ∨ bit b (x % 8) = 1 := by unfold bit; omega
    rcases hbit with h | h <;> rw [h] <;> decide

theorem bits_unique {w h : Nat} {data : List UInt8} {raw raw' : List Nat} (hl : raw.length = w * h) (hl' : raw'.length = w * h)
    (hr : ∀ x y, x < w → y < h → ∃ b, data[y * ((w + 7) / 8) + x / 8]? = some b ∧ raw[y * w + x]? = some (bit b (x % 8)))
    (hr' : ∀ x y, x < w → y < h → ∃ b, data[y * ((w + 7) / 8) + x / 8]? = some b ∧ raw'[y * w + x]? = some (bit b (x % 8))) : raw = raw' := by
  apply List.ext_getElem?
  intro k
  by_cases hk : k < w * h
  · have hw0 : 0 < w := by
      rcases Nat.eq_zero_or_pos w with rfl | h0
      · omega
      · exact h0
    have e : k / w * w + k % w = k := Nat.div_add_mod' k w
    obtain ⟨b, h1, h2⟩ := hr (k % w) (k / w) (Nat.mod_lt _ hw0) (by rw [Nat.div_lt_iff_lt_mul hw0]; rwa [Nat.mul_comm])
    obtain ⟨b', h1', h2'⟩ := hr' (k % w) (k / w) (Nat.mod_lt _ hw0) (by rw [Nat.div_lt_iff_lt_mul hw0]; rwa [Nat.mul_comm])
    rw [e] at h2 h2'
    rw [h1] at h1'
    cases h1'
    rw [h2, h2']
  · rw [List.getElem?_eq_none (by omega), List.getElem?_eq_none (by omega)]

/-! ## The whole raster -/

theorem mulC32_iff {a b n : Nat} : mulC 32 a b = .ok n ↔ a * b < 2 ^ 32 ∧ n = a * b := by
  unfold mulC
  by_cases h : a * b < 2 ^ 32
  · rw [if_pos h]
    exact ⟨fun e => by cases e; exact ⟨h, rfl⟩, fun e => by rw [e.2]⟩
  · rw [if_neg h]
    exact ⟨fun e => (by cases e), fun e => absurd e.1 h⟩

theorem chain_iff {w h c sz n : Nat} (hc : 1 ≤ c) (hs : 1 ≤ sz) : (do
      let a ← mulC 32 w h
      let b ← mulC 32 a c
      mulC 32 b sz) = Except.ok n ↔ w * h * c * sz < 2 ^ 32 ∧ n = w * h * c * sz := by
  have h1 : w * h ≤ w * h * c := Nat.le_mul_of_pos_right _ hc
  have h2 : w * h * c ≤ w * h * c * sz := Nat.le_mul_of_pos_right _ hs
  constructor
  · intro hx
    obtain ⟨a, ha, hx⟩ := bind_eq_ok.1 hx
    obtain ⟨b, hb, hx⟩ := bind_eq_ok.1 hx
    obtain ⟨-, rfl⟩ := mulC32_iff.1 ha
    obtain ⟨-, rfl⟩ := mulC32_iff.1 hb
    exact mulC32_iff.1 hx
  · rintro ⟨hx, rfl⟩
    rw [mulC32_iff.2 ⟨by omega, rfl⟩, ok_bind, mulC32_iff.2 ⟨by omega, rfl⟩, ok_bind, mulC32_iff.2 ⟨hx, rfl⟩]

theorem bitlen_iff {w h n : Nat} (hw : w < 2 ^ 32) : Sample.PbmBit.bytelen w h 1 = .ok n ↔ h * ((w + 7) / 8) < 2 ^ 32 ∧ n = h * ((w + 7) / 8) := by
  unfold Sample.bytelen
  dsimp only
  rw [mulC32_iff.2 ⟨by omega, rfl⟩, ok_bind, Nat.mul_one]
  have : (w / 8 + if w % 8 ≠ 0 then 1 else 0) = (w + 7) / 8 := by split <;> omega
  rw [this, mulC32_iff, Nat.mul_comm]

theorem assertR_dec {b : Bool} (h : b = true) : assertR b = .ok () := by rw [h]; rfl

/-- What `Opens` requires of a description. -/
def Sound (i : Info) : Prop :=
  i.width < 2 ^ 32 ∧ i.height < 2 ^ 32 ∧
    if i.bilevel then i.channels = 1 ∧ i.maxval = 1 else (i.channels = 1 ∨ i.channels = 3) ∧ 1 ≤ i.maxval ∧ i.maxval ≤ 65535

theorem Opens.sound {file : List UInt8} {i : Info} {rest : List UInt8} (h : Opens file i rest) : Sound i := by
  obtain ⟨s, s1, s2, -, ⟨_, -, _, -, -, -, hw⟩, ⟨_, -, _, -, -, -, hh⟩, h⟩ := h
  refine ⟨hw, hh, ?_⟩
  by_cases hb : i.bilevel = true
  · rw [if_pos hb] at h ⊢; exact ⟨h.1, h.2.1⟩
  · rw [if_neg hb] at h ⊢; exact ⟨h.1, h.2.2⟩

/-- How the decoder shows a sample. -/
def showF (i : Info) (v : Nat) : Nat :=
  if i.bilevel then (if v = 0 then 255 else 0) else scaleF (if i.maxval ≤ 255 then 8 else 16) i.maxval v

theorem showF_shown {i : Info} (h : Sound i) : Shown i (showF i) := by
  obtain ⟨-, -, h⟩ := h
  unfold Shown
  split at h
  · rename_i hb
    rw [if_pos hb]
    simp [showF, hb]
  · rename_i hb
    rw [if_neg hb]
    have : showF i = scaleF (if i.maxval ≤ 255 then 8 else 16) i.maxval := by
      funext v; unfold showF; rw [if_neg hb]
    rw [this]
    by_cases hm : i.maxval ≤ 255
    · rw [if_pos hm, if_pos hm]
      exact scaleF_scales (.inl rfl) (by omega) hm
    · rw [if_neg hm, if_neg hm]
      exact scaleF_scales (.inr rfl) (by omega) (by omega)

theorem store8 {le : Bool} {i : Info} (h : i.maxval ≤ 255) (v : Nat) : store le i v = [UInt8.ofNat v] := by unfold store; rw [if_pos h]

theorem store16 {le : Bool} {i : Info} (h : ¬ i.maxval ≤ 255) (v : Nat) : store le i v = native16 le (beBytes 2 v) := by
  unfold store native16 beBytes
  rw [if_neg h]
  have e : leBytes 2 v = [UInt8.ofNat (v % 256), UInt8.ofNat (v / 256)] := by
    simp only [leBytes]
    congr 1
    apply UInt8.toNat_inj.1
    simp
  rw [e]
  cases le <;> rfl

theorem plainNumbers_le {lenient : Bool} {lim n : Nat} {s : List UInt8} {raw : List Nat} (h : PlainNumbers lenient lim n s raw) :
    raw.length = n ∧ ∀ v ∈ raw, v ≤ lim := by
  induction h with
  | done => exact ⟨rfl, by simp⟩
  | number _ _ hv _ _ ih =>
    refine ⟨by rw [List.length_cons, ih.1], fun v hm => ?_⟩
    rcases List.mem_cons.1 hm with rfl | hm
    · exact hv
    · exact ih.2 v hm
  | missing => exact ⟨List.length_replicate, fun v hm => by rw [List.eq_of_mem_replicate hm]; omega⟩

theorem plainBits_length {n : Nat} {s : List UInt8} {raw : List Nat} (h : PlainBits n s raw) : raw.length = n := by
  induction h with
  | done => rfl
  | space _ _ ih => exact ih
  | zero _ ih => rw [List.length_cons, ih]
  | one _ ih => rw [List.length_cons, ih]

theorem shade_store {le : Bool} {i : Info} (hb : i.bilevel = true) (hm : i.maxval = 1) (raw : List Nat) :
    raw.map shade = raw.flatMap fun v => store le i (showF i v) := by
  have : (fun v => store le i (showF i v)) = fun v => [shade v] := by
    funext v
    rw [store8 (by omega)]
    unfold showF shade
    rw [if_pos hb]
    split <;> rfl
  rw [this, flatMap_single]

theorem shade_mem {raw : List Nat} : ∀ b ∈ raw.map shade, b = 0 ∨ b = 255 := by
  intro b hb
  obtain ⟨v, -, rfl⟩ := List.mem_map.1 hb
  unfold shade
  split <;> simp

theorem stored8 {le : Bool} {i : Info} (hs : Sound i) (hb : i.bilevel = false) (hm : i.maxval ≤ 255) {raw : List Nat} (hr : ∀ v ∈ raw, v ≤ 255) :
    scaleBuffer le .U8 i.maxval (raw.flatMap fun v => [UInt8.ofNat v]) = raw.flatMap fun v => store le i (showF i v) := by
  obtain ⟨-, -, h⟩ := hs
  rw [hb] at h
  rw [scaleBuffer_u8 (by exact h.2.1) hm hr]
  apply List.flatMap_congr
  intro v _
  rw [store8 hm]
  unfold showF
  rw [hb, if_neg (by decide), if_pos hm]

theorem stored16 {le : Bool} {i : Info} (hs : Sound i) (hb : i.bilevel = false) (hm : ¬ i.maxval ≤ 255) {raw : List Nat} (hr : ∀ v ∈ raw, v ≤ 65535) :
    scaleBuffer le .U16 i.maxval (raw.flatMap fun v => native16 le (beBytes 2 v)) = raw.flatMap fun v => store le i (showF i v) := by
  obtain ⟨-, -, h⟩ := hs
  rw [hb] at h
  rw [scaleBuffer_u16 (by omega) h.2.2 hr]
  apply List.flatMap_congr
  intro v _
  rw [← store16 hm]
  unfold showF
  rw [hb, if_neg (by decide), if_neg hm]

theorem asciiU8_iff (le : Bool) (s : List UInt8) (n : Nat) (o : List UInt8) :
    Sample.U8.fromAscii le s n = .ok o ↔ ∃ raw, PlainNumbers true 255 n s raw ∧ o = raw.flatMap fun v => [UInt8.ofNat v] := by
  have := numbers_iff (lim := 255) (by decide) (fun v => [UInt8.ofNat v]) n s [] o
  simp only [List.nil_append] at this
  rw [← this]
  unfold Sample.fromAscii
  dsimp only
  rw [bind_eq_ok]
  constructor
  · rintro ⟨⟨a, b⟩, h1, h2⟩
    cases h2
    exact ⟨b, h1⟩
  · rintro ⟨b, h⟩
    exact ⟨(o, b), h, rfl⟩

theorem asciiU16_iff (le : Bool) (s : List UInt8) (n : Nat) (o : List UInt8) :
    Sample.U16.fromAscii le s (n * 2) = .ok o ↔ ∃ raw, PlainNumbers true 65535 n s raw ∧ o = raw.flatMap fun v => native16 le (beBytes 2 v) := by
  have := numbers_iff (lim := 65535) (by decide) (fun v => native16 le (beBytes 2 v)) n s [] o
  simp only [List.nil_append] at this
  rw [← this]
  unfold Sample.fromAscii
  dsimp only
  rw [bind_eq_ok, show n * 2 / 2 = n by omega, show n * 2 % 2 = 0 by omega]
  constructor
  · rintro ⟨⟨a, b⟩, h1, h2⟩
    simp only [List.replicate_zero, List.append_nil] at h2
    cases h2
    exact ⟨b, h1⟩
  · rintro ⟨b, h⟩
    exact ⟨(o, b), h, by simp⟩

theorem asciiBit_iff (le : Bool) (s : List UInt8) (n : Nat) (o : List UInt8) :
    Sample.PbmBit.fromAscii le s n = .ok o ↔ ∃ raw, PlainBits n s raw ∧ o = raw.map shade := by
  have := bits_iff n s [] o
  simp only [List.nil_append] at this
  rw [← this]
  unfold Sample.fromAscii
  dsimp only
  rw [bind_eq_ok]
  constructor
  · rintro ⟨⟨a, b⟩, h1, h2⟩
    cases h2
    exact ⟨b, h1⟩
  · rintro ⟨b, h⟩
    exact ⟨(o, b), h, rfl⟩

theorem ok_scale {x : R (List UInt8)} {f : List UInt8 → List UInt8} {buf : List UInt8} :
    (x >>= fun b => .ok (f b)) = Except.ok buf ↔ ∃ b, x = .ok b ∧ buf = f b := by
  rw [bind_eq_ok]
  constructor
  · rintro ⟨b, h1, h2⟩; cases h2; exact ⟨b, h1, rfl⟩
  · rintro ⟨b, h1, rfl⟩; exact ⟨b, h1, rfl⟩

/-- The binary branch of `read_samples`. -/
theorem binary_iff {bl : R Nat} {n rs : Nat} {lim : Prop} (hbl : ∀ m, bl = .ok m ↔ lim ∧ m = n) {data : List UInt8} {w c : Nat} (hrs : checkedMul 64 w c = some rs)
    {g : List UInt8 → Nat → R (List UInt8)} {b : List UInt8} : (do
      let bytecount ← bl
      let bytes := data.take bytecount
      if bytes.length ≠ bytecount then errR .decoding
      else match checkedMul 64 w c with
        | none => errR .decoding
        | some rowSize => g bytes rowSize) = .ok b ↔ lim ∧ n ≤ data.length ∧ g (data.take n) rs = .ok b := by
  constructor
  · intro h
    obtain ⟨m, hm, h⟩ := bind_eq_ok.1 h
    obtain ⟨hl, rfl⟩ := (hbl m).1 hm
    dsimp only at h
    split at h
    · cases h
    · rename_i hlen
      rw [hrs] at h
      refine ⟨hl, ?_, h⟩
      rw [List.length_take] at hlen
      omega
  · rintro ⟨hl, hn, h⟩
    rw [(hbl n).2 ⟨hl, rfl⟩, ok_bind]
    dsimp only
    rw [if_neg (by rw [List.length_take]; omega), hrs]
    exact h

theorem readSamples_iff {i : Info} (hs : Sound i) (hw : i.plain = false → i.bilevel = true → i.width < 2 ^ 32 - 8) (le : Bool) (data buf : List UInt8) (n : Nat)
    (hn : n = i.width * i.height * i.channels * if i.maxval ≤ 255 then 1 else 2) :
    Decoder.readSamples le ⟨data, headerOf i, tupleOf i⟩ (tupleOf i).sample.1 (tupleOf i).sample.2 n = .ok buf ↔
      (i.plain = false → size i < 2 ^ 32) ∧ ∃ raw, Raster true i data raw ∧ buf = raw.flatMap fun v => store le i (showF i v) := by
  have hs' := hs
  obtain ⟨w32, h32, hc⟩ := hs
  have hmul : ∀ c, c ≤ 3 → checkedMul 64 i.width c = some (i.width * c) := by
    intro c h3
    unfold checkedMul
    have : i.width * c ≤ i.width * 3 := Nat.mul_le_mul_left _ h3
    rw [if_pos (by omega)]
  have enc : (headerOf i).subtype.sampleEncoding = if i.plain then .ascii else .binary := by
    unfold headerOf
    dsimp only
    split <;> [skip; split] <;> split <;> rfl
  have hwd : (headerOf i).width = i.width := by
    unfold headerOf
    dsimp only
    split <;> [skip; split] <;> rfl
  have hht : (headerOf i).height = i.height := by
    unfold headerOf
    dsimp only
    split <;> [skip; split] <;> rfl
  have hmx : (headerOf i).maximalSample = i.maxval := by
    unfold headerOf
    dsimp only
    split <;> [skip; split]
    · rename_i hb
      rw [if_pos hb] at hc
      rw [hc.2]; rfl
    · rfl
    · rfl
  unfold Decoder.readSamples
  rw [ok_scale]
  dsimp only
  rw [enc, hmx, hwd, hht]
  by_cases hb : i.bilevel = true
  · rw [if_pos hb] at hc
    obtain ⟨hc1, hm1⟩ := hc
    have ht : (tupleOf i).sample = (.PbmBit, 1) := by unfold tupleOf; rw [if_pos hb]; rfl
    rw [ht, hm1]
    dsimp only
    rw [hm1, hc1] at hn
    rw [if_pos (by decide)] at hn
    by_cases hp : i.plain = true
    · rw [if_pos hp]
      dsimp only
      simp only [asciiBit_iff]
      have hR : ∀ raw, Raster true i data raw ↔ raw.length = i.width * i.height * 1 ∧ PlainBits (i.width * i.height) data raw := by
        intro raw; unfold Raster; rw [if_pos hp, if_pos hb, hc1]
      simp only [hR]
      constructor
      · rintro ⟨b, ⟨raw, h1, rfl⟩, rfl⟩
        refine ⟨fun h => absurd h (by rw [hp]; decide), raw, ⟨by rw [plainBits_length h1]; omega, ?_⟩, ?_⟩
        · rw [hn] at h1; simpa using h1
        · rw [scaleBuffer_bit shade_mem]; exact shade_store hb hm1 raw
      · rintro ⟨-, raw, ⟨h0, h1⟩, rfl⟩
        refine ⟨_, ⟨raw, ?_, rfl⟩, ?_⟩
        · rw [hn]; simpa using h1
        · rw [scaleBuffer_bit shade_mem]; exact (shade_store hb hm1 raw).symm
    · rw [if_neg hp]
      dsimp only
      have hp' : i.plain = false := by simpa using hp
      have hw' := hw hp' hb
      have hsz : size i = i.height * ((i.width + 7) / 8) := by unfold size; rw [if_pos hb]
      refine (exists_congr fun b => and_congr_left' (binary_iff (g := fun bytes rs => Sample.PbmBit.fromBytes le bytes rs n)
        (fun m => bitlen_iff (w := i.width) (h := i.height) (n := m) w32) (hmul 1 (by decide)))).trans ?_
      have hR : ∀ raw, Raster true i data raw ↔ raw.length = i.width * i.height ∧ i.height * ((i.width + 7) / 8) ≤ data.length ∧
          ∀ x y, x < i.width → y < i.height →
            ∃ b, data[y * ((i.width + 7) / 8) + x / 8]? = some b ∧ raw[y * i.width + x]? = some (bit b (x % 8)) := by
        intro raw; unfold Raster; rw [if_neg hp, if_pos hb, hc1, Nat.mul_one]
      simp only [hR]
      rw [Nat.mul_one, hsz]
      have hlenq : n = i.width * i.height := by omega
      constructor
      · rintro ⟨b, ⟨hl, hd, h⟩, rfl⟩
        obtain ⟨out, raw, he, hr, ho, hg⟩ := bits_bin (h := i.height) hw' hd
        unfold Sample.fromBytes at h
        dsimp only at h
        rw [Nat.mul_comm _ i.height] at he
        rw [assertR_dec (by simpa using w32), ok_bind, he, ok_bind, ho] at h
        obtain ⟨_, -, h⟩ := bind_eq_ok.1 h
        cases h
        refine ⟨fun _ => hl, raw, ⟨hr, hd, hg⟩, ?_⟩
        rw [scaleBuffer_bit shade_mem]; exact shade_store hb hm1 raw
      · rintro ⟨hl, raw', ⟨hr', hd, hg'⟩, rfl⟩
        obtain ⟨out, raw, he, hr, ho, hg⟩ := bits_bin (h := i.height) hw' hd
        have := bits_unique hr' hr hg' hg
        subst this
        refine ⟨raw'.map shade, ⟨hl hp', hd, ?_⟩, ?_⟩
        · unfold Sample.fromBytes
          dsimp only
          rw [Nat.mul_comm _ i.height] at he
          rw [assertR_dec (by simpa using w32), ok_bind, he, ok_bind, ho, assertR_dec (by simp [hr', hlenq]), ok_bind]
        · rw [scaleBuffer_bit shade_mem]; exact (shade_store hb hm1 raw').symm
  · rw [if_neg hb] at hc
    have hb' : i.bilevel = false := by simpa using hb
    obtain ⟨hc1, hm1, hm2⟩ := hc
    have hcp : 1 ≤ i.channels ∧ i.channels ≤ 3 := by omega
    by_cases hm : i.maxval ≤ 255
    · have ht : (tupleOf i).sample = (.U8, i.channels) := by
        unfold tupleOf
        rw [if_neg hb]
        rcases hc1 with h | h
        · rw [if_pos h, if_pos hm, h]; rfl
        · rw [if_neg (by omega), if_pos hm, h]; rfl
      rw [ht]
      dsimp only
      rw [if_pos hm, Nat.mul_one] at hn
      by_cases hp : i.plain = true
      · rw [if_pos hp]
        dsimp only
        simp only [asciiU8_iff]
        have hR : ∀ raw, Raster true i data raw ↔ raw.length = n ∧ PlainNumbers true 255 n data raw := by
          intro raw; unfold Raster; rw [if_pos hp, if_neg hb, if_pos hm, ← hn]
        simp only [hR]
        constructor
        · rintro ⟨b, ⟨raw, h1, rfl⟩, rfl⟩
          obtain ⟨l1, l2⟩ := plainNumbers_le h1
          exact ⟨fun h => absurd h (by rw [hp]; decide), raw, ⟨l1, h1⟩, stored8 hs' hb' hm l2⟩
        · rintro ⟨-, raw, ⟨h0, h1⟩, rfl⟩
          obtain ⟨l1, l2⟩ := plainNumbers_le h1
          exact ⟨_, ⟨raw, h1, rfl⟩, (stored8 hs' hb' hm l2).symm⟩
      · rw [if_neg hp]
        dsimp only
        have hp' : i.plain = false := by simpa using hp
        have hsz : size i = n * 1 := by unfold size; rw [if_neg hb, if_pos hm, hn]
        have hbl : ∀ m, Sample.U8.bytelen i.width i.height i.channels = .ok m ↔ n * 1 < 2 ^ 32 ∧ m = n * 1 := by
          intro m
          rw [hn]
          exact chain_iff (sz := 1) hcp.1 (le_refl _)
        rw [Nat.mul_one] at hbl hsz
        refine (exists_congr fun b => and_congr_left' (binary_iff (g := fun bytes rs => Sample.U8.fromBytes le bytes rs n)
          hbl (hmul i.channels hcp.2))).trans ?_
        have hR : ∀ raw, Raster true i data raw ↔ raw.length = n ∧ raw.length ≤ data.length ∧ raw = (data.take raw.length).map UInt8.toNat := by
          intro raw; rw [← bytes_iff]; unfold Raster; rw [if_neg hp, if_neg hb, if_pos hm, ← hn]
        simp only [hR]
        rw [hsz]
        constructor
        · rintro ⟨b, ⟨hl, hd, h⟩, rfl⟩
          unfold Sample.fromBytes at h
          dsimp only at h
          obtain ⟨_, -, h⟩ := bind_eq_ok.1 h
          cases h
          have hlen : ((data.take n).map UInt8.toNat).length = n := by simp; omega
          refine ⟨fun _ => hl, (data.take n).map UInt8.toNat, ⟨hlen, by rw [hlen]; exact hd, by rw [hlen]⟩, ?_⟩
          rw [← stored8 hs' hb' hm (le := le) (fun v hv => by
            obtain ⟨b, -, rfl⟩ := List.mem_map.1 hv
            have := b.toNat_lt; omega), bytes_back]
        · rintro ⟨hl, raw, ⟨h0, hd, h1⟩, rfl⟩
          rw [h0] at hd h1
          refine ⟨data.take n, ⟨hl hp', hd, ?_⟩, ?_⟩
          · unfold Sample.fromBytes
            dsimp only
            rw [assertR_dec (by simp; omega), ok_bind]
          · rw [← stored8 hs' hb' hm (le := le) (fun v hv => by
              rw [h1] at hv
              obtain ⟨b, -, rfl⟩ := List.mem_map.1 hv
              have := b.toNat_lt; omega), h1, bytes_back]
    · have ht : (tupleOf i).sample = (.U16, i.channels) := by
        unfold tupleOf
        rw [if_neg hb]
        rcases hc1 with h | h
        · rw [if_pos h, if_neg hm, h]; rfl
        · rw [if_neg (by omega), if_neg hm, h]; rfl
      rw [ht]
      dsimp only
      rw [if_neg hm] at hn
      generalize hN : i.width * i.height * i.channels = N at *
      subst hn
      by_cases hp : i.plain = true
      · rw [if_pos hp]
        dsimp only
        simp only [asciiU16_iff]
        have hR : ∀ raw, Raster true i data raw ↔ raw.length = N ∧ PlainNumbers true 65535 N data raw := by
          intro raw; unfold Raster; rw [if_pos hp, if_neg hb, if_neg hm, hN]
        simp only [hR]
        constructor
        · rintro ⟨b, ⟨raw, h1, rfl⟩, rfl⟩
          obtain ⟨l1, l2⟩ := plainNumbers_le h1
          exact ⟨fun h => absurd h (by rw [hp]; decide), raw, ⟨l1, h1⟩, stored16 hs' hb' hm l2⟩
        · rintro ⟨-, raw, ⟨h0, h1⟩, rfl⟩
          obtain ⟨l1, l2⟩ := plainNumbers_le h1
          exact ⟨_, ⟨raw, h1, rfl⟩, (stored16 hs' hb' hm l2).symm⟩
      · rw [if_neg hp]
        dsimp only
        have hp' : i.plain = false := by simpa using hp
        have hsz : size i = N * 2 := by unfold size; rw [if_neg hb, if_neg hm, hN]
        have hbl : ∀ m, Sample.U16.bytelen i.width i.height i.channels = .ok m ↔ N * 2 < 2 ^ 32 ∧ m = N * 2 := by
          intro m
          rw [← hN]
          exact chain_iff (sz := 2) hcp.1 (by decide)
        refine (exists_congr fun b => and_congr_left' (binary_iff (g := fun bytes rs => Sample.U16.fromBytes le bytes rs (N * 2))
          hbl (hmul i.channels hcp.2))).trans ?_
        have hR : ∀ raw, Raster true i data raw ↔ raw.length = N ∧ 2 * raw.length ≤ data.length ∧
            raw = (chunksExact 2 (data.take (2 * raw.length))).map beNat := by
          intro raw; rw [← words_iff]; unfold Raster; rw [if_neg hp, if_neg hb, if_neg hm, hN]
        simp only [hR]
        rw [hsz]
        have hwl : N * 2 ≤ data.length → ((chunksExact 2 (data.take (2 * N))).map beNat).length = N := by
          intro h
          rw [List.length_map, length_chunksExact, List.length_take]; omega
        have hle : ∀ v ∈ (chunksExact 2 (data.take (2 * N))).map beNat, v ≤ 65535 := by
          intro v hv
          obtain ⟨c, hc, rfl⟩ := List.mem_map.1 hv
          obtain ⟨k, hk, rfl⟩ := List.getElem_of_mem hc
          rw [length_chunksExact] at hk
          have := getElem?_chunksExact (n := 2) hk
          rw [List.getElem?_eq_getElem (by rw [length_chunksExact]; omega)] at this
          rw [Option.some.inj this, pair_get (by omega), beNat2]
          have := UInt8.toNat_lt ((data.take (2 * N))[2 * k]'(by omega))
          have := UInt8.toNat_lt ((data.take (2 * N))[2 * k + 1]'(by omega))
          omega
        constructor
        · rintro ⟨b, ⟨hl, hd, h⟩, rfl⟩
          unfold Sample.fromBytes at h
          dsimp only at h
          obtain ⟨_, -, h⟩ := bind_eq_ok.1 h
          cases h
          refine ⟨fun _ => hl, (chunksExact 2 (data.take (2 * N))).map beNat, ⟨hwl hd, by rw [hwl hd]; omega, by rw [hwl hd]⟩, ?_⟩
          rw [← stored16 hs' hb' hm (le := le) hle, words_back (n := N) (by rw [List.length_take]; omega), Nat.mul_comm N 2,
            List.drop_eq_nil_of_le (by rw [List.length_take]; omega), List.append_nil]
        · rintro ⟨hl, raw, ⟨h0, hd, h1⟩, rfl⟩
          rw [h0] at hd h1
          refine ⟨(chunksExact 2 (data.take (2 * N))).flatMap (native16 le), ⟨hl hp', by omega, ?_⟩, ?_⟩
          · unfold Sample.fromBytes
            dsimp only
            rw [assertR_dec (by simp; omega), ok_bind, Nat.mul_comm N 2, List.drop_eq_nil_of_le (by rw [List.length_take]; omega), List.append_nil]
          · rw [← stored16 hs' hb' hm (le := le) (by rw [h1]; exact hle), h1, words_back (n := N) (by rw [List.length_take]; omega)]

end Pnm
end Verif
