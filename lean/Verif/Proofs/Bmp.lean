import Verif.Model.Bmp
import Verif.Proofs.Outcome
import Verif.Proofs.Tga
import Verif.Proofs.Pbm

/-!
# BMP decoder: no panics, sizes are kept
-/

namespace Verif
namespace Bmp

/-- Any error. -/
abbrev AnyE : Err → Prop := fun _ => True

/-! ## Bit fields -/

theorem find_range_lt {n : Nat} {p : Nat → Bool} {i : Nat} (h : (List.range n).find? p = some i) : i < n ∧ p i = true :=
  ⟨by simpa using List.mem_of_find?_eq_some h, List.find?_some h⟩

theorem trailingZeros_le (m : Nat) : trailingZeros m ≤ 32 := by
  unfold trailingZeros
  cases h : (List.range 32).find? fun i => m.testBit i with
  | none => simp
  | some i => have := (find_range_lt h).1; simp; omega

theorem testBit_exists {m : Nat} (h0 : m ≠ 0) (h : m < 2 ^ 32) : ∃ i, i < 32 ∧ m.testBit i = true := by
  obtain ⟨i, hi⟩ := Nat.exists_testBit_of_ne_zero h0
  refine ⟨i, ?_, hi⟩
  false_or_by_contra
  have : m < 2 ^ i := Nat.lt_of_lt_of_le h (Nat.pow_le_pow_right (by omega) (by omega))
  rw [Nat.testBit_lt_two_pow this] at hi
  cases hi

theorem countOnes_pos {m : Nat} (h0 : m ≠ 0) (h : m < 2 ^ 32) : 0 < countOnes m := by
  obtain ⟨i, hi, hb⟩ := testBit_exists h0 h
  unfold countOnes
  exact List.length_pos_of_mem (a := i) (by simp [hi, hb])

/-- A bit field that `read` accepts. -/
def Bitfield.Good (f : Bitfield) : Prop := 1 ≤ f.len ∧ f.len ≤ 8

theorem fromMask_total (mask maxLen : Nat) (h : mask < 2 ^ 32) :
    OkOr AnyE (fun f => (mask ≠ 0 → f.Good) ∧ (mask = 0 → f.len = 0)) (Bitfield.fromMask mask maxLen) := by
  unfold Bitfield.fromMask
  dsimp only
  split
  · rename_i h0; exact ⟨fun h => absurd h0 h, fun _ => rfl⟩
  · rename_i h0
    split
    · trivial
    · rename_i hc
      have := countOnes_pos h0 h
      split
      · trivial
      · split
        · exact ⟨fun _ => ⟨by simp, by simp⟩, fun h => absurd h h0⟩
        · exact ⟨fun _ => ⟨by dsimp only; omega, by dsimp only; omega⟩, fun h => absurd h h0⟩

theorem read_ok {f : Bitfield} (h : f.Good) (data : Nat) : ∃ b, f.read data = .ok b := by
  obtain ⟨s, l⟩ := f
  obtain ⟨h1, h2⟩ := h
  dsimp only at h1 h2
  have tab : ∀ {t : List UInt8} {i : Nat}, i < t.length → ∃ b, unwrapR t[i]? = .ok b := by
    intro t i hi
    rw [List.getElem?_eq_getElem hi]; exact ⟨_, rfl⟩
  rcases (show l = 1 ∨ l = 2 ∨ l = 3 ∨ l = 4 ∨ l = 5 ∨ l = 6 ∨ l = 7 ∨ l = 8 by omega) with
    rfl | rfl | rfl | rfl | rfl | rfl | rfl | rfl
  · exact ⟨_, rfl⟩
  · exact ⟨_, rfl⟩
  · exact tab (Nat.mod_lt _ (by decide))
  · exact tab (Nat.mod_lt _ (by decide))
  · exact tab (Nat.mod_lt _ (by decide))
  · exact tab (Nat.mod_lt _ (by decide))
  · exact ⟨_, rfl⟩
  · exact ⟨_, rfl⟩

/-- Bit fields that pixels can be read with. -/
def Bitfields.Good (f : Bitfields) : Prop := f.r.Good ∧ f.g.Good ∧ f.b.Good ∧ f.a.len ≤ 8

theorem fromMasks_total (r g b a maxLen : Nat) (hr : r < 2 ^ 32) (hg : g < 2 ^ 32) (hb : b < 2 ^ 32) (ha : a < 2 ^ 32) :
    OkOr AnyE (fun f => f.Good ∧ (a = 0 → f.a.len = 0)) (Bitfields.fromMask r g b a maxLen) := by
  unfold Bitfields.fromMask
  refine (fromMask_total r maxLen hr).bind fun fr h1 => ?_
  refine (fromMask_total g maxLen hg).bind fun fg h2 => ?_
  refine (fromMask_total b maxLen hb).bind fun fb h3 => ?_
  refine (fromMask_total a maxLen ha).bind fun fa h4 => ?_
  split
  · trivial
  · rename_i hn
    have k : ∀ {m : Nat} {f : Bitfield}, ((m ≠ 0 → f.Good) ∧ (m = 0 → f.len = 0)) → f.len ≠ 0 → f.Good := by
      intro m f h hl
      exact h.1 (fun h0 => hl (h.2 h0))
    refine ⟨⟨k (f := fr) (m := r) h1 (fun h => hn (.inl h)), k (f := fg) (m := g) h2 (fun h => hn (.inr (.inl h))), k (f := fb) (m := b) h3 (fun h => hn (.inr (.inr h))), ?_⟩, h4.2⟩
    by_cases h0 : a = 0
    · have := h4.2 h0; dsimp only; omega
    · exact (h4.1 h0).2

/-! ## Readers -/

theorem readU_total (n : Nat) (c : Cursor) : OkOr AnyE (fun r => r.1 < 256 ^ n ∧ r.2.bytes = c.bytes) (readU n c) := by
  unfold readU Cursor.readExact
  split
  · rename_i h
    refine ⟨?_, rfl⟩
    have := leNat_lt ((c.bytes.drop c.pos).take n)
    rwa [List.length_take, List.length_drop, Nat.min_eq_left h] at this
  · trivial

theorem cursor_readExact_total (n : Nat) (c : Cursor) :
    OkOr AnyE (fun r => r.1.length = n ∧ r.2.bytes = c.bytes) (c.readExact n) := by
  unfold Cursor.readExact
  split
  · rename_i h
    refine ⟨?_, rfl⟩
    rw [List.length_take, List.length_drop]; omega
  · trivial

theorem checkForOverflow_total (w h : Int) (n : Nat) : OkOr AnyE (fun _ => 0 < w ∧ 0 < h) (checkForOverflow w h n) := by
  unfold checkForOverflow
  split
  · trivial
  · split
    · show 0 < w ∧ 0 < h; omega
    · trivial

/-- What the headers guarantee. -/
structure Info.Good (addAlpha : Bool) (i : Info) : Prop where
  width : 1 ≤ i.width ∧ i.width ≤ 65535
  height : 1 ≤ i.height ∧ i.height < 2 ^ 31
  palette : i.imageType = .Palette → i.bitCount = 1 ∨ i.bitCount = 2 ∨ i.bitCount = 4 ∨ i.bitCount = 8
  rle4 : i.imageType = .RLE4 → i.bitCount = 4
  rle8 : i.imageType = .RLE8 → i.bitCount = 8
  rgba : i.imageType = .RGBA32 → addAlpha = true
  bottomUp : i.imageType = .RLE4 ∨ i.imageType = .RLE8 → i.topDown = false

theorem readCoreHeader_total (al : Bool) (c : Cursor) :
    OkOr AnyE (fun r => r.1.Good al ∧ r.2.bytes = c.bytes) (readCoreHeader al c) := by
  unfold readCoreHeader
  refine (readU_total 2 c).bind fun ⟨w, c1⟩ ⟨h1, b1⟩ => ?_
  refine (readU_total 2 c1).bind fun ⟨h, c2⟩ ⟨h2, b2⟩ => ?_
  dsimp only at *
  refine (checkForOverflow_total _ _ _).bind fun _ h3 => ?_
  refine (readU_total 2 c2).bind fun ⟨pl, c3⟩ ⟨_, b3⟩ => ?_
  dsimp only at *
  split
  · trivial
  · refine (readU_total 2 c3).bind fun ⟨bc, c4⟩ ⟨_, b4⟩ => ?_
    dsimp only at *
    have e : c4.bytes = c.bytes := by rw [b4, b3, b2, b1]
    split
    · rename_i hb
      refine ⟨⟨?_, ?_, ?_, ?_, ?_, ?_, fun _ => rfl⟩, e⟩
      · dsimp only; omega
      · dsimp only; omega
      · intro _; dsimp only; omega
      all_goals intro h; exact nomatch h
    · split
      · refine ⟨⟨?_, ?_, ?_, ?_, ?_, ?_, fun _ => rfl⟩, e⟩
        · dsimp only; omega
        · dsimp only; omega
        all_goals intro h; exact nomatch h
      · trivial

theorem imageTypeOf_total (al : Bool) (comp bc : Nat) : OkOr AnyE (fun t =>
    (t = .Palette → bc = 1 ∨ bc = 2 ∨ bc = 4 ∨ bc = 8) ∧ (t = .RLE4 → bc = 4) ∧ (t = .RLE8 → bc = 8) ∧
    (t = .RGBA32 → al = true) ∧ (t = .RLE4 ∨ t = .RLE8 → comp = 1 ∨ comp = 2)) (imageTypeOf al comp bc) := by
  unfold imageTypeOf
  repeat' split
  all_goals first | trivial | (simp only [OkOr]; refine ⟨?_, ?_, ?_, ?_, ?_⟩ <;> intro h <;> first | (cases h; done) | assumption | (rcases h with h | h <;> cases h; done) | omega)

theorem readInfoHeader_total (al : Bool) (c : Cursor) :
    OkOr AnyE (fun r => r.1.Good al ∧ r.2.bytes = c.bytes) (readInfoHeader al c) := by
  unfold readInfoHeader
  refine (readU_total 4 c).bind fun ⟨w, c1⟩ ⟨h1, b1⟩ => ?_
  refine (readU_total 4 c1).bind fun ⟨h, c2⟩ ⟨h2, b2⟩ => ?_
  dsimp only at *
  split
  · trivial
  rename_i g1
  split
  · trivial
  rename_i g2
  split
  · trivial
  rename_i g3
  have hh : toI32 h < 2 ^ 31 ∧ -2 ^ 31 ≤ toI32 h := by unfold toI32; split <;> omega
  refine (checkForOverflow_total _ _ _).bind fun _ h3 => ?_
  refine (readU_total 2 c2).bind fun ⟨pl, c3⟩ ⟨_, b3⟩ => ?_
  dsimp only at *
  split
  · trivial
  refine (readU_total 2 c3).bind fun ⟨bc, c4⟩ ⟨_, b4⟩ => ?_
  refine (readU_total 4 c4).bind fun ⟨comp, c5⟩ ⟨_, b5⟩ => ?_
  dsimp only at *
  split
  · trivial
  rename_i g4
  refine (imageTypeOf_total al comp bc).bind fun ty ⟨t1, t2, t3, t4, t5⟩ => ?_
  refine (readU_total 4 c5).bind fun ⟨_, c6⟩ ⟨_, b6⟩ => ?_
  refine (readU_total 4 c6).bind fun ⟨_, c7⟩ ⟨_, b7⟩ => ?_
  refine (readU_total 4 c7).bind fun ⟨_, c8⟩ ⟨_, b8⟩ => ?_
  refine (readU_total 4 c8).bind fun ⟨cu, c9⟩ ⟨_, b9⟩ => ?_
  refine (readU_total 4 c9).bind fun ⟨_, c10⟩ ⟨_, b10⟩ => ?_
  dsimp only at *
  refine ⟨⟨by dsimp only; omega, by dsimp only; omega, t1, t2, t3, t4, ?_⟩, ?_⟩
  · intro hrle
    have := t5 hrle
    dsimp only
    cases htd : decide (toI32 h < 0)
    · rfl
    · exact absurd ⟨htd, by omega, by omega⟩ g4
  dsimp only
  rw [b10, b9, b8, b7, b6, b5, b4, b3, b2, b1]

theorem readBitmasks_total (ht : HeaderType) (ty : ImageType) (c : Cursor) :
    OkOr AnyE (fun r => (ty = .Bitfields16 ∨ ty = .Bitfields32 → ∃ f, r.1 = some f ∧ f.Good ∧ (f.a.len ≠ 0 → r.2.1 = true)) ∧
      r.2.2.bytes = c.bytes) (readBitmasks ht ty c) := by
  unfold readBitmasks
  refine (readU_total 4 c).bind fun ⟨r, c1⟩ ⟨h1, b1⟩ => ?_
  refine (readU_total 4 c1).bind fun ⟨g, c2⟩ ⟨h2, b2⟩ => ?_
  refine (readU_total 4 c2).bind fun ⟨b, c3⟩ ⟨h3, b3⟩ => ?_
  dsimp only at *
  have ha : OkOr AnyE (fun r => r.1 < 2 ^ 32 ∧ r.2.bytes = c3.bytes) (match ht with
    | .V3 | .V4 | .V5 => readU 4 c3
    | _ => .ok (0, c3)) := by
    split
    · exact readU_total 4 c3
    · exact readU_total 4 c3
    · exact readU_total 4 c3
    · exact ⟨Nat.two_pow_pos 32, rfl⟩
  refine ha.bind fun ⟨a, c4⟩ ⟨h4, b4⟩ => ?_
  dsimp only at *
  have key : ∀ m, OkOr AnyE (fun r => (ty = .Bitfields16 ∨ ty = .Bitfields32 → ∃ f, r.1 = some f ∧ f.Good ∧ (f.a.len ≠ 0 → r.2.1 = true)) ∧
      r.2.2.bytes = c.bytes) (do
      let f ← Bitfields.fromMask r g b a m
      Except.ok (some f, decide (a ≠ 0), c4)) := by
    intro m
    refine (fromMasks_total r g b a m h1 h2 h3 h4).bind fun f ⟨hf, hf0⟩ => ?_
    refine ⟨fun _ => ⟨f, rfl, hf, fun hl => ?_⟩, by dsimp only; rw [b4, b3, b2, b1]⟩
    simp only [decide_eq_true_eq]
    exact fun h => hl (hf0 h)
  split
  · exact key 16
  · exact key 32
  · rename_i n1 n2
    exact ⟨fun h => by rcases h with h | h; exacts [absurd h n1, absurd h n2], by dsimp only; rw [b4, b3, b2, b1]⟩

theorem mapM_ok {α β : Type} {f : α → R β} {P : β → Prop} : ∀ {l : List α}, (∀ a ∈ l, ∃ b, f a = .ok b ∧ P b) →
    ∃ l', l.mapM f = .ok l' ∧ l'.length = l.length ∧ ∀ b ∈ l', P b := by
  intro l
  induction l with
  | nil => intro _; exact ⟨[], rfl, rfl, by simp⟩
  | cons a l ih =>
    intro h
    obtain ⟨b, h1, hb⟩ := h a (by simp)
    obtain ⟨l', h2, h3, h4⟩ := ih fun x hx => h x (by simp [hx])
    refine ⟨b :: l', ?_, by simp [h3], ?_⟩
    · rw [List.mapM_cons, h1, ok_bind, h2]; rfl
    · intro x hx
      rcases List.mem_cons.1 hx with rfl | hx
      exacts [hb, h4 x hx]

theorem seekCurrent_total (c : Cursor) (d : Int) : OkOr AnyE (fun r => r.2.bytes = c.bytes) (c.seekCurrent d) := by
  unfold Cursor.seekCurrent
  split
  · exact rfl
  · trivial

theorem readPalette_total (ht : HeaderType) (cu bc : Nat) (c : Cursor) :
    OkOr AnyE (fun r => r.1.length = 256 ∧ r.2.bytes = c.bytes) (readPalette ht cu bc c) := by
  unfold readPalette
  have hb : bytesPerColor ht = 3 ∨ bytesPerColor ht = 4 := by cases ht <;> simp [bytesPerColor]
  dsimp only
  generalize bytesPerColor ht = bpc at *
  have hs : OkOr AnyE (fun _ => True) (paletteSize cu bc) := by
    unfold paletteSize
    repeat' split
    all_goals trivial
  refine hs.bind fun size _ => ?_
  refine (cursor_readExact_total _ c).bind fun ⟨buf, c1⟩ ⟨l1, e1⟩ => ?_
  dsimp only at *
  have hk : OkOr AnyE (fun c' => c'.bytes = c1.bytes) (if size * bpc > 256 * bpc then do
      let (_, c) ← c1.seekCurrent (size * bpc - 256 * bpc : Nat)
      Except.ok c
    else Except.ok c1) := by
    split
    · generalize ((size * bpc - 256 * bpc : Nat) : Int) = dd
      exact (seekCurrent_total c1 dd).bind fun ⟨_, c2⟩ h => h
    · exact rfl
  refine hk.bind fun c2 e2 => ?_
  have hlen : (buf ++ List.replicate (256 * bpc - buf.length) (0 : UInt8)).length = 256 * bpc := by
    rw [List.length_append, List.length_replicate]
    have : min (size * bpc) (256 * bpc) ≤ 256 * bpc := Nat.min_le_right _ _
    omega
  generalize (buf ++ List.replicate (256 * bpc - buf.length) (0 : UInt8)) = full at hlen ⊢
  obtain ⟨p, h1, h2, -⟩ := mapM_ok (l := List.range 256) (P := fun _ => True) (f := fun i => (do
    let b ← unwrapR full[bpc * i]?
    let g ← unwrapR full[bpc * i + 1]?
    let r ← unwrapR full[bpc * i + 2]?
    Except.ok (r, g, b) : R Rgb)) (by
      intro i hi
      rw [List.mem_range] at hi
      have hbound : bpc * i + 2 < full.length := by
        rw [hlen]
        have : bpc * i ≤ bpc * 255 := Nat.mul_le_mul_left _ (by omega)
        omega
      rw [List.getElem?_eq_getElem (show bpc * i < full.length by omega),
        List.getElem?_eq_getElem (show bpc * i + 1 < full.length by omega), List.getElem?_eq_getElem hbound]
      exact ⟨_, rfl, trivial⟩)
  rw [h1, ok_bind]
  exact ⟨by rw [h2]; simp, by dsimp only; rw [e2, e1]⟩

/-- What `read_metadata` guarantees. -/
structure Decoder.Good (d : Decoder) : Prop where
  width : 1 ≤ d.width ∧ d.width ≤ 65535
  height : d.height < 2 ^ 31
  indexed : d.indexedColor = false
  bits : d.imageType = .Palette → d.bitCount = 1 ∨ d.bitCount = 2 ∨ d.bitCount = 4 ∨ d.bitCount = 8
  palette : d.imageType = .Palette ∨ d.imageType = .RLE4 ∨ d.imageType = .RLE8 → ∃ p, d.palette = some p ∧ p.length = 256
  rgba : d.imageType = .RGBA32 → d.addAlpha = true
  bottomUp : d.imageType = .RLE4 ∨ d.imageType = .RLE8 → d.topDown = false
  fields : d.imageType = .Bitfields16 ∨ d.imageType = .Bitfields32 →
    ∃ f, d.bitfields = some f ∧ f.Good ∧ (f.a.len ≠ 0 → d.addAlpha = true)

theorem readMetadata_total (nf al : Bool) (c : Cursor) :
    OkOr AnyE (fun d => d.Good ∧ 1 ≤ d.height ∧ d.reader.bytes = c.bytes ∧ (al = true → d.addAlpha = true) ∧
      (d.addAlpha = true → al = true ∨ d.imageType = .Bitfields16 ∨ d.imageType = .Bitfields32)) (readMetadata nf al c) := by
  unfold readMetadata
  have h0 : OkOr AnyE (fun r => r.2.bytes = c.bytes) (if nf = true then Except.ok (0, c) else readFileHeader c) := by
    split
    · exact rfl
    · unfold readFileHeader
      refine (cursor_readExact_total 2 c).bind fun ⟨sig, c1⟩ ⟨_, b1⟩ => ?_
      dsimp only at *
      split
      · trivial
      · refine (readU_total 4 c1).bind fun ⟨_, c2⟩ ⟨_, b2⟩ => ?_
        refine (readU_total 4 c2).bind fun ⟨_, c3⟩ ⟨_, b3⟩ => ?_
        refine (readU_total 4 c3).mono fun r hr => ?_
        dsimp only at *
        rw [hr.2, b3, b2, b1]
  refine h0.bind fun ⟨off, c1⟩ b1 => ?_
  dsimp only at *
  refine (readU_total 4 c1).bind fun ⟨size, c2⟩ ⟨_, b2⟩ => ?_
  dsimp only at *
  have hht : OkOr AnyE (fun _ => True) (headerTypeOf size) := by
    unfold headerTypeOf
    repeat' split
    all_goals trivial
  refine hht.bind fun ht _ => ?_
  have hin : OkOr AnyE (fun r => r.1.Good al ∧ r.2.bytes = c2.bytes) (match ht with
    | .Core => readCoreHeader al c2
    | _ => readInfoHeader al c2) := by
    split
    · exact readCoreHeader_total al c2
    · exact readInfoHeader_total al c2
  refine hin.bind fun ⟨info, c3⟩ ⟨hg, b3⟩ => ?_
  dsimp only at *
  have hbf : OkOr AnyE (fun r => (info.imageType = .Bitfields16 ∨ info.imageType = .Bitfields32 →
        ∃ f, r.1 = some f ∧ f.Good ∧ (f.a.len ≠ 0 → r.2.1 = true)) ∧ r.2.2.bytes = c3.bytes ∧
        (r.2.1 = true → info.imageType = .Bitfields16 ∨ info.imageType = .Bitfields32)) (match info.imageType with
    | .Bitfields16 | .Bitfields32 => readBitmasks ht info.imageType c3
    | _ => Except.ok (none, false, c3)) := by
    split
    · rename_i hi
      exact (readBitmasks_total ht _ c3).mono fun r hr => ⟨hr.1, hr.2, fun _ => .inl hi⟩
    · rename_i hi
      exact (readBitmasks_total ht _ c3).mono fun r hr => ⟨hr.1, hr.2, fun _ => .inr hi⟩
    · rename_i n1 n2
      exact ⟨fun h => by rcases h with h | h; exacts [absurd h n1, absurd h n2], rfl, fun h => nomatch h⟩
  refine hbf.bind fun ⟨fields, alpha, c4⟩ ⟨hf, b4, hal⟩ => ?_
  dsimp only at *
  simp only [Cursor.seekStart, ok_bind]
  have hpal : OkOr AnyE (fun r => (info.imageType = .Palette ∨ info.imageType = .RLE4 ∨ info.imageType = .RLE8 →
      ∃ p, r.1 = some p ∧ p.length = 256) ∧ r.2.bytes = c4.bytes) (match info.imageType with
    | .Palette | .RLE4 | .RLE8 => do
      let (p, c) ← readPalette ht info.colorsUsed info.bitCount { c4 with pos := c1.pos + size }
      Except.ok (some p, c)
    | _ => Except.ok (none, { c4 with pos := c1.pos + size })) := by
    split
    · refine (readPalette_total _ _ _ _).bind fun ⟨p, c5⟩ ⟨hp, b5⟩ => ?_
      exact ⟨fun _ => ⟨p, rfl, hp⟩, b5⟩
    · refine (readPalette_total _ _ _ _).bind fun ⟨p, c5⟩ ⟨hp, b5⟩ => ?_
      exact ⟨fun _ => ⟨p, rfl, hp⟩, b5⟩
    · refine (readPalette_total _ _ _ _).bind fun ⟨p, c5⟩ ⟨hp, b5⟩ => ?_
      exact ⟨fun _ => ⟨p, rfl, hp⟩, b5⟩
    · rename_i n1 n2 n3
      exact ⟨fun h => by rcases h with h | h | h; exacts [absurd h n1, absurd h n2, absurd h n3], rfl⟩
  refine hpal.bind fun ⟨pal, c5⟩ ⟨hp, b5⟩ => ?_
  dsimp only at *
  refine ⟨⟨hg.width, hg.height.2, rfl, hg.palette, hp, ?_, hg.bottomUp, ?_⟩, hg.height.1, ?_, fun h => by subst h; rfl, fun h => ?_⟩
  · intro h; show (al || alpha) = true
    rw [hg.rgba h]; rfl
  · intro h
    obtain ⟨f, h1, h2, h3⟩ := hf h
    refine ⟨f, h1, h2, fun hl => ?_⟩
    show (al || alpha) = true
    rw [h3 hl]; simp
  · show c5.bytes = c.bytes
    rw [b5, b4, b3, b2, b1]
  · have h : (al || alpha) = true := h
    cases al
    · exact .inr (hal h)
    · exact .inl rfl

/-! ## Pixels -/

/-- An iterator over `n` pixels of `c` bytes. -/
def PixIter.Ok (c n : Nat) (it : PixIter) : Prop :=
  (∀ p ∈ it.done ++ it.rest, p.length = c) ∧ (it.done ++ it.rest).length = n

theorem length_flatten_const {α : Type} {c : Nat} : ∀ {l : List (List α)}, (∀ p ∈ l, p.length = c) →
    l.flatten.length = l.length * c := by
  intro l
  induction l with
  | nil => simp
  | cons a l ih =>
    intro h
    rw [List.flatten_cons, List.length_append, ih fun p hp => h p (by simp [hp]), h a (by simp), List.length_cons]
    rw [Nat.add_mul]; omega

theorem PixIter.Ok.length {c n : Nat} {it : PixIter} (h : it.Ok c n) : it.bytes.length = n * c := by
  unfold PixIter.bytes
  rw [length_flatten_const h.1, h.2]

theorem setPixel_ok {p : List UInt8} (h : 3 ≤ p.length) (c : Rgb) : ∃ p', setPixel p c = .ok p' ∧ p'.length = p.length := by
  match p, h with
  | a :: b :: d :: t, _ => exact ⟨_, rfl, rfl⟩

theorem setRun_total {pal : List Rgb} (hp : pal.length = 256) {c n : Nat} (hc : 3 ≤ c) :
    ∀ (is : List Nat) (it : PixIter), (∀ i ∈ is, i < 256) → it.Ok c n →
      ∃ b it', setRun pal is it = .ok (b, it') ∧ it'.Ok c n := by
  intro is
  induction is with
  | nil => intro it _ h; exact ⟨_, _, rfl, h⟩
  | cons i is ih =>
    intro it hi h
    unfold setRun
    split
    · exact ⟨_, _, rfl, h⟩
    · rename_i p ps he
      have hi0 := hi i (by simp)
      rw [List.getElem?_eq_getElem (show i < pal.length by omega)]
      have hpl : p.length = c := h.1 p (by rw [he]; simp)
      obtain ⟨p', h1, h2⟩ := setPixel_ok (p := p) (by omega) pal[i]
      simp only [unwrapR, ok_bind, h1]
      apply ih _ (fun j hj => hi j (by simp [hj]))
      obtain ⟨a, b⟩ := h
      rw [he] at a b
      refine ⟨?_, ?_⟩
      · intro q hq
        simp only [List.append_assoc, List.singleton_append, List.mem_append, List.mem_cons] at hq a
        rcases hq with hq | rfl | hq
        · exact a q (.inl hq)
        · omega
        · exact a q (.inr (.inr hq))
      · simpa using b

theorem pixels_ok {c n : Nat} (hc : 0 < c) {row : List UInt8} (h : row.length = n * c) :
    ∃ it, pixels c row = .ok it ∧ it.Ok c n ∧ it.done = [] ∧ it.rest = chunksOf c row := by
  unfold pixels
  rw [decide_eq_true (by omega), assertR_true, ok_bind]
  refine ⟨_, rfl, ⟨?_, ?_⟩, rfl, rfl⟩
  · intro p hp
    exact (chunksOf_eq hc h).2.1 p hp
  · exact (chunksOf_eq hc h).2.2

theorem rowLoop_total {f : List UInt8 → List UInt8 → R (List UInt8 × List UInt8)} {n : Nat} {rows : List (List UInt8)}
    (hrows : ∀ r ∈ rows, r.length = n)
    (hf : ∀ row s, row.length = n → OkOr AnyE (fun r => r.1.length = n) (f row s)) (s : List UInt8) :
    OkOr AnyE (fun r => (∀ p ∈ r.1, p.length = n) ∧ r.1.length = rows.length) (rowLoop rows f s) := by
  unfold rowLoop
  suffices H : ∀ (rows : List (List UInt8)), (∀ r ∈ rows, r.length = n) → ∀ (st : List (List UInt8) × List UInt8),
      (∀ p ∈ st.1, p.length = n) → OkOr AnyE (fun r => (∀ p ∈ r.1, p.length = n) ∧ r.1.length = st.1.length + rows.length)
      (forList rows (fun row (st : List (List UInt8) × List UInt8) => do
        let (row, s) ← f row st.2
        Except.ok (st.1 ++ [row], s)) st) by
    refine (H rows hrows ([], s) (by simp)).mono fun r hr => ?_
    simpa using hr
  intro rows
  induction rows with
  | nil => intro _ st h; exact ⟨h, by simp⟩
  | cons row rows ih =>
    intro hr st h
    rw [forList]
    refine OkOr.bind (P := fun st' => (∀ p ∈ st'.1, p.length = n) ∧ st'.1.length = st.1.length + 1) ?_ ?_
    · refine (hf row st.2 (hr row (by simp))).bind fun ⟨row', s'⟩ hl => ?_
      refine ⟨?_, by simp⟩
      intro p hp
      rcases List.mem_append.1 hp with hp | hp
      · exact h p hp
      · rw [List.mem_singleton.1 hp]; exact hl
    · intro st' ⟨h1, h2⟩
      refine (ih (fun r hr' => hr r (by simp [hr'])) st' h1).mono fun r ⟨h3, h4⟩ => ⟨h3, ?_⟩
      rw [h4, h2, List.length_cons]; omega

theorem rows_lengths {n k : Nat} (hn : 0 < n) {buf : List UInt8} (h : buf.length = k * n) :
    (∀ r ∈ chunksOf n buf, r.length = n) ∧ (chunksOf n buf).length = k := by
  obtain ⟨it, -, h1, h2, h3⟩ := pixels_ok hn h
  rw [← h3]
  obtain ⟨a, b⟩ := h1
  rw [h2, List.nil_append] at a b
  exact ⟨a, b⟩

theorem withRows_total {f : List UInt8 → List UInt8 → R (List UInt8 × List UInt8)} {w h c : Nat} (hw : 1 ≤ w ∧ w ≤ 65535)
    (hh : h < 2 ^ 31) (hc : 1 ≤ c ∧ c ≤ 4) {buf : List UInt8} (hb : buf.length = w * h * c) (td : Bool)
    (hf : ∀ row s, row.length = w * c → OkOr AnyE (fun r => r.1.length = w * c) (f row s)) (s : List UInt8) :
    OkOr AnyE (fun r => r.1.length = w * h * c) (withRows buf w h c td f s) := by
  unfold withRows
  have h1 : c * w ≤ 4 * 65535 := Nat.mul_le_mul hc.2 hw.2
  have h2 : c * w * h ≤ 4 * 65535 * 2 ^ 31 := Nat.mul_le_mul h1 hh.le
  have hpos : 0 < c * w := Nat.mul_pos hc.1 hw.1
  have e : buf.length = h * (c * w) := by rw [hb, Nat.mul_comm c w, ← Nat.mul_assoc, Nat.mul_comm h w]
  rw [checkedMul, if_pos (by omega)]
  simp only [unwrapR, ok_bind]
  rw [checkedMul, if_pos (by omega)]
  simp only [ok_bind]
  rw [decide_eq_true (by rw [e, Nat.mul_comm]), assertR_true, ok_bind, decide_eq_true (by omega), assertR_true, ok_bind]
  obtain ⟨r1, r2⟩ := rows_lengths hpos e
  have hf' : ∀ row s, row.length = c * w → OkOr AnyE (fun r => r.1.length = c * w) (f row s) := by
    rw [Nat.mul_comm c w]; exact hf
  have hfin : w * h * c = h * (c * w) := by rw [Nat.mul_comm c w, ← Nat.mul_assoc, Nat.mul_comm h w]
  split
  · refine (rowLoop_total r1 hf' s).bind fun ⟨rows, s'⟩ ⟨h3, h4⟩ => ?_
    show rows.flatten.length = _
    rw [length_flatten_const h3, h4, r2, hfin]
  · refine (rowLoop_total (fun r hr => r1 r (by simpa using hr)) hf' s).bind fun ⟨rows, s'⟩ ⟨h3, h4⟩ => ?_
    show rows.reverse.flatten.length = _
    rw [length_flatten_const (fun p hp => h3 p (by simpa using hp)), List.length_reverse, h4, List.length_reverse, r2, hfin]

theorem pixelLoop_total {n c : Nat} {f : List UInt8 → List UInt8 → R (List UInt8)}
    (hf : ∀ b p, b.length = n → p.length = c → OkOr AnyE (fun r => r.length = c) (f b p)) {ps : List (List UInt8)}
    (hps : ∀ p ∈ ps, p.length = c) (s : List UInt8) :
    OkOr AnyE (fun r => r.1.length = ps.length * c) (pixelLoop n f ps s) := by
  unfold pixelLoop
  suffices H : ∀ (ps : List (List UInt8)), (∀ p ∈ ps, p.length = c) → ∀ st : List UInt8 × List UInt8,
      OkOr AnyE (fun r => r.1.length = st.1.length + ps.length * c) (forList ps (fun p (st : List UInt8 × List UInt8) => do
        let (b, s) ← readExact n st.2
        let p ← f b p
        Except.ok (st.1 ++ p, s)) st) by
    simpa using H ps hps ([], s)
  intro ps
  induction ps with
  | nil => intro _ st; simp [forList, OkOr]
  | cons p ps ih =>
    intro hps st
    rw [forList]
    refine OkOr.bind (P := fun st' => st'.1.length = st.1.length + c) ?_ ?_
    · refine ((readExact_total n st.2).weaken fun _ _ => trivial).bind fun ⟨b, s'⟩ hb => ?_
      refine (hf b p hb (hps p (by simp))).bind fun p' hp' => ?_
      show (st.1 ++ p').length = _
      rw [List.length_append, hp']
    · intro st' h
      refine (ih (fun q hq => hps q (by simp [hq])) st').mono fun r hr => ?_
      rw [hr, h, List.length_cons, Nat.add_mul]; omega

theorem fieldsPixel_total {f : Bitfields} (hf : f.Good) {c : Nat} (hc : c = 3 ∨ c = 4) (data : Nat) {p : List UInt8}
    (hp : p.length = c) : OkOr AnyE (fun r => r.length = c) (fieldsPixel f c data p) := by
  obtain ⟨g1, g2, g3, g4⟩ := hf
  obtain ⟨r, e1⟩ := read_ok g1 data
  obtain ⟨g, e2⟩ := read_ok g2 data
  obtain ⟨b, e3⟩ := read_ok g3 data
  obtain ⟨p', e4, l4⟩ := setPixel_ok (p := p) (by omega) (r, g, b)
  unfold fieldsPixel
  rw [e1, ok_bind, e2, ok_bind, e3, ok_bind, e4, ok_bind]
  split
  · have : ∃ a, (if f.a.len ≠ 0 then f.a.read data else Except.ok 0xFF) = Except.ok a := by
      split
      · exact read_ok ⟨by omega, g4⟩ data
      · exact ⟨_, rfl⟩
    obtain ⟨a, e5⟩ := this
    rw [e5, ok_bind, decide_eq_true (by omega), assertR_true, ok_bind]
    show (p'.set 3 a).length = c
    rw [List.length_set, l4, hp]
  · show p'.length = c; omega

theorem fullPixel_total {fmt : FullFormat} {c : Nat} (hc : c = 3 ∨ c = 4) (hfmt : fmt = .RGBA32 → c = 4) (b : List UInt8)
    {p : List UInt8} (hp : p.length = c) : OkOr AnyE (fun r => r.length = c) (fullPixel fmt c b p) := by
  unfold fullPixel
  dsimp only
  generalize (if fmt = FullFormat.Format888 then List.drop 1 b else b) = cc
  obtain ⟨p', e4, l4⟩ := setPixel_ok (p := p) (by omega) (cc.getD 2 0, cc.getD 1 0, cc.getD 0 0)
  rw [e4, ok_bind]
  split
  · rename_i h
    have := hfmt h
    rw [decide_eq_true (by omega), assertR_true, ok_bind]
    show (List.set _ _ _).length = c
    rw [List.length_set, l4, hp]
  · split
    · rw [decide_eq_true (by omega), assertR_true, ok_bind]
      show (List.set _ _ _).length = c
      rw [List.length_set, l4, hp]
    · show p'.length = c; omega

theorem channels_eq {d : Decoder} (h : d.indexedColor = false) :
    d.channels = (if d.addAlpha then 4 else 3) ∧ (d.channels = 3 ∨ d.channels = 4) ∧
    d.colorType.bytesPerPixel = d.channels := by
  unfold Decoder.channels numChannels Decoder.colorType
  rw [h]
  cases d.addAlpha <;> simp [ColorType.bytesPerPixel]

theorem indices_lt (b : List UInt8) : (∀ i ∈ indices8 b, i < 256) ∧ (∀ i ∈ indices4 b, i < 256) ∧
    (∀ i ∈ indices2 b, i < 256) ∧ (∀ i ∈ indices1 b, i < 256) := by
  refine ⟨?_, ?_, ?_, ?_⟩
  · intro i hi
    obtain ⟨x, -, rfl⟩ := List.mem_map.1 hi
    exact x.toNat_lt
  · intro i hi
    obtain ⟨x, -, hx⟩ := List.mem_flatMap.1 hi
    have := x.toNat_lt
    simp only [List.mem_cons, List.not_mem_nil, or_false] at hx
    omega
  · intro i hi
    obtain ⟨x, -, hx⟩ := List.mem_flatMap.1 hi
    have := x.toNat_lt
    simp only [List.mem_cons, List.not_mem_nil, or_false] at hx
    omega
  · intro i hi
    obtain ⟨x, -, hx⟩ := List.mem_flatMap.1 hi
    obtain ⟨k, -, rfl⟩ := List.mem_map.1 hx
    omega

theorem paletteRow_total {d : Decoder} (hd : d.Good) (hty : d.imageType = .Palette) {pal : List Rgb} (hp : pal.length = 256)
    (rb : Nat) (row s : List UInt8) (hrow : row.length = d.width * d.channels) :
    OkOr AnyE (fun r => r.1.length = d.width * d.channels) (paletteRow d pal rb row s) := by
  unfold paletteRow
  refine ((readExact_total rb s).weaken fun _ _ => trivial).bind fun ⟨idx, s'⟩ _ => ?_
  dsimp only
  rw [hd.indexed]
  have hc := (channels_eq hd.indexed).2.1
  obtain ⟨it, e1, h1, -, -⟩ := pixels_ok (c := d.channels) (by omega) hrow
  simp only [Bool.false_eq_true, if_false]
  rw [e1, ok_bind]
  obtain ⟨i8, i4, i2, i1⟩ := indices_lt idx
  have take : ∀ {l : List Nat}, (∀ i ∈ l, i < 256) → ∀ i ∈ l.take d.width, i < 256 := fun h i hi => h i (List.mem_of_mem_take hi)
  have fin : ∀ is : List Nat, (∀ i ∈ is, i < 256) → OkOr AnyE (fun r => r.1.length = d.width * d.channels) (do
      let (_, it) ← setRun pal is it
      Except.ok (it.bytes, s')) := by
    intro is his
    obtain ⟨b, it', e2, h2⟩ := setRun_total hp (by omega : 3 ≤ d.channels) is it his h1
    rw [e2, ok_bind]
    exact h2.length
  have hb := hd.bits hty
  by_cases b1 : d.bitCount = 1
  · rw [if_pos b1]; exact fin _ i1
  by_cases b2 : d.bitCount = 2
  · rw [if_neg b1, if_pos b2]; exact fin _ (take i2)
  by_cases b4 : d.bitCount = 4
  · rw [if_neg b1, if_neg b2, if_pos b4]; exact fin _ (take i4)
  · rw [if_neg b1, if_neg b2, if_neg b4, if_pos (by omega)]; exact fin _ (take i8)

theorem length_fillAlpha (buf : List UInt8) : (fillAlpha buf).length = buf.length := by
  unfold fillAlpha
  rw [List.length_append, List.length_flatMap, List.map_congr_left (g := fun _ => 4), List.length_drop]
  · rw [List.map_const', List.sum_replicate_nat]
    have : (chunksExact 4 buf).length = buf.length / 4 := by simp [chunksExact]
    rw [this]; omega
  · intro c hc
    unfold chunksExact at hc
    obtain ⟨k, hk, rfl⟩ := List.mem_map.1 hc
    have := List.mem_range.1 hk
    rw [List.length_set, List.length_take, List.length_drop]; omega

/-! ## Run-length encoded data -/

theorem readInsn_total (r4 : Bool) (s : List UInt8) : OkOr AnyE (fun r => r.2.length + 2 ≤ s.length) (readInsn r4 s) := by
  have u8 : ∀ s : List UInt8, OkOr AnyE (fun r => r.2.length + 1 = s.length) (readU8 s) := by
    intro s; cases s <;> simp [readU8, OkOr, errR, AnyE]
  have ex : ∀ n (s : List UInt8), OkOr AnyE (fun r => r.2.length + n = s.length) (readExact n s) := by
    intro n s
    unfold readExact
    split
    · simp only [OkOr, List.length_drop]; omega
    · trivial
  unfold readInsn
  refine (u8 s).bind fun ⟨c, s1⟩ h1 => ?_
  dsimp only at *
  split
  · refine (u8 s1).bind fun ⟨op, s2⟩ h2 => ?_
    dsimp only at *
    split
    · simp only [OkOr]; omega
    · split
      · simp only [OkOr]; omega
      · split
        · refine (u8 s2).bind fun ⟨x, s3⟩ h3 => ?_
          refine (u8 s3).bind fun ⟨y, s4⟩ h4 => ?_
          dsimp only at *
          simp only [OkOr]; omega
        · refine (ex _ s2).bind fun ⟨b, s3⟩ h3 => ?_
          dsimp only at *
          simp only [OkOr]; omega
  · refine (ex 1 s1).bind fun ⟨b, s2⟩ h2 => ?_
    dsimp only at *
    simp only [OkOr]; omega

theorem PixIter.Ok.clear {c n : Nat} {it : PixIter} (h : it.Ok c n) : it.clear.Ok c n := by
  obtain ⟨a, b⟩ := h
  refine ⟨?_, by simpa [PixIter.clear] using b⟩
  intro p hp
  simp only [PixIter.clear, List.append_nil, List.mem_append, List.mem_map] at hp
  rcases hp with hp | ⟨q, hq, rfl⟩
  · exact a p (by simp [hp])
  · rw [List.length_replicate]; exact a q (by simp [hq])

theorem PixIter.skip_total {c n : Nat} : ∀ (k : Nat) (it : PixIter), it.Ok c n → OkOr AnyE (fun r => r.Ok c n) (it.skip k) := by
  intro k
  induction k with
  | zero => intro it h; exact h
  | succ k ih =>
    intro it h
    unfold PixIter.skip
    split
    · trivial
    · rename_i p ps he
      apply ih
      obtain ⟨a, b⟩ := h
      rw [he] at a b
      refine ⟨?_, by simpa using b⟩
      intro q hq
      simp only [List.append_assoc, List.singleton_append, List.mem_append, List.mem_cons] at hq a
      rcases hq with hq | rfl | hq
      · exact a q (.inl hq)
      · rw [List.length_replicate]; exact a p (.inr (.inl rfl))
      · exact a q (.inr (.inr hq))

/-- The shape of the state while `h` rows of `w` pixels are decoded. -/
structure Rle.Ok (c w h : Nat) (st : Rle) : Prop where
  rows : ∀ r ∈ st.rows, r.length = w * c
  cur : st.cur.Ok c w
  left : ∀ r ∈ st.left, r.length = w * c
  count : st.rows.length + 1 + st.left.length = h

theorem deltaStep_total {c w h : Nat} (hc : 0 < c) {st : Rle} (hst : st.Ok c w h) (dx dy : Nat) :
    OkOr AnyE (fun r => r.Ok c w h) (deltaStep c dx dy st) := by
  unfold deltaStep
  refine OkOr.bind (P := fun r => r.Ok c w h) ?_ ?_
  · split
    · split
      · trivial
      · rename_i row left he
        have hrow : row ∈ st.left := List.mem_of_mem_drop (i := dy - 1) (by rw [he]; simp)
        obtain ⟨it, e1, h1, -, -⟩ := pixels_ok hc (hst.left row hrow)
        dsimp only
        rw [e1, ok_bind]
        refine (PixIter.skip_total st.x it h1).bind fun it' h2 => ?_
        refine ⟨?_, h2, ?_, ?_⟩
        · intro r hr
          simp only [List.append_assoc, List.mem_append, List.mem_singleton, List.mem_map] at hr
          rcases hr with hr | rfl | ⟨q, hq, rfl⟩
          · exact hst.rows r hr
          · exact hst.cur.clear.length
          · rw [List.length_replicate]; exact hst.left q (List.mem_of_mem_take hq)
        · intro r hr
          exact hst.left r (List.mem_of_mem_drop (i := dy - 1) (by rw [he]; simp [hr]))
        · have hl := congrArg List.length he
          have := hst.count
          rw [List.length_drop, List.length_cons] at hl
          simp only [List.length_append, List.length_map, List.length_take, List.length_singleton]
          omega
    · exact hst
  · intro st' h'
    refine (PixIter.skip_total dx st'.cur h'.cur).bind fun it h2 => ?_
    exact ⟨h'.rows, h2, h'.left, h'.count⟩

theorem insnIndices_lt (r4 : Bool) (b : List UInt8) (n : Nat) : ∀ i ∈ insnIndices r4 b n, i < 256 := by
  intro i hi
  have := List.mem_of_mem_take hi
  obtain ⟨i8, i4, -, -⟩ := indices_lt b
  split at this
  · exact i4 i this
  · exact i8 i this

theorem rleLoop_total {r4 : Bool} {pal : List Rgb} (hp : pal.length = 256) {c w h : Nat} (hc : 3 ≤ c) :
    ∀ (fuel : Nat) (st : Rle) (s : List UInt8), st.Ok c w h → s.length < fuel →
      OkOr AnyE (fun r => (∀ p ∈ r, p.length = w * c) ∧ r.length = h) (rleLoop r4 pal c fuel st s) := by
  intro fuel
  induction fuel with
  | zero => intro st s _ h; omega
  | succ fuel ih =>
    intro st s hst hs
    unfold rleLoop
    refine (readInsn_total r4 s).bind fun ⟨insn, s'⟩ hl => ?_
    dsimp only at *
    split
    · refine ⟨?_, ?_⟩
      · intro r hr
        simp only [List.append_assoc, List.mem_append, List.mem_singleton, List.mem_map] at hr
        rcases hr with hr | rfl | ⟨q, hq, rfl⟩
        · exact hst.rows r hr
        · exact hst.cur.clear.length
        · rw [List.length_replicate]; exact hst.left q hq
      · have := hst.count
        simp only [List.length_append, List.length_map, List.length_singleton]; omega
    · split
      · rename_i he
        refine ⟨?_, ?_⟩
        · intro r hr
          simp only [List.mem_append, List.mem_singleton] at hr
          rcases hr with hr | rfl
          · exact hst.rows r hr
          · exact hst.cur.clear.length
        · have := hst.count
          rw [he] at this
          simp only [List.length_append, List.length_singleton]; simpa using this
      · rename_i row left he
        obtain ⟨it, e1, h1, -, -⟩ := pixels_ok (by omega) (hst.left row (by rw [he]; simp))
        rw [e1, ok_bind]
        apply ih _ _ _ (by omega)
        refine ⟨?_, h1, fun r hr => hst.left r (by rw [he]; simp [hr]), ?_⟩
        · intro r hr
          simp only [List.mem_append, List.mem_singleton] at hr
          rcases hr with hr | rfl
          · exact hst.rows r hr
          · exact hst.cur.clear.length
        · have := hst.count
          rw [he, List.length_cons] at this
          simp only [List.length_append, List.length_singleton]; omega
    · refine (deltaStep_total (by omega) hst _ _).bind fun st' h' => ?_
      exact ih _ _ h' (by omega)
    · obtain ⟨b, it, e1, h1⟩ := setRun_total hp hc _ st.cur (insnIndices_lt r4 _ _) hst.cur
      rw [e1, ok_bind]
      dsimp only
      split
      · exact ih _ _ ⟨hst.rows, h1, hst.left, hst.count⟩ (by omega)
      · trivial
    · obtain ⟨b, it, e1, h1⟩ := setRun_total hp hc _ st.cur (insnIndices_lt r4 _ _) hst.cur
      rw [e1, ok_bind]
      dsimp only
      split
      · exact ih _ _ ⟨hst.rows, h1, hst.left, hst.count⟩ (by omega)
      · trivial

theorem readRle_total {d : Decoder} (hd : d.Good) (r4 : Bool) {pal : List Rgb} (hpal : d.palette = some pal)
    (hp : pal.length = 256) {buf : List UInt8} (hb : buf.length = d.width * d.height * d.channels) :
    OkOr AnyE (fun r => r.length = buf.length) (readRle d r4 buf) := by
  have hc := (channels_eq hd.indexed).2.1
  have hw := hd.width
  have hpos : 0 < d.width * d.channels := Nat.mul_pos hw.1 (by omega)
  have e : buf.length = d.height * (d.width * d.channels) := by
    rw [hb, Nat.mul_comm d.width d.height, Nat.mul_assoc]
  obtain ⟨r1, r2⟩ := rows_lengths hpos e
  unfold readRle
  rw [hpal]
  dsimp only [unwrapR]
  rw [ok_bind, decide_eq_true (by omega), assertR_true, ok_bind]
  generalize hrows : (if d.topDown then chunksOf (d.width * d.channels) buf else (chunksOf (d.width * d.channels) buf).reverse) = rows
  have q1 : ∀ r ∈ rows, r.length = d.width * d.channels := by
    subst hrows; intro r hr; apply r1; split at hr <;> simpa using hr
  have q2 : rows.length = d.height := by subst hrows; split <;> simp [r2]
  cases rows with
  | nil => exact rfl
  | cons row left =>
    dsimp only
    obtain ⟨it, e1, h1, -, -⟩ := pixels_ok (c := d.channels) (by omega) (q1 row (by simp))
    rw [e1, ok_bind]
    refine (rleLoop_total hp (c := d.channels) (w := d.width) (h := d.height) (by omega) _ _ _
      ⟨by simp, h1, fun r hr => q1 r (by simp [hr]), by simp at q2 ⊢; omega⟩ (Nat.lt_succ_self _)).bind fun out ⟨o1, o2⟩ => ?_
    show (List.flatten _).length = _
    split
    · rw [length_flatten_const o1, o2, e]
    · rw [length_flatten_const (fun p hp => o1 p (by simpa using hp)), List.length_reverse, o2, e]

theorem readImageData_total {d : Decoder} (hd : d.Good) {buf : List UInt8} (hb : buf.length = d.width * d.height * d.channels) :
    OkOr AnyE (fun r => r.length = buf.length) (readImageData d buf) := by
  have hc := (channels_eq hd.indexed).2.1
  have full : ∀ fmt, (fmt = .RGBA32 → d.channels = 4) → OkOr AnyE (fun r => r.length = buf.length) (readFull d fmt buf) := by
    intro fmt hfmt
    unfold readFull
    refine OkOr.bind (P := fun r => r.1.length = d.width * d.height * d.channels)
      (withRows_total hd.width hd.height (by omega) hb d.topDown ?_ _) (fun r hr => by
        show r.1.length = buf.length; rw [hr, hb])
    intro row s hrow
    obtain ⟨it, e1, h1, h2, -⟩ := pixels_ok (c := d.channels) (by omega) hrow
    rw [e1, ok_bind]
    obtain ⟨a, b⟩ := h1
    rw [h2, List.nil_append] at a b
    refine (pixelLoop_total (fun x p _ hp => fullPixel_total hc hfmt x hp) a s).bind fun ⟨r, s'⟩ hr => ?_
    refine ((readExact_total _ s').weaken fun _ _ => trivial).bind fun ⟨_, s''⟩ _ => ?_
    show r.length = _
    dsimp only at hr
    rw [hr, b]
  have f16 : ∀ f : Bitfields, f.Good → OkOr AnyE (fun r => r.length = buf.length) (read16 d f buf) := by
    intro f hf
    unfold read16
    refine OkOr.bind (P := fun r => r.1.length = d.width * d.height * d.channels)
      (withRows_total hd.width hd.height (by omega) hb d.topDown ?_ _) (fun r hr => by
        show r.1.length = buf.length; rw [hr, hb])
    intro row s hrow
    obtain ⟨it, e1, h1, h2, -⟩ := pixels_ok (c := d.channels) (by omega) hrow
    rw [e1, ok_bind]
    obtain ⟨a, b⟩ := h1
    rw [h2, List.nil_append] at a b
    refine (pixelLoop_total (fun x p _ hp => fieldsPixel_total hf hc _ hp) a s).bind fun ⟨r, s'⟩ hr => ?_
    refine ((readExact_total _ s').weaken fun _ _ => trivial).bind fun ⟨_, s''⟩ _ => ?_
    show r.length = _
    dsimp only at hr
    rw [hr, b]
  have f32 : ∀ f : Bitfields, f.Good → OkOr AnyE (fun r => r.length = buf.length) (read32 d f buf) := by
    intro f hf
    unfold read32
    refine OkOr.bind (P := fun r => r.1.length = d.width * d.height * d.channels)
      (withRows_total hd.width hd.height (by omega) hb d.topDown ?_ _) (fun r hr => by
        show r.1.length = buf.length; rw [hr, hb])
    intro row s hrow
    obtain ⟨it, e1, h1, h2, -⟩ := pixels_ok (c := d.channels) (by omega) hrow
    rw [e1, ok_bind]
    obtain ⟨a, b⟩ := h1
    rw [h2, List.nil_append] at a b
    refine (pixelLoop_total (fun x p _ hp => fieldsPixel_total hf hc _ hp) a s).mono fun r hr => ?_
    rw [hr, b]
  have h4 : d.addAlpha = true → d.channels = 4 := by
    intro h; rw [(channels_eq hd.indexed).1, h]; rfl
  unfold readImageData
  split
  · rename_i hty
    obtain ⟨pal, p1, p2⟩ := hd.palette (.inl hty)
    unfold readPalettized
    rw [p1]
    dsimp only [unwrapR]
    rw [ok_bind]
    refine OkOr.bind (P := fun r => r.1.length = d.width * d.height * d.channels)
      (withRows_total hd.width hd.height (by omega) ?_ d.topDown ?_ _) (fun r hr => by
        show r.1.length = buf.length; rw [hr, hb])
    · split
      · rw [length_fillAlpha, hb]
      · exact hb
    · intro row s hrow
      exact paletteRow_total hd hty p2 _ row s hrow
  · exact f16 _ ⟨⟨by decide, by decide⟩, ⟨by decide, by decide⟩, ⟨by decide, by decide⟩, by decide⟩
  · exact full _ (fun h => nomatch h)
  · exact full _ (fun h => nomatch h)
  · rename_i hty
    exact full _ (fun _ => h4 (hd.rgba hty))
  · rename_i hty
    obtain ⟨pal, p1, p2⟩ := hd.palette (.inr (.inr hty))
    exact readRle_total hd _ p1 p2 hb
  · rename_i hty
    obtain ⟨pal, p1, p2⟩ := hd.palette (.inr (.inl hty))
    exact readRle_total hd _ p1 p2 hb
  · rename_i hty
    obtain ⟨f, f1, f2, -⟩ := hd.fields (.inl hty)
    rw [f1]
    exact f16 f f2
  · rename_i hty
    obtain ⟨f, f1, f2, f3⟩ := hd.fields (.inr hty)
    rw [f1]
    dsimp only
    split
    · exact full _ (fun h => nomatch h)
    · split
      · rename_i hm
        exact full _ (fun _ => h4 (f3 (by rw [hm]; decide)))
      · exact f32 f f2

end Bmp
end Verif
