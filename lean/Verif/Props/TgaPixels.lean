import Verif.Spec.Tga
import Verif.Props.Tga

/-!
# C112: the TGA decoder shows what the file says

The specification is `Verif.Spec.Tga`.
-/

namespace Verif
namespace Tga

open TgaSpec (num group inOrder)

theorem okInj {α : Type} {a b : α} : (Except.ok a : R α) = .ok b ↔ b = a := by
  constructor
  · intro h; cases h; rfl
  · intro h; rw [h]

theorem bind_readExact {α : Type} {n : Nat} {f : List UInt8} {p : Nat} (hp : p ≤ f.length) {k : List UInt8 × List UInt8 → R α} {r : α} :
    (readExact n (f.drop p) >>= k) = .ok r ↔ p + n ≤ f.length ∧ k ((f.drop p).take n, f.drop (p + n)) = .ok r := by
  unfold readExact
  rw [List.length_drop]
  by_cases h : p + n ≤ f.length
  · rw [if_pos (by omega), ok_bind, List.drop_drop]
    exact ⟨fun e => ⟨h, e⟩, fun e => e.2⟩
  · rw [if_neg (by omega)]
    constructor
    · intro e; cases e
    · rintro ⟨h', -⟩; exact absurd h' h

theorem bind_readLE {α : Type} {n : Nat} {f : List UInt8} {p : Nat} (hp : p ≤ f.length) {k : Nat × List UInt8 → R α} {r : α} :
    (readLE n (f.drop p) >>= k) = .ok r ↔ p + n ≤ f.length ∧ k (num f p n, f.drop (p + n)) = .ok r := by
  unfold readLE
  rw [show ((readExact n (f.drop p) >>= fun x => (.ok (leNat x.1, x.2) : R _)) >>= k) =
    (readExact n (f.drop p) >>= fun x => k (leNat x.1, x.2)) from by
      cases readExact n (f.drop p) <;> rfl]
  exact bind_readExact hp

theorem readU8_eq (s : List UInt8) : readU8 s = readLE 1 s := by
  cases s with
  | nil => rfl
  | cons b s => simp [readU8, readLE, readExact, leNat]

theorem bind_readU8 {α : Type} {f : List UInt8} {p : Nat} (hp : p ≤ f.length) {k : Nat × List UInt8 → R α} {r : α} :
    (readU8 (f.drop p) >>= k) = .ok r ↔ p + 1 ≤ f.length ∧ k (num f p 1, f.drop (p + 1)) = .ok r := by
  rw [readU8_eq]; exact bind_readLE hp

/-- The header that the file has. -/
def headerOf (f : List UInt8) : Header :=
  ⟨num f 0 1, num f 1 1, num f 2 1, num f 3 2, num f 5 2, num f 7 1, num f 8 2, num f 10 2, num f 12 2, num f 14 2,
    num f 16 1, num f 17 1⟩

theorem fromReader_iff {f : List UInt8} {r : Header × List UInt8} :
    Header.fromReader f = .ok r ↔ 18 ≤ f.length ∧ r = (headerOf f, f.drop 18) := by
  have key : ∀ {r}, Header.fromReader (f.drop 0) = .ok r ↔ 18 ≤ f.length ∧ r = (headerOf f, f.drop 18) := by
    intro r
    unfold Header.fromReader
    rw [bind_readU8 (by omega)]
    constructor
    · rintro ⟨h, e⟩; dsimp only at e
      rw [bind_readU8 (by omega)] at e; obtain ⟨h, e⟩ := e; dsimp only at e
      rw [bind_readU8 (by omega)] at e; obtain ⟨h, e⟩ := e; dsimp only at e
      rw [bind_readLE (by omega)] at e; obtain ⟨h, e⟩ := e; dsimp only at e
      rw [bind_readLE (by omega)] at e; obtain ⟨h, e⟩ := e; dsimp only at e
      rw [bind_readU8 (by omega)] at e; obtain ⟨h, e⟩ := e; dsimp only at e
      rw [bind_readLE (by omega)] at e; obtain ⟨h, e⟩ := e; dsimp only at e
      rw [bind_readLE (by omega)] at e; obtain ⟨h, e⟩ := e; dsimp only at e
      rw [bind_readLE (by omega)] at e; obtain ⟨h, e⟩ := e; dsimp only at e
      rw [bind_readLE (by omega)] at e; obtain ⟨h, e⟩ := e; dsimp only at e
      rw [bind_readU8 (by omega)] at e; obtain ⟨h, e⟩ := e; dsimp only at e
      rw [bind_readU8 (by omega)] at e; obtain ⟨h, e⟩ := e; dsimp only at e
      exact ⟨by omega, okInj.1 e⟩
    · rintro ⟨h, rfl⟩
      refine ⟨by omega, ?_⟩; dsimp only
      rw [bind_readU8 (by omega)]; refine ⟨by omega, ?_⟩; dsimp only
      rw [bind_readU8 (by omega)]; refine ⟨by omega, ?_⟩; dsimp only
      rw [bind_readLE (by omega)]; refine ⟨by omega, ?_⟩; dsimp only
      rw [bind_readLE (by omega)]; refine ⟨by omega, ?_⟩; dsimp only
      rw [bind_readU8 (by omega)]; refine ⟨by omega, ?_⟩; dsimp only
      rw [bind_readLE (by omega)]; refine ⟨by omega, ?_⟩; dsimp only
      rw [bind_readLE (by omega)]; refine ⟨by omega, ?_⟩; dsimp only
      rw [bind_readLE (by omega)]; refine ⟨by omega, ?_⟩; dsimp only
      rw [bind_readLE (by omega)]; refine ⟨by omega, ?_⟩; dsimp only
      rw [bind_readU8 (by omega)]; refine ⟨by omega, ?_⟩; dsimp only
      rw [bind_readU8 (by omega)]; refine ⟨by omega, ?_⟩; dsimp only
      rfl
  exact key

/-- The colour map of the file. -/
def mapOf (f : List UInt8) : Option ColorMap :=
  if TgaSpec.mapType f = 1 then
    some ⟨TgaSpec.mapFirst f, TgaSpec.entryBytes f, (f.drop (TgaSpec.mapStart f)).take (TgaSpec.entryBytes f * TgaSpec.mapCount f)⟩
  else none

theorem new_iff {f : List UInt8} {d : Decoder} :
    Decoder.new f = .ok d ↔ TgaSpec.dataStart f ≤ f.length ∧
      ∃ c o, colorInformation (headerOf f) = .ok (c, o) ∧ d = ⟨f.drop (TgaSpec.dataStart f), headerOf f, c, o, mapOf f⟩ := by
  unfold Decoder.new
  have hds : TgaSpec.dataStart f = 18 + num f 0 1 + if num f 1 1 = 1 then TgaSpec.entryBytes f * TgaSpec.mapCount f else 0 := rfl
  by_cases h18 : ¬ 18 ≤ f.length
  · constructor
    · intro e
      cases hr : Header.fromReader f with
      | error e' => rw [hr] at e; cases e
      | ok r => exact absurd (fromReader_iff.1 hr).1 h18
    · rintro ⟨h, -⟩; omega
  replace h18 := Decidable.not_not.1 h18
  rw [fromReader_iff.2 ⟨h18, rfl⟩]
  simp only [ok_bind]
  rw [bind_readExact h18]
  rw [show (headerOf f).idLength = num f 0 1 from rfl]
  by_cases hid : ¬ 18 + num f 0 1 ≤ f.length
  · constructor
    · rintro ⟨h, -⟩; omega
    · rintro ⟨h, -⟩; omega
  replace hid := Decidable.not_not.1 hid
  have fin : ∀ (m : Option ColorMap) (s : List UInt8),
      ((colorInformation (headerOf f) >>= fun x => (.ok ⟨s, headerOf f, x.1, x.2, m⟩ : R Decoder)) = .ok d ↔
        ∃ c o, colorInformation (headerOf f) = .ok (c, o) ∧ d = ⟨s, headerOf f, c, o, m⟩) := by
    intro m s
    cases hc : colorInformation (headerOf f) with
    | error e =>
      constructor
      · intro e; cases e
      · rintro ⟨c, o, e, -⟩; cases e
    | ok x =>
      obtain ⟨c, o⟩ := x
      rw [ok_bind, okInj]
      constructor
      · intro e; exact ⟨c, o, rfl, e⟩
      · rintro ⟨c', o', e, e2⟩; cases e; exact e2
  by_cases hm : num f 1 1 = 1
  · rw [if_pos hm] at hds
    have hmo : mapOf f = some ⟨TgaSpec.mapFirst f, TgaSpec.entryBytes f, (f.drop (TgaSpec.mapStart f)).take (TgaSpec.entryBytes f * TgaSpec.mapCount f)⟩ :=
      if_pos hm
    unfold readColorMap
    rw [if_pos (show (headerOf f).mapType = 1 from hm)]
    unfold ColorMap.fromReader
    by_cases hl : TgaSpec.dataStart f ≤ f.length
    · have hr : readExact (((headerOf f).mapEntrySize + 7) / 8 * (headerOf f).mapLength) (f.drop (18 + num f 0 1)) =
          .ok ((f.drop (TgaSpec.mapStart f)).take (TgaSpec.entryBytes f * TgaSpec.mapCount f), f.drop (TgaSpec.dataStart f)) := by
        rw [hds]
        unfold readExact
        rw [if_pos (by rw [List.length_drop]; show TgaSpec.entryBytes f * TgaSpec.mapCount f ≤ _; omega), List.drop_drop]
        rfl
      dsimp only
      rw [hr, hmo]
      simp only [ok_bind]
      exact ⟨fun h => ⟨hl, (fin _ _).1 h.2⟩, fun h => ⟨hid, (fin _ _).2 h.2⟩⟩
    · have hr : readExact (((headerOf f).mapEntrySize + 7) / 8 * (headerOf f).mapLength) (f.drop (18 + num f 0 1)) = errR .io := by
        unfold readExact
        rw [if_neg]
        rw [List.length_drop]
        show ¬ TgaSpec.entryBytes f * TgaSpec.mapCount f ≤ _
        omega
      dsimp only
      rw [hr]
      constructor
      · rintro ⟨-, e⟩; cases e
      · rintro ⟨h, -⟩; exact absurd h hl
  · rw [if_neg hm] at hds
    have hmo : mapOf f = none := if_neg hm
    unfold readColorMap
    rw [if_neg (show ¬ (headerOf f).mapType = 1 from hm), hmo, hds]
    simp only [ok_bind, Nat.add_zero]
    exact ⟨fun h => ⟨hid, (fin _ _).1 h.2⟩, fun h => ⟨hid, (fin _ _).2 h.2⟩⟩

/-! ## The stored pixels -/

theorem readEncodedLoop_more {n m : Nat} (hn : 0 < n) {enc px : List UInt8} (h : Packets n enc px) :
    ∀ (acc s : List UInt8) (fuel : Nat), enc.length < fuel → m ≤ acc.length + px.length →
      ∃ acc' s', readEncodedLoop n m fuel acc (enc ++ s) = .ok (acc', s') ∧ acc'.take m = (acc ++ px).take m := by
  induction h with
  | nil =>
    intro acc s fuel hf hm
    obtain ⟨f, rfl⟩ : ∃ f, fuel = f + 1 := ⟨fuel - 1, by simp at hf; omega⟩
    rw [readEncodedLoop, if_neg (by simpa using hm)]
    exact ⟨_, _, rfl, by simp⟩
  | @run c pixel enc px h1 h2 hp _ ih =>
    intro acc s fuel hf hm
    obtain ⟨f, rfl⟩ : ∃ f, fuel = f + 1 := ⟨fuel - 1, by omega⟩
    rw [readEncodedLoop]
    split
    · simp only [List.cons_append, List.append_assoc, readU8, ok_bind]
      obtain ⟨g1, g2⟩ := runByte c h1 h2
      rw [if_pos g1, g2]
      simp only [readUpTo]
      rw [show (pixel ++ (enc ++ s)).take n = pixel by rw [← hp]; simp,
        show (pixel ++ (enc ++ s)).drop n = enc ++ s by rw [← hp]; simp, cycleTake_eq hn hp]
      obtain ⟨a, s', e1, e2⟩ := ih (acc ++ (List.replicate c pixel).flatten) s f (by simp at hf; omega)
        (by rw [List.length_append] at hm ⊢; omega)
      exact ⟨a, s', e1, by rw [e2, List.append_assoc]⟩
    · rename_i hge
      exact ⟨_, _, rfl, by rw [List.take_append_of_le_length (by omega)]⟩
  | @raw c data enc px h1 h2 hp _ ih =>
    intro acc s fuel hf hm
    obtain ⟨f, rfl⟩ : ∃ f, fuel = f + 1 := ⟨fuel - 1, by omega⟩
    rw [readEncodedLoop]
    split
    · simp only [List.cons_append, List.append_assoc, readU8, ok_bind]
      obtain ⟨g1, g2⟩ := rawByte c h1 h2
      rw [if_neg (by rw [g1]; simp), g2]
      simp only [readUpTo]
      rw [show (data ++ (enc ++ s)).take (c * n) = data by rw [← hp]; simp,
        show (data ++ (enc ++ s)).drop (c * n) = enc ++ s by rw [← hp]; simp]
      obtain ⟨a, s', e1, e2⟩ := ih (acc ++ data) s f (by simp at hf; omega)
        (by rw [List.length_append] at hm ⊢; omega)
      exact ⟨a, s', e1, by rw [e2, List.append_assoc]⟩
    · rename_i hge
      exact ⟨_, _, rfl, by rw [List.take_append_of_le_length (by omega)]⟩

theorem isEncoded_iff (f : List UInt8) : (ImageType.fromByte (num f 2 1)).isEncoded = true ↔ TgaSpec.Packed f := by
  unfold TgaSpec.Packed TgaSpec.imageType
  unfold ImageType.fromByte
  split <;> simp_all [ImageType.isEncoded]

theorem isColorMapped_iff (f : List UInt8) : (ImageType.fromByte (num f 2 1)).isColorMapped = true ↔ TgaSpec.Mapped f := by
  unfold TgaSpec.Mapped TgaSpec.imageType
  unfold ImageType.fromByte
  split <;> simp_all [ImageType.isColorMapped]

theorem isColor_iff {f : List UInt8} (hk : TgaSpec.Known f) : (ImageType.fromByte (num f 2 1)).isColor = true ↔ ¬ TgaSpec.Grey f := by
  unfold TgaSpec.Grey TgaSpec.Known TgaSpec.imageType at *
  unfold ImageType.fromByte
  split <;> simp_all [ImageType.isColor]

theorem rawData_stored {f raw : List UInt8} (hn : 0 < TgaSpec.pixelBytes f) (h : TgaSpec.Stored f raw) (c : ColorType) (o : Option ExtendedColorType)
    (m : Option ColorMap) : (⟨f.drop (TgaSpec.dataStart f), headerOf f, c, o, m⟩ : Decoder).rawData = .ok raw := by
  obtain ⟨hl, hs⟩ := h
  unfold Decoder.rawData
  dsimp only
  rw [show (⟨f.drop (TgaSpec.dataStart f), headerOf f, c, o, m⟩ : Decoder).width *
    (⟨f.drop (TgaSpec.dataStart f), headerOf f, c, o, m⟩ : Decoder).height *
    (⟨f.drop (TgaSpec.dataStart f), headerOf f, c, o, m⟩ : Decoder).bytesPerPixel = raw.length from hl.symm]
  rw [show (⟨f.drop (TgaSpec.dataStart f), headerOf f, c, o, m⟩ : Decoder).imageType = ImageType.fromByte (num f 2 1) from rfl,
    show (⟨f.drop (TgaSpec.dataStart f), headerOf f, c, o, m⟩ : Decoder).bytesPerPixel = TgaSpec.pixelBytes f from rfl]
  by_cases hp : TgaSpec.Packed f
  · rw [if_pos ((isEncoded_iff f).2 hp)]
    rw [if_pos hp] at hs
    obtain ⟨enc, rest, more, e1, e2⟩ := hs
    rw [e1]
    unfold readEncodedData
    obtain ⟨a, s', g1, g2⟩ := readEncodedLoop_more hn e2 [] rest ((enc ++ rest).length + 1) (by simp; omega) (m := raw.length) (by simp)
    rw [g1]
    simp only [ok_bind]
    rw [g2, List.nil_append, List.take_append_of_le_length (by omega), List.take_length]
  · rw [if_neg (fun e => hp ((isEncoded_iff f).1 e))]
    rw [if_neg hp] at hs
    obtain ⟨t, ht⟩ := hs
    rw [← ht, readExact_append]
    rfl

/-! ## Groups -/

theorem length_group {n k m : Nat} {l : List UInt8} (hl : l.length = m * n) (hk : k < m) : (group n k l).length = n := by
  unfold group
  have : (k + 1) * n ≤ m * n := Nat.mul_le_mul_right n hk
  rw [Nat.succ_mul] at this
  rw [List.length_take, List.length_drop]; omega

theorem group_getElem? {n k i : Nat} (l : List UInt8) (hi : i < n) : (group n k l)[i]? = l[k * n + i]? := by
  unfold group
  rw [List.getElem?_take, if_pos hi, List.getElem?_drop]

theorem group_chunks {n k m : Nat} (hn : 0 < n) {l : List UInt8} (hl : l.length = m * n) (hk : k < m) :
    (chunksOf n l)[k]? = some (group n k l) := by
  unfold chunksOf group
  have : (l.length + n - 1) / n = m := by
    rw [hl, Nat.mul_comm, show n * m + n - 1 = n * m + (n - 1) by omega, Nat.mul_add_div hn, Nat.div_eq_of_lt (by omega)]; omega
  rw [this, List.getElem?_map, List.getElem?_range hk]
  rfl

/-- The `k`-th group of a concatenation of lists of length `n` is the `k`-th of them. -/
theorem group_flatten {n : Nat} : ∀ {ps : List (List UInt8)} {k : Nat} {p : List UInt8}, (∀ q ∈ ps, q.length = n) →
    ps[k]? = some p → group n k ps.flatten = p := by
  intro ps
  induction ps with
  | nil => intro k p _ h; simp at h
  | cons q ps ih =>
    intro k p hq h
    have hql := hq q (by simp)
    cases k with
    | zero =>
      simp at h
      subst h
      unfold group
      simp [← hql]
    | succ k =>
      simp at h
      rw [← ih (fun r hr => hq r (by simp [hr])) h]
      unfold group
      rw [List.flatten_cons, show (k + 1) * n = q.length + k * n by rw [hql, Nat.succ_mul]; omega, List.drop_append,
        List.drop_eq_nil_of_le (by omega), List.nil_append, Nat.add_sub_cancel_left]

theorem inOrder_swapped {p : List UInt8} (h : p.length = 3 ∨ p.length = 4) : swapped p = inOrder p := by
  rcases h with h | h
  · match p, h with
    | [a, b, c], _ => rfl
  · match p, h with
    | [a, b, c, d], _ => rfl

theorem inOrder_short {p : List UInt8} (h : p.length = 1 ∨ p.length = 2) : inOrder p = p := by
  rcases h with h | h
  · match p, h with
    | [a], _ => rfl
  · match p, h with
    | [a, b], _ => rfl

theorem length_inOrder (p : List UInt8) : (inOrder p).length = p.length := by
  unfold inOrder; split <;> rfl

theorem reverse_groups {c : ColorType} (hc : Stored c) {m : Nat} {l : List UInt8} (hl : l.length = m * c.bytesPerPixel) :
    ∃ l', reverseEncoding c l = .ok l' ∧ l'.length = l.length ∧
      ∀ k < m, group c.bytesPerPixel k l' = inOrder (group c.bytesPerPixel k l) := by
  have sw : ∀ n, (n = 3 ∨ n = 4) → l.length = m * n → ∃ l', swapPixels n l = .ok l' ∧ l'.length = l.length ∧
      ∀ k < m, group n k l' = inOrder (group n k l) := by
    intro n hn hl
    obtain ⟨g1, g2, g3⟩ := chunksOf_eq (n := n) (by omega) hl
    refine ⟨_, swapPixels_ok (by omega) hl, by rw [length_map_swapped g2, g3, hl], ?_⟩
    intro k hk
    have h1 := group_chunks (by omega) hl hk
    rw [group_flatten (p := swapped (group n k l)) (by
      intro q hq
      obtain ⟨p, hp, rfl⟩ := List.mem_map.1 hq
      rw [length_swapped, g2 p hp]) (by rw [List.getElem?_map, h1]; rfl)]
    exact inOrder_swapped (by rw [length_group hl hk]; exact hn)
  rcases hc with rfl | rfl | rfl | rfl
  · exact ⟨l, rfl, rfl, fun k hk => (inOrder_short (.inl (length_group hl hk))).symm⟩
  · exact ⟨l, rfl, rfl, fun k hk => (inOrder_short (.inr (length_group hl hk))).symm⟩
  · exact sw 3 (.inl rfl) hl
  · exact sw 4 (.inr rfl) hl

theorem flipped_byte : ∀ n < 256, (!((0b100000 &&& n) != 0)) = true ↔ ¬ n / 32 % 2 = 1 := by decide +kernel

theorem num_lt (f : List UInt8) (p n : Nat) : num f p n < 256 ^ n := by
  unfold TgaSpec.num
  exact Nat.lt_of_lt_of_le (leNat_lt _) (Nat.pow_le_pow_right (by omega) (by rw [List.length_take]; omega))

theorem isFlipped_iff (f : List UInt8) : isFlipped (headerOf f) = true ↔ ¬ TgaSpec.topDown f := by
  unfold isFlipped TgaSpec.topDown TgaSpec.descriptor headerOf
  exact flipped_byte _ (num_lt f 17 1)

/-- The last two steps: order of the samples, order of the rows. -/
theorem finish (f : List UInt8) {c : ColorType} (hc : Stored c) {b : List UInt8}
    (hb : b.length = TgaSpec.width f * TgaSpec.height f * c.bytesPerPixel) :
    ∃ px, (reverseEncoding c b >>= flipVertically (headerOf f)) = .ok px ∧ px.length = b.length ∧
      ∀ x < TgaSpec.width f, ∀ y < TgaSpec.height f,
        group c.bytesPerPixel (y * TgaSpec.width f + x) px =
          inOrder (group c.bytesPerPixel ((if TgaSpec.topDown f then y else TgaSpec.height f - 1 - y) * TgaSpec.width f + x) b) := by
  obtain ⟨l, h1, h2, h3⟩ := reverse_groups hc hb
  rw [h1, ok_bind]
  have hrow : ∀ x y, x < TgaSpec.width f → y < TgaSpec.height f → y * TgaSpec.width f + x < TgaSpec.width f * TgaSpec.height f := by
    intro x y hx hy
    rw [Nat.mul_comm (TgaSpec.width f)]; exact row_lt hy hx
  by_cases ht : TgaSpec.topDown f
  · refine ⟨l, ?_, h2, ?_⟩
    · unfold flipVertically; rw [if_neg (fun e => (isFlipped_iff f).1 e ht)]
    · intro x hx y hy
      rw [if_pos ht, h3 _ (hrow x y hx hy)]
  · obtain ⟨px, g1, g2, g3⟩ := flipVertically_ok (hd := headerOf f) (pix := l) (wb := TgaSpec.width f * c.bytesPerPixel)
      (by rw [h2, hb, Nat.mul_comm (TgaSpec.width f), Nat.mul_assoc]; rfl) ((isFlipped_iff f).2 ht)
    refine ⟨px, g1, by rw [g2, h2], ?_⟩
    intro x hx y hy
    rw [if_neg ht, ← h3 _ (hrow x _ hx (by omega))]
    apply List.ext_getElem?
    intro i
    by_cases hi : i < c.bytesPerPixel
    · rw [group_getElem? _ hi, group_getElem? _ hi]
      have hlt : x * c.bytesPerPixel + i < TgaSpec.width f * c.bytesPerPixel := row_lt hx hi
      have := g3 y (x * c.bytesPerPixel + i) hy hlt
      rw [show ∀ y, (y * TgaSpec.width f + x) * c.bytesPerPixel + i = y * (TgaSpec.width f * c.bytesPerPixel) + (x * c.bytesPerPixel + i) from
        fun y => by rw [Nat.add_mul, Nat.mul_assoc]; omega]
      rw [this]
      rw [show ∀ y, (y * TgaSpec.width f + x) * c.bytesPerPixel + i = y * (TgaSpec.width f * c.bytesPerPixel) + (x * c.bytesPerPixel + i) from
        fun y => by rw [Nat.add_mul, Nat.mul_assoc]; omega]
      rfl
    · rw [List.getElem?_eq_none (by unfold group; rw [List.length_take]; omega),
        List.getElem?_eq_none (by unfold group; rw [List.length_take]; omega)]

theorem forList_append {body : List UInt8 → List UInt8 → R (List UInt8)} {e : List UInt8 → List UInt8} : ∀ {l : List (List UInt8)} {acc : List UInt8},
    (∀ c ∈ l, ∀ r, body c r = .ok (r ++ e c)) → forList l body acc = .ok (acc ++ (l.map e).flatten) := by
  intro l
  induction l with
  | nil => intro acc _; simp [forList]
  | cons c l ih =>
    intro acc h
    rw [forList, h c (by simp)]
    simp only [ok_bind]
    rw [ih (fun c hc => h c (by simp [hc]))]
    simp

theorem forList_missing {body : List UInt8 → List UInt8 → R (List UInt8)} : ∀ {l : List (List UInt8)} {acc : List UInt8},
    (∀ c r, body c r = errR .io ∨ ∃ r', body c r = .ok r') →
    (∃ c ∈ l, ∀ r, body c r = errR .io) → forList l body acc = errR .io := by
  intro l
  induction l with
  | nil => rintro acc - ⟨c, h, -⟩; simp at h
  | cons c l ih =>
    rintro acc hb ⟨c', h, hn⟩
    rw [forList]
    rcases hb c acc with hg | ⟨r', hg⟩
    · rw [hg]; rfl
    · rw [hg]
      simp only [ok_bind]
      refine ih hb ⟨c', ?_, hn⟩
      rcases List.mem_cons.1 h with rfl | h
      · rw [hn] at hg; cases hg
      · exact h

/-- Looking up an index in the colour map. -/
theorem mapOf_get {f : List UInt8} (h1 : TgaSpec.mapType f = 1) (h0 : TgaSpec.mapFirst f = 0) (hl : TgaSpec.dataStart f ≤ f.length)
    (hb : 0 < TgaSpec.entryBytes f) (i : Nat) :
    ∃ m, mapOf f = some m ∧ m.get i = if i < TgaSpec.mapCount f then some (TgaSpec.entry f i) else none := by
  refine ⟨_, if_pos h1, ?_⟩
  unfold TgaSpec.dataStart at hl
  rw [if_pos h1] at hl
  unfold ColorMap.get TgaSpec.entry group
  dsimp only
  rw [h0, Nat.zero_add, Nat.sub_zero, List.length_take, List.length_drop, Nat.min_eq_left (by omega)]
  generalize TgaSpec.entryBytes f = n at *
  generalize TgaSpec.mapCount f = k at *
  by_cases hi : i < k
  · have : n * (i + 1) ≤ n * k := Nat.mul_le_mul_left n hi
    rw [Nat.mul_succ] at this
    rw [if_pos this, if_pos hi, List.drop_take, List.take_take, Nat.min_eq_left (by omega), Nat.mul_comm]
  · have : n * k ≤ n * i := Nat.mul_le_mul_left n (by omega)
    rw [if_neg (by omega), if_neg hi]

theorem index_one {p : List UInt8} (h : p.length = 1) : bytesToIndex p = leNat p := by
  match p, h with
  | [a], _ => simp [bytesToIndex, beNat, leNat]

/-! ## The claims -/

/-- The combinations of header fields that this crate documents as supported: grey-scale with 8 bits (all of them
luminance, or all of them alpha), grey-scale with 8 + 8 bits, true-colour with 24 or 32 bits; colour maps with entries
of 24 or 32 bits. -/
def Kind (f : List UInt8) (c : ColorType) : Prop :=
  (TgaSpec.Grey f ∧ TgaSpec.depth f = 8 ∧ (TgaSpec.alphaBits f = 0 ∨ TgaSpec.alphaBits f = 8) ∧ c = .L8) ∨
  (TgaSpec.Grey f ∧ TgaSpec.depth f = 16 ∧ TgaSpec.alphaBits f = 8 ∧ c = .La8) ∨
  ((TgaSpec.imageType f = 2 ∨ TgaSpec.imageType f = 10) ∧ TgaSpec.depth f = 24 ∧ TgaSpec.alphaBits f = 0 ∧ c = .Rgb8) ∨
  ((TgaSpec.imageType f = 2 ∨ TgaSpec.imageType f = 10) ∧ TgaSpec.depth f = 32 ∧ (TgaSpec.alphaBits f = 0 ∨ TgaSpec.alphaBits f = 8) ∧ c = .Rgba8) ∨
  (TgaSpec.Mapped f ∧ TgaSpec.mapType f = 1 ∧ (TgaSpec.depth f = 8 ∨ TgaSpec.depth f = 16) ∧ TgaSpec.alphaBits f = 0 ∧
    TgaSpec.mapBits f = 24 ∧ c = .Rgb8) ∨
  (TgaSpec.Mapped f ∧ TgaSpec.mapType f = 1 ∧ (TgaSpec.depth f = 8 ∨ TgaSpec.depth f = 16) ∧ TgaSpec.alphaBits f = 0 ∧
    TgaSpec.mapBits f = 32 ∧ c = .Rgba8)

/-- Every index among the stored pixels has an entry in the colour map. -/
def InMap (f raw : List UInt8) : Prop := TgaSpec.Mapped f → ∀ k < TgaSpec.width f * TgaSpec.height f,
  TgaSpec.mapFirst f ≤ leNat (group (TgaSpec.pixelBytes f) k raw) ∧
  leNat (group (TgaSpec.pixelBytes f) k raw) < TgaSpec.mapFirst f + TgaSpec.mapCount f

/-- The decoder accepts the file and shows the pixels it denotes. -/
def ShowsFile (f raw : List UInt8) (c : ColorType) : Prop :=
  ∃ px, decode f = .ok (TgaSpec.width f, TgaSpec.height f, c, px) ∧
    px.length = TgaSpec.width f * TgaSpec.height f * c.bytesPerPixel ∧
    ∀ x < TgaSpec.width f, ∀ y < TgaSpec.height f,
      group c.bytesPerPixel (y * TgaSpec.width f + x) px = TgaSpec.pixel f raw x y

/-- What this decoder needs beyond `Kind`: columns stored from left to right; for a colour-mapped image a map whose first
entry has index 0, and indices of one byte; for other images no colour map, or one whose entries have as many bits as the
pixels. -/
structure Plain (f : List UInt8) : Prop where
  leftToRight : ¬ TgaSpec.rightToLeft f
  first : TgaSpec.Mapped f → TgaSpec.mapFirst f = 0
  byte : TgaSpec.Mapped f → TgaSpec.depth f = 8
  noMap : ¬ TgaSpec.Mapped f → TgaSpec.mapType f = 0 ∨ TgaSpec.mapBits f + TgaSpec.alphaBits f = TgaSpec.depth f

theorem and15 (n : Nat) : n &&& 0b1111 = n % 16 := Nat.and_two_pow_sub_one_eq_mod n 4

theorem info_of_kind {f : List UInt8} {c : ColorType} (hk : Kind f c) (hp : Plain f) :
    ∃ o, colorInformation (headerOf f) = .ok (c, o) := by
  have hd : (headerOf f).pixelDepth = TgaSpec.depth f := rfl
  have hm : (headerOf f).mapType = TgaSpec.mapType f := rfl
  have hb : (headerOf f).mapEntrySize = TgaSpec.mapBits f := rfl
  have hde : (headerOf f).imageDesc &&& 0b1111 = TgaSpec.alphaBits f := and15 _
  have hct : (headerOf f).imageType = TgaSpec.imageType f := rfl
  have key : ∀ {a o col}, (TgaSpec.depth f % 8 = 0 ∧ TgaSpec.depth f ≤ 32) → TgaSpec.alphaBits f = a →
      (TgaSpec.Mapped f → TgaSpec.mapType f = 1 ∧ TgaSpec.mapBits f = o) → (¬ TgaSpec.Mapped f → TgaSpec.depth f = o + a) →
      (ImageType.fromByte (TgaSpec.imageType f)).isColor = col →
      colorInformation (headerOf f) = colorInfo a o col := by
    intro a o col h1 h2 h3 h4 h5
    unfold colorInformation
    rw [hd, if_neg (by omega)]
    dsimp only
    rw [hde, hm, hb, h2, hct, h5]
    by_cases hM : TgaSpec.Mapped f
    · rw [if_pos (by have := (h3 hM).1; omega), (h3 hM).2]
    · have := h4 hM
      have hn := hp.noMap hM
      rw [h2] at hn
      by_cases h0 : TgaSpec.mapType f = 0
      · rw [if_neg (by omega), if_neg (by omega), show TgaSpec.depth f - a = o by omega]
      · rw [if_pos h0, show TgaSpec.mapBits f = o by omega]
  rcases hk with ⟨hg, h1, h2, rfl⟩ | ⟨hg, h1, h2, rfl⟩ | ⟨hg, h1, h2, rfl⟩ | ⟨hg, h1, h2, rfl⟩ | ⟨hg, h1, h2, h3, h4, rfl⟩ |
    ⟨hg, h1, h2, h3, h4, rfl⟩
  · have nM : ¬ TgaSpec.Mapped f := by unfold TgaSpec.Grey TgaSpec.Mapped at *; omega
    have col : (ImageType.fromByte (TgaSpec.imageType f)).isColor = false := by rcases hg with e | e <;> rw [e] <;> rfl
    rcases h2 with h2 | h2
    · exact ⟨none, key (o := 8) (by omega) h2 (fun h => absurd h nM) (fun _ => by omega) col⟩
    · exact ⟨some .A8, key (o := 0) (by omega) h2 (fun h => absurd h nM) (fun _ => by omega) col⟩
  · have nM : ¬ TgaSpec.Mapped f := by unfold TgaSpec.Grey TgaSpec.Mapped at *; omega
    have col : (ImageType.fromByte (TgaSpec.imageType f)).isColor = false := by rcases hg with e | e <;> rw [e] <;> rfl
    exact ⟨none, key (o := 8) (by omega) h2 (fun h => absurd h nM) (fun _ => by omega) col⟩
  · have nM : ¬ TgaSpec.Mapped f := by unfold TgaSpec.Mapped; omega
    have col : (ImageType.fromByte (TgaSpec.imageType f)).isColor = true := by rcases hg with e | e <;> rw [e] <;> rfl
    exact ⟨none, key (o := 24) (by omega) h2 (fun h => absurd h nM) (fun _ => by omega) col⟩
  · have nM : ¬ TgaSpec.Mapped f := by unfold TgaSpec.Mapped; omega
    have col : (ImageType.fromByte (TgaSpec.imageType f)).isColor = true := by rcases hg with e | e <;> rw [e] <;> rfl
    rcases h2 with h2 | h2
    · exact ⟨none, key (o := 32) (by omega) h2 (fun h => absurd h nM) (fun _ => by omega) col⟩
    · exact ⟨none, key (o := 24) (by omega) h2 (fun h => absurd h nM) (fun _ => by omega) col⟩
  · have col : (ImageType.fromByte (TgaSpec.imageType f)).isColor = true := by rcases hg with e | e <;> rw [e] <;> rfl
    exact ⟨none, key (o := 24) (by omega) h3 (fun _ => ⟨h1, h4⟩) (fun h => absurd hg h) col⟩
  · have col : (ImageType.fromByte (TgaSpec.imageType f)).isColor = true := by rcases hg with e | e <;> rw [e] <;> rfl
    exact ⟨none, key (o := 32) (by omega) h3 (fun _ => ⟨h1, h4⟩) (fun h => absurd hg h) col⟩

theorem kind_facts {f : List UInt8} {c : ColorType} (hk : Kind f c) : Stored c ∧ 0 < TgaSpec.pixelBytes f ∧
    (TgaSpec.Mapped f → TgaSpec.mapType f = 1 ∧ TgaSpec.entryBytes f = c.bytesPerPixel) ∧
    (¬ TgaSpec.Mapped f → TgaSpec.pixelBytes f = c.bytesPerPixel) := by
  unfold TgaSpec.pixelBytes TgaSpec.entryBytes Stored
  have e1 : ColorType.bytesPerPixel .L8 = 1 := rfl
  have e2 : ColorType.bytesPerPixel .La8 = 2 := rfl
  have e3 : ColorType.bytesPerPixel .Rgb8 = 3 := rfl
  have e4 : ColorType.bytesPerPixel .Rgba8 = 4 := rfl
  rcases hk with ⟨hg, h1, h2, rfl⟩ | ⟨hg, h1, h2, rfl⟩ | ⟨hg, h1, h2, rfl⟩ | ⟨hg, h1, h2, rfl⟩ | ⟨hg, h1, h2, h3, h4, rfl⟩ |
    ⟨hg, h1, h2, h3, h4, rfl⟩
  · unfold TgaSpec.Grey TgaSpec.Mapped at *; refine ⟨by simp, by omega, fun h => by omega, fun h => by omega⟩
  · unfold TgaSpec.Grey TgaSpec.Mapped at *; refine ⟨by simp, by omega, fun h => by omega, fun h => by omega⟩
  · unfold TgaSpec.Mapped at *; refine ⟨by simp, by omega, fun h => by omega, fun h => by omega⟩
  · unfold TgaSpec.Mapped at *; refine ⟨by simp, by omega, fun h => by omega, fun h => by omega⟩
  · exact ⟨by simp, by omega, fun _ => ⟨h1, by omega⟩, fun h => absurd hg h⟩
  · exact ⟨by simp, by omega, fun _ => ⟨h1, by omega⟩, fun h => absurd hg h⟩

/-- What `read_image` has in its buffer before the last two steps. -/
theorem fill_of_kind {f raw : List UInt8} {c : ColorType} {o : Option ExtendedColorType} (hk : Kind f c) (hp : Plain f)
    (hs : TgaSpec.Stored f raw) (hm : InMap f raw) (hl : TgaSpec.dataStart f ≤ f.length) {b0 : List UInt8}
    (hb0 : b0.length = TgaSpec.width f * TgaSpec.height f * c.bytesPerPixel) :
    ∃ b, (⟨f.drop (TgaSpec.dataStart f), headerOf f, c, o, mapOf f⟩ : Decoder).fillBuffer b0 = .ok b ∧
      b.length = TgaSpec.width f * TgaSpec.height f * c.bytesPerPixel ∧
      ∀ k < TgaSpec.width f * TgaSpec.height f, group c.bytesPerPixel k b =
        if TgaSpec.Mapped f then TgaSpec.entry f (leNat (group (TgaSpec.pixelBytes f) k raw)) else group (TgaSpec.pixelBytes f) k raw := by
  obtain ⟨hst, hpos, hM, hN⟩ := kind_facts hk
  unfold Decoder.fillBuffer
  rw [rawData_stored hpos hs]
  simp only [ok_bind]
  rw [show (⟨f.drop (TgaSpec.dataStart f), headerOf f, c, o, mapOf f⟩ : Decoder).bytesPerPixel = TgaSpec.pixelBytes f from rfl,
    show (⟨f.drop (TgaSpec.dataStart f), headerOf f, c, o, mapOf f⟩ : Decoder).imageType = ImageType.fromByte (num f 2 1) from rfl]
  by_cases hmap : TgaSpec.Mapped f
  · obtain ⟨h1, h2⟩ := hM hmap
    have hn1 : TgaSpec.pixelBytes f = 1 := by unfold TgaSpec.pixelBytes; rw [hp.byte hmap]
    have hcpos : 0 < c.bytesPerPixel := by rcases hst with rfl | rfl | rfl | rfl <;> decide
    have hlen : raw.length ≤ b0.length := by
      rw [hs.1, hb0, hn1, Nat.mul_one]; exact Nat.le_mul_of_pos_right _ hcpos
    rw [hn1, if_pos (by exact hcpos), if_pos hlen]
    simp only [ok_bind]
    rw [if_pos ((isColorMapped_iff f).2 hmap)]
    unfold expandColorMap
    rw [if_neg (by decide)]
    have hrl : raw.length = TgaSpec.width f * TgaSpec.height f * 1 := by rw [hs.1, hn1]
    obtain ⟨c1, c2, c3⟩ := chunksOf_eq (by decide) hrl
    obtain ⟨m, hm1, -⟩ := mapOf_get h1 (hp.first hmap) hl (by rw [h2]; exact hcpos) 0
    rw [hm1]
    dsimp only
    have hget : ∀ q ∈ chunksOf 1 raw, m.get (bytesToIndex q) = some (TgaSpec.entry f (leNat q)) := by
      intro q hq
      obtain ⟨k, hkl, hkq⟩ := List.mem_iff_getElem.1 hq
      have hkm : k < TgaSpec.width f * TgaSpec.height f := by rw [c3] at hkl; exact hkl
      have hg := group_chunks (n := 1) (by decide) hrl hkm
      rw [List.getElem?_eq_getElem hkl, hkq] at hg
      have hg' : q = group 1 k raw := by injection hg
      obtain ⟨m', hm', hgt⟩ := mapOf_get h1 (hp.first hmap) hl (by rw [h2]; exact hcpos) (leNat q)
      rw [hm1] at hm'
      injection hm' with hm'
      subst hm'
      rw [index_one (c2 q hq), hgt, if_pos]
      have := (hm hmap k hkm).2
      rw [hn1, hp.first hmap, ← hg'] at this
      omega
    rw [forList_append (e := fun q => TgaSpec.entry f (leNat q)) (fun q hq r => by rw [hget q hq]), List.nil_append]
    simp only [ok_bind]
    have hel : ∀ q ∈ (chunksOf 1 raw).map fun q => TgaSpec.entry f (leNat q), q.length = c.bytesPerPixel := by
      intro q hq
      obtain ⟨p, hpm, rfl⟩ := List.mem_map.1 hq
      obtain ⟨k, hkl, hkq⟩ := List.mem_iff_getElem.1 hpm
      have hkm : k < TgaSpec.width f * TgaSpec.height f := by rw [c3] at hkl; exact hkl
      have hg := group_chunks (n := 1) (by decide) hrl hkm
      rw [List.getElem?_eq_getElem hkl, hkq] at hg
      have hg' : p = group 1 k raw := by injection hg
      have hlt := (hm hmap k hkm).2
      rw [hn1, hp.first hmap, ← hg', Nat.zero_add] at hlt
      unfold TgaSpec.entry group
      rw [hp.first hmap, Nat.sub_zero, List.length_take, List.length_drop, List.length_drop, ← h2]
      have hds : TgaSpec.dataStart f = TgaSpec.mapStart f + TgaSpec.entryBytes f * TgaSpec.mapCount f := by
        unfold TgaSpec.dataStart; rw [if_pos h1]
      have : TgaSpec.entryBytes f * (leNat p + 1) ≤ TgaSpec.entryBytes f * TgaSpec.mapCount f := Nat.mul_le_mul_left _ hlt
      rw [Nat.mul_succ, Nat.mul_comm] at this
      omega
    have hlen2 : ((chunksOf 1 raw).map fun q => TgaSpec.entry f (leNat q)).flatten.length =
        TgaSpec.width f * TgaSpec.height f * c.bytesPerPixel := by
      have : ∀ {l : List (List UInt8)} {n : Nat}, (∀ q ∈ l, q.length = n) → l.flatten.length = l.length * n := by
        intro l n
        induction l with
        | nil => intro _; simp
        | cons q l ih =>
          intro h
          rw [List.flatten_cons, List.length_append, ih (fun q hq => h q (by simp [hq])), h q (by simp), List.length_cons, Nat.succ_mul]
          omega
      rw [this hel, List.length_map, c3]
    have hov : (overwrite b0 0 raw).length = b0.length := length_overwrite (by omega)
    rw [if_neg (by rw [hlen2, hov, hb0]; simp)]
    refine ⟨_, rfl, hlen2, ?_⟩
    intro k hk
    rw [if_pos hmap]
    refine group_flatten hel ?_
    rw [List.getElem?_map, group_chunks (by decide) hrl hk]
    rfl
  · have hn := hN hmap
    have hlen : raw.length = b0.length := by rw [hs.1, hb0, hn]
    rw [hn, if_pos (Nat.le_refl _), if_pos (by omega)]
    simp only [ok_bind]
    rw [if_neg (fun e => hmap ((isColorMapped_iff f).1 e))]
    have hov : overwrite b0 0 raw = raw := by
      unfold overwrite
      rw [List.take_zero, List.nil_append, Nat.zero_add, List.drop_eq_nil_of_le (by omega), List.append_nil]
    rw [hov]
    refine ⟨raw, rfl, by rw [hlen, hb0], ?_⟩
    intro k _
    rw [if_neg hmap]

/-- C112, in part: every TGA file of a supported kind in which the columns run from left to right, colour maps start at
index 0, indices have one byte, and images that are not colour-mapped have no colour map of other pixels, is accepted,
and every pixel of the image is the one that the file denotes: stored or unpacked, looked up in the colour map, with the
colours and rows in order. -/
theorem C112_partial (f raw : List UInt8) (c : ColorType) (hk : Kind f c) (hp : Plain f) (hl : TgaSpec.dataStart f ≤ f.length)
    (hs : TgaSpec.Stored f raw) (hm : InMap f raw) : ShowsFile f raw c := by
  obtain ⟨o, hi⟩ := info_of_kind hk hp
  obtain ⟨hst, hpos, hM, hN⟩ := kind_facts hk
  have hnew := new_iff.2 ⟨hl, c, o, hi, rfl⟩
  obtain ⟨b, h1, h2, h3⟩ := fill_of_kind (o := o) hk hp hs hm hl
    (b0 := List.replicate (TgaSpec.width f * TgaSpec.height f * c.bytesPerPixel) 0) (List.length_replicate)
  obtain ⟨px, g1, g2, g3⟩ := finish f hst h2
  refine ⟨px, ?_, by rw [g2, h2], ?_⟩
  · unfold decode
    rw [hnew]
    simp only [ok_bind]
    unfold Decoder.readImage
    rw [show (⟨f.drop (TgaSpec.dataStart f), headerOf f, c, o, mapOf f⟩ : Decoder).width = TgaSpec.width f from rfl,
      show (⟨f.drop (TgaSpec.dataStart f), headerOf f, c, o, mapOf f⟩ : Decoder).height = TgaSpec.height f from rfl]
    dsimp only
    have hle : TgaSpec.width f * TgaSpec.height f * c.bytesPerPixel ≤ 2 ^ 16 * 2 ^ 16 * 4 :=
      Nat.mul_le_mul (Nat.mul_le_mul (Nat.le_of_lt (num_lt f 12 2)) (Nat.le_of_lt (num_lt f 14 2))) hst.bits.2.2.2
    rw [List.length_replicate, satMul, Nat.min_eq_left (by omega), beq_self_eq_true, h1]
    simp only [assertR_true, ok_bind]
    rw [g1]
    rfl
  · intro x hx y hy
    have hrow : (if TgaSpec.topDown f then y else TgaSpec.height f - 1 - y) * TgaSpec.width f + x < TgaSpec.width f * TgaSpec.height f := by
      rw [Nat.mul_comm (TgaSpec.width f)]
      exact row_lt (by split <;> omega) hx
    rw [g3 x hx y hy, h3 _ hrow]
    unfold TgaSpec.pixel TgaSpec.colour TgaSpec.place
    rw [if_neg hp.leftToRight]
    split <;> rfl

/-- C112: in a colour-mapped file of that form, an index without an entry in the map is reported as an error. -/
theorem C112_outside (f raw : List UInt8) (c : ColorType) (hk : Kind f c) (hp : Plain f) (hl : TgaSpec.dataStart f ≤ f.length)
    (hs : TgaSpec.Stored f raw) (hM : TgaSpec.Mapped f) (k : Nat) (hkl : k < TgaSpec.width f * TgaSpec.height f)
    (hi : TgaSpec.mapCount f ≤ leNat (group (TgaSpec.pixelBytes f) k raw)) : decode f = errR .io := by
  obtain ⟨o, hin⟩ := info_of_kind hk hp
  obtain ⟨hst, hpos, hMM, -⟩ := kind_facts hk
  obtain ⟨h1, h2⟩ := hMM hM
  have hcpos : 0 < c.bytesPerPixel := by rcases hst with rfl | rfl | rfl | rfl <;> decide
  have hn1 : TgaSpec.pixelBytes f = 1 := by unfold TgaSpec.pixelBytes; rw [hp.byte hM]
  have hnew := new_iff.2 ⟨hl, c, o, hin, rfl⟩
  have hrl : raw.length = TgaSpec.width f * TgaSpec.height f * 1 := by rw [hs.1, hn1]
  have hfill : (⟨f.drop (TgaSpec.dataStart f), headerOf f, c, o, mapOf f⟩ : Decoder).fillBuffer
      (List.replicate (TgaSpec.width f * TgaSpec.height f * c.bytesPerPixel) 0) = errR .io := by
    unfold Decoder.fillBuffer
    rw [rawData_stored hpos hs]
    simp only [ok_bind]
    rw [show (⟨f.drop (TgaSpec.dataStart f), headerOf f, c, o, mapOf f⟩ : Decoder).bytesPerPixel = TgaSpec.pixelBytes f from rfl,
      show (⟨f.drop (TgaSpec.dataStart f), headerOf f, c, o, mapOf f⟩ : Decoder).imageType = ImageType.fromByte (num f 2 1) from rfl]
    rw [hn1, if_pos (by exact hcpos), if_pos (by
      rw [hrl, List.length_replicate, Nat.mul_one]; exact Nat.le_mul_of_pos_right _ hcpos)]
    simp only [ok_bind]
    rw [if_pos ((isColorMapped_iff f).2 hM)]
    unfold expandColorMap
    rw [if_neg (by decide)]
    obtain ⟨m, hm1, hgt⟩ := mapOf_get h1 (hp.first hM) hl (by rw [h2]; exact hcpos) (leNat (group 1 k raw))
    rw [hm1]
    dsimp only
    rw [forList_missing]
    · rfl
    · intro q r
      cases m.get (bytesToIndex q) with
      | none => exact .inl rfl
      | some x => exact .inr ⟨_, rfl⟩
    · refine ⟨group 1 k raw, List.mem_iff_getElem?.2 ⟨k, group_chunks (by decide) hrl hkl⟩, fun r => ?_⟩
      rw [index_one (length_group hrl hkl), hgt, if_neg]
      rw [hn1] at hi
      omega
  unfold decode
  rw [hnew]
  simp only [ok_bind]
  unfold Decoder.readImage
  rw [show (⟨f.drop (TgaSpec.dataStart f), headerOf f, c, o, mapOf f⟩ : Decoder).width = TgaSpec.width f from rfl,
    show (⟨f.drop (TgaSpec.dataStart f), headerOf f, c, o, mapOf f⟩ : Decoder).height = TgaSpec.height f from rfl]
  dsimp only
  have hle : TgaSpec.width f * TgaSpec.height f * c.bytesPerPixel ≤ 2 ^ 16 * 2 ^ 16 * 4 :=
    Nat.mul_le_mul (Nat.mul_le_mul (Nat.le_of_lt (num_lt f 12 2)) (Nat.le_of_lt (num_lt f 14 2))) hst.bits.2.2.2
  rw [List.length_replicate, satMul, Nat.min_eq_left (by omega), beq_self_eq_true, hfill]
  rfl

/-! ## Files that are shown wrongly -/

/-- 2x1 grey-scale, columns from right to left. -/
def rightFile : List UInt8 := [0, 0, 3, 0, 0, 0, 0, 0, 0, 0, 0, 0, 2, 0, 1, 0, 8, 0x30, 1, 2]

/-- C112 does not hold in full: the bit for columns from right to left is ignored, and the image is mirrored. -/
theorem C112_right_to_left_false : ∃ f raw c, Kind f c ∧ TgaSpec.dataStart f ≤ f.length ∧ TgaSpec.Stored f raw ∧ InMap f raw ∧
    TgaSpec.rightToLeft f ∧ TgaSpec.mapType f = 0 ∧ ¬ ShowsFile f raw c := by
  refine ⟨rightFile, [1, 2], .L8, .inl (by decide +kernel), by decide +kernel, ⟨by decide +kernel, ?_⟩,
    fun h => absurd h (by decide +kernel), by decide +kernel, by decide +kernel, ?_⟩
  · rw [if_neg (by decide +kernel)]
    exact ⟨[], by decide +kernel⟩
  · rintro ⟨px, h1, -, h3⟩
    have e : decode rightFile = .ok (2, 1, .L8, [1, 2]) := by decide +kernel
    rw [e] at h1
    have hpx : px = [1, 2] := by injection h1 with h1; injection h1 with _ h1; injection h1 with _ h1; injection h1 with _ h1; exact h1.symm
    have := h3 0 (by decide +kernel) 0 (by decide +kernel)
    rw [hpx] at this
    exact absurd this (by decide +kernel)

/-- 1x1, colour map for the indices 1 and 2, the pixel has index 1. -/
def originFile : List UInt8 := [0, 1, 1, 1, 0, 2, 0, 24, 0, 0, 0, 0, 1, 0, 1, 0, 8, 0x20, 10, 20, 30, 40, 50, 60, 1]

/-- C112 does not hold in full: the index of the first entry of the colour map is used as a number of bytes to skip. -/
theorem C112_map_origin_false : ∃ f raw c, Kind f c ∧ TgaSpec.dataStart f ≤ f.length ∧ TgaSpec.Stored f raw ∧ InMap f raw ∧
    ¬ TgaSpec.rightToLeft f ∧ TgaSpec.depth f = 8 ∧ TgaSpec.Mapped f ∧ ¬ ShowsFile f raw c := by
  refine ⟨originFile, [1], .Rgb8, .inr (.inr (.inr (.inr (.inl (by decide +kernel))))), by decide +kernel, ⟨by decide +kernel, ?_⟩,
    ?_, by decide +kernel, by decide +kernel, by decide +kernel, ?_⟩
  · rw [if_neg (by decide +kernel)]
    exact ⟨[], by decide +kernel⟩
  · intro _ k hk
    have : k = 0 := by
      have hk' : k < 1 := hk
      omega
    subst this
    decide +kernel
  · rintro ⟨px, h1, -, h3⟩
    have e : decode originFile = errR .io := by decide +kernel
    rw [e] at h1
    cases h1

/-- The same with three entries: a wrong colour is shown. -/
example : decode [0, 1, 1, 1, 0, 3, 0, 24, 0, 0, 0, 0, 1, 0, 1, 0, 8, 0x20, 10, 20, 30, 40, 50, 60, 70, 80, 90, 1] =
    .ok (1, 1, .Rgb8, [70, 60, 50]) := by decide +kernel

/-- 1x1, colour map with two entries, the pixel has the two-byte index 1. -/
def wideFile : List UInt8 := [0, 1, 1, 0, 0, 2, 0, 24, 0, 0, 0, 0, 1, 0, 1, 0, 16, 0x20, 10, 20, 30, 40, 50, 60, 1, 0]

/-- C112 does not hold in full: indices of two bytes are read with the bytes exchanged. -/
theorem C112_wide_index_false : ∃ f raw c, Kind f c ∧ TgaSpec.dataStart f ≤ f.length ∧ TgaSpec.Stored f raw ∧ InMap f raw ∧
    ¬ TgaSpec.rightToLeft f ∧ TgaSpec.mapFirst f = 0 ∧ TgaSpec.Mapped f ∧ ¬ ShowsFile f raw c := by
  refine ⟨wideFile, [1, 0], .Rgb8, .inr (.inr (.inr (.inr (.inl (by decide +kernel))))), by decide +kernel, ⟨by decide +kernel, ?_⟩,
    ?_, by decide +kernel, by decide +kernel, by decide +kernel, ?_⟩
  · rw [if_neg (by decide +kernel)]
    exact ⟨[], by decide +kernel⟩
  · intro _ k hk
    have : k = 0 := by
      have hk' : k < 1 := hk
      omega
    subst this
    decide +kernel
  · rintro ⟨px, h1, -, h3⟩
    have e : decode wideFile = errR .io := by decide +kernel
    rw [e] at h1
    cases h1

/-- 1x1 true-colour with 32 bits, and a colour map of one entry of 24 bits that it does not use. -/
def unusedFile : List UInt8 := [0, 1, 2, 0, 0, 1, 0, 24, 0, 0, 0, 0, 1, 0, 1, 0, 32, 0x20, 10, 20, 30, 1, 2, 3, 4]

/-- C112 does not hold in full: a true-colour image with a colour map of another depth is decoded, without error, to an
image of the wrong colour type whose pixels are all zero. -/
theorem C112_unused_map_false : (∃ f raw c, Kind f c ∧ TgaSpec.dataStart f ≤ f.length ∧ TgaSpec.Stored f raw ∧ InMap f raw ∧
    ¬ TgaSpec.rightToLeft f ∧ ¬ TgaSpec.Mapped f ∧ ¬ ShowsFile f raw c) ∧
    decode unusedFile = .ok (1, 1, .Rgb8, [0, 0, 0]) := by
  have e : decode unusedFile = .ok (1, 1, .Rgb8, [0, 0, 0]) := by decide +kernel
  refine ⟨⟨unusedFile, [1, 2, 3, 4], .Rgba8, .inr (.inr (.inr (.inl (by decide +kernel)))), by decide +kernel, ⟨by decide +kernel, ?_⟩,
    fun h => absurd h (by decide +kernel), by decide +kernel, by decide +kernel, ?_⟩, e⟩
  · rw [if_neg (by decide +kernel)]
    exact ⟨[], by decide +kernel⟩
  · rintro ⟨px, h1, -, -⟩
    rw [e] at h1
    injection h1 with h1; injection h1 with _ h1; injection h1 with _ h1; injection h1 with h1 _
    cases h1

/-- C112 does not hold in full: image types that the format does not have (here 32, once used for Huffman coding), and
type 0, which says that there is no image, are decoded as uncompressed shades of grey. -/
theorem C112_unknown_type_false :
    decode [0, 0, 32, 0, 0, 0, 0, 0, 0, 0, 0, 0, 2, 0, 1, 0, 8, 0x20, 1, 2] = .ok (2, 1, .L8, [1, 2]) ∧
    decode [0, 0, 0, 0, 0, 0, 0, 0, 0, 0, 0, 0, 2, 0, 1, 0, 8, 0x20, 1, 2] = .ok (2, 1, .L8, [1, 2]) ∧
    ¬ TgaSpec.Known [0, 0, 32, 0, 0, 0, 0, 0, 0, 0, 0, 0, 2, 0, 1, 0, 8, 0x20, 1, 2] ∧
    ¬ TgaSpec.Known [0, 0, 0, 0, 0, 0, 0, 0, 0, 0, 0, 0, 2, 0, 1, 0, 8, 0x20, 1, 2] := by
  refine ⟨by decide +kernel, by decide +kernel, by decide +kernel, by decide +kernel⟩

/-! ## Examples -/

/-- 2x2, run-length packed indices, bottom-up, a map with two entries, an id of one byte; the last packet is longer than
the image. -/
def mappedFile : List UInt8 :=
  [1, 1, 9, 0, 0, 2, 0, 24, 0, 0, 0, 0, 2, 0, 2, 0, 8, 0, 99, 10, 20, 30, 40, 50, 60, 1, 0, 1, 0x84, 1]

example : Kind mappedFile .Rgb8 ∧ Plain mappedFile ∧ TgaSpec.dataStart mappedFile ≤ mappedFile.length ∧
    TgaSpec.Stored mappedFile [0, 1, 1, 1] ∧ InMap mappedFile [0, 1, 1, 1] ∧
    TgaSpec.pixel mappedFile [0, 1, 1, 1] 0 1 = [30, 20, 10] := by
  refine ⟨.inr (.inr (.inr (.inr (.inl (by decide +kernel))))),
    ⟨by decide +kernel, fun _ => by decide +kernel, fun _ => by decide +kernel, fun h => absurd h (by decide +kernel)⟩,
    by decide +kernel, ⟨by decide +kernel, ?_⟩, ?_, by decide +kernel⟩
  · rw [if_pos (by decide +kernel)]
    refine ⟨[1, 0, 1, 0x84, 1], [], [1, 1, 1], by decide +kernel, ?_⟩
    have h1 : Packets 1 ((UInt8.ofNat (128 + (5 - 1)) :: [1]) ++ []) ((List.replicate 5 [1]).flatten ++ []) :=
      .run (by decide) (by decide) rfl .nil
    exact Packets.raw (n := 1) (c := 2) (data := [0, 1]) (by decide) (by decide) rfl h1
  · intro _ k hk
    have hk' : k < 4 := hk
    have : k = 0 ∨ k = 1 ∨ k = 2 ∨ k = 3 := by omega
    rcases this with rfl | rfl | rfl | rfl <;> decide +kernel

example : decode mappedFile = .ok (2, 2, .Rgb8, [60, 50, 40, 60, 50, 40, 30, 20, 10, 60, 50, 40]) := by decide +kernel

/-- The same file with the index 2, which has no entry. -/
def outsideFile : List UInt8 :=
  [1, 1, 9, 0, 0, 2, 0, 24, 0, 0, 0, 0, 2, 0, 2, 0, 8, 0, 99, 10, 20, 30, 40, 50, 60, 0x83, 2]

example : decode outsideFile = errR .io := by
  refine C112_outside outsideFile [2, 2, 2, 2] .Rgb8 (.inr (.inr (.inr (.inr (.inl (by decide +kernel))))))
    ⟨by decide +kernel, fun _ => by decide +kernel, fun _ => by decide +kernel, fun h => absurd h (by decide +kernel)⟩
    (by decide +kernel) ⟨by decide +kernel, ?_⟩ (by decide +kernel) 3 (by decide +kernel) (by decide +kernel)
  rw [if_pos (by decide +kernel)]
  exact ⟨[0x83, 2], [], [], by decide +kernel, Packets.run (n := 1) (c := 4) (pixel := [2]) (by decide) (by decide) rfl .nil⟩

end Tga
end Verif
