import Verif.Spec.Hdr
import Verif.Proofs.Hdr

/-!
# Radiance HDR: the scanline reader accepts exactly the codes of scanlines
-/

namespace Verif
namespace Hdr

open HdrSpec

/-! ## Components -/

theorem component_length {n : Nat} {code data : List UInt8} (h : Component n code data) : data.length = n := by
  induction h with
  | done => rfl
  | run _ _ _ ih => rw [List.length_append, List.length_replicate, ih]
  | samples _ _ _ ih => rw [List.length_append, ih]

theorem componentLoop_complete (set : Rgbe → UInt8 → Rgbe) {n : Nat} {code data : List UInt8} (h : Component n code data) :
    ∀ (fuel : Nat) (pre mid : List Rgbe) (rest : List UInt8), mid.length = n →
    code.length < fuel →
    componentLoop set (pre.length + n) fuel pre.length (pre ++ mid) (code ++ rest) =
      .ok (pre ++ List.zipWith set mid data, rest) := by
  induction h with
  | done =>
    intro fuel pre mid rest hm hf
    have : mid = [] := List.length_eq_zero_iff.1 hm
    subst this
    match fuel, hf with
    | fuel + 1, _ => unfold componentLoop; simp
  | @run n len c code data h1 h127 hc ih =>
    intro fuel pre mid rest hm hf
    match fuel, hf with
    | fuel + 1, hf =>
      simp only [List.length_cons] at hf
      have hb : (UInt8.ofNat (128 + len)).toNat = 128 + len := by rw [UInt8.toNat_ofNat']; omega
      unfold componentLoop
      rw [if_pos (by omega)]
      show (if _ ≤ 128 then _ else _ : R _) = _
      rw [hb, if_neg (by omega), show 128 + len - 128 = len by omega, if_neg (by omega)]
      show (setValues set pre.length (List.replicate len (UInt8.ofNat c.toNat)) (pre ++ mid) >>= _) = _
      rw [UInt8.ofNat_toNat]
      have hsplit : mid = mid.take len ++ mid.drop len := (List.take_append_drop len mid).symm
      have hlt : (mid.take len).length = len := by rw [List.length_take]; omega
      have hsv := setValues_spec set (List.replicate len c) pre (mid.take len) (mid.drop len)
        (by rw [List.length_replicate, hlt])
      rw [List.append_assoc, ← hsplit] at hsv
      rw [hsv, ok_bind]
      have hz : (List.zipWith set (mid.take len) (List.replicate len c)).length = len := by
        rw [List.length_zipWith, hlt, List.length_replicate, Nat.min_self]
      have hi := ih fuel (pre ++ List.zipWith set (mid.take len) (List.replicate len c)) (mid.drop len) rest
        (by rw [List.length_drop]; omega) (by omega)
      rw [List.length_append, hz, Nat.add_assoc] at hi
      refine hi.trans ?_
      congr 2
      conv => rhs; rw [hsplit]
      rw [List.zipWith_append (by rw [hlt, List.length_replicate]), List.append_assoc]
  | @samples n vals code data h128 h0 hc ih =>
    intro fuel pre mid rest hm hf
    match fuel, hf with
    | fuel + 1, hf =>
      simp only [List.length_cons, List.length_append] at hf
      have hb : (UInt8.ofNat vals.length).toNat = vals.length := by rw [UInt8.toNat_ofNat']; omega
      unfold componentLoop
      rw [if_pos (by omega)]
      show (if _ ≤ 128 then _ else _ : R _) = _
      rw [hb, if_pos h128, if_neg (by omega),
        show (vals ++ code).append rest = vals ++ (code ++ rest) from List.append_assoc .., readExact_append]
      show (setValues set pre.length vals (pre ++ mid) >>= _) = _
      have hsplit : mid = mid.take vals.length ++ mid.drop vals.length := (List.take_append_drop _ mid).symm
      have hlt : (mid.take vals.length).length = vals.length := by rw [List.length_take]; omega
      have hsv := setValues_spec set vals pre (mid.take vals.length) (mid.drop vals.length) hlt.symm
      rw [List.append_assoc, ← hsplit] at hsv
      rw [hsv, ok_bind]
      have hz : (List.zipWith set (mid.take vals.length) vals).length = vals.length := by
        rw [List.length_zipWith, hlt, Nat.min_self]
      have hi := ih fuel (pre ++ List.zipWith set (mid.take vals.length) vals) (mid.drop vals.length) rest
        (by rw [List.length_drop]; omega) (by omega)
      rw [List.length_append, hz, Nat.add_assoc] at hi
      refine hi.trans ?_
      congr 2
      conv => rhs; rw [hsplit]
      rw [List.zipWith_append hlt, List.append_assoc]

theorem componentLoop_sound (set : Rgbe → UInt8 → Rgbe) : ∀ (fuel : Nat) (pre mid : List Rgbe) (s : List UInt8) (r : List Rgbe × List UInt8),
    componentLoop set (pre.length + mid.length) fuel pre.length (pre ++ mid) s = .ok r →
    ∃ code data, Component mid.length code data ∧ s = code ++ r.2 ∧ r.1 = pre ++ List.zipWith set mid data := by
  intro fuel
  induction fuel with
  | zero => intro pre mid s r h; cases h
  | succ fuel ih =>
    intro pre mid s r h
    unfold componentLoop at h
    by_cases h0 : mid.length = 0
    · have : mid = [] := List.length_eq_zero_iff.1 h0
      subst this
      rw [if_neg (by simp), if_neg (by simp)] at h
      cases h
      exact ⟨[], [], .done, rfl, by simp⟩
    rw [if_pos (by omega)] at h
    match s, h with
    | b :: s, h =>
      simp only [readU8, ok_bind] at h
      have hb := b.toNat_lt
      by_cases h128 : b.toNat ≤ 128
      · rw [if_pos h128] at h
        by_cases hle : pre.length + b.toNat > pre.length + mid.length
        · rw [if_pos hle] at h; cases h
        rw [if_neg hle] at h
        by_cases hl : b.toNat ≤ s.length
        swap
        · rw [readExact_short (by omega)] at h; cases h
        rw [readExact, if_pos hl, ok_bind] at h
        dsimp only at h
        have hlt : (mid.take b.toNat).length = b.toNat := by rw [List.length_take]; omega
        have hvl : (s.take b.toNat).length = b.toNat := by rw [List.length_take]; omega
        have hsplit : mid = mid.take b.toNat ++ mid.drop b.toNat := (List.take_append_drop _ mid).symm
        have hsv := setValues_spec set (s.take b.toNat) pre (mid.take b.toNat) (mid.drop b.toNat) (by omega)
        rw [List.append_assoc, ← hsplit] at hsv
        rw [hsv, ok_bind] at h
        have hz : (List.zipWith set (mid.take b.toNat) (s.take b.toNat)).length = b.toNat := by
          rw [List.length_zipWith, hlt, hvl, Nat.min_self]
        obtain ⟨code, data, g1, g2, g3⟩ := ih (pre ++ List.zipWith set (mid.take b.toNat) (s.take b.toNat)) (mid.drop b.toNat)
          (s.drop b.toNat) r (by
            rw [← h, List.length_append, hz, List.length_drop]
            congr 1
            omega)
        have comp := Component.samples (vals := s.take b.toNat) (by omega) (by rw [List.length_drop]; omega) g1
        rw [hvl, List.length_drop, show b.toNat + (mid.length - b.toNat) = mid.length by omega] at comp
        refine ⟨_, _, comp, ?_, ?_⟩
        · rw [List.cons_append, List.append_assoc, ← g2, List.take_append_drop, UInt8.ofNat_toNat]
        · rw [g3, List.append_assoc]
          congr 1
          conv => rhs; rw [hsplit]
          rw [List.zipWith_append (by omega)]
      · rw [if_neg h128] at h
        by_cases hle : pre.length + (b.toNat - 128) > pre.length + mid.length
        · rw [if_pos hle] at h; cases h
        rw [if_neg hle] at h
        rcases s with _ | ⟨v, s⟩
        · cases h
        · skip
          simp only [readU8, ok_bind] at h
          obtain ⟨k, hk⟩ : ∃ k, k = b.toNat - 128 := ⟨_, rfl⟩
          rw [← hk, UInt8.ofNat_toNat] at h
          have hlt : (mid.take k).length = k := by rw [List.length_take]; omega
          have hsplit : mid = mid.take k ++ mid.drop k := (List.take_append_drop _ mid).symm
          have hsv := setValues_spec set (List.replicate k v) pre (mid.take k) (mid.drop k) (by rw [List.length_replicate]; omega)
          rw [List.append_assoc, ← hsplit] at hsv
          rw [hsv, ok_bind] at h
          have hz : (List.zipWith set (mid.take k) (List.replicate k v)).length = k := by
            rw [List.length_zipWith, hlt, List.length_replicate, Nat.min_self]
          obtain ⟨code, data, g1, g2, g3⟩ := ih (pre ++ List.zipWith set (mid.take k) (List.replicate k v)) (mid.drop k)
            s r (by
              rw [← h, List.length_append, hz, List.length_drop]
              congr 1
              omega)
          have comp := Component.run (k := k) (v := v) (by omega) (by omega) g1
          rw [List.length_drop, show k + (mid.length - k) = mid.length by omega] at comp
          refine ⟨_, _, comp, ?_, ?_⟩
          · rw [g2, show 128 + k = b.toNat by omega, UInt8.ofNat_toNat]; rfl
          · rw [g3, List.append_assoc]
            congr 1
            conv => rhs; rw [hsplit]
            rw [List.zipWith_append (by rw [List.length_replicate]; omega)]
    | [], h => cases h

theorem decodeComponent_iff (set : Rgbe → UInt8 → Rgbe) (buf : List Rgbe) (s : List UInt8) (r : List Rgbe × List UInt8) :
    decodeComponent set buf.length buf s = .ok r ↔
      ∃ code data, Component buf.length code data ∧ s = code ++ r.2 ∧ r.1 = List.zipWith set buf data := by
  unfold decodeComponent
  constructor
  · intro h
    have := componentLoop_sound set _ [] buf s r (by rw [List.length_nil, Nat.zero_add]; exact h)
    simpa using this
  · rintro ⟨code, data, h1, rfl, h3⟩
    have := componentLoop_complete set h1 ((code ++ r.2).length + 1) [] buf r.2 rfl (by rw [List.length_append]; omega)
    rw [List.length_nil, Nat.zero_add, List.nil_append, List.nil_append] at this
    rw [this, ← h3]

/-! ## Pixels with repeat markers -/

theorem rlMarker_eq (p : Rgbe) : rlMarker p = if Marker p then some p.e.toNat else none := rfl

theorem flat_length {lim n k : Nat} {prev : Rgbe} {code : List UInt8} {row : List Rgbe} (h : Flat lim n k prev code row) : row.length = n := by
  induction h with
  | done => rfl
  | pixel _ _ ih => rw [List.length_cons, ih]
  | again _ _ _ ih => rw [List.length_append, List.length_replicate, ih]

theorem overwrite_mid {α : Type} (pre mid l : List α) (h : l.length ≤ mid.length) :
    overwrite (pre ++ mid) pre.length l = (pre ++ l) ++ mid.drop l.length := by
  unfold overwrite
  rw [List.take_left, List.drop_append, List.drop_eq_nil_of_le (by omega), Nat.add_sub_cancel_left, List.nil_append]

theorem pow_bound {k : Nat} (h : k < 7) : 256 ^ (k + 1) < 2 ^ 64 := by
  calc 256 ^ (k + 1) ≤ 256 ^ 7 := Nat.pow_le_pow_right (by decide) (by omega)
    _ < 2 ^ 64 := by decide

theorem oldRleLoop_complete {n k : Nat} {prev : Rgbe} {code : List UInt8} {row : List Rgbe} (h : Flat 7 n k prev code row) :
    ∀ (fuel : Nat) (pre mid : List Rgbe) (rest : List UInt8), mid.length = n → code.length < fuel → pre.length + n < 2 ^ 64 →
      oldRleLoop (pre.length + n) fuel pre.length (256 ^ k) prev (pre ++ mid) (code ++ rest) = .ok (pre ++ row, rest) := by
  induction h with
  | done =>
    intro fuel pre mid rest hm hf _
    have : mid = [] := List.length_eq_zero_iff.1 hm
    subst this
    match fuel, hf with
    | fuel + 1, _ => unfold oldRleLoop; simp
  | @pixel n k prev p code row hp _ ih =>
    intro fuel pre mid rest hm hf hb
    match fuel, hf, mid, hm with
    | fuel + 1, hf, m :: mid, hm =>
      unfold oldRleLoop
      rw [if_pos (by omega), List.append_assoc]
      show (readRgbe (Rgbe.bytes p ++ (code ++ rest)) >>= _) = _
      rw [show readRgbe (Rgbe.bytes p ++ (code ++ rest)) = .ok (p, code ++ rest) from rfl, ok_bind]
      dsimp only
      rw [rlMarker_eq, if_neg hp]
      dsimp only
      rw [decide_eq_true (by rw [List.length_append, List.length_cons]; omega), assertR_true, ok_bind]
      have hset : (pre ++ m :: mid).set pre.length p = (pre ++ [p]) ++ mid := by
        rw [List.set_append_right _ _ (Nat.le_refl _)]; simp
      have hf' : code.length < fuel := by rw [List.length_append] at hf; simp [four] at hf; omega
      have := ih fuel (pre ++ [p]) mid rest (by simpa using hm) hf' (by rw [List.length_append, List.length_singleton]; omega)
      rw [List.length_append, List.length_singleton, Nat.pow_zero] at this
      rw [hset, show pre.length + (n + 1) = pre.length + 1 + n by omega, this, List.append_assoc]
      rfl
  | @again n k prev e code row hk hpos _ ih =>
    intro fuel pre mid rest hm hf hb
    match fuel, hf with
    | fuel + 1, hf =>
      unfold oldRleLoop
      rw [if_pos (by omega), List.append_assoc]
      show (readRgbe (Rgbe.bytes ⟨1, 1, 1, e⟩ ++ (code ++ rest)) >>= _) = _
      rw [show readRgbe (Rgbe.bytes ⟨1, 1, 1, e⟩ ++ (code ++ rest)) = .ok (⟨1, 1, 1, e⟩, code ++ rest) from rfl, ok_bind]
      dsimp only
      rw [rlMarker_eq, if_pos ⟨rfl, rfl, rfl⟩]
      dsimp only
      rw [mulC_ok (by omega), ok_bind, mulC_ok (by have := pow_bound hk; rwa [Nat.pow_succ] at this), ok_bind, addC_ok (by omega), ok_bind,
        if_pos (by omega), ← Nat.pow_succ]
      have hlr : (List.replicate (e.toNat * 256 ^ k) prev).length = e.toNat * 256 ^ k := List.length_replicate
      have hov := overwrite_mid pre mid (List.replicate (e.toNat * 256 ^ k) prev) (by omega)
      rw [hov, hlr]
      have hf' : code.length < fuel := by rw [List.length_append] at hf; simp at hf; omega
      have := ih fuel (pre ++ List.replicate (e.toNat * 256 ^ k) prev) (mid.drop (e.toNat * 256 ^ k)) rest
        (by rw [List.length_drop]; omega) hf' (by rw [List.length_append, hlr]; omega)
      rw [List.length_append, hlr, Nat.add_assoc] at this
      rw [this, List.append_assoc]

theorem readRgbe_ok {s : List UInt8} {r : Rgbe × List UInt8} (h : readRgbe s = .ok r) : s = four r.1 ++ r.2 := by
  match s, h with
  | a :: b :: c :: d :: s, h => cases h; rfl
  | [], h => cases h
  | [_], h => cases h
  | [_, _], h => cases h
  | [_, _, _], h => cases h

theorem mulC_some {a b c : Nat} (h : mulC 64 a b = .ok c) : a * b < 2 ^ 64 ∧ c = a * b := by
  unfold mulC at h
  split at h
  · cases h; exact ⟨by assumption, rfl⟩
  · cases h

theorem bind_some {α β : Type} {x : R α} {f : α → R β} {b : β} (h : (x >>= f) = .ok b) : ∃ a, x = .ok a ∧ f a = .ok b := by
  cases x with
  | error e => cases h
  | ok a => exact ⟨a, rfl, h⟩

theorem oldRleLoop_sound : ∀ (fuel : Nat) (k : Nat) (prev : Rgbe) (pre mid : List Rgbe) (s : List UInt8) (r : List Rgbe × List UInt8),
    oldRleLoop (pre.length + mid.length) fuel pre.length (256 ^ k) prev (pre ++ mid) s = .ok r →
    ∃ code row, Flat 7 mid.length k prev code row ∧ s = code ++ r.2 ∧ r.1 = pre ++ row := by
  intro fuel
  induction fuel with
  | zero => intro k prev pre mid s r h; cases h
  | succ fuel ih =>
    intro k prev pre mid s r h
    unfold oldRleLoop at h
    match mid, h with
    | [], h =>
      rw [if_neg (by simp), if_neg (by simp)] at h
      cases h
      exact ⟨[], [], .done, rfl, by simp⟩
    | m :: mid, h =>
      rw [if_pos (by rw [List.length_cons]; omega)] at h
      obtain ⟨⟨p, s'⟩, h1, h⟩ := bind_some h
      have hs := readRgbe_ok h1
      dsimp only at h hs
      rw [rlMarker_eq] at h
      by_cases hp : Marker p
      · rw [if_pos hp] at h
        dsimp only at h
        obtain ⟨rl, h2, h⟩ := bind_some h
        obtain ⟨mu, h3, h⟩ := bind_some h
        obtain ⟨e, h4, h⟩ := bind_some h
        obtain ⟨b2, rfl⟩ := mulC_some h2
        obtain ⟨b3, rfl⟩ := mulC_some h3
        unfold addC at h4
        by_cases hlt : pre.length + p.e.toNat * 256 ^ k < 2 ^ 64
        swap
        · rw [if_neg hlt] at h4; cases h4
        rw [if_pos hlt] at h4
        cases h4
        by_cases hle : pre.length + p.e.toNat * 256 ^ k ≤ pre.length + (m :: mid).length
        swap
        · rw [if_neg hle] at h; cases h
        rw [if_pos hle, ← Nat.pow_succ] at h
        have hk : k < 7 := by
          by_contra hk
          have : 256 ^ 8 ≤ 256 ^ (k + 1) := Nat.pow_le_pow_right (by decide) (by omega)
          rw [Nat.pow_succ _ k] at this
          have : (256 : Nat) ^ 8 = 2 ^ 64 := by decide
          omega
        have hlr : (List.replicate (p.e.toNat * 256 ^ k) prev).length = p.e.toNat * 256 ^ k := List.length_replicate
        rw [overwrite_mid pre (m :: mid) _ (by omega), hlr] at h
        obtain ⟨code, row, g1, g2, g3⟩ := ih (k + 1) prev (pre ++ List.replicate (p.e.toNat * 256 ^ k) prev)
          ((m :: mid).drop (p.e.toNat * 256 ^ k)) s' r (by
            rw [← h, List.length_append, hlr, List.length_drop]
            congr 1
            omega)
        have hl : (m :: mid).length = mid.length + 1 := rfl
        have fl := Flat.again (e := p.e) (k := k) hk (by rw [List.length_drop]; omega) g1
        rw [List.length_drop, show p.e.toNat * 256 ^ k + ((m :: mid).length - p.e.toNat * 256 ^ k) = (m :: mid).length by omega] at fl
        refine ⟨_, _, fl, ?_, ?_⟩
        · rw [hs, g2, List.append_assoc]
          obtain ⟨e1, e2, e3⟩ := hp
          unfold four
          rw [e1, e2, e3]
        · rw [g3, List.append_assoc]
      · rw [if_neg hp] at h
        dsimp only at h
        rw [decide_eq_true (by rw [List.length_append, List.length_cons]; omega), assertR_true, ok_bind] at h
        have hset : (pre ++ m :: mid).set pre.length p = (pre ++ [p]) ++ mid := by
          rw [List.set_append_right _ _ (Nat.le_refl _)]; simp
        rw [hset] at h
        obtain ⟨code, row, g1, g2, g3⟩ := ih 0 p (pre ++ [p]) mid s' r (by
          rw [← h, List.length_append, List.length_singleton, List.length_cons, Nat.pow_zero]
          congr 1
          omega)
        refine ⟨_, _, .pixel hp g1, ?_, ?_⟩
        · rw [hs, g2, List.append_assoc]
        · rw [g3, List.append_assoc]; rfl

/-! ## Scanlines -/

theorem zip_r {buf : List Rgbe} {d : List UInt8} {f : Rgbe → UInt8 → Rgbe} (g : Rgbe → UInt8) (hf : ∀ p v, g (f p v) = v)
    (h : buf.length = d.length) : (List.zipWith f buf d).map g = d := by
  apply List.ext_getElem
  · simp [h]
  · intro i h1 h2
    simp [hf]

theorem zip_keep {buf : List Rgbe} {d : List UInt8} {f : Rgbe → UInt8 → Rgbe} (g : Rgbe → UInt8) (hf : ∀ p v, g (f p v) = g p)
    (h : buf.length = d.length) : (List.zipWith f buf d).map g = buf.map g := by
  apply List.ext_getElem
  · simp [h]
  · intro i h1 h2
    simp [hf]

theorem zip_row (buf row : List Rgbe) (h : buf.length = row.length) :
    List.zipWith (fun p v => { p with e := v })
      (List.zipWith (fun p v => { p with b := v })
        (List.zipWith (fun p v => { p with g := v })
          (List.zipWith (fun p v => { p with r := v }) buf (row.map (·.r))) (row.map (·.g))) (row.map (·.b)))
      (row.map (·.e)) = row := by
  apply List.ext_getElem
  · simp [h]
  · intro i h1 h2
    simp

/-- The reader of a scanline accepts exactly the codes of scanlines of the right length. -/
theorem readScanline_iff {buf : List Rgbe} (hb : buf ≠ []) (hl : buf.length < 2 ^ 64) (s : List UInt8) (r : List Rgbe × List UInt8) :
    readScanline buf s = .ok r ↔ r.1.length = buf.length ∧ ∃ code, s = code ++ r.2 ∧ Scanline 7 code r.1 := by
  have hbe : (!buf.isEmpty) = true := by cases buf with
    | nil => exact absurd rfl hb
    | cons => rfl
  have hbpos : 0 < buf.length := List.length_pos_of_ne_nil hb
  unfold readScanline
  rw [hbe, assertR_true, ok_bind]
  constructor
  · intro h
    obtain ⟨⟨p, s'⟩, h1, h⟩ := bind_some h
    have hs := readRgbe_ok h1
    dsimp only at h hs
    by_cases hp : p.r = 2 ∧ p.g = 2 ∧ p.b < 128
    · rw [if_pos hp] at h
      obtain ⟨⟨b1, s1⟩, k1, h⟩ := bind_some h
      obtain ⟨c1, d1, m1, e1, f1⟩ := (decodeComponent_iff _ _ _ _).1 k1
      dsimp only at h e1 f1
      have l1 := component_length m1
      have lb1 : b1.length = buf.length := by rw [f1, List.length_zipWith, l1, Nat.min_self]
      obtain ⟨⟨b2, s2⟩, k2, h⟩ := bind_some h
      obtain ⟨c2, d2, m2, e2, f2⟩ := (decodeComponent_iff _ _ _ _).1 k2
      dsimp only at h e2 f2
      have l2 := component_length m2
      have lb2 : b2.length = buf.length := by rw [f2, List.length_zipWith, l2, Nat.min_self, lb1]
      obtain ⟨⟨b3, s3⟩, k3, h⟩ := bind_some h
      obtain ⟨c3, d3, m3, e3, f3⟩ := (decodeComponent_iff _ _ _ _).1 k3
      dsimp only at h e3 f3
      have l3 := component_length m3
      have lb3 : b3.length = buf.length := by rw [f3, List.length_zipWith, l3, Nat.min_self, lb2]
      obtain ⟨c4, d4, m4, e4, f4⟩ := (decodeComponent_iff _ _ _ _).1 h
      have l4 := component_length m4
      have lb4 : r.1.length = buf.length := by rw [f4, List.length_zipWith, l4, Nat.min_self, lb3]
      have hr4 : r.1.map (·.e) = d4 := by rw [f4]; exact zip_r _ (fun _ _ => rfl) (by omega)
      have ke : ∀ (g : Rgbe → UInt8), (∀ p v, g { p with e := v } = g p) → r.1.map g = b3.map g := fun g hg => by
        rw [f4]; exact zip_keep g hg (by omega)
      have kb : ∀ (g : Rgbe → UInt8), (∀ p v, g { p with b := v } = g p) → b3.map g = b2.map g := fun g hg => by
        rw [f3]; exact zip_keep g hg (by omega)
      have kg : ∀ (g : Rgbe → UInt8), (∀ p v, g { p with g := v } = g p) → b2.map g = b1.map g := fun g hg => by
        rw [f2]; exact zip_keep g hg (by omega)
      have hr3 : r.1.map (·.b) = d3 := by
        rw [ke (·.b) (fun _ _ => rfl), f3]; exact zip_r _ (fun _ _ => rfl) (by omega)
      have hr2 : r.1.map (·.g) = d2 := by
        rw [ke (·.g) (fun _ _ => rfl), kb (·.g) (fun _ _ => rfl), f2]; exact zip_r _ (fun _ _ => rfl) (by omega)
      have hr1 : r.1.map (·.r) = d1 := by
        rw [ke (·.r) (fun _ _ => rfl), kb (·.r) (fun _ _ => rfl), kg (·.r) (fun _ _ => rfl), f1]
        exact zip_r _ (fun _ _ => rfl) (by omega)
      refine ⟨lb4, [2, 2, p.b, p.e] ++ c1 ++ c2 ++ c3 ++ c4, ?_, ?_⟩
      · rw [hs, e1, e2, e3, e4]
        unfold four
        rw [hp.1, hp.2.1]
        simp
      · refine .components hp.2.2 (by intro h0; rw [h0] at lb4; simp at lb4; omega) ?_ ?_ ?_ ?_
        · rw [lb4, hr1]; exact m1
        · rw [lb4, hr2, ← lb1]; exact m2
        · rw [lb4, hr3, ← lb2]; exact m3
        · rw [lb4, hr4, ← lb3]; exact m4
    · rw [if_neg hp] at h
      unfold decodeOldRle at h
      rw [hbe, assertR_true, ok_bind, rlMarker_eq] at h
      by_cases hm : Marker p
      · rw [if_pos hm, if_pos (by rfl)] at h; cases h
      rw [if_neg hm, if_neg (by simp)] at h
      match buf, hb with
      | m :: mid, _ =>
        obtain ⟨code, row, g1, g2, g3⟩ := oldRleLoop_sound _ 0 p [p] mid s' r (by
          rw [← h, Nat.pow_zero, List.length_singleton, List.length_cons, Nat.add_comm]
          rfl)
        have := flat_length g1
        rw [g3]
        refine ⟨by simp [this], four p ++ code, by rw [hs, g2, List.append_assoc], ?_⟩
        show Scanline 7 _ (p :: row)
        exact .flat hp hm (by rw [this]; exact g1)
  · obtain ⟨rr, rest⟩ := r
    dsimp only
    rintro ⟨hlen, code, rfl, hc⟩
    cases hc with
    | @components row hi lo cr cg cb ce hhi hne m1 m2 m3 m4 =>
      rw [show [2, 2, hi, lo] ++ cr ++ cg ++ cb ++ ce ++ rest = Rgbe.bytes ⟨2, 2, hi, lo⟩ ++ (cr ++ (cg ++ (cb ++ (ce ++ rest)))) by
        simp [Rgbe.bytes]]
      rw [show ∀ (p : Rgbe) s, readRgbe (Rgbe.bytes p ++ s) = .ok (p, s) from fun _ _ => rfl, ok_bind]
      dsimp only
      rw [if_pos ⟨rfl, rfl, hhi⟩]
      have step : ∀ (set : Rgbe → UInt8 → Rgbe) (b : List Rgbe) (c d rest : List UInt8), b.length = buf.length → Component rr.length c d →
          decodeComponent set b.length b (c ++ rest) = .ok (List.zipWith set b d, rest) := fun set b c d rest hb hc =>
        (decodeComponent_iff set b (c ++ rest) (List.zipWith set b d, rest)).2 ⟨c, d, by rw [hb, ← hlen]; exact hc, rfl, rfl⟩
      rw [step _ _ _ _ _ rfl m1, ok_bind]
      dsimp only
      rw [step _ _ _ _ _ (by simp [hlen]) m2, ok_bind]
      dsimp only
      rw [step _ _ _ _ _ (by simp [hlen]) m3, ok_bind]
      dsimp only
      rw [step _ _ _ _ _ (by simp [hlen]) m4, zip_row buf rr hlen.symm]
    | @flat p code row hp hm hf =>
      rw [List.append_assoc, show ∀ s, readRgbe (four p ++ s) = .ok (p, s) from fun _ => rfl, ok_bind]
      dsimp only
      rw [if_neg hp]
      unfold decodeOldRle
      rw [hbe, assertR_true, ok_bind, rlMarker_eq, if_neg hm, if_neg (by simp)]
      match buf, hb with
      | m :: mid, _ =>
        have hml : mid.length = row.length := by simpa using hlen.symm
        have := oldRleLoop_complete hf ((code ++ rest).length + 1) [p] mid rest hml (by rw [List.length_append]; omega)
          (by rw [List.length_singleton]; simp at hl; omega)
        rw [Nat.pow_zero, List.length_singleton, Nat.add_comm 1] at this
        rw [List.length_cons, hml]
        exact this

end Hdr
end Verif
