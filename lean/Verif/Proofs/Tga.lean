import Verif.Model.Tga
import Verif.Proofs.Outcome

/-!
# Chunks and TGA packets: helper lemmas
-/

namespace Verif

theorem chunksOf_nil {α : Type} {n : Nat} (h : 0 < n) : chunksOf n ([] : List α) = [] := by
  have : (n - 1) / n = 0 := Nat.div_eq_of_lt (by omega)
  simp [chunksOf, this]

theorem chunksOf_append {α : Type} {n : Nat} (hn : 0 < n) {a : List α} (ha : a.length = n) (l : List α) :
    chunksOf n (a ++ l) = a :: chunksOf n l := by
  unfold chunksOf
  have h1 : ((a ++ l).length + n - 1) / n = (l.length + n - 1) / n + 1 := by
    rw [List.length_append, ha, show n + l.length + n - 1 = (l.length + n - 1) + n by omega,
      Nat.add_div_right _ hn]
  rw [h1, List.range_succ_eq_map, List.map_cons, List.map_map]
  congr 1
  · simp [← ha]
  · apply List.map_congr_left
    intro k _
    simp only [Function.comp, Nat.succ_eq_add_one]
    rw [show (k + 1) * n = a.length + k * n by rw [ha, Nat.succ_mul]; omega, List.drop_append,
      List.drop_eq_nil_of_le (by omega), List.nil_append, Nat.add_sub_cancel_left]

/-- A list whose length is a multiple of `n` is the concatenation of its chunks, which all have length `n`. -/
theorem chunksOf_eq {α : Type} {n k : Nat} (hn : 0 < n) {l : List α} (hl : l.length = k * n) :
    (chunksOf n l).flatten = l ∧ (∀ c ∈ chunksOf n l, c.length = n) ∧ (chunksOf n l).length = k := by
  induction k generalizing l with
  | zero =>
    have : l = [] := List.eq_nil_of_length_eq_zero (by omega)
    subst this; rw [chunksOf_nil hn]; simp
  | succ k ih =>
    have hlen : n ≤ l.length := by rw [hl, Nat.succ_mul]; omega
    have hsplit : l.take n ++ l.drop n = l := List.take_append_drop n l
    have h1 : (l.take n).length = n := by simp; omega
    have h2 : (l.drop n).length = k * n := by simp [hl, Nat.succ_mul]
    obtain ⟨g1, g2, g3⟩ := ih h2
    have := chunksOf_append hn h1 (l.drop n)
    rw [hsplit] at this
    rw [this]
    refine ⟨by simp [g1], ?_, by simp [g3]⟩
    intro c hc
    rcases List.mem_cons.1 hc with rfl | hc
    · exact h1
    · exact g2 c hc

theorem chunksOf_flatten {α : Type} {n : Nat} (hn : 0 < n) {ps : List (List α)} (h : ∀ c ∈ ps, c.length = n) :
    chunksOf n ps.flatten = ps := by
  induction ps with
  | nil => exact chunksOf_nil hn
  | cons p ps ih =>
    rw [List.flatten_cons, chunksOf_append hn (h p (by simp)), ih (fun c hc => h c (by simp [hc]))]

namespace Tga

/-! ## Specification of the packets -/

/-- `Packets n enc px`: `enc` is a sequence of well-formed TGA packets for pixels of `n` bytes, and `px` are the bytes
of the pixels that they denote. A packet is a header byte `128 + (c - 1)` followed by one pixel, denoting `c` copies, or
a header byte `c - 1` followed by `c` pixels, with `1 ≤ c ≤ 128`. -/
inductive Packets (n : Nat) : List UInt8 → List UInt8 → Prop
  | nil : Packets n [] []
  | run {c : Nat} {pixel enc px : List UInt8} : 1 ≤ c → c ≤ 128 → pixel.length = n → Packets n enc px →
      Packets n ((UInt8.ofNat (128 + (c - 1)) :: pixel) ++ enc) ((List.replicate c pixel).flatten ++ px)
  | raw {c : Nat} {data enc px : List UInt8} : 1 ≤ c → c ≤ 128 → data.length = c * n → Packets n enc px →
      Packets n ((UInt8.ofNat (c - 1) :: data) ++ enc) (data ++ px)

theorem Packets.append {n : Nat} {a b p q : List UInt8} (h1 : Packets n a p) (h2 : Packets n b q) :
    Packets n (a ++ b) (p ++ q) := by
  induction h1 with
  | nil => exact h2
  | run hc hc' hp _ ih => rw [List.append_assoc, List.append_assoc]; exact .run hc hc' hp ih
  | raw hc hc' hp _ ih => rw [List.append_assoc, List.append_assoc]; exact .raw hc hc' hp ih

theorem or128 : ∀ h : Nat, h < 128 → (0x80 ||| UInt8.ofNat h) = UInt8.ofNat (128 + h) := by decide +kernel

theorem rlePacket_ok {n c : Nat} {pixel : List UInt8} (h1 : 1 ≤ c) (h2 : c ≤ 128) (hp : pixel.length = n) :
    ∃ p, rlePacket pixel c = .ok p ∧ Packets n p (List.replicate c pixel).flatten := by
  unfold rlePacket
  rw [subC_ok h1]
  simp only [ok_bind]
  refine ⟨_, rfl, ?_⟩
  rw [or128 _ (by omega)]
  simpa using Packets.run h1 h2 hp (Packets.nil (n := n))

theorem rawPacket_ok {n c : Nat} {data : List UInt8} (h1 : 1 ≤ c) (h2 : c ≤ 128) (hp : data.length = c * n) :
    ∃ p, rawPacket data c = .ok p ∧ Packets n p data := by
  unfold rawPacket
  rw [subC_ok h1]
  simp only [ok_bind]
  refine ⟨_, rfl, ?_⟩
  simpa using Packets.raw h1 h2 hp (Packets.nil (n := n))

/-- Invariant of the encoder loop after the pixels `pre`; `cur` is the value `prev_pixel` has when a packet of copies
is flushed next. -/
structure EncInv (n : Nat) (pre : List (List UInt8)) (cur : Option (List UInt8)) (lim : Nat) (st : Enc) : Prop where
  done : ∃ px, Packets n st.out px ∧ px ++ st.buf = pre.flatten
  buf : st.buf.length = st.counter * n
  cnt : st.counter ≤ lim
  rle : st.rle = true → 0 < st.counter → ∃ p, cur = some p ∧ p.length = n ∧ st.buf = (List.replicate st.counter p).flatten

theorem encPrev_ok {n : Nat} {pre : List (List UInt8)} {st : Enc} {pixel : List UInt8}
    (hi : EncInv n pre st.prev 127 st) :
    ∃ st', encPrev st pixel = .ok st' ∧ EncInv n pre (some pixel) 127 st' ∧ st'.prev = st.prev ∧
      (st'.rle = true → 0 < st'.counter → st'.prev = some pixel) := by
  obtain ⟨⟨px, hpk, hpx⟩, hb, hc, hr⟩ := hi
  unfold encPrev
  cases hpr : st.prev with
  | none =>
    refine ⟨st, rfl, ⟨⟨px, hpk, hpx⟩, hb, hc, ?_⟩, hpr, ?_⟩
    · intro h1 h2
      obtain ⟨p, hp', _⟩ := hr h1 h2
      rw [hpr] at hp'; exact absurd hp' (by simp)
    · intro h1 h2
      obtain ⟨p, hp', _⟩ := hr h1 h2
      rw [hpr] at hp'; exact absurd hp' (by simp)
  | some prev =>
    dsimp only
    split
    · rename_i heq
      subst heq
      split
      · rename_i h
        obtain ⟨p, he, hpp⟩ := rawPacket_ok (n := n) h.2 (by omega) hb
        rw [he]
        simp only [ok_bind]
        refine ⟨_, rfl, ⟨⟨px ++ st.buf, hpk.append hpp, by simpa using hpx⟩, by simp, by simp, ?_⟩, rfl, ?_⟩
        · intro _ h; simp at h
        · intro _ h; simp at h
      · rename_i h
        refine ⟨_, rfl, ⟨⟨px, hpk, hpx⟩, hb, hc, ?_⟩, rfl, ?_⟩
        · intro _ h2
          dsimp only at h2 ⊢
          have hrle : st.rle = true := by
            cases hx : st.rle with
            | true => rfl
            | false => exact absurd ⟨hx, h2⟩ h
          obtain ⟨p, hp', h3, h4⟩ := hr hrle h2
          rw [hpr] at hp'
          exact ⟨p, hp', h3, h4⟩
        · intro _ _; rfl
    · rename_i hne
      split
      · rename_i h
        obtain ⟨p, hp', h3, h4⟩ := hr h.1 h.2
        rw [hpr] at hp'
        have hpe : prev = p := by simpa using hp'
        subst hpe
        obtain ⟨q, he, hqq⟩ := rlePacket_ok (n := n) h.2 (show st.counter ≤ 128 by omega) h3
        rw [he]
        simp only [ok_bind]
        refine ⟨_, rfl, ⟨⟨px ++ st.buf, hpk.append (by rw [h4]; exact hqq), by simpa using hpx⟩, by simp, by simp, ?_⟩,
          rfl, ?_⟩
        · intro _ h; simp at h
        · intro _ h; simp at h
      · rename_i h
        refine ⟨st, rfl, ⟨⟨px, hpk, hpx⟩, hb, hc, ?_⟩, hpr, ?_⟩
        · intro h1 h2; exact absurd ⟨h1, h2⟩ h
        · intro h1 h2; exact absurd ⟨h1, h2⟩ h

theorem flushPacket_ok {n : Nat} {pre : List (List UInt8)} {st : Enc} (hi : EncInv n pre st.prev 128 st)
    (h : 0 < st.counter) : ∃ p, flushPacket st = .ok p ∧ Packets n (st.out ++ p) pre.flatten := by
  obtain ⟨⟨px, hpk, hpx⟩, hb, hc, hr⟩ := hi
  unfold flushPacket
  split
  · rename_i hrle
    obtain ⟨p, hp', h3, h4⟩ := hr hrle h
    rw [hp']
    simp only [unwrapR, ok_bind]
    obtain ⟨q, he, hqq⟩ := rlePacket_ok (n := n) h hc h3
    refine ⟨q, he, ?_⟩
    rw [← hpx, h4]; exact hpk.append hqq
  · obtain ⟨q, he, hqq⟩ := rawPacket_ok (n := n) h hc hb
    refine ⟨q, he, ?_⟩
    rw [← hpx]; exact hpk.append hqq

theorem encStep_ok {n : Nat} {pre : List (List UInt8)} {st : Enc} {pixel : List UInt8}
    (hp : pixel.length = n) (hi : EncInv n pre st.prev 127 st) :
    ∃ st', encStep n pixel st = .ok st' ∧ EncInv n (pre ++ [pixel]) st'.prev 127 st' ∧
      st'.prev = (pre ++ [pixel]).getLast? := by
  obtain ⟨st1, he, ⟨⟨px, hpk, hpx⟩, hb, hc, hr⟩, hpr, hpr2⟩ := encPrev_ok (pixel := pixel) hi
  unfold encStep
  rw [he]
  simp only [ok_bind]
  rw [addC_ok (by omega)]
  simp only [ok_bind]
  have hlen : (st1.buf ++ pixel).length = (st1.counter + 1) * n := by
    simp [hb, hp, Nat.succ_mul]
  rw [show assertR (decide ((st1.buf ++ pixel).length ≤ 128 * n)) = .ok () from by
    rw [decide_eq_true (by rw [hlen]; exact Nat.mul_le_mul_right n (by omega))]; rfl]
  simp only [ok_bind]
  have hrep : st1.rle = true → st1.buf ++ pixel = (List.replicate (st1.counter + 1) pixel).flatten := by
    intro h1
    by_cases h2 : 0 < st1.counter
    · obtain ⟨p, hp', h3, h4⟩ := hr h1 h2
      have : pixel = p := by simpa using hp'
      subst this
      rw [h4, List.replicate_succ', List.flatten_append]; simp
    · have : st1.buf = [] := List.eq_nil_of_length_eq_zero (by rw [hb, show st1.counter = 0 by omega]; simp)
      rw [this, show st1.counter = 0 by omega]; simp
  unfold encFull
  dsimp only
  split
  · rename_i hfull
    have hfl := flushPacket_ok (n := n) (pre := pre ++ [pixel])
      (st := { st1 with counter := st1.counter + 1, buf := st1.buf ++ pixel })
      ⟨⟨px, hpk, by simp [← hpx]⟩, hlen, by dsimp only; omega, by
        intro h1 _
        exact ⟨pixel, hpr2 h1 (by omega), hp, hrep h1⟩⟩ (by dsimp only; omega)
    obtain ⟨p, hpe, hpp⟩ := hfl
    rw [hpe]
    simp only [ok_bind]
    refine ⟨_, rfl, ⟨⟨_, hpp, by simp⟩, by simp, by simp, ?_⟩, by simp⟩
    intro _ h; simp at h
  · rename_i hfull
    simp only [ok_bind]
    refine ⟨_, rfl, ⟨⟨px, hpk, by simp [← hpx]⟩, hlen, by dsimp only; omega, ?_⟩, by simp⟩
    intro h1 _
    exact ⟨pixel, rfl, hp, hrep h1⟩

theorem runLengthEncode_ok {color : ExtendedColorType} {k : Nat} {image : List UInt8}
    (h0 : 0 < color.bitsPerPixel / 8) (hl : image.length = k * (color.bitsPerPixel / 8)) :
    ∃ out, runLengthEncode image color = .ok out ∧ Packets (color.bitsPerPixel / 8) out image := by
  obtain ⟨g1, g2, -⟩ := chunksOf_eq h0 hl
  unfold runLengthEncode
  dsimp only
  rw [show (color.bitsPerPixel / 8 != 0) = true from by simp; omega]
  simp only [assertR_true, ok_bind]
  obtain ⟨st, he, hi, hpr⟩ := forList_inv (xs := chunksOf (color.bitsPerPixel / 8) image)
    (f := encStep (color.bitsPerPixel / 8)) (s := ⟨[], [], 0, none, true⟩)
    (fun pre _ st => EncInv (color.bitsPerPixel / 8) pre st.prev 127 st ∧ st.prev = pre.getLast?)
    ⟨⟨⟨[], .nil, rfl⟩, by simp, by simp, by intro _ h; simp at h⟩, rfl⟩
    (by
      intro pre x post hx st ⟨hi, _⟩
      exact encStep_ok (g2 x (by rw [← hx]; simp)) hi)
  rw [he]
  simp only [ok_bind]
  split
  · rename_i h
    obtain ⟨p, hp, hpp⟩ := flushPacket_ok (n := color.bitsPerPixel / 8) (st := st)
      ⟨hi.done, hi.buf, Nat.le_trans hi.cnt (by omega), hi.rle⟩ h
    rw [hp]
    exact ⟨_, rfl, g1 ▸ hpp⟩
  · rename_i h
    obtain ⟨px, h1, h2⟩ := hi.done
    have : st.buf = [] := List.eq_nil_of_length_eq_zero (by rw [hi.buf, show st.counter = 0 by omega]; simp)
    rw [this, List.append_nil, g1] at h2
    exact ⟨_, rfl, h2 ▸ h1⟩

/-! ## Decoding packets -/

theorem cycleTake_eq {n c : Nat} (hn : 0 < n) {l : List UInt8} (hl : l.length = n) :
    cycleTake (c * n) l = (List.replicate c l).flatten := by
  unfold cycleTake
  rw [if_neg (by omega), hl]
  induction c with
  | zero => simp
  | succ c ih =>
    rw [Nat.succ_mul, List.range_add, List.map_append, ih, List.replicate_succ', List.flatten_append]
    congr 1
    simp only [List.flatten_cons, List.flatten_nil, List.append_nil, List.map_map]
    apply List.ext_getElem
    · simp [hl]
    · intro i h1 h2
      have : i < n := by simpa using h1
      simp [Nat.mod_eq_of_lt this, h2]

theorem length_cycleTake_le (m : Nat) (l : List UInt8) : (cycleTake m l).length ≤ m := by
  unfold cycleTake; split <;> simp

theorem runByte (c : Nat) (h1 : 1 ≤ c) (h2 : c ≤ 128) :
    (UInt8.ofNat (128 + (c - 1))).toNat &&& 0x80 ≠ 0 ∧ (UInt8.ofNat (128 + (c - 1))).toNat % 128 + 1 = c := by
  have H : ∀ c : Nat, c < 129 → 1 ≤ c → (UInt8.ofNat (128 + (c - 1))).toNat &&& 0x80 ≠ 0 ∧
      (UInt8.ofNat (128 + (c - 1))).toNat % 128 + 1 = c := by decide +kernel
  exact H c (by omega) h1

theorem rawByte (c : Nat) (h1 : 1 ≤ c) (h2 : c ≤ 128) :
    (UInt8.ofNat (c - 1)).toNat &&& 0x80 = 0 ∧ (UInt8.ofNat (c - 1)).toNat + 1 = c := by
  have H : ∀ c : Nat, c < 129 → 1 ≤ c → (UInt8.ofNat (c - 1)).toNat &&& 0x80 = 0 ∧
      (UInt8.ofNat (c - 1)).toNat + 1 = c := by decide +kernel
  exact H c (by omega) h1

theorem length_replicate_flatten {α : Type} (c : Nat) (l : List α) : (List.replicate c l).flatten.length = c * l.length := by
  simp

/-- The decoder loop reads back what well-formed packets denote and stops right after them. -/
theorem readEncodedLoop_packets {n : Nat} (hn : 0 < n) {enc px : List UInt8} (h : Packets n enc px) :
    ∀ (acc s : List UInt8) (fuel : Nat), enc.length < fuel →
      readEncodedLoop n (acc.length + px.length) fuel acc (enc ++ s) = .ok (acc ++ px, s) := by
  induction h with
  | nil =>
    intro acc s fuel hf
    obtain ⟨f, rfl⟩ : ∃ f, fuel = f + 1 := ⟨fuel - 1, by simp at hf; omega⟩
    rw [readEncodedLoop]; simp
  | @run c pixel enc px h1 h2 hp _ ih =>
    intro acc s fuel hf
    obtain ⟨f, rfl⟩ : ∃ f, fuel = f + 1 := ⟨fuel - 1, by omega⟩
    have hlen : ((List.replicate c pixel).flatten ++ px).length = c * n + px.length := by
      rw [List.length_append, length_replicate_flatten, hp]
    have hpos : 0 < c * n := Nat.mul_pos (by omega) hn
    rw [readEncodedLoop, if_pos (by rw [hlen]; omega)]
    simp only [List.cons_append, List.append_assoc, readU8, ok_bind]
    obtain ⟨g1, g2⟩ := runByte c h1 h2
    rw [if_pos g1, g2]
    simp only [readUpTo]
    rw [show (pixel ++ (enc ++ s)).take n = pixel by rw [← hp]; simp,
      show (pixel ++ (enc ++ s)).drop n = enc ++ s by rw [← hp]; simp, cycleTake_eq hn hp]
    have := ih (acc ++ (List.replicate c pixel).flatten) s f (by simp at hf; omega)
    rw [← List.append_assoc, ← this]
    congr 1
    simp only [List.length_append]; omega
  | @raw c data enc px h1 h2 hp _ ih =>
    intro acc s fuel hf
    obtain ⟨f, rfl⟩ : ∃ f, fuel = f + 1 := ⟨fuel - 1, by omega⟩
    have hpos : 0 < c * n := Nat.mul_pos (by omega) hn
    rw [readEncodedLoop, if_pos (by rw [List.length_append]; omega)]
    simp only [List.cons_append, List.append_assoc, readU8, ok_bind]
    obtain ⟨g1, g2⟩ := rawByte c h1 h2
    rw [if_neg (by rw [g1]; simp), g2]
    simp only [readUpTo]
    rw [show (data ++ (enc ++ s)).take (c * n) = data by rw [← hp]; simp,
      show (data ++ (enc ++ s)).drop (c * n) = enc ++ s by rw [← hp]; simp]
    have := ih (acc ++ data) s f (by simp at hf; omega)
    rw [← List.append_assoc, ← this]
    congr 1
    simp only [List.length_append]; omega

theorem readEncodedData_packets {n : Nat} (hn : 0 < n) {enc px : List UInt8} (h : Packets n enc px) (s : List UInt8) :
    readEncodedData n px.length (enc ++ s) = .ok (px, s) := by
  unfold readEncodedData
  have := readEncodedLoop_packets hn h [] s ((enc ++ s).length + 1) (by simp; omega)
  simp only [List.length_nil, Nat.zero_add, List.nil_append] at this
  rw [this]
  simp

/-- The decoder loop never runs out of fuel and never panics. -/
theorem readEncodedLoop_total (n m : Nat) : ∀ (fuel : Nat) (acc s : List UInt8), s.length < fuel →
    OkOr (fun e => e = .io) (fun r => m ≤ r.1.length) (readEncodedLoop n m fuel acc s) := by
  intro fuel
  induction fuel with
  | zero => intro acc s h; omega
  | succ f ih =>
    intro acc s h
    rw [readEncodedLoop]
    split
    · cases s with
      | nil => exact rfl
      | cons b s =>
        simp only [readU8, ok_bind, readUpTo]
        simp at h
        split
        · exact ih _ _ (by simp; omega)
        · exact ih _ _ (by simp; omega)
    · rename_i hlt
      exact Nat.le_of_not_lt hlt

theorem readEncodedData_total (n m : Nat) (s : List UInt8) :
    OkOr (fun e => e = .io) (fun r => r.1.length = m) (readEncodedData n m s) := by
  unfold readEncodedData
  refine OkOr.bind (readEncodedLoop_total n m _ [] s (by omega)) ?_
  rintro ⟨acc, s'⟩ h
  dsimp only at h ⊢
  simp only [OkOr, List.length_take]; omega

end Tga
end Verif
