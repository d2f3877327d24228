import Verif.Props.JpegHuffman

/-! # Lemmas on the blocks written by the JPEG encoder -/

namespace Verif
namespace Jpeg

open JpegSpec

/-- The look-up table has codes for all values of the Huffman table, and they are decoded. -/
def Codes (lut : List (Nat × Nat)) (t : HuffTable) : Prop :=
  ∀ v ∈ t.vals, ∃ n c, lut[v]? = some (n, c) ∧ n ≤ 16 ∧ c < 2 ^ n ∧ ∀ rest, decodeSym t (natBits n c ++ rest) = some (v, rest)

theorem codes_of_valid (t : HuffTable) (h : ValidTable t) : ∃ lut, buildHuffLut t.counts t.vals = .ok lut ∧ lut.length = 256 ∧ Codes lut t := by
  obtain ⟨lut, h1, h2, _, h4⟩ := C45_codes t h
  refine ⟨lut, h1, h2, ?_⟩
  intro v hv
  obtain ⟨k, hk, rfl⟩ := List.getElem_of_mem hv
  obtain ⟨c, a1, _, a3, a4, a5⟩ := h4 k hk
  exact ⟨_, c, a1, a3, by omega, a5⟩

theorem huffmanEncode_wrote {pre : List UInt8} {bs : List Bool} {s : BitWriter} (h : Wrote pre s bs) {lut : List (Nat × Nat)}
    {t : HuffTable} (hc : Codes lut t) {v : Nat} (hv : v ∈ t.vals) :
    ∃ s' B, s.huffmanEncode v lut = .ok s' ∧ Wrote pre s' (bs ++ B) ∧ ∀ rest, decodeSym t (B ++ rest) = some (v, rest) := by
  obtain ⟨n, c, h1, h2, h3, h4⟩ := hc v hv
  obtain ⟨s', e, w⟩ := writeBits_wrote h (v := c) (n := n) (by omega) h3
  refine ⟨s', _, ?_, w, h4⟩
  unfold BitWriter.huffmanEncode
  rw [getR_of h1, ok_bind]
  simp only [decide_eq_true h2, assertR_true, ok_bind, e]

/-! ## Coefficients -/

theorem lt_numBits (m : Nat) : m < 2 ^ numBits m := by
  induction m using Nat.strongRecOn with
  | ind m ih =>
    rw [numBits]
    split
    · omega
    · have := ih (m / 2) (by omega)
      rw [Nat.pow_succ]
      omega

theorem numBits_le (m : Nat) (h : 0 < m) : 2 ^ numBits m ≤ 2 * m := by
  induction m using Nat.strongRecOn with
  | ind m ih =>
    rw [numBits]
    rw [if_neg (by omega), Nat.pow_succ]
    by_cases h2 : 0 < m / 2
    · have := ih (m / 2) (by omega) h2
      omega
    · rw [show m / 2 = 0 by omega, numBits]
      simp
      omega

theorem numBits_le_of_lt {m k : Nat} (h : m < 2 ^ k) : numBits m ≤ k := by
  by_cases h0 : m = 0
  · subst h0; rw [numBits]; simp
  · have h1 := numBits_le m (by omega)
    have h2 : 2 ^ numBits m < 2 ^ (k + 1) := by rw [Nat.pow_succ]; omega
    have := (Nat.pow_lt_pow_iff_right (a := 2) (by decide)).1 h2
    omega

theorem numBits_pos {m : Nat} (h : m ≠ 0) : 1 ≤ numBits m := by
  rw [numBits, if_neg h]; omega

theorem encodeCoefficient_ok (c : Int) (h : c.natAbs < 2 ^ 15) :
    ∃ v, encodeCoefficient c = .ok (numBits c.natAbs, v) ∧ v < 2 ^ numBits c.natAbs ∧ extend v (numBits c.natAbs) = c := by
  unfold encodeCoefficient
  have hmod : c.natAbs % 2 ^ 16 = c.natAbs := Nat.mod_eq_of_lt (by omega)
  have hn : numBits c.natAbs ≤ 15 := numBits_le_of_lt h
  have hlt := lt_numBits c.natAbs
  dsimp only
  rw [hmod]
  simp only [decide_eq_true (show numBits c.natAbs < 16 by omega), assertR_true, ok_bind]
  by_cases hc : c < 0
  · rw [if_pos hc]
    unfold i32
    rw [if_pos (by omega), ok_bind]
    have hge := numBits_le c.natAbs (by omega)
    refine ⟨_, rfl, ?_⟩
    rw [Nat.and_two_pow_sub_one_eq_mod]
    obtain ⟨m, hm⟩ : ∃ m : Nat, c = -(m : Int) := ⟨c.natAbs, by omega⟩
    subst hm
    rw [Int.natAbs_neg, Int.natAbs_natCast] at *
    have hv : ((-(m : Int) - 1) % 2 ^ 16).toNat = 2 ^ 16 - 1 - m := by omega
    rw [hv]
    have hpow : 2 ^ 16 = 2 ^ numBits m * 2 ^ (16 - numBits m) := by rw [← Nat.pow_add, show numBits m + (16 - numBits m) = 16 by omega]
    have hpos : 1 ≤ 2 ^ (16 - numBits m) := Nat.two_pow_pos _
    have hv2 : (2 ^ 16 - 1 - m) % 2 ^ numBits m = 2 ^ numBits m - 1 - m := by
      have : 2 ^ 16 - 1 - m = (2 ^ numBits m - 1 - m) + 2 ^ numBits m * (2 ^ (16 - numBits m) - 1) := by
        rw [Nat.mul_sub, ← hpow, Nat.mul_one]
        have : 2 ^ numBits m ≤ 2 ^ 16 := Nat.pow_le_pow_right (by decide) (by omega)
        omega
      rw [this, Nat.add_mul_mod_self_left, Nat.mod_eq_of_lt (by omega)]
    rw [hv2]
    refine ⟨by omega, ?_⟩
    unfold extend
    rw [if_pos (by omega)]
    have : ((2 ^ numBits m : Nat) : Int) = 2 ^ numBits m := by simp
    omega
  · rw [if_neg hc]
    refine ⟨_, rfl, ?_⟩
    rw [Nat.and_two_pow_sub_one_eq_mod]
    obtain ⟨m, hm⟩ : ∃ m : Nat, c = (m : Int) := ⟨c.natAbs, by omega⟩
    subst hm
    rw [Int.natAbs_natCast] at *
    have hv : ((m : Int) % 2 ^ 16).toNat = m := by omega
    rw [hv, Nat.mod_eq_of_lt hlt]
    refine ⟨hlt, ?_⟩
    unfold extend
    by_cases h0 : m = 0
    · subst h0; rw [numBits]; simp
    · have hge := numBits_le m (by omega)
      rw [if_neg (by omega)]

/-! ## Blocks -/

/-- The values that are needed for the AC coefficients of a block with coefficients less than `2^b`. -/
structure AcTable (t : HuffTable) (b : Nat) : Prop where
  eob : 0 ∈ t.vals
  zrl : 0xF0 ∈ t.vals
  rs : ∀ r s, r < 16 → 1 ≤ s → s ≤ b → 16 * r + s ∈ t.vals

theorem decodeAc_eob (t : HuffTable) (n : Nat) (hn : 0 < n) (B rest : List Bool) (h : decodeSym t (B ++ rest) = some (0, rest)) :
    decodeAc t n (B ++ rest) = some (List.replicate n 0, rest) := by
  rw [decodeAc, if_neg (by omega), h]
  simp

theorem decodeAc_zrl (t : HuffTable) (n : Nat) (hn : 16 ≤ n) (B tail rest : List Bool) (l : List Int)
    (h : decodeSym t (B ++ tail) = some (0xF0, tail)) (h2 : decodeAc t (n - 16) tail = some (l, rest)) :
    decodeAc t n (B ++ tail) = some (List.replicate 16 0 ++ l, rest) := by
  rw [decodeAc, if_neg (by omega), h]
  simp [hn, h2]

theorem decodeAc_coef (t : HuffTable) (n r size v : Nat) (hn : r < n) (hs : 1 ≤ size) (hs2 : size < 16) (B tail rest : List Bool) (l : List Int)
    (h : decodeSym t (B ++ (natBits size v ++ tail)) = some (16 * r + size, natBits size v ++ tail)) (hv : v < 2 ^ size)
    (h2 : decodeAc t (n - r - 1) tail = some (l, rest)) :
    decodeAc t n (B ++ (natBits size v ++ tail)) = some (List.replicate r 0 ++ extend v size :: l, rest) := by
  rw [decodeAc, if_neg (by omega), h]
  have h1 : (16 * r + size) / 16 = r := by omega
  have h3 : (16 * r + size) % 16 = size := by omega
  simp only [h1, h3]
  rw [if_neg (by omega), if_pos hn, receive_natBits _ _ _ hv]
  simp only [h2]

theorem zeroRuns_wrote {lut : List (Nat × Nat)} {t : HuffTable} (hc : Codes lut t) (hz : 0xF0 ∈ t.vals) (pre : List UInt8) (z : Nat)
    (bs : List Bool) (s : BitWriter) (h : Wrote pre s bs) :
    ∃ s' B, BitWriter.zeroRuns lut s z = .ok (s', z % 16) ∧ Wrote pre s' (bs ++ B) ∧
      ∀ n tail l rest, decodeAc t (z % 16 + n) tail = some (List.replicate (z % 16) 0 ++ l, rest) →
        decodeAc t (z + n) (B ++ tail) = some (List.replicate z 0 ++ l, rest) := by
  induction z using Nat.strongRecOn generalizing bs s with
  | ind z ih =>
    rw [BitWriter.zeroRuns]
    by_cases h15 : 15 < z
    · rw [if_pos h15]
      obtain ⟨s1, B1, e1, w1, d1⟩ := huffmanEncode_wrote h hc hz
      obtain ⟨s2, B2, e2, w2, d2⟩ := ih (z - 16) (by omega) _ s1 w1
      have hmod : (z - 16) % 16 = z % 16 := by omega
      rw [hmod] at e2 d2
      refine ⟨s2, B1 ++ B2, by rw [e1, ok_bind, e2], by rw [← List.append_assoc]; exact w2, ?_⟩
      intro n tail l rest hd
      have := d2 n tail l rest hd
      rw [List.append_assoc, decodeAc_zrl t (z + n) (by omega) B1 (B2 ++ tail) rest _ (d1 _)
        (by rw [show z + n - 16 = z - 16 + n by omega]; exact this)]
      rw [← List.append_assoc, List.replicate_append_replicate, show 16 + (z - 16) = z by omega]
    · rw [if_neg h15]
      have hmod : z % 16 = z := Nat.mod_eq_of_lt (by omega)
      rw [hmod]
      exact ⟨s, [], rfl, by simpa using h, fun n tail l rest hd => by simpa using hd⟩

theorem acLoop_wrote {lut : List (Nat × Nat)} {t : HuffTable} {b : Nat} (hc : Codes lut t) (ht : AcTable t b) (hb : b < 15) (pre : List UInt8)
    (block : List Int) (ks : List Nat) (hk : ∀ k ∈ ks, ∃ c, block[k]? = some c ∧ c.natAbs < 2 ^ b) (z : Nat) (hz : z + ks.length < 256)
    (bs : List Bool) (s : BitWriter) (h : Wrote pre s bs) :
    ∃ s' z' B, forList ks (BitWriter.writeAc lut block) (s, z) = .ok (s', z') ∧ Wrote pre s' (bs ++ B) ∧ (ks = [] → z' = z) ∧
      (∀ k, ks.getLast? = some k → (z' = 0 ↔ block.getD k 0 ≠ 0)) ∧
      ∀ tail rest, decodeAc t z' tail = some (List.replicate z' 0, rest) →
        decodeAc t (z + ks.length) (B ++ tail) = some (List.replicate z 0 ++ ks.map (fun k => block.getD k 0), rest) := by
  induction ks generalizing z bs s with
  | nil => exact ⟨s, z, [], rfl, by simpa using h, fun _ => rfl, by simp, fun tail rest hd => by simpa using hd⟩
  | cons k ks ih =>
    simp only [List.length_cons] at hz
    obtain ⟨c, hkc, hcb⟩ := hk k (by simp)
    have hks : ∀ k ∈ ks, ∃ c, block[k]? = some c ∧ c.natAbs < 2 ^ b := fun k hm => hk k (by simp [hm])
    have hgd : block.getD k 0 = c := by rw [List.getD_eq_getElem?_getD, hkc]; rfl
    simp only [forList]
    by_cases h0 : c = 0
    · have hstep : BitWriter.writeAc lut block k (s, z) = .ok (s, z + 1) := by
        unfold BitWriter.writeAc
        simp only [getR_of hkc, ok_bind, if_pos h0, addC_ok (show z + 1 < 2 ^ 8 by omega)]
      obtain ⟨s', z', B, e, w, hnil, hlast, hd⟩ := ih hks (z + 1) (by omega) bs s h
      refine ⟨s', z', B, by rw [hstep, ok_bind, e], w, by simp, ?_, ?_⟩
      · intro k' hk'
        cases ks with
        | nil => simp at hk'; subst hk'; rw [hgd, hnil rfl]; simp [h0]
        | cons a ks => rw [List.getLast?_cons_cons] at hk'; exact hlast k' hk'
      · intro tail rest ht
        have := hd tail rest ht
        rw [List.length_cons, show z + (ks.length + 1) = z + 1 + ks.length by omega, this]
        rw [List.map_cons, hgd, h0, List.replicate_succ', List.append_assoc]
        rfl
    · obtain ⟨s1, B1, e1, w1, d1⟩ := zeroRuns_wrote hc ht.zrl pre z bs s h
      have hb15 : (2 : Nat) ^ b ≤ 2 ^ 15 := Nat.pow_le_pow_right (by decide) (by omega)
      obtain ⟨v, ev, hv, hext⟩ := encodeCoefficient_ok c (by omega)
      have hnb := numBits_le_of_lt hcb
      have hnp := numBits_pos (m := c.natAbs) (by omega)
      have hmod : z % 16 < 16 := Nat.mod_lt _ (by decide)
      have hsym : ((z % 16) <<< 4) % 2 ^ 8 ||| numBits c.natAbs = 16 * (z % 16) + numBits c.natAbs := by
        rw [Nat.shiftLeft_eq, Nat.mod_eq_of_lt (by omega), Nat.mul_comm]
        exact (Nat.two_pow_add_eq_or_of_lt (i := 4) (by omega) (z % 16)).symm
      obtain ⟨s2, B2, e2, w2, d2⟩ := huffmanEncode_wrote w1 hc (ht.rs (z % 16) (numBits c.natAbs) hmod hnp hnb)
      obtain ⟨s3, e3, w3⟩ := writeBits_wrote w2 (v := v) (n := numBits c.natAbs) (by omega) hv
      obtain ⟨s', z', B, e, w, hnil, hlast, hd⟩ := ih hks 0 (by omega) _ s3 w3
      have hstep : BitWriter.writeAc lut block k (s, z) = .ok (s3, 0) := by
        unfold BitWriter.writeAc
        simp only [getR_of hkc, ok_bind, if_neg h0, e1, ev, hsym, e2, e3]
      refine ⟨s', z', B1 ++ (B2 ++ (natBits (numBits c.natAbs) v ++ B)), by rw [hstep, ok_bind, e],
        by simpa only [List.append_assoc] using w, by simp, ?_, ?_⟩
      · intro k' hk'
        cases ks with
        | nil => simp at hk'; subst hk'; rw [hgd, hnil rfl]; simp [h0]
        | cons a ks => rw [List.getLast?_cons_cons] at hk'; exact hlast k' hk'
      · intro tail rest htl
        have h3 := hd tail rest htl
        rw [Nat.zero_add, List.replicate_zero, List.nil_append] at h3
        have h4 := decodeAc_coef t (z % 16 + (ks.length + 1)) (z % 16) (numBits c.natAbs) v (by omega) hnp (by omega) B2 (B ++ tail) rest _
          (d2 _) hv (by rw [show z % 16 + (ks.length + 1) - z % 16 - 1 = ks.length by omega]; exact h3)
        have h5 := d1 (ks.length + 1) _ _ rest h4
        rw [List.length_cons, List.map_cons, hgd]
        rw [hext] at h5
        simpa only [List.append_assoc] using h5

theorem natural_unzigzag (block : List Int) (h : block.length = 64) : natural (UNZIGZAG.map fun k => block.getD k 0) = block := by
  have hz : ∀ i, i < 64 → UNZIGZAG[zigzag.idxOf i]? = some i := by decide +kernel
  apply List.ext_getElem?
  intro i
  unfold natural
  by_cases hi : i < 64
  · rw [List.getElem?_map, List.getElem?_range hi, Option.map_some, List.getD_eq_getElem?_getD, List.getElem?_map, hz i hi]
    simp [List.getElem?_eq_getElem (show i < block.length by omega)]
  · rw [List.getElem?_eq_none (by simp; omega), List.getElem?_eq_none (by omega)]

/-- Writing a block appends bits that are decoded to the block, with the same prediction, whatever bits follow. -/
theorem writeBlock_wrote {dlut alut : List (Nat × Nat)} {dt at' : HuffTable} {b bd : Nat} (hdc : Codes dlut dt) (hac : Codes alut at')
    (ht : AcTable at' b) (hb : b < 15) (hbd : bd < 15) (hd : ∀ s, s ≤ bd → s ∈ dt.vals) (pre : List UInt8) (block : List Int)
    (hl : block.length = 64) (hk : ∀ k, 1 ≤ k → k < 64 → (block.getD k 0).natAbs < 2 ^ b) (prevdc : Int)
    (hdiff : (block.getD 0 0 - prevdc).natAbs < 2 ^ bd) (bs : List Bool) (s : BitWriter) (h : Wrote pre s bs) :
    ∃ s' B, s.writeBlock block prevdc dlut alut = .ok (s', block.getD 0 0) ∧ Wrote pre s' (bs ++ B) ∧
      ∀ rest, decodeBlock dt at' prevdc (B ++ rest) = some (UNZIGZAG.map (fun k => block.getD k 0), rest) := by
  have hget : ∀ k, k < 64 → block[k]? = some (block.getD k 0) := by
    intro k hk'
    rw [List.getD_eq_getElem?_getD, List.getElem?_eq_getElem (by omega)]; rfl
  have hbd15 : (2 : Nat) ^ bd ≤ 2 ^ 15 := Nat.pow_le_pow_right (by decide) (by omega)
  obtain ⟨v, ev, hv, hext⟩ := encodeCoefficient_ok (block.getD 0 0 - prevdc) (by omega)
  have hnb := numBits_le_of_lt hdiff
  obtain ⟨s1, B1, e1, w1, d1⟩ := huffmanEncode_wrote h hdc (hd _ hnb)
  obtain ⟨s2, e2, w2⟩ := writeBits_wrote w1 (v := v) (n := numBits (block.getD 0 0 - prevdc).natAbs) (by omega) hv
  have hu : ∀ k ∈ UNZIGZAG.drop 1, 1 ≤ k ∧ k < 64 := by decide
  obtain ⟨s3, z, B3, e3, w3, _, hlast, d3⟩ := acLoop_wrote hac ht hb pre block (UNZIGZAG.drop 1)
    (fun k hm => ⟨_, hget k (hu k hm).2, hk k (hu k hm).1 (hu k hm).2⟩) 0 (by decide) _ s2 w2
  have hl63 := hlast 63 rfl
  have hlen : (UNZIGZAG.drop 1).length = 63 := rfl
  rw [hlen, Nat.zero_add, List.replicate_zero] at d3
  have hi32 : i32 (block.getD 0 0 - prevdc) = .ok (block.getD 0 0 - prevdc) := by
    unfold i32
    rw [if_pos (by omega)]
  have hdec : ∀ tail rest, decodeAc at' z tail = some (List.replicate z 0, rest) →
      decodeBlock dt at' prevdc (B1 ++ (natBits (numBits (block.getD 0 0 - prevdc).natAbs) v ++ (B3 ++ tail))) =
        some (UNZIGZAG.map (fun k => block.getD k 0), rest) := by
    intro tail rest htl
    unfold decodeBlock decodeDc
    simp only [d1, Option.bind_eq_bind, Option.bind_some, receive_natBits _ _ _ hv, d3 tail rest htl, hext]
    rw [show prevdc + (block.getD 0 0 - prevdc) = block.getD 0 0 by omega]
    rfl
  have hrun : s.writeBlock block prevdc dlut alut =
      (if block.getD 63 0 = 0 then s3.huffmanEncode 0x00 alut else Except.ok s3) >>= fun s => .ok (s, block.getD 0 0) := by
    unfold BitWriter.writeBlock
    rw [getR_of (hget 0 (by omega)), ok_bind, hi32, ok_bind, ev, ok_bind]
    dsimp only
    rw [e1, ok_bind, e2, ok_bind, e3, ok_bind]
    dsimp only
    rw [show getR UNZIGZAG 63 = .ok 63 from rfl, ok_bind, getR_of (hget 63 (by omega)), ok_bind]
    split <;> rfl
  rw [hrun]
  by_cases h63 : block.getD 63 0 = 0
  · rw [if_pos h63]
    obtain ⟨s4, B4, e4, w4, d4⟩ := huffmanEncode_wrote w3 hac ht.eob
    refine ⟨s4, B1 ++ (natBits (numBits (block.getD 0 0 - prevdc).natAbs) v ++ (B3 ++ B4)), by rw [e4, ok_bind],
      by simpa only [List.append_assoc] using w4, ?_⟩
    intro rest
    have hz : 0 < z := by
      rcases Nat.eq_zero_or_pos z with hz | hz
      · exact absurd h63 (hl63.1 hz)
      · exact hz
    have := hdec (B4 ++ rest) rest (decodeAc_eob at' z hz B4 rest (d4 rest))
    simpa only [List.append_assoc] using this
  · rw [if_neg h63]
    refine ⟨s3, B1 ++ (natBits (numBits (block.getD 0 0 - prevdc).natAbs) v ++ B3), rfl,
      by simpa only [List.append_assoc] using w3, ?_⟩
    intro rest
    have hz : z = 0 := hl63.2 h63
    subst hz
    have := hdec rest rest (by rw [decodeAc]; simp)
    simpa only [List.append_assoc] using this

end Jpeg
end Verif
