import Verif.Proofs.JpegBits

/-! # Lemmas on the Huffman codes of the JPEG encoder -/

namespace Verif
namespace Jpeg

open JpegSpec

/-- The code lengths, in order, that belong to numbers of codes of the lengths `i`, `i+1`, ... -/
def lengthsFrom : List Nat → Nat → List Nat
  | [], _ => []
  | n :: counts, i => List.replicate n i ++ lengthsFrom counts (i + 1)

/-- The code lengths of a Huffman table: as many ones as there are codes of length 1, and so on. -/
def codeLengths (counts : List Nat) : List Nat := lengthsFrom counts 1

/-- The share of all codes of length 16 that the codes of the given lengths take up (as prefixes). -/
def kraft (lengths : List Nat) : Nat := (lengths.map fun s => 2 ^ (16 - s)).sum

theorem kraft_append (a b : List Nat) : kraft (a ++ b) = kraft a + kraft b := by simp [kraft]

theorem kraft_replicate (n s : Nat) : kraft (List.replicate n s) = n * 2 ^ (16 - s) := by
  induction n with
  | zero => simp [kraft]
  | succ n ih =>
    rw [List.replicate_succ, show s :: List.replicate n s = [s] ++ List.replicate n s from rfl, kraft_append, ih, Nat.add_mul]
    simp [kraft, Nat.add_comm]

theorem kraft_take_succ {l : List Nat} {k : Nat} (hk : k < l.length) : kraft (l.take (k + 1)) = kraft (l.take k) + 2 ^ (16 - l[k]) := by
  rw [List.take_succ_eq_append_getElem hk, kraft_append]
  simp [kraft]

theorem kraft_take_le (l : List Nat) (k : Nat) : kraft (l.take k) ≤ kraft l := by
  have := kraft_append (l.take k) (l.drop k)
  rw [List.take_append_drop] at this
  omega

theorem lengthsFrom_append (a b : List Nat) (i : Nat) : lengthsFrom (a ++ b) i = lengthsFrom a i ++ lengthsFrom b (i + a.length) := by
  induction a generalizing i with
  | nil => simp [lengthsFrom]
  | cons n a ih =>
    simp only [List.cons_append, lengthsFrom, ih, List.append_assoc, List.length_cons]
    rw [show i + 1 + a.length = i + (a.length + 1) by omega]

theorem length_lengthsFrom (counts : List Nat) (i : Nat) : (lengthsFrom counts i).length = counts.sum := by
  induction counts generalizing i with
  | nil => rfl
  | cons n c ih => simp [lengthsFrom, ih]

theorem mem_lengthsFrom {counts : List Nat} {i s : Nat} (h : s ∈ lengthsFrom counts i) : i ≤ s ∧ s < i + counts.length := by
  induction counts generalizing i with
  | nil => simp [lengthsFrom] at h
  | cons n c ih =>
    simp only [lengthsFrom, List.mem_append, List.mem_replicate] at h
    rcases h with ⟨_, h⟩ | h
    · subst h; simp
    · have := ih h; simp only [List.length_cons]; omega

theorem pairwise_lengthsFrom (counts : List Nat) (i : Nat) : (lengthsFrom counts i).Pairwise (· ≤ ·) := by
  induction counts generalizing i with
  | nil => simp [lengthsFrom]
  | cons n c ih =>
    simp only [lengthsFrom, List.pairwise_append]
    refine ⟨List.pairwise_replicate.2 (by simp), ih _, ?_⟩
    intro a ha b hb
    have := mem_lengthsFrom hb
    rw [List.mem_replicate] at ha
    omega

/-! ## What the tables contain -/

theorem setR_at {α : Type} (a : List α) (x v : α) (b : List α) : setR (a ++ x :: b) a.length v = .ok (a ++ v :: b) := by
  unfold setR
  rw [if_pos (by simp)]
  simp

theorem getR_at {α : Type} (a : List α) (x : α) (b : List α) : getR (a ++ x :: b) a.length = .ok x := by
  simp [getR, unwrapR]

theorem getR_of {α : Type} {a : List α} {i : Nat} {x : α} (h : a[i]? = some x) : getR a i = .ok x := by
  simp [getR, unwrapR, h]

theorem sizesInner_ok (i n : Nat) (L : List Nat) (m : Nat) (h : n ≤ m) :
    sizesInner i n (L ++ List.replicate m 0, L.length) =
      .ok (L ++ List.replicate n (i + 1) ++ List.replicate (m - n) 0, (L ++ List.replicate n (i + 1)).length) := by
  induction n generalizing L m with
  | zero => simp [sizesInner]
  | succ n ih =>
    obtain ⟨m, rfl⟩ : ∃ m', m = m' + 1 := ⟨m - 1, by omega⟩
    simp only [sizesInner]
    rw [List.replicate_succ, setR_at, ok_bind]
    have := ih (L ++ [i + 1]) m (by omega)
    rw [show L ++ (i + 1) :: List.replicate m 0 = (L ++ [i + 1]) ++ List.replicate m 0 by simp,
      show L.length + 1 = (L ++ [i + 1]).length by simp, this]
    rw [show m + 1 - (n + 1) = m - n by omega, List.replicate_succ]
    simp

theorem deriveSizes_ok (bits : List Nat) (hl : bits.length = 16) (hs : bits.sum ≤ 255) :
    deriveSizes bits = .ok (codeLengths bits ++ List.replicate (256 - bits.sum) 0) := by
  unfold deriveSizes
  have hsum : ∀ i, (bits.take i).sum ≤ bits.sum := by
    intro i
    have := List.sum_append (l₁ := bits.take i) (l₂ := bits.drop i)
    rw [List.take_append_drop] at this
    omega
  obtain ⟨s, he, hinv⟩ := forRange_inv (n := 16) (f := fun i s => do
      let n ← getR bits i
      sizesInner i n s) (s := (List.replicate 256 0, 0))
    (fun i s => s = (codeLengths (bits.take i) ++ List.replicate (256 - (bits.take i).sum) 0, (codeLengths (bits.take i)).length))
    (by rw [List.take_zero]; rfl)
    (by
      intro i hi s hinv
      subst hinv
      have hi' : i < bits.length := by omega
      have ht := hsum (i + 1)
      have htake : bits.take (i + 1) = bits.take i ++ [bits[i]] := List.take_succ_eq_append_getElem hi'
      rw [htake, List.sum_append] at ht ⊢
      simp only [List.sum_cons, List.sum_nil, Nat.add_zero] at ht ⊢
      refine ⟨_, ?_, rfl⟩
      rw [getR_of (List.getElem?_eq_getElem hi'), ok_bind, sizesInner_ok _ _ _ _ (by omega)]
      have : codeLengths (bits.take i ++ [bits[i]]) = codeLengths (bits.take i) ++ List.replicate bits[i] (i + 1) := by
        unfold codeLengths
        rw [lengthsFrom_append]
        simp only [lengthsFrom, List.append_nil, List.length_take]
        rw [show 1 + min i bits.length = i + 1 by omega]
      rw [this, Nat.sub_sub])
  rw [he]
  subst hinv
  rw [show bits.take 16 = bits by rw [List.take_of_length_le (by omega)]]
  simp only [ok_bind]
  rw [show 256 - bits.sum = (255 - bits.sum) + 1 by omega, List.replicate_succ, setR_at]

/-- The code that belongs to position `k`: the share of the previous codes. -/
def codeAt (S : List Nat) (k : Nat) : Nat := kraft (S.take k) / 2 ^ (16 - S.getD k 0)

theorem codesLoop_ok (S : List Nat) (Z : List Nat) (hmem : ∀ s ∈ S, 1 ≤ s ∧ s ≤ 16) (hp : S.Pairwise (· ≤ ·))
    (hkr : kraft S < 2 ^ 16) (hS : S.length ≤ 255) (fuel k : Nat) (C : List Nat) (code size : Nat) (hf : S.length - k < fuel)
    (hkle : k ≤ S.length) (hC : C.length = k)
    (hcode : ∀ h : k < S.length, size = S[k] ∧ code * 2 ^ (16 - size) = kraft (S.take k)) :
    codesLoop (S ++ 0 :: Z) fuel (C ++ List.replicate (256 - k) 0, k, code, size) =
      .ok (C ++ ((List.range (S.length - k)).map fun j => codeAt S (k + j)) ++ List.replicate (256 - S.length) 0) := by
  induction fuel generalizing k C code size with
  | zero => omega
  | succ fuel ih =>
    simp only [codesLoop]
    by_cases hk : k < S.length
    · obtain ⟨hsize, hval⟩ := hcode hk
      have hget : getR (S ++ 0 :: Z) k = .ok S[k] := getR_of (by rw [List.getElem?_append_left hk, List.getElem?_eq_getElem hk])
      have hm := hmem S[k] (List.getElem_mem hk)
      rw [hget, ok_bind, if_neg (by omega)]
      rw [show 256 - k = (255 - k) + 1 by omega, List.replicate_succ, ← hC, setR_at, ok_bind, hC]
      have hnext : (code + 1) * 2 ^ (16 - size) = kraft (S.take (k + 1)) := by
        rw [kraft_take_succ hk, Nat.add_mul, hval, Nat.one_mul, hsize]
      have hcode1 : code + 1 < 2 ^ 16 := by
        have h1 := kraft_take_le S (k + 1)
        have h2 : code + 1 ≤ (code + 1) * 2 ^ (16 - size) := Nat.le_mul_of_pos_right _ (Nat.two_pow_pos _)
        omega
      rw [addC_ok hcode1, ok_bind]
      have hcat : codeAt S k = code := by
        unfold codeAt
        rw [← hval, List.getD_eq_getElem?_getD, List.getElem?_eq_getElem hk, Option.getD_some, ← hsize,
          Nat.mul_div_cancel _ (Nat.two_pow_pos _)]
      have hrange : (List.range (S.length - k)).map (fun j => codeAt S (k + j)) =
          code :: (List.range (S.length - (k + 1))).map (fun j => codeAt S (k + 1 + j)) := by
        rw [show S.length - k = (S.length - (k + 1)) + 1 by omega, List.range_succ_eq_map, List.map_cons, Nat.add_zero, hcat,
          List.map_map]
        congr 1
        apply List.map_congr_left
        intro j _
        simp only [Function.comp_apply]
        congr 1
        omega
      rw [hrange]
      have happ : C ++ code :: List.replicate (255 - k) 0 = (C ++ [code]) ++ List.replicate (256 - (k + 1)) 0 := by
        rw [show 256 - (k + 1) = 255 - k by omega]; simp
      by_cases hk1 : k + 1 < S.length
      · have hget1 : getR (S ++ 0 :: Z) (k + 1) = .ok S[k + 1] :=
          getR_of (by rw [List.getElem?_append_left hk1, List.getElem?_eq_getElem hk1])
        have hm1 := hmem S[k + 1] (List.getElem_mem hk1)
        have hle : S[k] ≤ S[k + 1] := (List.pairwise_iff_getElem.1 hp) k (k + 1) hk hk1 (by omega)
        rw [hget1, ok_bind, happ]
        by_cases heq : S[k + 1] = size
        · rw [if_pos heq, ih (k + 1) (C ++ [code]) (code + 1) size (by omega) (by omega) (by simp [hC]) (fun _ => ⟨heq.symm, hnext⟩)]
          simp only [List.append_assoc, List.cons_append, List.nil_append]
        · rw [if_neg heq]
          have hd : (S[k + 1] + 256 - size) % 256 = S[k + 1] - size := by omega
          rw [hd, if_pos (by omega)]
          have hmul : (code + 1) * 2 ^ (S[k + 1] - size) * 2 ^ (16 - S[k + 1]) = kraft (S.take (k + 1)) := by
            rw [Nat.mul_assoc, ← Nat.pow_add, show S[k + 1] - size + (16 - S[k + 1]) = 16 - size by omega, hnext]
          have hlt : (code + 1) * 2 ^ (S[k + 1] - size) < 2 ^ 16 := by
            have h1 := kraft_take_le S (k + 1)
            have h2 := Nat.le_mul_of_pos_right ((code + 1) * 2 ^ (S[k + 1] - size)) (Nat.two_pow_pos (16 - S[k + 1]))
            omega
          rw [Nat.mod_eq_of_lt hlt, show (size + (S[k + 1] - size)) % 256 = S[k + 1] by omega]
          rw [ih (k + 1) (C ++ [code]) _ _ (by omega) (by omega) (by simp [hC]) (fun _ => ⟨rfl, hmul⟩)]
          simp only [List.append_assoc, List.cons_append, List.nil_append]
      · have hkl : k + 1 = S.length := by omega
        have hget1 : getR (S ++ 0 :: Z) (k + 1) = .ok 0 := by rw [hkl]; exact getR_at S 0 Z
        rw [hget1, ok_bind, if_neg (by omega), happ]
        rw [ih (k + 1) (C ++ [code]) _ _ (by omega) (by omega) (by simp [hC]) (fun h => absurd h hk1)]
        simp only [List.append_assoc, List.cons_append, List.nil_append]
    · have hkl : k = S.length := by omega
      rw [hkl, getR_at, ok_bind, if_pos rfl]
      simp

theorem deriveCodesAndSizes_ok (bits : List Nat) (hl : bits.length = 16) (hs : bits.sum ≤ 255) (hk : kraft (codeLengths bits) < 2 ^ 16) :
    deriveCodesAndSizes bits = .ok (codeLengths bits ++ List.replicate (256 - bits.sum) 0,
      ((List.range bits.sum).map fun k => codeAt (codeLengths bits) k) ++ List.replicate (256 - bits.sum) 0) := by
  unfold deriveCodesAndSizes
  rw [deriveSizes_ok bits hl hs, ok_bind]
  have hlen : (codeLengths bits).length = bits.sum := length_lengthsFrom _ _
  obtain ⟨x, hx⟩ : ∃ x, (codeLengths bits ++ List.replicate (256 - bits.sum) 0)[0]? = some x := by
    refine ⟨_, List.getElem?_eq_getElem ?_⟩
    simp only [List.length_append, hlen, List.length_replicate]
    omega
  rw [getR_of hx, ok_bind]
  have := codesLoop_ok (codeLengths bits) (List.replicate (255 - bits.sum) 0)
    (fun s h => by have := mem_lengthsFrom h; omega) (pairwise_lengthsFrom _ _) hk (by omega) 257 0 [] 0 x (by omega) (by omega) rfl
    (fun h => by
      rw [List.getElem?_append_left h, List.getElem?_eq_getElem h] at hx
      exact ⟨(Option.some.inj hx).symm, by simp [kraft]⟩)
  rw [show 256 - bits.sum = (255 - bits.sum) + 1 by omega, List.replicate_succ]
  simp only [List.nil_append, Nat.sub_zero, hlen, Nat.zero_add] at this
  rw [this, ok_bind]
  rw [show 256 - bits.sum = (255 - bits.sum) + 1 by omega, List.replicate_succ]

theorem codeAt_mul (counts : List Nat) (k : Nat) (hk : k < counts.sum) (i : Nat) :
    2 ^ (16 - (lengthsFrom counts i).getD k 0) ∣ kraft ((lengthsFrom counts i).take k) := by
  have hlen := length_lengthsFrom counts i
  have hk' : k < (lengthsFrom counts i).length := by omega
  rw [List.getD_eq_getElem?_getD, List.getElem?_eq_getElem hk', Option.getD_some]
  unfold kraft
  have : ∀ s ∈ (lengthsFrom counts i).take k, s ≤ (lengthsFrom counts i)[k] := by
    intro s hs
    obtain ⟨j, hj, hje⟩ := List.getElem_of_mem hs
    rw [List.length_take] at hj
    rw [List.getElem_take] at hje
    subst hje
    exact (List.pairwise_iff_getElem.1 (pairwise_lengthsFrom counts i)) j k _ hk' (by omega)
  generalize (lengthsFrom counts i).take k = l at this
  induction l with
  | nil => simp
  | cons a l ih =>
    simp only [List.map_cons, List.sum_cons]
    refine Nat.dvd_add ?_ (ih (fun s hs => this s (List.mem_cons_of_mem _ hs)))
    exact Nat.pow_dvd_pow 2 (by have := this a (by simp); omega)

/-- Decoding finds the position of a code. -/
theorem huffGo_ok (cs : List Nat) (i f idx k m c : Nat) (rest : List Bool) (hi : 1 ≤ i) (hi16 : i + cs.length ≤ 17) (hidx : idx ≤ k)
    (hk : k - idx < (lengthsFrom cs i).length) (hm : m + i = (lengthsFrom cs i)[k - idx] + 1)
    (hc : c * 2 ^ (16 - (lengthsFrom cs i)[k - idx]) = f * 2 ^ (17 - i) + kraft ((lengthsFrom cs i).take (k - idx))) :
    huffGo cs (c >>> m) f idx (natBits m c ++ rest) = some (k, rest) := by
  induction cs generalizing i f idx m with
  | nil => simp [lengthsFrom] at hk
  | cons n cs ih =>
    simp only [List.length_cons] at hi16
    have hmem := mem_lengthsFrom (List.getElem_mem hk)
    simp only [List.length_cons] at hmem
    obtain ⟨m', rfl⟩ : ∃ m', m = m' + 1 := ⟨m - 1, by omega⟩
    have hcode : 2 * (c >>> (m' + 1)) + (c.testBit m').toNat = c >>> m' := by
      rw [Nat.shiftRight_succ, Nat.toNat_testBit, Nat.shiftRight_eq_div_pow]
      have := Nat.div_add_mod (c / 2 ^ m') 2
      omega
    simp only [natBits, List.cons_append, huffGo, hcode]
    have hl : (lengthsFrom (n :: cs) i) = List.replicate n i ++ lengthsFrom cs (i + 1) := rfl
    have h17 : f * 2 ^ (17 - i) = 2 * f * 2 ^ (16 - i) := by
      rw [show 17 - i = (16 - i) + 1 by omega, Nat.pow_succ, Nat.mul_comm 2 f, Nat.mul_assoc, Nat.mul_comm 2]
    by_cases hn : k - idx < n
    · have hel : (lengthsFrom (n :: cs) i)[k - idx] = i := by
        simp only [hl]
        rw [List.getElem_append_left (by simpa using hn)]
        simp
      have htk : (lengthsFrom (n :: cs) i).take (k - idx) = List.replicate (k - idx) i := by
        rw [hl, List.take_append_of_le_length (by simp; omega), List.take_replicate, Nat.min_eq_left (by omega)]
      rw [hel] at hm hc
      rw [htk, kraft_replicate, h17, ← Nat.add_mul] at hc
      have hceq : c = 2 * f + (k - idx) := Nat.eq_of_mul_eq_mul_right (Nat.two_pow_pos _) hc
      have hm0 : m' = 0 := by omega
      subst hm0
      rw [Nat.shiftRight_zero, if_pos (by omega)]
      simp only [natBits, List.nil_append]
      rw [show idx + (c - 2 * f) = k by omega]
    · have hk2 : k - (idx + n) < (lengthsFrom cs (i + 1)).length := by
        rw [hl, List.length_append, List.length_replicate] at hk
        omega
      have hel : (lengthsFrom (n :: cs) i)[k - idx] = (lengthsFrom cs (i + 1))[k - (idx + n)] := by
        simp only [hl]
        rw [List.getElem_append_right (by simpa using hn)]
        simp only [List.length_replicate]
        congr 1
        omega
      have htk : (lengthsFrom (n :: cs) i).take (k - idx) = List.replicate n i ++ (lengthsFrom cs (i + 1)).take (k - (idx + n)) := by
        rw [hl, List.take_append, List.length_replicate, List.take_of_length_le (by simp; omega)]
        congr 2
        omega
      rw [hel] at hm hc
      rw [htk, kraft_append, kraft_replicate, h17, ← Nat.add_assoc, ← Nat.add_mul] at hc
      have hmem2 := mem_lengthsFrom (List.getElem_mem hk2)
      have hge : 2 * f + n ≤ c >>> m' := by
        rw [Nat.shiftRight_eq_div_pow, Nat.le_div_iff_mul_le (Nat.two_pow_pos _)]
        have h1 : (2 * f + n) * 2 ^ (16 - i) ≤ c * 2 ^ (16 - (lengthsFrom cs (i + 1))[k - (idx + n)]) := by omega
        rw [show 16 - i = m' + (16 - (lengthsFrom cs (i + 1))[k - (idx + n)]) by omega, Nat.pow_add, ← Nat.mul_assoc] at h1
        exact Nat.le_of_mul_le_mul_right h1 (Nat.two_pow_pos _)
      rw [if_neg (by omega)]
      exact ih (i + 1) (2 * f + n) (idx + n) m' (by omega) (by omega) (by omega) hk2 (by omega)
        (by rw [hc, show 17 - (i + 1) = 16 - i by omega])

end Jpeg
end Verif
