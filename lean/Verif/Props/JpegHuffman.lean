import Verif.Proofs.JpegHuff

/-!
# C45: the Huffman codes of the JPEG encoder

Specification: a table is given by the number of codes of each length 1 to 16 and the values in order of increasing code.
`codeLengths counts` lists the lengths of the codes in order; `kraft` measures, in units of 2^-16, how much of the code
space codes of these lengths need. `JpegSpec.decodeSym` is the decoding procedure of ITU-T T.81, F.2.2.3.
-/

namespace Verif
namespace Jpeg

open JpegSpec

/-- The table is one that T.81 allows: distinct byte values, as many as there are codes, and lengths for which there is a
prefix code that leaves out the code of all ones. (Of at most 255 codes: the arrays have room for 256 lengths and the
terminating zero.) -/
structure ValidTable (t : HuffTable) : Prop where
  len : t.counts.length = 16
  sum : t.vals.length = t.counts.sum
  nodup : t.vals.Nodup
  byte : ∀ v ∈ t.vals, v < 256
  le : t.vals.length ≤ 255
  kraft : kraft (codeLengths t.counts) < 2 ^ 16

theorem buildHuffLut_ok (t : HuffTable) (h : ValidTable t) :
    ∃ lut, buildHuffLut t.counts t.vals = .ok lut ∧ lut.length = 256 ∧ (∀ v, v < 256 → v ∉ t.vals → lut[v]? = some (17, 0)) ∧
      ∀ k (hk : k < t.vals.length), lut[t.vals[k]]? = some ((codeLengths t.counts).getD k 0, codeAt (codeLengths t.counts) k) := by
  unfold buildHuffLut
  have hs := h.sum
  have hle := h.le
  rw [deriveCodesAndSizes_ok _ h.len (by omega) h.kraft, ok_bind]
  dsimp only
  have hlen : (codeLengths t.counts).length = t.counts.sum := length_lengthsFrom _ _
  obtain ⟨lut, he, h1, h2, h3⟩ := forRange_inv (n := t.vals.length) (f := fun i lut => do
      let v ← getR t.vals i
      let s ← getR (codeLengths t.counts ++ List.replicate (256 - t.counts.sum) 0) i
      let c ← getR (((List.range t.counts.sum).map fun k => codeAt (codeLengths t.counts) k) ++ List.replicate (256 - t.counts.sum) 0) i
      setR lut v (s, c)) (s := List.replicate 256 (17, 0))
    (fun i lut => lut.length = 256 ∧ (∀ v, v < 256 → v ∉ t.vals.take i → lut[v]? = some (17, 0)) ∧
      ∀ k (hk : k < t.vals.length), k < i → lut[t.vals[k]]? = some ((codeLengths t.counts).getD k 0, codeAt (codeLengths t.counts) k))
    (by
      refine ⟨List.length_replicate .., fun v hv _ => ?_, fun k _ hk => absurd hk (by omega)⟩
      rw [List.getElem?_replicate, if_pos hv])
    (by
      intro i hi lut ⟨hl, hn, hc⟩
      have hvlt := h.byte _ (List.getElem_mem hi)
      have e1 : (codeLengths t.counts ++ List.replicate (256 - t.counts.sum) 0)[i]? = some ((codeLengths t.counts).getD i 0) := by
        rw [List.getElem?_append_left (by omega), List.getD_eq_getElem?_getD, List.getElem?_eq_getElem (by omega)]
        rfl
      have e2 : (((List.range t.counts.sum).map fun k => codeAt (codeLengths t.counts) k) ++
          List.replicate (256 - t.counts.sum) 0)[i]? = some (codeAt (codeLengths t.counts) i) := by
        rw [List.getElem?_append_left (by simp; omega), List.getElem?_map, List.getElem?_range (by omega)]
        rfl
      rw [getR_of (List.getElem?_eq_getElem hi), ok_bind, getR_of e1, ok_bind, getR_of e2, ok_bind]
      unfold setR
      rw [if_pos (by omega)]
      refine ⟨_, rfl, by simp [hl], ?_, ?_⟩
      · intro v hv hvn
        rw [List.take_succ_eq_append_getElem hi, List.mem_append, not_or] at hvn
        rw [List.getElem?_set_ne (by intro heq; apply hvn.2; simp [heq])]
        exact hn v hv hvn.1
      · intro k hk hki
        by_cases hkeq : k = i
        · subst hkeq
          rw [List.getElem?_set_self (by omega)]
        · rw [List.getElem?_set_ne (by
            intro heq
            exact hkeq ((List.getElem_inj h.nodup).1 heq.symm))]
          exact hc k hk (by omega))
  refine ⟨lut, he, h1, fun v hv hvn => h2 v hv ?_, fun k hk => h3 k hk hk⟩
  exact fun hm => hvn (List.mem_of_mem_take hm)

/-- The facts about the code at one position. -/
theorem code_facts (t : HuffTable) (h : ValidTable t) (k : Nat) (hk : k < t.vals.length) :
    1 ≤ (codeLengths t.counts).getD k 0 ∧ (codeLengths t.counts).getD k 0 ≤ 16 ∧
    codeAt (codeLengths t.counts) k * 2 ^ (16 - (codeLengths t.counts).getD k 0) = kraft ((codeLengths t.counts).take k) ∧
    codeAt (codeLengths t.counts) k + 1 < 2 ^ ((codeLengths t.counts).getD k 0) := by
  have hs := h.sum
  have hlen : (codeLengths t.counts).length = t.counts.sum := length_lengthsFrom _ _
  have hk' : k < (codeLengths t.counts).length := by omega
  have hget : (codeLengths t.counts).getD k 0 = (codeLengths t.counts)[k] := by
    rw [List.getD_eq_getElem?_getD, List.getElem?_eq_getElem hk', Option.getD_some]
  have hmem := mem_lengthsFrom (List.getElem_mem hk')
  have hcl := h.len
  have hmul := Nat.div_mul_cancel (codeAt_mul t.counts k (by omega) 1)
  have hadd := kraft_take_succ hk'
  have hle := kraft_take_le (codeLengths t.counts) (k + 1)
  have hkr := h.kraft
  refine ⟨by omega, by omega, hmul, ?_⟩
  have hmul' : codeAt (codeLengths t.counts) k * 2 ^ (16 - (codeLengths t.counts)[k]) = kraft ((codeLengths t.counts).take k) := by
    rw [← hget]; exact hmul
  rw [hget]
  have : (codeAt (codeLengths t.counts) k + 1) * 2 ^ (16 - (codeLengths t.counts)[k]) < 2 ^ 16 := by
    rw [Nat.add_mul, hmul', Nat.one_mul, ← hadd]; omega
  rw [show 2 ^ 16 = 2 ^ (codeLengths t.counts)[k] * 2 ^ (16 - (codeLengths t.counts)[k]) by
    rw [← Nat.pow_add, show (codeLengths t.counts)[k] + (16 - (codeLengths t.counts)[k]) = 16 by omega]] at this
  exact Nat.lt_of_mul_lt_mul_right this

/-- Decoding the code at one position. -/
theorem decodeSym_code (t : HuffTable) (h : ValidTable t) (k : Nat) (hk : k < t.vals.length) (rest : List Bool) :
    decodeSym t (natBits ((codeLengths t.counts).getD k 0) (codeAt (codeLengths t.counts) k) ++ rest) = some (t.vals[k], rest) := by
  have hs := h.sum
  have hlen : (codeLengths t.counts).length = t.counts.sum := length_lengthsFrom _ _
  have hk' : k < (codeLengths t.counts).length := by omega
  have hget : (codeLengths t.counts).getD k 0 = (codeLengths t.counts)[k] := by
    rw [List.getD_eq_getElem?_getD, List.getElem?_eq_getElem hk', Option.getD_some]
  obtain ⟨f1, f2, f3, f4⟩ := code_facts t h k hk
  have hcl := h.len
  rw [hget] at *
  have hgo := huffGo_ok t.counts 1 0 0 k (codeLengths t.counts)[k] (codeAt (codeLengths t.counts) k) rest (by omega) (by omega) (by omega)
    hk' (by simp [codeLengths]) (by simp only [Nat.zero_mul, Nat.zero_add, Nat.sub_zero]; exact f3)
  have hz : codeAt (codeLengths t.counts) k >>> (codeLengths t.counts)[k] = 0 := by
    rw [Nat.shiftRight_eq_div_pow, Nat.div_eq_of_lt (by omega)]
  rw [hz] at hgo
  unfold decodeSym
  rw [hgo]
  simp [hk]

/-- **C45** For every valid table, the look-up table of the encoder has, for each value, a code of the length that the
table specifies for its position; the code fits its length and is not all ones; bytes that are not in the table have no
code (the marker 17 in place of a length); and the decoding procedure of the standard finds the value from its code,
whatever bits follow. -/
theorem C45_codes (t : HuffTable) (h : ValidTable t) :
    ∃ lut, buildHuffLut t.counts t.vals = .ok lut ∧ lut.length = 256 ∧ (∀ v, v < 256 → v ∉ t.vals → lut[v]? = some (17, 0)) ∧
      ∀ k (hk : k < t.vals.length), ∃ code, lut[t.vals[k]]? = some ((codeLengths t.counts).getD k 0, code) ∧
        1 ≤ (codeLengths t.counts).getD k 0 ∧ (codeLengths t.counts).getD k 0 ≤ 16 ∧
        code + 1 < 2 ^ ((codeLengths t.counts).getD k 0) ∧
        ∀ rest, decodeSym t (natBits ((codeLengths t.counts).getD k 0) code ++ rest) = some (t.vals[k], rest) := by
  obtain ⟨lut, h1, h2, h3, h4⟩ := buildHuffLut_ok t h
  refine ⟨lut, h1, h2, h3, fun k hk => ⟨_, h4 k hk, ?_⟩⟩
  obtain ⟨f1, f2, _, f4⟩ := code_facts t h k hk
  exact ⟨f1, f2, f4, decodeSym_code t h k hk⟩

/-- **C45** For every valid table, no code of the encoder is a prefix of the code of a different value. -/
theorem C45_prefix_free (t : HuffTable) (h : ValidTable t) (lut : List (Nat × Nat)) (hl : buildHuffLut t.counts t.vals = .ok lut)
    (u v : Nat) (hu : u ∈ t.vals) (hv : v ∈ t.vals) (hne : u ≠ v) (n c m d : Nat) (h1 : lut[u]? = some (n, c)) (h2 : lut[v]? = some (m, d)) :
    ¬ natBits n c <+: natBits m d := by
  obtain ⟨lut', e1, _, _, e4⟩ := C45_codes t h
  rw [hl] at e1
  cases e1
  obtain ⟨j, hj, rfl⟩ := List.getElem_of_mem hu
  obtain ⟨k, hk, rfl⟩ := List.getElem_of_mem hv
  obtain ⟨c', a1, _, _, _, a5⟩ := e4 j hj
  obtain ⟨d', b1, _, _, _, b5⟩ := e4 k hk
  rw [h1] at a1
  rw [h2] at b1
  cases a1
  cases b1
  rintro ⟨s, hs⟩
  have x := a5 s
  rw [hs] at x
  have y := b5 []
  rw [List.append_nil, x] at y
  exact hne (congrArg Prod.fst (Option.some.inj y))

/-- A small table with codes 0, 10 and 110 satisfies the hypotheses. (Those of the encoder do, too: `valid_lumaDc` and others in
Proofs/JpegScan.lean.) -/
example : ValidTable ⟨[1, 1, 1, 0, 0, 0, 0, 0, 0, 0, 0, 0, 0, 0, 0, 0], [5, 3, 4]⟩ :=
  ⟨by decide, by decide, by decide, by decide, by decide, by decide⟩

end Jpeg
end Verif
