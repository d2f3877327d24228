import Verif.Model.ParIter
import Verif.Proofs.Buffer

/-! Proofs about the parallel iterators. -/

namespace Verif.Par
open Verif ImageBuffer

variable {α : Type} {ch : Nat}

theorem chunksExact_split {n k : Nat} (hn : 0 < n) {l : List α} (hk : k ≤ l.length / n) :
    chunksExact n l = chunksExact n (l.take (k * n)) ++ chunksExact n (l.drop (k * n)) := by
  have hkn : k * n ≤ l.length :=
    Nat.le_trans (Nat.mul_le_mul_right _ hk) (Nat.div_mul_le_self _ _)
  have hdiv : (l.length - k * n) / n = l.length / n - k := by
    rw [Nat.mul_comm, Nat.sub_mul_div]
  apply List.ext_getElem?
  intro i
  by_cases hi : i < l.length / n
  · rw [getElem?_chunksExact hi]
    by_cases hik : i < k
    · have := chunk_end_le (ch := n) hik
      rw [List.getElem?_append_left (by
        rw [length_chunksExact, List.length_take, Nat.min_eq_left hkn, Nat.mul_div_cancel _ hn]; exact hik)]
      rw [getElem?_chunksExact (by rw [List.length_take, Nat.min_eq_left hkn, Nat.mul_div_cancel _ hn]; exact hik)]
      congr 1
      rw [List.drop_take, List.take_take, Nat.min_eq_left (by omega)]
    · have hlen : (chunksExact n (l.take (k * n))).length = k := by
        rw [length_chunksExact, List.length_take, Nat.min_eq_left hkn, Nat.mul_div_cancel _ hn]
      rw [List.getElem?_append_right (by omega), hlen,
        getElem?_chunksExact (by rw [List.length_drop, hdiv]; omega), List.drop_drop]
      congr 3
      rw [← Nat.add_mul]; congr 1; omega
  · rw [List.getElem?_eq_none (by rw [length_chunksExact]; omega), List.getElem?_eq_none]
    rw [List.length_append, length_chunksExact, length_chunksExact, List.length_take,
      Nat.min_eq_left hkn, Nat.mul_div_cancel _ hn, List.length_drop, hdiv]
    omega

theorem items_split {n k : Nat} (hn : 0 < n) {p : Producer α} (hk : k ≤ p.slice.length / n)
    (h64 : p.slice.length < 2 ^ 64) :
    ∃ a b, p.splitAt n k = .ok (a, b) ∧ p.items n = a.items n ++ b.items n ∧
      a.slice.length < 2 ^ 64 ∧ b.slice.length < 2 ^ 64 := by
  have hkn : k * n ≤ p.slice.length :=
    Nat.le_trans (Nat.mul_le_mul_right _ hk) (Nat.div_mul_le_self _ _)
  refine ⟨⟨p.slice.take (k * n), p.base, p.index⟩, ⟨p.slice.drop (k * n), p.base + k * n, p.index + k⟩,
    ?_, ?_, ?_, ?_⟩
  · unfold Producer.splitAt
    rw [mulC_ok (by omega)]; simp only [ok_bind]; rw [if_pos hkn]
  · unfold Producer.items
    rw [chunksExact_split hn hk, List.zipIdx_append, List.map_append]
    congr 1
    have hlen : (chunksExact n (p.slice.take (k * n))).length = k := by
      rw [length_chunksExact, List.length_take, Nat.min_eq_left hkn, Nat.mul_div_cancel _ hn]
    rw [hlen]
    apply List.ext_getElem?
    intro i
    simp only [List.getElem?_map, List.getElem?_zipIdx]
    cases h : (chunksExact n (List.drop (k * n) p.slice))[i]? with
    | none => rfl
    | some c =>
      simp only [Option.map_some, Nat.zero_add, Option.some.injEq, Item.mk.injEq, and_true, Nat.add_mul]
      constructor <;> omega
  · simp only [List.length_take]; omega
  · simp only [List.length_drop]; omega

/-- A consumer for which cutting the items does not matter gives the same result for every splitting
history. -/
theorem bridge_eq {β : Type} {n : Nat} (hn : 0 < n) {leafR : List (Item α) → R β} {combine : β → β → β}
    (hom : ∀ a b, leafR (a ++ b) = (do let x ← leafR a; let y ← leafR b; .ok (combine x y)))
    (t : Split) : ∀ p : Producer α, p.slice.length < 2 ^ 64 →
      bridge n leafR combine t p = leafR (p.items n) := by
  induction t with
  | leaf => intro p _; rfl
  | node k l r ihl ihr =>
    intro p h64
    obtain ⟨a, b, h1, h2, h3, h4⟩ := items_split hn (p := p) (k := min k (p.slice.length / n)) (by omega) h64
    unfold bridge
    rw [h1]; simp only [ok_bind]
    rw [ihl a h3, ihr b h4, h2, hom]

theorem mapM_hom {β γ : Type} (f : β → R γ) (a b : List β) :
    (a ++ b).mapM f = (do let x ← a.mapM f; let y ← b.mapM f; .ok (x ++ y)) := by
  rw [List.mapM_append]; rfl

theorem parChunks_ok {b : ImageBuffer α ch} (hb : b.Inv) (h0 : 0 < ch) (hc : ch < 256) :
    parChunks b = .ok ⟨b.data.take (b.width * b.height * ch), 0, 0⟩ := by
  unfold parChunks
  rw [innerPixels_ok hb hc]
  have hne : (ch != 0) = true := by simp; omega
  simp only [ok_bind, hne, assertR_true]

theorem take64 {b : ImageBuffer α ch} (hb : b.Inv) {n : Nat} : (b.data.take n).length < 2 ^ 64 := by
  have := hb.len64
  rw [List.length_take]; omega

/-- The items of the whole image, in order. -/
theorem items_pixels {n : Nat} (l : List α) :
    ((⟨l, 0, 0⟩ : Producer α).items n).map Item.chunk = chunksExact n l := by
  unfold Producer.items
  rw [List.map_map]
  apply List.ext_getElem?
  intro i
  simp only [List.getElem?_map, List.getElem?_zipIdx]
  cases (chunksExact n l)[i]? <;> rfl

theorem mapM_map' {β γ δ : Type} (g : β → γ) (f : γ → R δ) : ∀ l : List β,
    (l.map g).mapM f = l.mapM (fun a => f (g a))
  | [] => rfl
  | a :: l => by rw [List.map_cons, List.mapM_cons, List.mapM_cons, mapM_map' g f l]

theorem mapM_pixelItem (l : List α) :
    ((⟨l, 0, 0⟩ : Producer α).items ch).mapM (pixelItem ch) = (chunksExact ch l).mapM (fromSlice ch) := by
  rw [← items_pixels, mapM_map']; rfl

theorem pixels_eq {b : ImageBuffer α ch} (hb : b.Inv) (h0 : 0 < ch) (hc : ch < 256) :
    b.pixels = (chunksExact ch (b.data.take (b.width * b.height * ch))).mapM (fromSlice ch) := by
  unfold pixels
  rw [innerPixels_ok hb hc]
  have hne : (ch != 0) = true := by simp; omega
  simp only [ok_bind, hne, assertR_true]

theorem coords_ok {w h i : Nat} (hw : w < 2 ^ 32) (hh : h < 2 ^ 32) (hi : i < w * h) :
    coords w i = .ok (i % w, i / w) := by
  have h0 : 0 < w := by
    rcases Nat.eq_zero_or_pos w with h | h
    · subst h; omega
    · exact h
  unfold coords
  rw [if_neg (by omega)]
  have h1 := Nat.mod_lt i h0
  have h2 : i / w < h := Nat.div_lt_of_lt_mul hi
  rw [Nat.mod_eq_of_lt (by omega : i % w < 2 ^ 32), Nat.mod_eq_of_lt (by omega : i / w < 2 ^ 32)]

theorem length_items {n : Nat} (p : Producer α) : (p.items n).length = p.slice.length / n := by
  simp [Producer.items]

/-- The task of pixel `i`. -/
theorem tasks_ok {b : ImageBuffer α ch} (hb : b.Inv) (h0 : 0 < ch) (hc : ch < 256)
    (g : Nat → Nat → Pix α ch → Pix α ch) (t : Split) :
    ∃ ts, tasks b g t = .ok ts ∧ ts.length = b.width * b.height ∧
      ∀ i, i < b.width * b.height → ts[i]? = some ⟨i * ch, g (i % b.width) (i / b.width)⟩ := by
  unfold tasks
  rw [parChunks_ok hb h0 hc]
  simp only [ok_bind]
  rw [bridge_eq h0 (fun a c => mapM_hom _ a c) t _ (take64 hb)]
  have h1 := hb.fits
  have hl : ∀ i, i < b.width * b.height →
      ((⟨b.data.take (b.width * b.height * ch), 0, 0⟩ : Producer α).items ch)[i]? =
        some ⟨i, i * ch, ((b.data.take (b.width * b.height * ch)).drop (i * ch)).take ch⟩ := by
    intro i hi
    unfold Producer.items
    rw [List.getElem?_map, List.getElem?_zipIdx, getElem?_chunksExact (by
      rw [List.length_take, Nat.min_eq_left h1, Nat.mul_div_cancel _ h0]; exact hi)]
    simp
  have hlen : ((⟨b.data.take (b.width * b.height * ch), 0, 0⟩ : Producer α).items ch).length =
      b.width * b.height := by
    rw [length_items, List.length_take, Nat.min_eq_left h1, Nat.mul_div_cancel _ h0]
  have hf : ∀ i, i < b.width * b.height → ∀ it,
      ((⟨b.data.take (b.width * b.height * ch), 0, 0⟩ : Producer α).items ch)[i]? = some it →
      ((do
        let _ ← pixelItem ch it
        let (x, y) ← coords b.width it.number
        .ok ⟨it.start, g x y⟩ : R (Task α ch))) = .ok ⟨i * ch, g (i % b.width) (i / b.width)⟩ := by
    intro i hi it hit
    rw [hl i hi] at hit
    cases hit
    have hce := chunk_end_le (ch := ch) hi
    have : pixelItem ch (⟨i, i * ch, ((b.data.take (b.width * b.height * ch)).drop (i * ch)).take ch⟩ : Item α)
        = .ok _ := dif_pos (by simp; omega)
    rw [this]; simp only [ok_bind]
    rw [coords_ok hb.w32 hb.h32 hi]
    rfl
  obtain ⟨ts, h2, h3, h4⟩ := mapM_ok (f := fun it => (do
        let _ ← pixelItem ch it
        let (x, y) ← coords b.width it.number
        .ok ⟨it.start, g x y⟩ : R (Task α ch)))
    (l := (⟨b.data.take (b.width * b.height * ch), 0, 0⟩ : Producer α).items ch) (by
      intro it hit
      obtain ⟨k, hk, hkl⟩ := List.mem_iff_getElem.1 hit
      exact ⟨_, hf k (by omega) it (by rw [← hkl]; simp)⟩)
  refine ⟨ts, h2, by omega, fun i hi => ?_⟩
  have h5 := h4 i (by omega) (by omega)
  rw [hf i hi _ (by simp)] at h5
  rw [List.getElem?_eq_getElem (by omega)]
  exact congrArg some (Except.ok.inj h5).symm

/-- What a memory looks like while the tasks run. `G i` is the pixel task `i` stores. -/
structure Running (mem0 : List α) (n : Nat) (G : Nat → Option (Pix α ch)) (s : St α ch) : Prop where
  len : s.mem.length = mem0.length
  slack : ∀ k, n * ch ≤ k → s.mem[k]? = mem0[k]?
  done : ∀ i, i < n → ∀ c : Fin ch, c.val + 1 < s.pc i → s.mem[i * ch + c.val]? = (G i).map (· c)
  todo : ∀ i, i < n → ∀ c : Fin ch, s.pc i ≤ c.val + 1 → s.mem[i * ch + c.val]? = mem0[i * ch + c.val]?
  loc : ∀ i, i < n → 0 < s.pc i → ∃ q, G i = some q ∧ s.loc i = some q
  pc : ∀ i, s.pc i ≤ ch + 1

theorem step_running {mem0 : List α} {n : Nat} {G : Nat → Option (Pix α ch)} {ts : List (Task α ch)}
    (hlen : ts.length = n)
    (hts : ∀ i, i < n → ∃ u, ts[i]? = some ⟨i * ch, u⟩ ∧ ∀ p : Pix α ch,
      (∀ c : Fin ch, mem0[i * ch + c.val]? = some (p c)) → some (u p) = G i)
    (hm : n * ch ≤ mem0.length) {s : St α ch} (hs : Running mem0 n G s) (i : Nat) :
    ∃ s', step ts s i = .ok s' ∧ Running mem0 n G s' ∧
      ∀ j, s'.pc j = if j = i ∧ i < n then min (ch + 1) (s.pc j + 1) else s.pc j := by
  unfold step
  by_cases hi : i < n
  · obtain ⟨u, h1, h2⟩ := hts i hi
    rw [h1]
    simp only
    have hce := chunk_end_le (ch := ch) hi
    have hpc := hs.pc i
    by_cases hp : s.pc i = 0
    · rw [if_pos hp, sliceR_ok (by omega) (by rw [hs.len]; omega)]
      simp only [ok_bind]
      rw [show i * ch + ch - i * ch = ch by omega]
      have hl : (List.take ch (List.drop (i * ch) s.mem)).length = ch := by
        rw [List.length_take, List.length_drop, hs.len]; omega
      obtain ⟨p, hp1⟩ : ∃ p, fromSlice ch (List.take ch (List.drop (i * ch) s.mem)) = .ok p :=
        ⟨_, dif_pos hl⟩
      rw [hp1]
      simp only [ok_bind]
      have hup : some (u p) = G i := by
        apply h2
        intro c
        have h3 := (fromSlice_eq_ok.1 hp1).2 c
        rw [List.getElem?_take, if_pos c.isLt, List.getElem?_drop] at h3
        have h4 := hs.todo i hi c (by omega)
        rw [← h4]; exact h3
      refine ⟨_, rfl, ⟨hs.len, hs.slack, ?_, ?_, ?_, ?_⟩, ?_⟩
      · intro j hj c hlt
        simp only at hlt
        by_cases hji : j = i
        · rw [if_pos hji] at hlt; omega
        · rw [if_neg hji] at hlt; exact hs.done j hj c hlt
      · intro j hj c hlt
        simp only at hlt
        by_cases hji : j = i
        · rw [hji]; exact hs.todo i hi c (by omega)
        · rw [if_neg hji] at hlt; exact hs.todo j hj c hlt
      · intro j hj hpj
        simp only at hpj ⊢
        by_cases hji : j = i
        · exact ⟨_, by rw [hji]; exact hup.symm, if_pos hji⟩
        · rw [if_neg hji] at hpj ⊢; exact hs.loc j hj hpj
      · intro j
        simp only
        split
        · omega
        · exact hs.pc j
      · intro j
        simp only
        by_cases hji : j = i
        · rw [if_pos hji, if_pos ⟨hji, hi⟩, hji, hp]; omega
        · rw [if_neg hji, if_neg (by omega)]
    · rw [if_neg hp]
      by_cases hq : s.pc i - 1 < ch
      · obtain ⟨w, hw1, hw2⟩ := hs.loc i hi (by omega)
        rw [dif_pos hq, hw2]
        simp only
        have hne : ∀ j, j < n → ∀ c : Fin ch, (j ≠ i ∨ c.val ≠ s.pc i - 1) →
            i * ch + (s.pc i - 1) ≠ j * ch + c.val := by
          intro j hj c hd he
          have := idx_inj hq c.isLt he
          omega
        refine ⟨_, rfl, ⟨by simp [hs.len], ?_, ?_, ?_, ?_, ?_⟩, ?_⟩
        · intro k hk
          simp only
          rw [List.getElem?_set_ne (by omega)]; exact hs.slack k hk
        · intro j hj c hlt
          simp only at hlt ⊢
          by_cases hji : j = i
          · subst hji
            rw [if_pos rfl] at hlt
            by_cases hcv : c.val = s.pc j - 1
            · rw [hcv, List.getElem?_set_self (by rw [hs.len]; omega), hw1, Option.map_some]
              congr 2
              exact Fin.ext hcv.symm
            · rw [List.getElem?_set_ne (hne j hj c (Or.inr hcv))]
              exact hs.done j hj c (by omega)
          · rw [if_neg hji] at hlt
            rw [List.getElem?_set_ne (hne j hj c (Or.inl hji))]
            exact hs.done j hj c hlt
        · intro j hj c hlt
          simp only at hlt ⊢
          by_cases hji : j = i
          · subst hji
            rw [if_pos rfl] at hlt
            rw [List.getElem?_set_ne (hne j hj c (Or.inr (by omega)))]
            exact hs.todo j hj c (by omega)
          · rw [if_neg hji] at hlt
            rw [List.getElem?_set_ne (hne j hj c (Or.inl hji))]
            exact hs.todo j hj c hlt
        · intro j hj hpj
          simp only at hpj ⊢
          by_cases hji : j = i
          · rw [hji]; exact hs.loc i hi (by omega)
          · rw [if_neg hji] at hpj; exact hs.loc j hj hpj
        · intro j
          simp only
          split
          · omega
          · exact hs.pc j
        · intro j
          simp only
          by_cases hji : j = i
          · rw [if_pos hji, if_pos ⟨hji, hi⟩, hji]; omega
          · rw [if_neg hji, if_neg (by omega)]
      · rw [dif_neg hq]
        refine ⟨_, rfl, hs, fun j => ?_⟩
        by_cases hji : j = i
        · rw [if_pos ⟨hji, hi⟩, hji]; omega
        · rw [if_neg (by omega)]
  · rw [List.getElem?_eq_none (by omega)]
    exact ⟨s, rfl, hs, fun j => by rw [if_neg (by omega)]⟩

theorem exec_running {mem0 : List α} {n : Nat} {G : Nat → Option (Pix α ch)} {ts : List (Task α ch)}
    (hlen : ts.length = n)
    (hts : ∀ i, i < n → ∃ u, ts[i]? = some ⟨i * ch, u⟩ ∧ ∀ p : Pix α ch,
      (∀ c : Fin ch, mem0[i * ch + c.val]? = some (p c)) → some (u p) = G i)
    (hm : n * ch ≤ mem0.length) : ∀ (sched : List Nat) (s : St α ch), Running mem0 n G s →
    ∃ s', sched.foldlM (step ts) s = .ok s' ∧ Running mem0 n G s' ∧
      ∀ j, j < n → s'.pc j = min (ch + 1) (s.pc j + sched.count j)
  | [], s, hs => ⟨s, rfl, hs, fun j _ => by have := hs.pc j; simp; omega⟩
  | i :: sched, s, hs => by
    obtain ⟨s1, h1, h2, h3⟩ := step_running hlen hts hm hs i
    obtain ⟨s2, h4, h5, h6⟩ := exec_running hlen hts hm sched s1 h2
    refine ⟨s2, ?_, h5, fun j hj => ?_⟩
    · rw [List.foldlM_cons, h1]; exact h4
    · rw [h6 j hj, h3 j, List.count_cons]
      by_cases hji : j = i
      · subst hji
        rw [if_pos ⟨rfl, hj⟩]
        simp only [beq_self_eq_true, if_true]
        omega
      · rw [if_neg (by omega)]
        have : (i == j) = false := by simp; omega
        rw [this]; simp

end Verif.Par
