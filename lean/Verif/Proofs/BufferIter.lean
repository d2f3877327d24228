import Verif.Spec.BufferIter
import Verif.Proofs.Buffer

/-!
# The iterators of `ImageBuffer` follow their specification
-/

namespace Verif
namespace BufIter
open ImageBuffer

variable {α : Type} {ch w h : Nat}

/-- Two lists whose elements correspond. -/
def LRel {A B : Type} (r : A → B → Prop) (l : List A) (l' : List B) : Prop :=
  l.length = l'.length ∧ ∀ (i : Nat) (a : A) (b : B), l[i]? = some a → l'[i]? = some b → r a b

theorem LRel.none {A B : Type} {r : A → B → Prop} {l : List A} {l' : List B} (hl : LRel r l l') {i : Nat} (h : l[i]? = none) : l'[i]? = none := by
  rw [List.getElem?_eq_none_iff] at h ⊢
  rw [← hl.1]; exact h

theorem LRel.some {A B : Type} {r : A → B → Prop} {l : List A} {l' : List B} (hl : LRel r l l') {i : Nat} {a : A} (h : l[i]? = some a) :
    ∃ b, l'[i]? = some b ∧ r a b := by
  obtain ⟨hi, -⟩ := List.getElem?_eq_some_iff.1 h
  have hi' : i < l'.length := by rw [← hl.1]; exact hi
  exact ⟨l'[i], List.getElem?_eq_getElem hi', hl.2 i a _ h (List.getElem?_eq_getElem hi')⟩

theorem LRel.push {A B : Type} {r : A → B → Prop} {l : List A} {l' : List B} (hl : LRel r l l') {a : A} {b : B} (h : r a b) :
    LRel r (l ++ [a]) (l' ++ [b]) := by
  refine ⟨by simp [hl.1], fun i x y hx hy => ?_⟩
  by_cases hi : i < l.length
  · rw [List.getElem?_append_left hi] at hx
    rw [List.getElem?_append_left (by rw [← hl.1]; exact hi)] at hy
    exact hl.2 i x y hx hy
  · have hi2 : i < (l ++ [a]).length := (List.getElem?_eq_some_iff.1 hx).1
    have : i = l.length := by simp at hi2; omega
    subst this
    rw [List.getElem?_concat_length] at hx
    rw [hl.1, List.getElem?_concat_length] at hy
    cases hx; cases hy; exact h

theorem LRel.set {A B : Type} {r : A → B → Prop} {l : List A} {l' : List B} (hl : LRel r l l') (i : Nat) {a : A} {b : B} (h : r a b) :
    LRel r (l.set i a) (l'.set i b) := by
  refine ⟨by simp [hl.1], fun j x y hx hy => ?_⟩
  rw [List.getElem?_set] at hx hy
  by_cases e : i = j
  · subst e
    rw [if_pos rfl] at hx hy
    by_cases hi : i < l.length
    · rw [if_pos hi] at hx
      rw [if_pos (by rw [← hl.1]; exact hi)] at hy
      cases hx; cases hy; exact h
    · rw [if_neg hi] at hx; cases hx
  · rw [if_neg e] at hx hy
    exact hl.2 j x y hx hy

theorem LRel.nil {A B : Type} {r : A → B → Prop} : LRel r ([] : List A) ([] : List B) := ⟨rfl, fun i a b h => by simp at h⟩

theorem LRel.single {A B : Type} {r : A → B → Prop} {a : A} {b : B} (h : r a b) : LRel r [a] [b] := LRel.nil.push h

/-- The coordinates of the pixel with number `i`. -/
def coord (w i : Nat) : Nat × Nat := (i % w, i / w)

/-- Whole chunks of size `n`, from number `s`, `k` of them. -/
def Chunks (n s k : Nat) : ChunksExact := ⟨⟨s * n, k * n⟩, n⟩

theorem chunksExact_whole {n : Nat} (hn : 0 < n) (s k : Nat) : chunksExact ⟨s * n, k * n⟩ n = .ok (Chunks n s k) := by
  unfold chunksExact
  have : (n != 0) = true := by simp; omega
  rw [this]
  show (Except.ok _ : R ChunksExact) = _
  simp [Chunks]

theorem Chunks.next_zero {n : Nat} (hn : 0 < n) (s : Nat) : (Chunks n s 0).next = (none, Chunks n s 0) := by
  unfold ChunksExact.next Chunks
  rw [if_pos (by simpa using hn)]

theorem Chunks.next_succ {n : Nat} (s k : Nat) : (Chunks n s (k + 1)).next = (some ⟨s * n, n⟩, Chunks n (s + 1) k) := by
  unfold ChunksExact.next Chunks
  rw [if_neg (by simp [Nat.add_mul])]
  simp [Nat.add_mul]

theorem Chunks.nextBack_zero {n : Nat} (hn : 0 < n) (s : Nat) : (Chunks n s 0).nextBack = (none, Chunks n s 0) := by
  unfold ChunksExact.nextBack Chunks
  rw [if_pos (by simpa using hn)]

theorem Chunks.nextBack_succ {n : Nat} (s k : Nat) : (Chunks n s (k + 1)).nextBack = (some ⟨(s + k) * n, n⟩, Chunks n s k) := by
  unfold ChunksExact.nextBack Chunks
  rw [if_neg (by simp [Nat.add_mul])]
  simp [Nat.add_mul]

theorem Chunks.len_eq {n : Nat} (hn : 0 < n) (s k : Nat) : (Chunks n s k).len = k := by
  unfold ChunksExact.len Chunks
  exact Nat.mul_div_cancel _ hn

/-- A pixel iterator and the coordinates it still has to hand out. -/
def RelIt (ch w h : Nat) (c : ChunksExact) (cs : List (Nat × Nat)) : Prop :=
  ∃ s k, c = Chunks ch s k ∧ cs = (List.range' s k).map (coord w) ∧ s + k ≤ w * h

/-- A reference and its coordinate. -/
def RelRef (ch w h : Nat) (s : Slice) (c : Nat × Nat) : Prop := ∃ i, i < w * h ∧ s = ⟨i * ch, ch⟩ ∧ c = coord w i

/-- A row iterator and the rows it still has to hand out. -/
def RelRows (ch w h : Nat) (c : ChunksExact) (ys : List Nat) : Prop :=
  (w = 0 ∧ c = Chunks 1 0 0 ∧ ys = []) ∨ 0 < w ∧ ∃ s k, c = Chunks (w * ch) s k ∧ ys = List.range' s k ∧ s + k ≤ h

/-- The buffer and the picture. -/
structure RelBuf (w h : Nat) (b : ImageBuffer α ch) (pic : Nat → Nat → Pix α ch) : Prop where
  inv : b.Inv
  width : b.width = w
  height : b.height = h
  pix : ∀ x y, x < w → y < h → b.getPixel x y = .ok (pic x y)

theorem coord_lt {i : Nat} (hi : i < w * h) : (coord w i).1 < w ∧ (coord w i).2 < h := by
  have hw : 0 < w := by
    rcases Nat.eq_zero_or_pos w with e | e
    · rw [e, Nat.zero_mul] at hi; omega
    · exact e
  exact ⟨Nat.mod_lt _ hw, Nat.div_lt_of_lt_mul hi⟩

theorem coord_num (i : Nat) : (coord w i).2 * w + (coord w i).1 = i := by
  show i / w * w + i % w = i
  rw [Nat.mul_comm]; exact Nat.div_add_mod i w

theorem read_ok {b : ImageBuffer α ch} {pic : Nat → Nat → Pix α ch} (hb : RelBuf w h b pic) {s : Slice} {c : Nat × Nat} (hs : RelRef ch w h s c) :
    readRef b s = .ok (pic c.1 c.2) := by
  obtain ⟨i, hi, rfl, rfl⟩ := hs
  obtain ⟨hx, hy⟩ := coord_lt hi
  have hg := hb.pix _ _ hx hy
  unfold ImageBuffer.getPixel at hg
  rw [pixelIndices_ok hb.inv (by rw [hb.width]; exact hx) (by rw [hb.height]; exact hy), hb.width, coord_num] at hg
  exact hg

theorem write_ok {b : ImageBuffer α ch} {pic : Nat → Nat → Pix α ch} (hb : RelBuf w h b pic) {s : Slice} {c : Nat × Nat} (hs : RelRef ch w h s c)
    (p : Pix α ch) : ∃ b', writeRef b s p = .ok b' ∧ RelBuf w h b' fun i j => if (i, j) = (c.1, c.2) then p else pic i j := by
  obtain ⟨i, hi, rfl, rfl⟩ := hs
  obtain ⟨hx, hy⟩ := coord_lt hi
  have hx' : (coord w i).1 < b.width := by rw [hb.width]; exact hx
  have hy' : (coord w i).2 < b.height := by rw [hb.height]; exact hy
  obtain ⟨b', e, k1, k2, k3, -, k5, k6⟩ := put_spec hb.inv hx' hy' p
  have hle := end_le hb.inv hx' hy'
  rw [putPixel_ok hb.inv hx' hy' p] at e
  have hn : (coord w i).2 * b.width + (coord w i).1 = i := by rw [hb.width]; exact coord_num i
  rw [hn] at e hle
  refine ⟨b', ?_, k1, k2.trans hb.width, k3.trans hb.height, fun x y hx1 hy1 => ?_⟩
  · unfold writeRef
    simp only [decide_true]
    show (if _ then _ else _ : R (ImageBuffer α ch)) = _
    rw [if_pos hle]; exact e
  · by_cases hc : (x, y) = ((coord w i).1, (coord w i).2)
    · rw [if_pos hc]
      injection hc with c1 c2
      rw [c1, c2]; exact k5
    · rw [if_neg hc, k6 x y (by rw [hb.width]; exact hx1) (by rw [hb.height]; exact hy1) (fun hh => hc (by rw [hh.1, hh.2]))]
      exact hb.pix x y hx1 hy1

theorem rowCoords_eq (hw : 0 < w) (y : Nat) : rowCoords w y = (List.range' (y * w) w).map (coord w) := by
  unfold rowCoords
  rw [List.range_eq_range', List.range'_eq_map_range, List.range'_eq_map_range, List.map_map, List.map_map]
  refine List.map_congr_left fun x hx => ?_
  have hx := List.mem_range.1 hx
  show (0 + x, y) = ((y * w + x) % w, (y * w + x) / w)
  rw [Nat.zero_add, Nat.add_comm, Nat.add_mul_mod_self_right, Nat.mod_eq_of_lt hx, Nat.add_mul_div_right _ _ hw, Nat.div_eq_of_lt hx, Nat.zero_add]

theorem allCoords_eq (hw : 0 < w) (h : Nat) : allCoords w h = (List.range' 0 (w * h)).map (coord w) := by
  unfold allCoords
  induction h with
  | zero => simp
  | succ n ih =>
    rw [List.range_succ, List.flatMap_append, ih, Nat.mul_succ, List.range'_append_1.symm, List.map_append]
    simp only [List.flatMap_cons, List.flatMap_nil, List.append_nil, Nat.zero_add]
    rw [rowCoords_eq hw, Nat.mul_comm]

theorem row_it (hw : 0 < w) {y : Nat} (hy : y < h) : RelIt ch w h (Chunks ch (y * w) w) (rowCoords w y) := by
  refine ⟨_, _, rfl, rowCoords_eq hw y, ?_⟩
  have : (y + 1) * w ≤ h * w := Nat.mul_le_mul_right _ hy
  rw [Nat.mul_comm w h]
  rw [Nat.succ_mul] at this; exact this

/-- The held objects and the specification's state. -/
structure Rel (w h : Nat) (s : Held α ch) (t : Ideal (Pix α ch)) : Prop where
  buf : RelBuf w h s.buf t.pic
  width : t.width = w
  rows : match s.rows, t.rows with
    | none, none => True
    | some c, some ys => RelRows ch w h c ys
    | _, _ => False
  its : LRel (RelIt ch w h) s.its t.its
  refs : LRel (RelRef ch w h) s.refs t.refs

theorem rowsNext_ok (hc : 0 < ch) {c : ChunksExact} {ys : List Nat} (hr : RelRows ch w h c ys) :
    match (generalizing := false) ys with
    | [] => rowsNext ch c = .ok (none, c)
    | y :: ys' => ∃ it c', rowsNext ch c = .ok (some it, c') ∧ it = Chunks ch (y * w) w ∧ 0 < w ∧ y < h ∧ RelRows ch w h c' ys' := by
  unfold rowsNext
  rcases hr with ⟨-, rfl, rfl⟩ | ⟨hw, s, k, rfl, rfl, hk⟩
  · rfl
  · have hn : 0 < w * ch := Nat.mul_pos hw hc
    cases k with
    | zero =>
      simp only [List.range'_zero]
      rw [Chunks.next_zero hn]
    | succ k =>
      rw [List.range'_succ]
      rw [Chunks.next_succ]
      have e : (⟨s * (w * ch), w * ch⟩ : Slice) = ⟨(s * w) * ch, w * ch⟩ := by rw [Nat.mul_assoc]
      simp only [e, chunksExact_whole hc, ok_bind]
      exact ⟨_, _, rfl, rfl, hw, by omega, Or.inr ⟨hw, s + 1, k, rfl, rfl, by omega⟩⟩

theorem rowsNextBack_ok (hc : 0 < ch) {c : ChunksExact} {ys : List Nat} (hr : RelRows ch w h c ys) :
    match (generalizing := false) ys.getLast? with
    | none => rowsNextBack ch c = .ok (none, c)
    | some y => ∃ it c', rowsNextBack ch c = .ok (some it, c') ∧ it = Chunks ch (y * w) w ∧ 0 < w ∧ y < h ∧ RelRows ch w h c' ys.dropLast := by
  unfold rowsNextBack
  rcases hr with ⟨-, rfl, rfl⟩ | ⟨hw, s, k, rfl, rfl, hk⟩
  · rfl
  · have hn : 0 < w * ch := Nat.mul_pos hw hc
    cases k with
    | zero =>
      simp only [List.range'_zero, List.getLast?_nil]
      rw [Chunks.nextBack_zero hn]
    | succ k =>
      rw [List.range'_concat, List.getLast?_concat, List.dropLast_concat]
      rw [Chunks.nextBack_succ]
      have e : (⟨(s + k) * (w * ch), w * ch⟩ : Slice) = ⟨((s + k) * w) * ch, w * ch⟩ := by rw [Nat.mul_assoc]
      simp only [e, chunksExact_whole hc, ok_bind]
      exact ⟨_, _, rfl, by simp, hw, by simp; omega, Or.inr ⟨hw, s, k, rfl, rfl, by omega⟩⟩

theorem rowsLen_ok (hc : 0 < ch) {c : ChunksExact} {ys : List Nat} (hr : RelRows ch w h c ys) : c.len = ys.length := by
  rcases hr with ⟨-, rfl, rfl⟩ | ⟨hw, s, k, rfl, rfl, hk⟩
  · rfl
  · rw [Chunks.len_eq (Nat.mul_pos hw hc), List.length_range']

theorem next_ok (hc : 0 < ch) {c : ChunksExact} {cs : List (Nat × Nat)} (hr : RelIt ch w h c cs) :
    match (generalizing := false) cs with
    | [] => c.next = (none, c)
    | a :: cs' => ∃ s c', c.next = (some s, c') ∧ RelRef ch w h s a ∧ RelIt ch w h c' cs' := by
  obtain ⟨s, k, rfl, rfl, hk⟩ := hr
  cases k with
  | zero => exact Chunks.next_zero hc s
  | succ k =>
    rw [List.range'_succ, List.map_cons]
    exact ⟨_, _, Chunks.next_succ s k, ⟨s, by omega, rfl, rfl⟩, s + 1, k, rfl, rfl, by omega⟩

theorem nextBack_ok (hc : 0 < ch) {c : ChunksExact} {cs : List (Nat × Nat)} (hr : RelIt ch w h c cs) :
    match (generalizing := false) cs.getLast? with
    | none => c.nextBack = (none, c)
    | some a => ∃ s c', c.nextBack = (some s, c') ∧ RelRef ch w h s a ∧ RelIt ch w h c' cs.dropLast := by
  obtain ⟨s, k, rfl, rfl, hk⟩ := hr
  cases k with
  | zero => exact Chunks.nextBack_zero hc s
  | succ k =>
    rw [List.range'_concat, List.map_append, List.map_singleton, List.getLast?_concat, List.dropLast_concat]
    exact ⟨_, _, Chunks.nextBack_succ s k, ⟨s + k, by omega, rfl, by simp⟩, s, k, rfl, rfl, by omega⟩

theorem len_ok (hc : 0 < ch) {c : ChunksExact} {cs : List (Nat × Nat)} (hr : RelIt ch w h c cs) : c.len = cs.length := by
  obtain ⟨s, k, rfl, rfl, hk⟩ := hr
  rw [Chunks.len_eq hc, List.length_map, List.length_range']

theorem set_self {A : Type} {l : List A} {i : Nat} {a : A} (h : l[i]? = some a) : l.set i a = l := by
  apply List.ext_getElem?
  intro j
  rw [List.getElem?_set]
  by_cases e : i = j
  · subst e
    rw [if_pos rfl, if_pos (List.getElem?_eq_some_iff.1 h).1, h]
  · rw [if_neg e]

theorem step_ok (hc : 0 < ch) {s : Held α ch} {t : Ideal (Pix α ch)} (hr : Rel w h s t) (a : Step (Pix α ch)) :
    ∃ s', step s a = .ok ((t.step false a).1, s') ∧ Rel w h s' (t.step false a).2 := by
  obtain ⟨b, rs, its, refs⟩ := s
  obtain ⟨tw, pic, trs, tits, trefs⟩ := t
  obtain ⟨hb, rfl, hrows, hits, hrefs⟩ := hr
  dsimp only at hb hrows hits hrefs
  have full : Rel tw h ⟨b, rs, its, refs⟩ ⟨tw, pic, trs, tits, trefs⟩ := ⟨hb, rfl, hrows, hits, hrefs⟩
  cases a with
  | rowNext =>
    match rs, trs, hrows with
    | none, none, _ => exact ⟨_, rfl, full⟩
    | some c, some [], hrows =>
      have := rowsNext_ok hc hrows
      dsimp only at this
      exact ⟨⟨b, some c, its, refs⟩, by simp only [step, this, ok_bind]; rfl, full⟩
    | some c, some (y :: ys), hrows =>
      obtain ⟨it, c', e, rfl, hw, hy, hr'⟩ := rowsNext_ok hc hrows
      exact ⟨⟨b, some c', its ++ [_], refs⟩, by simp only [step, e, ok_bind]; rfl, hb, rfl, hr', hits.push (row_it hw hy), hrefs⟩
  | rowBack =>
    match rs, trs, hrows with
    | none, none, _ => exact ⟨_, rfl, full⟩
    | some c, some ys, hrows =>
      have key := rowsNextBack_ok hc hrows
      simp only [Ideal.step, Bool.false_eq_true, if_false]
      cases hl : ys.getLast? with
      | none =>
        rw [hl] at key
        dsimp only at key
        exact ⟨⟨b, some c, its, refs⟩, by simp only [step, key, ok_bind], full⟩
      | some y =>
        rw [hl] at key
        obtain ⟨it, c', e, rfl, hw, hy, hr'⟩ := key
        exact ⟨⟨b, some c', its ++ [_], refs⟩, by simp only [step, e, ok_bind], hb, rfl, hr', hits.push (row_it hw hy), hrefs⟩
  | rowLen =>
    match rs, trs, hrows with
    | none, none, _ => exact ⟨_, rfl, full⟩
    | some c, some ys, hrows => exact ⟨⟨b, some c, its, refs⟩, by simp only [step, Ideal.step, rowsLen_ok hc hrows], full⟩
  | next i =>
    cases hi : its[i]? with
    | none => exact ⟨⟨b, rs, its, refs⟩, by simp only [step, Ideal.step, hi, hits.none hi], by simp only [Ideal.step, hits.none hi]; exact full⟩
    | some c =>
      obtain ⟨cs, hcs, hrel⟩ := hits.some hi
      have key := next_ok hc hrel
      cases cs with
      | nil =>
        dsimp only at key
        refine ⟨⟨b, rs, its, refs⟩, ?_, by simp only [Ideal.step, hcs]; exact full⟩
        simp only [step, Ideal.step, hi, hcs, key, set_self hi]
        rfl
      | cons q cs =>
        obtain ⟨s, c', e, h1, h2⟩ := key
        refine ⟨⟨b, rs, its.set i c', refs ++ [s]⟩, ?_, ?_⟩
        · simp only [step, Ideal.step, hi, hcs, e]; rfl
        · simp only [Ideal.step, hcs]
          exact ⟨hb, rfl, hrows, hits.set i h2, hrefs.push h1⟩
  | nextBack i =>
    simp only [Ideal.step, Bool.false_eq_true, if_false]
    cases hi : its[i]? with
    | none => exact ⟨⟨b, rs, its, refs⟩, by simp only [step, hi, hits.none hi], by simp only [hits.none hi]; exact full⟩
    | some c =>
      obtain ⟨cs, hcs, hrel⟩ := hits.some hi
      have key := nextBack_ok hc hrel
      simp only [hcs]
      cases hl : cs.getLast? with
      | none =>
        rw [hl] at key
        dsimp only at key
        refine ⟨⟨b, rs, its, refs⟩, ?_, full⟩
        simp only [step, hi, key, set_self hi]
      | some q =>
        rw [hl] at key
        obtain ⟨s, c', e, h1, h2⟩ := key
        refine ⟨⟨b, rs, its.set i c', refs ++ [s]⟩, ?_, hb, rfl, hrows, hits.set i h2, hrefs.push h1⟩
        simp only [step, hi, e]
  | len i =>
    cases hi : its[i]? with
    | none => exact ⟨⟨b, rs, its, refs⟩, by simp only [step, Ideal.step, hi, hits.none hi], by simp only [Ideal.step, hits.none hi]; exact full⟩
    | some c =>
      obtain ⟨cs, hcs, hrel⟩ := hits.some hi
      exact ⟨⟨b, rs, its, refs⟩, by simp only [step, Ideal.step, hi, hcs, len_ok hc hrel], by simp only [Ideal.step, hcs]; exact full⟩
  | read k =>
    cases hk : refs[k]? with
    | none => exact ⟨⟨b, rs, its, refs⟩, by simp only [step, Ideal.step, hk, hrefs.none hk], by simp only [Ideal.step, hrefs.none hk]; exact full⟩
    | some s =>
      obtain ⟨c, hcs, hrel⟩ := hrefs.some hk
      exact ⟨⟨b, rs, its, refs⟩, by simp only [step, Ideal.step, hk, hcs, read_ok hb hrel, ok_bind], by simp only [Ideal.step, hcs]; exact full⟩
  | write k p =>
    cases hk : refs[k]? with
    | none => exact ⟨⟨b, rs, its, refs⟩, by simp only [step, Ideal.step, hk, hrefs.none hk], by simp only [Ideal.step, hrefs.none hk]; exact full⟩
    | some s =>
      obtain ⟨c, hcs, hrel⟩ := hrefs.some hk
      obtain ⟨b', e, hb'⟩ := write_ok hb hrel p
      exact ⟨⟨b', rs, its, refs⟩, by simp only [step, Ideal.step, hk, hcs, e, ok_bind], by simp only [Ideal.step, hcs]; exact ⟨hb', rfl, hrows, hits, hrefs⟩⟩

theorem run_ok (hc : 0 < ch) (ss : List (Step (Pix α ch))) : ∀ {s : Held α ch} {t : Ideal (Pix α ch)}, Rel w h s t →
    ∃ b', run s ss = .ok ((t.run false ss).1, b') ∧ RelBuf w h b' (t.run false ss).2 := by
  induction ss with
  | nil => intro s t hr; exact ⟨_, rfl, hr.buf⟩
  | cons a ss ih =>
    intro s t hr
    obtain ⟨s', e, hr'⟩ := step_ok hc hr a
    obtain ⟨b', e', hb'⟩ := ih hr'
    exact ⟨b', by simp only [run, e, e', ok_bind, Ideal.run], hb'⟩

/-! ## The enumerating iterators -/

/-- How often an iterator that had nothing left was asked for an item. -/
def polls {P : Type} : List (Ans P) → Nat
  | [] => 0
  | .row none :: as => polls as + 1
  | .coord none :: as => polls as + 1
  | _ :: as => polls as

/-- An enumerating pixel iterator; `n` bounds the number of calls after its end. -/
def RelEIt (ch w h n : Nat) (e : EnumPixels) (cs : List (Nat × Nat)) : Prop :=
  ∃ s k, e.pixels = Chunks ch s k ∧ cs = (List.range' s k).map (coord w) ∧ s + k ≤ w * h ∧ e.width = w ∧ e.y ≤ h - 1 + n ∧
    (0 < k → e.y * w + e.x = s ∧ e.x ≤ w)

/-- An enumerating row iterator. -/
def RelERows (ch w h n : Nat) (e : EnumRows) (ys : List Nat) : Prop :=
  RelRows ch w h e.rows ys ∧ e.width = w ∧ (∀ y ys', ys = y :: ys' → e.y = y) ∧ e.y ≤ h + n

/-- The held objects and the specification's state. -/
structure ERel (w h n : Nat) (s : EHeld α ch) (t : Ideal (Pix α ch)) : Prop where
  buf : RelBuf w h s.buf t.pic
  width : t.width = w
  rows : match s.rows, t.rows with
    | none, none => True
    | some c, some ys => RelERows ch w h n c ys
    | _, _ => False
  its : LRel (RelEIt ch w h n) s.its t.its
  refs : LRel (RelRef ch w h) s.refs t.refs

theorem RelEIt.mono {n n' : Nat} (hn : n ≤ n') {e : EnumPixels} {cs : List (Nat × Nat)} (hr : RelEIt ch w h n e cs) : RelEIt ch w h n' e cs := by
  obtain ⟨s, k, h1, h2, h3, h4, h5, h6⟩ := hr
  exact ⟨s, k, h1, h2, h3, h4, by omega, h6⟩

theorem LRel.mono {A B : Type} {r r' : A → B → Prop} (hrr : ∀ a b, r a b → r' a b) {l : List A} {l' : List B} (hl : LRel r l l') : LRel r' l l' :=
  ⟨hl.1, fun i a b ha hb => hrr a b (hl.2 i a b ha hb)⟩

theorem enext_none (hc : 0 < ch) {n : Nat} {e : EnumPixels} (hr : RelEIt ch w h n e []) (hn : h - 1 + (n + 1) < 2 ^ 32) (hw : w < 2 ^ 32) :
    ∃ e', e.next = .ok (none, e') ∧ RelEIt ch w h (n + 1) e' [] := by
  obtain ⟨s, k, h1, h2, h3, h4, h5, h6⟩ := hr
  obtain ⟨px, x, y, wd⟩ := e
  dsimp only at h1 h4 h5
  subst h1 h4
  have hk : k = 0 := by
    have := congrArg List.length h2
    simpa using this.symm
  subst hk
  unfold EnumPixels.next
  dsimp only
  by_cases hx : wd ≤ x
  · rw [if_pos hx, addC_ok (by omega)]
    simp only [ok_bind]
    rw [addC_ok (by omega)]
    simp only [ok_bind, Chunks.next_zero hc]
    exact ⟨_, rfl, s, 0, rfl, rfl, h3, rfl, by dsimp only; omega, fun h => by omega⟩
  · rw [if_neg hx]
    simp only [ok_bind]
    rw [addC_ok (by omega)]
    simp only [ok_bind, Chunks.next_zero hc]
    exact ⟨_, rfl, s, 0, rfl, rfl, h3, rfl, by dsimp only; omega, fun h => by omega⟩

theorem enext_some {n : Nat} {e : EnumPixels} {q : Nat × Nat} {cs : List (Nat × Nat)} (hr : RelEIt ch w h n e (q :: cs)) (hh : h < 2 ^ 32)
    (hw : w < 2 ^ 32) : ∃ sl e', e.next = .ok (some (q.1, q.2, sl), e') ∧ RelRef ch w h sl q ∧ RelEIt ch w h n e' cs := by
  obtain ⟨s, k, h1, h2, h3, h4, h5, h6⟩ := hr
  obtain ⟨px, x, y, wd⟩ := e
  dsimp only at h1 h4 h5 h6
  subst h1 h4
  cases k with
  | zero => simp at h2
  | succ k =>
    obtain ⟨h7, h8⟩ := h6 (by omega)
    rw [List.range'_succ, List.map_cons] at h2
    injection h2 with h9 h10
    subst h9 h10
    have hs : s < wd * h := by omega
    obtain ⟨c1, c2⟩ := coord_lt hs
    have hwd : 0 < wd := by omega
    unfold EnumPixels.next
    dsimp only
    by_cases hx : wd ≤ x
    · have hx : x = wd := by omega
      subst hx
      have e1 : coord x s = (0, y + 1) := by
        unfold coord
        rw [show s = (y + 1) * x by rw [Nat.succ_mul]; omega, Nat.mul_mod_left, Nat.mul_div_cancel _ hwd]
      rw [e1] at c2
      dsimp only at c2
      rw [if_pos (Nat.le_refl _), addC_ok (by omega)]
      simp only [ok_bind]
      rw [addC_ok (by omega)]
      simp only [ok_bind, Chunks.next_succ]
      refine ⟨⟨s * ch, ch⟩, _, by rw [e1], ⟨s, hs, rfl, rfl⟩, s + 1, k, rfl, rfl, by omega, rfl, ?_, fun _ => ⟨?_, ?_⟩⟩
      · dsimp only; omega
      · dsimp only; rw [Nat.succ_mul]; omega
      · dsimp only; omega
    · have hx : x < wd := by omega
      have e1 : coord wd s = (x, y) := by
        unfold coord
        rw [← h7, Nat.add_comm, Nat.add_mul_mod_self_right, Nat.mod_eq_of_lt hx, Nat.add_mul_div_right _ _ hwd, Nat.div_eq_of_lt hx, Nat.zero_add]
      rw [if_neg (by omega)]
      simp only [ok_bind]
      rw [addC_ok (by omega)]
      simp only [ok_bind, Chunks.next_succ]
      refine ⟨⟨s * ch, ch⟩, _, by rw [e1], ⟨s, hs, rfl, rfl⟩, s + 1, k, rfl, rfl, by omega, rfl, ?_, fun _ => ⟨?_, ?_⟩⟩ <;> dsimp only <;> omega

theorem elen_ok (hc : 0 < ch) {n : Nat} {e : EnumPixels} {cs : List (Nat × Nat)} (hr : RelEIt ch w h n e cs) : e.pixels.len = cs.length := by
  obtain ⟨s, k, h1, h2, h3, h4, h5, h6⟩ := hr
  rw [h1, h2, Chunks.len_eq hc, List.length_map, List.length_range']

theorem erow_none (hc : 0 < ch) {n : Nat} {e : EnumRows} (hr : RelERows ch w h n e []) (hn : h + (n + 1) < 2 ^ 32) :
    ∃ e', e.next ch = .ok (none, e') ∧ RelERows ch w h (n + 1) e' [] := by
  obtain ⟨h1, h2, h3, h4⟩ := hr
  have key := rowsNext_ok hc h1
  dsimp only at key
  unfold EnumRows.next
  dsimp only
  rw [addC_ok (by omega)]
  simp only [ok_bind, key]
  exact ⟨_, rfl, h1, h2, fun y ys h => (by cases h), by dsimp only; omega⟩

theorem erow_some (hc : 0 < ch) {n y : Nat} {ys : List Nat} {e : EnumRows} (hr : RelERows ch w h n e (y :: ys)) (hh : h < 2 ^ 32) :
    ∃ it e', e.next ch = .ok (some (y, it), e') ∧ RelEIt ch w h n it (rowCoords w y) ∧ RelERows ch w h n e' ys := by
  obtain ⟨h1, h2, h3, h4⟩ := hr
  obtain ⟨it, c', k1, k2, k3, k4, k5⟩ := rowsNext_ok hc h1
  have hy := h3 y ys rfl
  unfold EnumRows.next
  dsimp only
  rw [hy, addC_ok (by omega)]
  simp only [ok_bind, k1]
  have hle : y * w + w ≤ w * h := by
    have : (y + 1) * w ≤ h * w := Nat.mul_le_mul_right _ k4
    rw [Nat.mul_comm w h]
    rw [Nat.succ_mul] at this; exact this
  refine ⟨_, _, rfl, ⟨y * w, w, k2, rowCoords_eq k3 y, hle, h2, by dsimp only; omega, fun _ => ⟨rfl, Nat.zero_le _⟩⟩, k5, h2, ?_, by dsimp only; omega⟩
  intro y' ys' e1
  rcases h1 with ⟨-, -, h1⟩ | ⟨-, s, k, -, h1, -⟩
  · cases h1
  · cases k with
    | zero => cases h1
    | succ k =>
      rw [List.range'_succ] at h1
      injection h1 with h5 h6
      subst h5
      rw [e1] at h6
      cases k with
      | zero => cases h6
      | succ k =>
        rw [List.range'_succ] at h6
        injection h6 with h7 h8
        rw [h7]

/-- The bounds under which no counter overflows. -/
def Roomy (h n : Nat) (rows : Bool) : Prop := h - 1 + n < 2 ^ 32 ∧ (rows = true → h + n < 2 ^ 32)

theorem estep_ok (hc : 0 < ch) {n : Nat} {s : EHeld α ch} {t : Ideal (Pix α ch)} (hr : ERel w h n s t) (a : Step (Pix α ch))
    (hn : Roomy h (n + polls [(t.step true a).1]) t.rows.isSome) :
    ∃ s', estep s a = .ok ((t.step true a).1, s') ∧ ERel w h (n + polls [(t.step true a).1]) s' (t.step true a).2 ∧
      (t.step true a).2.rows.isSome = t.rows.isSome := by
  obtain ⟨b, rs, its, refs⟩ := s
  obtain ⟨tw, pic, trs, tits, trefs⟩ := t
  obtain ⟨hb, rfl, hrows, hits, hrefs⟩ := hr
  dsimp only at hb hrows hits hrefs
  have hw32 : tw < 2 ^ 32 := by have := hb.inv.w32; rw [hb.width] at this; exact this
  have hh32 : h < 2 ^ 32 := by have := hb.inv.h32; rw [hb.height] at this; exact this
  have full : ERel tw h n ⟨b, rs, its, refs⟩ ⟨tw, pic, trs, tits, trefs⟩ := ⟨hb, rfl, hrows, hits, hrefs⟩
  have its' : LRel (RelEIt ch tw h (n + 1)) its tits := hits.mono fun _ _ => RelEIt.mono (by omega)
  cases a with
  | rowNext =>
    match rs, trs, hrows with
    | none, none, _ => exact ⟨_, rfl, full, rfl⟩
    | some c, some [], hrows =>
      obtain ⟨e', e, hr'⟩ := erow_none hc hrows (hn.2 rfl)
      exact ⟨⟨b, some e', its, refs⟩, by simp only [estep, e, ok_bind]; rfl, ⟨hb, rfl, hr', its', hrefs⟩, rfl⟩
    | some c, some (y :: ys), hrows =>
      obtain ⟨it, e', e, h1, h2⟩ := erow_some hc hrows hh32
      exact ⟨⟨b, some e', its ++ [it], refs⟩, by simp only [estep, e, ok_bind]; rfl, ⟨hb, rfl, h2, hits.push h1, hrefs⟩, rfl⟩
  | rowBack => exact ⟨_, rfl, full, rfl⟩
  | rowLen =>
    match rs, trs, hrows with
    | none, none, _ => exact ⟨_, rfl, full, rfl⟩
    | some c, some ys, hrows => exact ⟨⟨b, some c, its, refs⟩, by simp only [estep, Ideal.step, rowsLen_ok hc hrows.1], full, rfl⟩
  | next i =>
    cases hi : its[i]? with
    | none =>
      refine ⟨⟨b, rs, its, refs⟩, ?_⟩
      simp only [estep, Ideal.step, hi, hits.none hi]
      exact ⟨trivial, full, trivial⟩
    | some c =>
      obtain ⟨cs, hcs, hrel⟩ := hits.some hi
      cases cs with
      | nil =>
        simp only [Ideal.step, hcs] at hn ⊢
        obtain ⟨e', e, hr'⟩ := enext_none hc hrel hn.1 hw32
        refine ⟨⟨b, rs, its.set i e', refs⟩, by simp only [estep, hi, e, ok_bind]; rfl, ?_, trivial⟩
        refine ⟨hb, rfl, ?_, ?_, hrefs⟩
        · match rs, trs, hrows with
          | none, none, _ => trivial
          | some c, some ys, hrows =>
            obtain ⟨k1, k2, k3, k4⟩ := hrows
            exact ⟨k1, k2, k3, Nat.le_succ_of_le k4⟩
        · have := its'.set i hr'
          rw [set_self hcs] at this
          exact this
      | cons q cs =>
        simp only [Ideal.step, hcs] at hn ⊢
        obtain ⟨sl, e', e, h1, h2⟩ := enext_some hrel hh32 hw32
        refine ⟨⟨b, rs, its.set i e', refs ++ [sl]⟩, by simp only [estep, hi, e, ok_bind]; rfl, ?_, trivial⟩
        exact ⟨hb, rfl, hrows, hits.set i h2, hrefs.push h1⟩
  | nextBack i => exact ⟨_, rfl, full, rfl⟩
  | len i =>
    refine ⟨⟨b, rs, its, refs⟩, ?_⟩
    cases hi : its[i]? with
    | none =>
      simp only [estep, Ideal.step, hi, hits.none hi]
      exact ⟨trivial, full, trivial⟩
    | some c =>
      obtain ⟨cs, hcs, hrel⟩ := hits.some hi
      simp only [estep, Ideal.step, hi, hcs, elen_ok hc hrel]
      exact ⟨trivial, full, trivial⟩
  | read k =>
    refine ⟨⟨b, rs, its, refs⟩, ?_⟩
    cases hk : refs[k]? with
    | none =>
      simp only [estep, Ideal.step, hk, hrefs.none hk]
      exact ⟨trivial, full, trivial⟩
    | some s =>
      obtain ⟨c, hcs, hrel⟩ := hrefs.some hk
      simp only [estep, Ideal.step, hk, hcs, read_ok hb hrel, ok_bind]
      exact ⟨trivial, full, trivial⟩
  | write k p =>
    cases hk : refs[k]? with
    | none =>
      refine ⟨⟨b, rs, its, refs⟩, ?_⟩
      simp only [estep, Ideal.step, hk, hrefs.none hk]
      exact ⟨trivial, full, trivial⟩
    | some s =>
      obtain ⟨c, hcs, hrel⟩ := hrefs.some hk
      obtain ⟨b', e, hb'⟩ := write_ok hb hrel p
      refine ⟨⟨b', rs, its, refs⟩, ?_⟩
      simp only [estep, Ideal.step, hk, hcs, e, ok_bind]
      exact ⟨trivial, ⟨hb', rfl, hrows, hits, hrefs⟩, trivial⟩

theorem polls_cons {P : Type} (a : Ans P) (as : List (Ans P)) : polls (a :: as) = polls [a] + polls as := by
  cases a with
  | row y => cases y <;> simp [polls, Nat.add_comm]
  | coord y => cases y <;> simp [polls, Nat.add_comm]
  | _ => simp [polls]

theorem erun_ok (hc : 0 < ch) (ss : List (Step (Pix α ch))) : ∀ {n : Nat} {s : EHeld α ch} {t : Ideal (Pix α ch)}, ERel w h n s t →
    Roomy h (n + polls (t.run true ss).1) t.rows.isSome →
    ∃ b', erun s ss = .ok ((t.run true ss).1, b') ∧ RelBuf w h b' (t.run true ss).2 := by
  induction ss with
  | nil => intro n s t hr _; exact ⟨_, rfl, hr.buf⟩
  | cons a ss ih =>
    intro n s t hr hroom
    simp only [Ideal.run] at hroom ⊢
    rw [polls_cons, ← Nat.add_assoc] at hroom
    obtain ⟨s', e, hr', hsome⟩ := estep_ok hc hr a ⟨by have := hroom.1; omega, fun hs => by have := hroom.2 hs; omega⟩
    obtain ⟨b', e', hb'⟩ := ih hr' (by rw [hsome]; exact hroom)
    exact ⟨b', by simp only [erun, e, e', ok_bind], hb'⟩

/-! ## The start -/

theorem pixels_start {b : ImageBuffer α ch} (hb : b.Inv) (hc : 0 < ch) (hc2 : ch < 256) : pixels b = .ok (Chunks ch 0 (b.width * b.height)) := by
  have hf := hb.fits
  have h64 := hb.len64
  have hlen : imageBufferLen ch b.width b.height = some (b.width * b.height * ch) := by
    rw [imageBufferLen_eq hc2 hb.w32, if_pos (by omega)]
  unfold pixels innerSlice
  rw [hlen]
  simp only [unwrapR, ok_bind]
  rw [if_pos hf]
  simp only [ok_bind]
  have := chunksExact_whole hc 0 (b.width * b.height)
  rw [Nat.zero_mul] at this
  exact this

theorem rows_start {b : ImageBuffer α ch} (hb : b.Inv) (hc : 0 < ch) (hc2 : ch < 256) :
    ∃ c, rows b = .ok c ∧ RelRows ch b.width b.height c (allRows b.width b.height) := by
  have hf := hb.fits
  have h64 := hb.len64
  have hw := hb.w32
  have h1 : b.width * ch < 2 ^ 64 := by
    calc b.width * ch ≤ b.width * 256 := Nat.mul_le_mul_left _ (Nat.le_of_lt hc2)
      _ < 2 ^ 64 := by omega
  unfold rows allRows
  rw [mulC_ok h1]
  simp only [ok_bind]
  by_cases h0 : b.width = 0
  · rw [if_pos (by rw [h0, Nat.zero_mul]), if_pos h0]
    exact ⟨_, rfl, Or.inl ⟨h0, rfl, rfl⟩⟩
  · have hw0 : 0 < b.width := by omega
    have e : b.width * ch * b.height = b.width * b.height * ch := by rw [Nat.mul_assoc, Nat.mul_comm ch, Nat.mul_assoc]
    have hp : 0 < b.width * ch := Nat.mul_pos hw0 hc
    rw [if_neg (by omega), if_neg h0, mulC_ok (by omega)]
    simp only [ok_bind]
    rw [if_pos (by omega)]
    have := chunksExact_whole hp 0 b.height
    rw [Nat.zero_mul, Nat.mul_comm b.height] at this
    exact ⟨_, this, Or.inr ⟨hw0, 0, b.height, rfl, List.range_eq_range' , by omega⟩⟩

end BufIter
end Verif
