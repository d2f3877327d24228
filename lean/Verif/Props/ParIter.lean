import Verif.Proofs.ParIter
import Verif.Props.Buffer

/-!
# C96: the parallel iterators do what the sequential ones do

For every way the scheduler may cut the work (`Split`) and every interleaving of the threads
(`sched`: the order in which the tasks take their single steps - read the pixel, store one sample).
-/

namespace Verif.Par
open Verif ImageBuffer

variable {α : Type} {ch : Nat}

/-- The iterators announce as many items as the image has pixels. -/
theorem C96_len (b : ImageBuffer α ch) (hb : b.Inv) (h0 : 0 < ch) (hc : ch < 256) :
    parLen b = .ok (b.width * b.height) := by
  unfold parLen
  rw [parChunks_ok hb h0 hc]
  simp only [ok_bind]
  rw [List.length_take, Nat.min_eq_left hb.fits, Nat.mul_div_cancel _ h0]

/-- `par_pixels` yields what `pixels` yields, in the same order, however the work is cut. -/
theorem C96_pixels (b : ImageBuffer α ch) (hb : b.Inv) (h0 : 0 < ch) (hc : ch < 256) (t : Split) :
    parPixels b t = b.pixels := by
  unfold parPixels
  rw [parChunks_ok hb h0 hc]
  simp only [ok_bind]
  rw [bridge_eq h0 (fun a c => mapM_hom _ a c) t _ (take64 hb), mapM_pixelItem, pixels_eq hb h0 hc]

theorem zipIdx_mapM (b : ImageBuffer α ch) (hb : b.Inv) (h0 : 0 < ch) (hc : ch < 256) :
    ∃ items, ((⟨b.data.take (b.width * b.height * ch), 0, 0⟩ : Producer α).items ch).mapM
        (enumItem ch b.width) = .ok items ∧ items.length = b.width * b.height ∧
      ∀ x y, x < b.width → y < b.height →
        ∃ p, items[y * b.width + x]? = some (x, y, p) ∧ b.getPixel x y = .ok p := by
  have h1 := hb.fits
  obtain ⟨ps, p1, p2, p3⟩ := pixels_ok hb h0 hc
  rw [pixels_eq hb h0 hc, ← mapM_pixelItem] at p1
  have hlen : ((⟨b.data.take (b.width * b.height * ch), 0, 0⟩ : Producer α).items ch).length =
      b.width * b.height := by
    rw [length_items, List.length_take, Nat.min_eq_left h1, Nat.mul_div_cancel _ h0]
  have hpt : ∀ i, i < b.width * b.height → ∀ it,
      ((⟨b.data.take (b.width * b.height * ch), 0, 0⟩ : Producer α).items ch)[i]? = some it →
      it.number = i := by
    intro i hi it hit
    unfold Producer.items at hit
    rw [List.getElem?_map, List.getElem?_zipIdx, getElem?_chunksExact (by
      rw [List.length_take, Nat.min_eq_left h1, Nat.mul_div_cancel _ h0]; exact hi)] at hit
    simp at hit
    rw [← hit]
  have hall : ∀ it ∈ (⟨b.data.take (b.width * b.height * ch), 0, 0⟩ : Producer α).items ch,
      ∃ p, pixelItem ch it = .ok p := by
    intro it hit
    generalize hL : (⟨b.data.take (b.width * b.height * ch), 0, 0⟩ : Producer α).items ch = L at *
    clear hL hpt hlen p3 p2
    induction L generalizing ps with
    | nil => cases hit
    | cons a L ih =>
      rw [List.mapM_cons] at p1
      obtain ⟨q, hq, p1⟩ := bind_eq_ok.1 p1
      obtain ⟨qs, hqs, p1⟩ := bind_eq_ok.1 p1
      rcases List.mem_cons.1 hit with rfl | h
      · exact ⟨q, hq⟩
      · exact ih qs hqs h
  obtain ⟨ps', q1, q2, q3⟩ := mapM_ok hall
  have hps : ps' = ps := Except.ok.inj (q1.symm.trans p1)
  subst hps
  have hval : ∀ i (hi : i < b.width * b.height), ∃ q, ps'[i]? = some q ∧
      enumItem ch b.width (((⟨b.data.take (b.width * b.height * ch), 0, 0⟩ : Producer α).items ch)[i]) =
        .ok (i % b.width, i / b.width, q) := by
    intro i hi
    refine ⟨ps'[i], by simp, ?_⟩
    unfold enumItem
    rw [q3 i (by omega) (by omega)]
    simp only [ok_bind]
    rw [hpt i hi _ (by simp), coords_ok hb.w32 hb.h32 hi]
    rfl
  obtain ⟨items, i1, i2, i3⟩ := mapM_ok (f := enumItem ch b.width)
    (l := (⟨b.data.take (b.width * b.height * ch), 0, 0⟩ : Producer α).items ch) (by
      intro it hit
      obtain ⟨k, hk, hkl⟩ := List.mem_iff_getElem.1 hit
      obtain ⟨q, -, hq⟩ := hval k (by omega)
      rw [← hkl]
      exact ⟨_, hq⟩)
  refine ⟨items, i1, by omega, ?_⟩
  intro x y hx hy
  have hi := idx_lt hx hy
  obtain ⟨p, r1, r2⟩ := p3 x y hx hy
  obtain ⟨q, s1, s2⟩ := hval _ hi
  have := i3 _ (by omega) (by omega : y * b.width + x < items.length)
  rw [s2] at this
  have hm : (y * b.width + x) % b.width = x := by
    rw [Nat.mul_comm, Nat.mul_add_mod, Nat.mod_eq_of_lt hx]
  have hd : (y * b.width + x) / b.width = y := by
    rw [Nat.mul_comm, Nat.mul_add_div (by omega), Nat.div_eq_of_lt hx, Nat.add_zero]
  refine ⟨p, ?_, r2⟩
  rw [List.getElem?_eq_getElem (by omega), ← Except.ok.inj this, hm, hd]
  rw [r1] at s1
  rw [Option.some.inj s1]

/-- `par_enumerate_pixels` yields every pixel once, with its coordinates, in the order of
`enumerate_pixels`. -/
theorem C96_enumerate (b : ImageBuffer α ch) (hb : b.Inv) (h0 : 0 < ch) (hc : ch < 256) (t : Split) :
    ∃ items, parEnumeratePixels b t = .ok items ∧ items.length = b.width * b.height ∧
      ∀ x y, x < b.width → y < b.height →
        ∃ p, items[y * b.width + x]? = some (x, y, p) ∧ b.getPixel x y = .ok p := by
  unfold parEnumeratePixels
  rw [parChunks_ok hb h0 hc]
  simp only [ok_bind]
  rw [bridge_eq h0 (fun a c => mapM_hom _ a c) t _ (take64 hb)]
  exact zipIdx_mapM b hb h0 hc

/-- `par_pixels().map(f).reduce(e, op)` is the sequential fold, for every associative operation with
left neutral element `e`. -/
theorem C96_reduce {β : Type} (b : ImageBuffer α ch) (hb : b.Inv) (h0 : 0 < ch) (hc : ch < 256)
    (f : Pix α ch → β) (e : β) (op : β → β → β) (ha : ∀ x y z, op (op x y) z = op x (op y z))
    (he : ∀ x, op e x = x) (he' : ∀ x, op x e = x) (t : Split) :
    parReduce b f e op t = (do let ps ← b.pixels; .ok (ps.foldl (fun a q => op a (f q)) e)) := by
  have hfold : ∀ (l : List (Pix α ch)) (a : β),
      l.foldl (fun a q => op a (f q)) a = op a (l.foldl (fun a q => op a (f q)) e) := by
    intro l
    induction l with
    | nil => intro a; simp [he']
    | cons q l ih =>
      intro a
      rw [List.foldl_cons, List.foldl_cons, ih, ih (op e (f q)), he, ha]
  unfold parReduce
  rw [parChunks_ok hb h0 hc]
  simp only [ok_bind]
  rw [bridge_eq h0 _ t _ (take64 hb), mapM_pixelItem, pixels_eq hb h0 hc]
  intro a c
  rw [mapM_hom]
  cases a.mapM (pixelItem ch) with
  | error _ => rfl
  | ok x =>
    cases c.mapM (pixelItem ch) with
    | error _ => rfl
    | ok y =>
      show Except.ok _ = Except.ok _
      rw [List.foldl_append, hfold y]

/-- While the threads run, in any interleaving, nothing panics, and every sample is either still
the old one or the one its own pixel's closure stores. -/
theorem C96_running (b : ImageBuffer α ch) (hb : b.Inv) (h0 : 0 < ch) (hc : ch < 256)
    (g : Nat → Nat → Pix α ch → Pix α ch) (t : Split) (sched : List Nat) :
    ∃ b', parForEach b g t sched = .ok b' ∧ b'.Inv ∧ b'.width = b.width ∧ b'.height = b.height ∧
      b'.data.length = b.data.length ∧
      (∀ k, b.width * b.height * ch ≤ k → b'.data[k]? = b.data[k]?) ∧
      ∀ x y p, x < b.width → y < b.height → b.getPixel x y = .ok p →
        ∃ q, b'.getPixel x y = .ok q ∧ ∀ c : Fin ch,
          q c = if c.val + 2 ≤ sched.count (y * b.width + x) then g x y p c else p c := by
  obtain ⟨ts, t1, t2, t3⟩ := tasks_ok hb h0 hc g t
  obtain ⟨ps, p1, p2, p3⟩ := pixels_ok hb h0 hc
  have hfit := hb.fits
  have hmd : ∀ i, i < b.width * b.height → i % b.width < b.width ∧ i / b.width < b.height ∧
      i / b.width * b.width + i % b.width = i := by
    intro i hi
    have hw : 0 < b.width := Nat.pos_of_ne_zero (fun h => by rw [h] at hi; omega)
    exact ⟨Nat.mod_lt _ hw, Nat.div_lt_of_lt_mul hi, by rw [Nat.mul_comm]; exact Nat.div_add_mod _ _⟩
  obtain ⟨s', e1, e2, e3⟩ := exec_running (ch := ch) (mem0 := b.data) (n := b.width * b.height)
    (G := fun i => (ps[i]?).map (g (i % b.width) (i / b.width))) t2 (by
      intro i hi
      refine ⟨_, t3 i hi, fun p hp => ?_⟩
      obtain ⟨h1, h2, h3⟩ := hmd i hi
      obtain ⟨q, q1, q2⟩ := p3 _ _ h1 h2
      rw [getPixel_eq_ok hb h1 h2, h3] at q2
      rw [h3] at q1
      have : p = q := funext fun c => Option.some.inj ((hp c).symm.trans (q2 c))
      show _ = (ps[i]?).map _
      rw [q1, this]; rfl) hfit sched ⟨b.data, fun _ => 0, fun _ => none⟩
    ⟨rfl, fun _ _ => rfl, fun i _ c h => by simp only at h; omega, fun _ _ _ _ => rfl,
      fun i _ h => by simp only at h; omega, fun i => by simp only; omega⟩
  have hinv : (⟨b.width, b.height, s'.mem⟩ : ImageBuffer α ch).Inv :=
    ⟨hb.w32, hb.h32, by rw [e2.len]; exact hb.len64, by rw [e2.len]; exact hfit⟩
  refine ⟨⟨b.width, b.height, s'.mem⟩, ?_, hinv, rfl, rfl, e2.len, e2.slack, ?_⟩
  · unfold parForEach exec
    rw [t1]; simp only [ok_bind]; rw [e1]; rfl
  · intro x y p hx hy hp
    have hi := idx_lt hx hy
    have hpc := e3 _ hi
    simp only [Nat.zero_add] at hpc
    have hm : (y * b.width + x) % b.width = x := by
      rw [Nat.mul_comm, Nat.mul_add_mod, Nat.mod_eq_of_lt hx]
    have hd : (y * b.width + x) / b.width = y := by
      rw [Nat.mul_comm, Nat.mul_add_div (by omega), Nat.div_eq_of_lt hx, Nat.add_zero]
    obtain ⟨q, q1, q2⟩ := p3 x y hx hy
    have hq : q = p := Except.ok.inj (q2.symm.trans hp)
    subst hq
    refine ⟨fun c => if c.val + 2 ≤ sched.count (y * b.width + x) then g x y q c else q c, ?_, fun c => rfl⟩
    rw [getPixel_eq_ok hinv hx hy]
    intro c
    have hc2 := c.isLt
    show s'.mem[_]? = _
    by_cases h : c.val + 2 ≤ sched.count (y * b.width + x)
    · rw [if_pos h]
      show s'.mem[(y * b.width + x) * ch + c.val]? = _
      rw [e2.done _ hi c (by omega)]
      simp only [q1, hm, hd, Option.map_some]
    · rw [if_neg h]
      show s'.mem[(y * b.width + x) * ch + c.val]? = _
      rw [e2.todo _ hi c (by omega)]
      exact (getPixel_eq_ok hb hx hy q).1 hp c

/-- Every task has taken all its steps: `for_each` has returned. -/
def Finished (b : ImageBuffer α ch) (sched : List Nat) : Prop :=
  ∀ i, i < b.width * b.height → ch + 1 ≤ sched.count i

/-- `par_enumerate_pixels_mut().for_each` (and `par_pixels_mut`, with a closure that ignores the
coordinates): every pixel is updated once, with its own coordinates, and nothing else is touched. -/
theorem C96_for_each (b : ImageBuffer α ch) (hb : b.Inv) (h0 : 0 < ch) (hc : ch < 256)
    (g : Nat → Nat → Pix α ch → Pix α ch) (t : Split) (sched : List Nat) (hs : Finished b sched) :
    ∃ b', parForEach b g t sched = .ok b' ∧ b'.Inv ∧ b'.width = b.width ∧ b'.height = b.height ∧
      b'.data.length = b.data.length ∧
      (∀ k, b.width * b.height * ch ≤ k → b'.data[k]? = b.data[k]?) ∧
      ∀ x y p, x < b.width → y < b.height → b.getPixel x y = .ok p →
        b'.getPixel x y = .ok (g x y p) := by
  obtain ⟨b', h1, h2, h3, h4, h5, h6, h7⟩ := C96_running b hb h0 hc g t sched
  refine ⟨b', h1, h2, h3, h4, h5, h6, fun x y p hx hy hp => ?_⟩
  obtain ⟨q, q1, q2⟩ := h7 x y p hx hy hp
  rw [q1]
  congr 1
  funext c
  have := hs _ (idx_lt hx hy)
  rw [q2 c, if_pos (by omega)]

/-- Two buffers with the same pixels and nothing but pixels are equal. -/
theorem eq_of_pixels {b b' : ImageBuffer α ch} (hb : b.Inv) (hb' : b'.Inv) (h0 : 0 < ch)
    (hw : b'.width = b.width) (hh : b'.height = b.height) (hl : b'.data.length = b.data.length)
    (hs : ∀ k, b.width * b.height * ch ≤ k → b'.data[k]? = b.data[k]?)
    (hp : ∀ x y, x < b.width → y < b.height → ∃ p, b.getPixel x y = .ok p ∧ b'.getPixel x y = .ok p) :
    b' = b := by
  have hd : b'.data = b.data := by
    apply List.ext_getElem?
    intro k
    by_cases hk : k < b.width * b.height * ch
    · have hi : k / ch < b.width * b.height := by
        rw [Nat.mul_comm] at hk; exact Nat.div_lt_of_lt_mul hk
      have hw0 : 0 < b.width := Nat.pos_of_ne_zero (fun h => by
        rw [h, Nat.zero_mul] at hi; exact absurd hi (Nat.not_lt_zero _))
      have hx := Nat.mod_lt (k / ch) hw0
      have hy : k / ch / b.width < b.height := Nat.div_lt_of_lt_mul hi
      obtain ⟨p, p1, p2⟩ := hp _ _ hx hy
      rw [getPixel_eq_ok hb hx hy] at p1
      rw [getPixel_eq_ok hb' (by rw [hw]; exact hx) (by rw [hh]; exact hy), hw] at p2
      have e1 : k / ch / b.width * b.width + k / ch % b.width = k / ch := by
        rw [Nat.mul_comm]; exact Nat.div_add_mod _ _
      have e2 : k / ch * ch + k % ch = k := by rw [Nat.mul_comm]; exact Nat.div_add_mod _ _
      have c1 := p1 ⟨k % ch, Nat.mod_lt _ h0⟩
      have c2 := p2 ⟨k % ch, Nat.mod_lt _ h0⟩
      simp only [e1, e2] at c1 c2
      rw [c1, c2]
    · exact hs k (by omega)
  cases b; cases b'
  simp only at hw hh hd
  subst hw hh hd
  rfl

/-- The result does not depend on the scheduler: two runs agree. -/
theorem C96_deterministic (b : ImageBuffer α ch) (hb : b.Inv) (h0 : 0 < ch) (hc : ch < 256)
    (g : Nat → Nat → Pix α ch → Pix α ch) (t t' : Split) (sched sched' : List Nat)
    (hs : Finished b sched) (hs' : Finished b sched') :
    parForEach b g t sched = parForEach b g t' sched' := by
  obtain ⟨c, h1, h2, h3, h4, h5, h6, h7⟩ := C96_for_each b hb h0 hc g t sched hs
  obtain ⟨c', k1, k2, k3, k4, k5, k6, k7⟩ := C96_for_each b hb h0 hc g t' sched' hs'
  rw [h1, k1]
  congr 1
  apply eq_of_pixels k2 h2 h0 (by omega) (by omega) (by omega)
  · intro k hk
    rw [k3, k4] at hk
    rw [h6 k hk, k6 k hk]
  · intro x y hx hy
    rw [k3] at hx
    rw [k4] at hy
    obtain ⟨ps, -, -, p3⟩ := pixels_ok hb h0 hc
    obtain ⟨p, -, hp⟩ := p3 x y hx hy
    exact ⟨_, k7 x y p hx hy hp, h7 x y p hx hy hp⟩

/-- `from_par_fn` is `from_fn`. -/
theorem C96_from_par_fn (z : α) (w h : Nat) (f : Nat → Nat → Pix α ch) (h0 : 0 < ch) (hc : ch < 256)
    (hw : w < 2 ^ 32) (hh : h < 2 ^ 32) (t : Split) (sched : List Nat)
    (hs : ∀ i, i < w * h → ch + 1 ≤ sched.count i) :
    fromParFn z w h f t sched = fromFn z w h f := by
  by_cases h64 : w * h * ch < 2 ^ 64
  · obtain ⟨b, f1, f2, f3, f4, f5, f6⟩ := C06_from_fn z w h f h0 hc hw hh h64
    have hi : (⟨w, h, List.replicate (w * h * ch) z⟩ : ImageBuffer α ch).Inv := new_inv hw hh h64
    obtain ⟨c, h1, h2, h3, h4, h5, h6, h7⟩ := C96_for_each _ hi h0 hc (fun x y _ => f x y) t sched hs
    unfold fromParFn
    rw [new_ok hc hw h64, f1]
    simp only [ok_bind]
    rw [h1]
    congr 1
    apply eq_of_pixels f2 h2 h0 (by simp only at h3; omega) (by simp only at h4; omega)
      (by rw [h5, f5]; simp)
    · intro k hk
      rw [f3, f4] at hk
      rw [List.getElem?_eq_none (by rw [h5]; simp; omega), List.getElem?_eq_none (by omega)]
    · intro x y hx hy
      rw [f3] at hx
      rw [f4] at hy
      obtain ⟨ps, -, -, p3⟩ := pixels_ok hi h0 hc
      obtain ⟨p, -, hp⟩ := p3 x y hx hy
      exact ⟨_, f6 x y hx hy, h7 x y p hx hy hp⟩
  · unfold fromParFn fromFn
    rw [C06_new_overflow z w h hc hw h64]
    rfl

/-! Non-vacuity: a 3×2 image of one channel, cut into three pieces; a 2×1 image of two channels
with the two threads interleaved sample by sample. -/

example : (do
      let l ← parEnumeratePixels (⟨3, 2, [1, 2, 3, 4, 5, 6, 99]⟩ : ImageBuffer Nat 1)
        (.node 4 (.node 1 .leaf .leaf) .leaf)
      .ok (l.map fun q => (q.1, q.2.1, q.2.2.toList)) : R _) =
    .ok [(0, 0, [1]), (1, 0, [2]), (2, 0, [3]), (0, 1, [4]), (1, 1, [5]), (2, 1, [6])] := by
  decide +kernel

example : Finished (⟨2, 1, [0, 0, 0, 0, 7]⟩ : ImageBuffer Nat 2) [1, 0, 1, 0, 0, 1] := by
  intro i hi
  have : i = 0 ∨ i = 1 := by simp only at hi; omega
  rcases this with rfl | rfl <;> decide

example : parForEach (⟨2, 1, [5, 6, 7, 8, 9]⟩ : ImageBuffer Nat 2)
    (fun x _ p c => p c + 10 * (x + 1)) (.node 1 .leaf .leaf) [1, 0, 1, 0, 0, 1] =
    .ok ⟨2, 1, [15, 16, 27, 28, 9]⟩ := by decide +kernel

-- half-way through: the second sample of each pixel is still the old one
example : parForEach (⟨2, 1, [5, 6, 7, 8, 9]⟩ : ImageBuffer Nat 2)
    (fun x _ p c => p c + 10 * (x + 1)) (.node 1 .leaf .leaf) [1, 0, 1, 0] =
    .ok ⟨2, 1, [15, 6, 27, 8, 9]⟩ := by decide +kernel

end Verif.Par
