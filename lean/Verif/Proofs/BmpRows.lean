import Verif.Proofs.Bmp

/-!
# BMP: what the row loops compute
-/

namespace Verif
namespace Bmp

theorem rowLoop_chain {β : Type} {f : List UInt8 → List UInt8 → R (List UInt8 × List UInt8)} {n : Nat} (e o : β → List UInt8)
    (t : List UInt8) : ∀ (xs : List β) (rows : List (List UInt8)) (_ : ∀ r ∈ rows, r.length = n) (_ : rows.length = xs.length)
    (_ : ∀ x ∈ xs, ∀ row t, row.length = n → f row (e x ++ t) = .ok (o x, t)),
    rowLoop rows f (xs.flatMap e ++ t) = .ok (xs.map o, t) := by
  suffices H : ∀ (xs : List β) (rows : List (List UInt8)) (acc : List (List UInt8)), (∀ r ∈ rows, r.length = n) →
      rows.length = xs.length → (∀ x ∈ xs, ∀ row t, row.length = n → f row (e x ++ t) = .ok (o x, t)) →
      forList rows (fun row (st : List (List UInt8) × List UInt8) => do
        let (row, s) ← f row st.2
        Except.ok (st.1 ++ [row], s)) (acc, xs.flatMap e ++ t) = .ok (acc ++ xs.map o, t) from
    fun xs rows h1 h2 h3 => by unfold rowLoop; rw [H xs rows [] h1 h2 h3]; rfl
  intro xs
  induction xs with
  | nil =>
    intro rows acc _ h2 _
    match rows, h2 with
    | [], _ => simp [forList]
  | cons x xs ih =>
    intro rows acc h1 h2 h3
    match rows, h2 with
    | row :: rows, h2 =>
      rw [forList, List.flatMap_cons, List.append_assoc]
      dsimp only
      rw [h3 x (by simp) row _ (h1 row (by simp)), ok_bind, ok_bind]
      rw [ih rows _ (fun r hr => h1 r (by simp [hr])) (by simpa using h2) (fun y hy => h3 y (by simp [hy]))]
      simp

theorem withRows_eq {f : List UInt8 → List UInt8 → R (List UInt8 × List UInt8)} {w h c : Nat}
    (hw : 1 ≤ w ∧ w ≤ 65535) (hh : h < 2 ^ 31) (hc : 1 ≤ c ∧ c ≤ 4) {buf : List UInt8} (hb : buf.length = w * h * c)
    (td : Bool) (s : List UInt8) :
    withRows buf w h c td f s = (if td then do
      let (rows, s) ← rowLoop (chunksOf (w * c) buf) f s
      Except.ok (rows.flatten, s)
    else do
      let (rows, s) ← rowLoop (chunksOf (w * c) buf).reverse f s
      Except.ok (rows.reverse.flatten, s)) := by
  have e1 : buf.length = h * (w * c) := by rw [hb, Nat.mul_comm w h, Nat.mul_assoc]
  have hpos : 0 < w * c := Nat.mul_pos hw.1 hc.1
  have b1 : w * c ≤ 65535 * 4 := Nat.mul_le_mul hw.2 hc.2
  have b2 : h * (w * c) ≤ 2 ^ 31 * (65535 * 4) := Nat.mul_le_mul (by omega) b1
  unfold withRows checkedMul
  rw [Nat.mul_comm c w, if_pos (by omega)]
  dsimp only [unwrapR]
  rw [ok_bind, Nat.mul_comm (w * c) h, if_pos (by omega)]
  dsimp only
  rw [ok_bind, decide_eq_true e1, assertR_true, ok_bind, decide_eq_true (by omega), assertR_true, ok_bind]

/-- The rows loop on a buffer of `height` rows: `xs` are the rows from the top. -/
theorem withRows_chain {β : Type} {f : List UInt8 → List UInt8 → R (List UInt8 × List UInt8)} {w h c : Nat}
    (hw : 1 ≤ w ∧ w ≤ 65535) (hh : h < 2 ^ 31) (hc : 1 ≤ c ∧ c ≤ 4) {buf : List UInt8} (hb : buf.length = w * h * c)
    (e o : β → List UInt8) (t : List UInt8) (xs : List β) (hx : xs.length = h)
    (hf : ∀ x ∈ xs, ∀ row t, row.length = w * c → f row (e x ++ t) = .ok (o x, t)) :
    withRows buf w h c false f (xs.reverse.flatMap e ++ t) = .ok (xs.flatMap o, t) ∧
    withRows buf w h c true f (xs.flatMap e ++ t) = .ok (xs.flatMap o, t) := by
  have e1 : buf.length = h * (w * c) := by rw [hb, Nat.mul_comm w h, Nat.mul_assoc]
  have hpos : 0 < w * c := Nat.mul_pos hw.1 hc.1
  obtain ⟨r1, r2⟩ := rows_lengths hpos e1
  rw [withRows_eq hw hh hc hb, withRows_eq hw hh hc hb]
  constructor
  · rw [if_neg (by simp), rowLoop_chain e o t xs.reverse (chunksOf (w * c) buf).reverse (n := w * c)
      (fun r hr => r1 r (by simpa using hr)) (by simp [r2, hx]) (fun x hx => hf x (by simpa using hx)), ok_bind]
    dsimp only
    rw [List.map_reverse, List.reverse_reverse, List.flatMap_def]
  · rw [if_pos rfl, rowLoop_chain e o t xs (chunksOf (w * c) buf) (n := w * c) r1 (by simp [r2, hx]) hf, ok_bind]
    dsimp only
    rw [List.flatMap_def]

theorem pixelLoop_chain {β : Type} {f : List UInt8 → List UInt8 → R (List UInt8)} {n c : Nat} (e o : β → List UInt8)
    (t : List UInt8) : ∀ (xs : List β) (ps : List (List UInt8)) (_ : ∀ p ∈ ps, p.length = c) (_ : ps.length = xs.length)
    (_ : ∀ x ∈ xs, (e x).length = n ∧ ∀ p, p.length = c → f (e x) p = .ok (o x)),
    pixelLoop n f ps (xs.flatMap e ++ t) = .ok (xs.flatMap o, t) := by
  suffices H : ∀ (xs : List β) (ps : List (List UInt8)) (acc : List UInt8), (∀ p ∈ ps, p.length = c) →
      ps.length = xs.length → (∀ x ∈ xs, (e x).length = n ∧ ∀ p, p.length = c → f (e x) p = .ok (o x)) →
      forList ps (fun p (st : List UInt8 × List UInt8) => do
        let (b, s) ← readExact n st.2
        let p ← f b p
        Except.ok (st.1 ++ p, s)) (acc, xs.flatMap e ++ t) = .ok (acc ++ xs.flatMap o, t) from
    fun xs ps h1 h2 h3 => by unfold pixelLoop; rw [H xs ps [] h1 h2 h3]; rfl
  intro xs
  induction xs with
  | nil =>
    intro ps acc _ h2 _
    match ps, h2 with
    | [], _ => simp [forList]
  | cons x xs ih =>
    intro ps acc h1 h2 h3
    match ps, h2 with
    | p :: ps, h2 =>
      obtain ⟨k1, k2⟩ := h3 x (by simp)
      rw [forList, List.flatMap_cons, List.append_assoc]
      dsimp only
      rw [readExact_append' k1, ok_bind]
      dsimp only
      rw [k2 p (h1 p (by simp)), ok_bind, ok_bind]
      rw [ih ps _ (fun r hr => h1 r (by simp [hr])) (by simpa using h2) (fun y hy => h3 y (by simp [hy]))]
      simp

/-- The colour with an index; black for an index beyond the palette. -/
def lookup (pal : List Rgb) (i : Nat) : Rgb := pal.getD i (0, 0, 0)

/-- The three samples of a colour. -/
def rgbBytes (c : Rgb) : List UInt8 := [c.1, c.2.1, c.2.2]

theorem setRun_done {pal : List Rgb} : ∀ (is : List Nat) (it : PixIter), (∀ i ∈ is, i < pal.length) →
    (∀ p ∈ it.rest, p.length = 3) →
    setRun pal is it = .ok (decide (is.length ≤ it.rest.length),
      ⟨it.done ++ (is.take it.rest.length).map (fun i => rgbBytes (lookup pal i)), it.rest.drop is.length⟩) := by
  intro is
  induction is with
  | nil => intro it _ _; simp [setRun]
  | cons i is ih =>
    intro it hi h
    obtain ⟨done, rest⟩ := it
    match rest with
    | [] => simp [setRun]
    | p :: ps =>
      have hp : p.length = 3 := h p (by simp)
      have hlt : i < pal.length := hi i (by simp)
      match p, hp with
      | [a, b, c], _ =>
        unfold setRun
        dsimp only
        rw [List.getElem?_eq_getElem hlt]
        dsimp only [unwrapR]
        rw [ok_bind]
        dsimp only [setPixel]
        rw [ok_bind, ih _ (fun j hj => hi j (by simp [hj])) (fun q hq => h q (by simp [hq]))]
        have e : rgbBytes (lookup pal i) = [pal[i].1, pal[i].2.1, pal[i].2.2] := by
          unfold rgbBytes lookup
          rw [List.getD_eq_getElem?_getD, List.getElem?_eq_getElem hlt]; rfl
        simp [e]

theorem encodeRows_ok {β : Type} {h pad : Nat} {f : Nat → R (List UInt8)} (g : β → List UInt8) (xs : List β) (hx : xs.length = h)
    (hf : ∀ r (hr : r < xs.length), f r = .ok (g xs[r])) :
    encodeRows h pad f = .ok (xs.reverse.flatMap fun x => g x ++ rowPad pad) := by
  unfold encodeRows
  obtain ⟨s, h1, h2⟩ := forRangeRev_inv (n := h) (f := fun row (out : List UInt8) => do
    let d ← f row
    Except.ok (out ++ d ++ rowPad pad)) (s := [])
    (fun i s => s = (xs.drop i).reverse.flatMap fun x => g x ++ rowPad pad) (by subst hx; simp) (by
      intro i hi s hs
      rw [hf i (by omega), ok_bind]
      refine ⟨_, rfl, ?_⟩
      rw [hs, List.drop_eq_getElem_cons (show i < xs.length by omega), List.reverse_cons, List.flatMap_append,
        List.append_assoc]
      simp only [List.flatMap_cons, List.flatMap_nil, List.append_nil])
  rw [h1, h2]; simp

end Bmp
end Verif
