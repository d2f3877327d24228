import Verif.Props.PnmAscii

/-!
# PNM: truncated files (C54), ASCII bitmaps (C40), and the checks of the encoder
-/

namespace Verif
namespace Pnm

/-! ## Decimal prefixes -/

theorem decLoop_head : ∀ fuel n, n < fuel → 0 < n → ∃ d r, decLoop fuel n = d :: r ∧ 48 < d.toNat := by
  intro fuel
  induction fuel with
  | zero => intro n h; omega
  | succ fuel ih =>
    intro n hn h0
    simp only [decLoop]
    by_cases h : n < 10
    · rw [if_pos h]
      exact ⟨_, _, rfl, by rw [digit_byte h]; omega⟩
    · rw [if_neg h]
      obtain ⟨d, r, h1, h2⟩ := ih (n / 10) (by omega) (by omega)
      rw [h1]
      exact ⟨d, _, rfl, h2⟩

theorem decVal_append (acc : Nat) (a b : List UInt8) : decVal acc (a ++ b) = decVal (decVal acc a) b := by
  simp [decVal, List.foldl_append]

/-- The value of a non-empty prefix of the decimal digits of a positive number. -/
theorem decVal_prefix {n : Nat} (h0 : 0 < n) {p : List UInt8} (hp : p <+: dec n) (hne : p ≠ []) :
    1 ≤ decVal 0 p ∧ decVal 0 p ≤ n := by
  obtain ⟨q, hq⟩ := hp
  obtain ⟨d, r, h1, h2⟩ := decLoop_head (n + 1) n (by omega) h0
  constructor
  · cases p with
    | nil => exact absurd rfl hne
    | cons b p =>
      have : b = d := by
        have := hq.trans h1
        simp at this; exact this.1
      subst this
      have := decVal_ge p (0 * 10 + (b.toNat - 48))
      simp only [decVal, List.foldl_cons] at *
      omega
  · have := decVal_ge q (decVal 0 p)
    rw [← decVal_append, hq, dec_val] at this
    exact this

/-- Reading a number from a cut text: an error, or a smaller positive number and nothing left. -/
theorem nextU32_cut {n : Nat} (h : n < 2 ^ 32) (h0 : 0 < n) {p : List UInt8} (hp : p <+: dec n) :
    nextU32 p = errR .io ∨ ∃ m, nextU32 p = .ok (m, []) ∧ 1 ≤ m ∧ m ≤ n := by
  by_cases hne : p = []
  · subst hne; left; rfl
  · right
    obtain ⟨h1, h2⟩ := decVal_prefix h0 hp hne
    refine ⟨decVal 0 p, ?_, h1, h2⟩
    have hd : ∀ b ∈ p, IsDigit b := fun b hb => dec_digit (hp.subset hb)
    unfold nextU32 nextString
    rw [nextStringLoop_eof p [] (fun b hb => (hd b hb).tok) (by simpa using hne)]
    simp only [List.nil_append, ok_bind]
    rw [parseU32_digits hne hd (by omega)]

theorem prefix_append_cases {α : Type} {p a b : List α} (h : p <+: a ++ b) : p <+: a ∨ ∃ q, p = a ++ q ∧ q <+: b := by
  rcases List.prefix_or_prefix_of_prefix h (List.prefix_append a b) with h' | h'
  · exact .inl h'
  · obtain ⟨q, hq⟩ := h'
    refine .inr ⟨q, hq.symm, ?_⟩
    rw [← hq] at h
    exact (List.prefix_append_right_inj _).1 h

theorem prefix_cons_cases {α : Type} {p b : List α} {c : α} (h : p <+: c :: b) : p = [] ∨ ∃ q, p = c :: q ∧ q <+: b := by
  cases p with
  | nil => exact .inl rfl
  | cons x p =>
    obtain ⟨h1, h2⟩ := List.cons_prefix_cons.1 h
    exact .inr ⟨p, by rw [h1], h2⟩

/-- Reading a number and its separator from a cut text. -/
theorem nextU32_cut' {n : Nat} (h : n < 2 ^ 32) (h0 : 0 < n) {c : UInt8} (hc : isSpace c = true) {p s : List UInt8}
    (hp : p <+: dec n ++ c :: s) :
    nextU32 p = errR .io ∨ (∃ m, nextU32 p = .ok (m, []) ∧ 1 ≤ m ∧ m ≤ n) ∨ ∃ q, nextU32 p = .ok (n, q) ∧ q <+: s := by
  rcases prefix_append_cases hp with hp | ⟨q, rfl, hq⟩
  · rcases nextU32_cut h h0 hp with h | h
    · exact .inl h
    · exact .inr (.inl h)
  · rcases prefix_cons_cases hq with rfl | ⟨q, rfl, hq'⟩
    · rw [List.append_nil]
      rcases nextU32_cut h h0 (List.prefix_refl _) with h | h
      · exact .inl h
      · exact .inr (.inl h)
    · exact .inr (.inr ⟨q, nextU32_dec h hc q, hq'⟩)

/-! ## Cut headers -/

/-- A header of the same kind with a positive, not larger height or maximal value. -/
def Smaller : Header → Header → Prop
  | .bitmap e' h' w', .bitmap e h w => e' = e ∧ w' = w ∧ 1 ≤ h' ∧ h' ≤ h
  | .graymap e' h' w' m', .graymap e h w m => e' = e ∧ w' = w ∧ h' = h ∧ m' ≤ m
  | .pixmap e' h' w' m', .pixmap e h w m => e' = e ∧ w' = w ∧ h' = h ∧ m' ≤ m
  | .arbitrary h' w' d' m' t', .arbitrary h w d m t => h' = h ∧ w' = w ∧ d' = d ∧ m' = m ∧ t' = t
  | _, _ => False

/-- What reading a cut header gives: an error, or a smaller header and nothing left. -/
def CutHeader (h : Header) (r : R (Header × List UInt8)) : Prop :=
  (∃ e, r = errR e) ∨ ∃ h', r = .ok (h', []) ∧ Smaller h' h

theorem nextU32_nil : nextU32 [] = errR .io := rfl

theorem readBitmapHeader_cut {e : Enc} {h w : Nat} (hh : h < 2 ^ 32) (hw : w < 2 ^ 32) (h1 : 1 ≤ h) (w1 : 1 ≤ w)
    {p : List UInt8} (hp : p <+: 10 :: (dec w ++ 32 :: (dec h ++ [10]))) :
    CutHeader (.bitmap e h w) (readBitmapHeader e p) := by
  unfold readBitmapHeader
  rcases prefix_cons_cases hp with rfl | ⟨p, rfl, hp'⟩
  · exact .inl ⟨.io, rfl⟩
  rw [nextU32_newline]
  rcases nextU32_cut' (c := 32) hw w1 (by decide) hp' with g | ⟨x, g, x1, x2⟩ | ⟨q, g, hq⟩
  · exact .inl ⟨.io, by rw [g]; rfl⟩
  · exact .inl ⟨.io, by rw [g]; rfl⟩
  · rw [g]
    simp only [ok_bind]
    rcases nextU32_cut' (c := 10) hh h1 (by decide) hq with g | ⟨x, g, x1, x2⟩ | ⟨q', g, hq'⟩
    · exact .inl ⟨.io, by rw [g]; rfl⟩
    · exact .inr ⟨.bitmap e x w, by rw [g]; rfl, rfl, rfl, x1, x2⟩
    · rw [g, List.eq_nil_of_prefix_nil hq']
      exact .inr ⟨_, rfl, rfl, rfl, h1, Nat.le_refl _⟩

theorem readPixmapHeader_cut {mk : Enc → Nat → Nat → Nat → Header} {e : Enc} {h w m : Nat} (hh : h < 2 ^ 32) (hw : w < 2 ^ 32)
    (hm : m < 2 ^ 32) (h1 : 1 ≤ h) (w1 : 1 ≤ w) (m1 : 1 ≤ m) (hmk : mk = .graymap ∨ mk = .pixmap)
    {p : List UInt8} (hp : p <+: 10 :: (dec w ++ 32 :: (dec h ++ 32 :: (dec m ++ [10])))) :
    CutHeader (mk e h w m) (readPixmapHeader mk e p) := by
  unfold readPixmapHeader
  rcases prefix_cons_cases hp with rfl | ⟨p, rfl, hp'⟩
  · exact .inl ⟨.io, rfl⟩
  rw [nextU32_newline]
  rcases nextU32_cut' (c := 32) hw w1 (by decide) hp' with g | ⟨x, g, x1, x2⟩ | ⟨q, g, hq⟩
  · exact .inl ⟨.io, by rw [g]; rfl⟩
  · exact .inl ⟨.io, by rw [g]; rfl⟩
  rw [g]
  simp only [ok_bind]
  rcases nextU32_cut' (c := 32) hh h1 (by decide) hq with g | ⟨x, g, x1, x2⟩ | ⟨q', g, hq'⟩
  · exact .inl ⟨.io, by rw [g]; rfl⟩
  · exact .inl ⟨.io, by rw [g]; rfl⟩
  rw [g]
  simp only [ok_bind]
  have fin : ∀ x, x ≤ m → CutHeader (mk e h w m) (Except.ok (mk e h w x, [])) := by
    intro x hx
    refine .inr ⟨_, rfl, ?_⟩
    rcases hmk with rfl | rfl <;> exact ⟨rfl, rfl, rfl, hx⟩
  rcases nextU32_cut' (c := 10) hm m1 (by decide) hq' with g | ⟨x, g, -, xm⟩ | ⟨q'', g, hq''⟩
  · exact .inl ⟨.io, by rw [g]; rfl⟩
  · rw [g]; exact fin x xm
  · rw [g, List.eq_nil_of_prefix_nil hq'']; exact fin m (Nat.le_refl _)


/-! ## Cut PAM headers -/

theorem pamLoop_nil (fuel : Nat) (st : PamState) : pamLoop (fuel + 1) [] st = errR .decoding := rfl

/-- A line that was cut before its end and does not start with `E`: an error. -/
theorem pamLoop_cut_line {fuel : Nat} {l : List UInt8} {st : PamState} (hl : ∀ b ∈ l, IsLineChar b)
    (hE : ∀ b r, l = b :: r → b ≠ 69 ∧ b ≠ 35 ∧ isSpace b = false) : ∃ e, pamLoop (fuel + 2) l st = errR e := by
  rw [pamLoop_succ, nextLine_eof hl]
  simp only [ok_bind]
  cases l with
  | nil => exact ⟨.decoding, rfl⟩
  | cons b r =>
    obtain ⟨e1, e2, e3⟩ := hE b r rfl
    have hany : ((b :: r).any fun b => decide (b.toNat ≥ 128)) = false := by
      rw [List.any_eq_false]
      intro x hx
      have := (hl x hx).2
      simp only [decide_eq_true_eq]; omega
    dsimp only
    rw [if_neg e2, hany]
    simp only [Bool.false_eq_true, if_false]
    have hp : pamLine (b :: r) st = pamDispatch ((b :: r).take (((b :: r).findIdx? isSpace).getD (b :: r).length))
        ((b :: r).drop (((b :: r).findIdx? isSpace).getD (b :: r).length)) st := by
      unfold pamLine
      rw [List.dropWhile_cons_of_neg (by simp [e3])]
      dsimp only
      have : (((b :: r).findIdx? isSpace).getD (b :: r).length) ≤ (b :: r).length := by
        rcases h : (b :: r).findIdx? isSpace with _ | i
        · simp
        · have := (List.findIdx?_eq_some_iff_getElem.1 h).1
          simp only [Option.getD_some]; omega
      rw [decide_eq_true this, assertR_true, ok_bind]
    rw [hp]
    have hpos : 0 < ((b :: r).findIdx? isSpace).getD (b :: r).length := by
      rcases h : (b :: r).findIdx? isSpace with _ | i
      · simp
      · obtain ⟨h1, h2, -⟩ := List.findIdx?_eq_some_iff_getElem.1 h
        simp only [Option.getD_some]
        apply Nat.pos_of_ne_zero
        rintro rfl
        simp [e3] at h2
    generalize hk : ((b :: r).findIdx? isSpace).getD (b :: r).length = k at *
    obtain ⟨k, rfl⟩ : ∃ j, k = j + 1 := ⟨k - 1, by omega⟩
    rw [List.take_succ_cons]
    have hne : b :: r.take k ≠ kwEndhdr := by
      intro h
      unfold kwEndhdr at h
      exact e1 (List.cons.inj h).1
    generalize (b :: r).drop (k + 1) = rest
    generalize b :: r.take k = ident at *
    have main : (∃ e, pamDispatch ident rest st = errR e) ∨ ∃ st', pamDispatch ident rest st = .ok (some st') := by
      have sv : ∀ o, (∃ e, parseSingleValueLine o rest = errR e) ∨ ∃ v, parseSingleValueLine o rest = .ok v := by
        intro o
        unfold parseSingleValueLine
        split
        · exact .inl ⟨_, rfl⟩
        · split
          · exact .inr ⟨_, rfl⟩
          · exact .inl ⟨_, rfl⟩
      unfold pamDispatch
      rw [if_neg hne]
      split
      · rcases sv st.height with ⟨e, h⟩ | ⟨v, h⟩ <;> rw [h]
        · exact .inl ⟨e, rfl⟩
        · exact .inr ⟨_, rfl⟩
      split
      · rcases sv st.width with ⟨e, h⟩ | ⟨v, h⟩ <;> rw [h]
        · exact .inl ⟨e, rfl⟩
        · exact .inr ⟨_, rfl⟩
      split
      · rcases sv st.depth with ⟨e, h⟩ | ⟨v, h⟩ <;> rw [h]
        · exact .inl ⟨e, rfl⟩
        · exact .inr ⟨_, rfl⟩
      split
      · rcases sv st.maxval with ⟨e, h⟩ | ⟨v, h⟩ <;> rw [h]
        · exact .inl ⟨e, rfl⟩
        · exact .inr ⟨_, rfl⟩
      split
      · right
        split <;> exact ⟨_, rfl⟩
      · exact .inl ⟨_, rfl⟩
    rcases main with ⟨e, h⟩ | ⟨st', h⟩
    · rw [h]; exact ⟨e, rfl⟩
    · rw [h]; exact ⟨.decoding, rfl⟩

/-- One line of a cut PAM header. -/
theorem pamLoop_cut {fuel : Nat} {kw t s p : List UInt8} {st st' : PamState} (hk : ∀ b ∈ kw, IsTok b) (hne : kw ≠ [])
    (hE : kw.head? ≠ some 69) (ht : ∀ b ∈ t, IsTok b) (h : pamDispatch kw (32 :: t) st = .ok (some st'))
    (hp : p <+: kw ++ (32 :: (t ++ 10 :: s))) :
    (∃ e, pamLoop (fuel + 2) p st = errR e) ∨
      ∃ q, q <+: s ∧ pamLoop (fuel + 2) p st = pamLoop (fuel + 1) q st' ∧ p = kw ++ (32 :: (t ++ 10 :: q)) := by
  have hline : ∀ b ∈ kw ++ 32 :: t, IsLineChar b := by
    intro b hb
    rcases List.mem_append.1 hb with hb | hb
    · exact (hk b hb).lineChar
    · rcases List.mem_cons.1 hb with rfl | hb
      · exact ⟨by decide, by decide⟩
      · exact (ht b hb).lineChar
  have cut : ∀ l, l <+: kw ++ 32 :: t → ∃ e, pamLoop (fuel + 2) l st = errR e := by
    intro l hl
    refine pamLoop_cut_line (fun b hb => hline b (hl.subset hb)) ?_
    intro b r hbr
    subst hbr
    cases kw with
    | nil => exact absurd rfl hne
    | cons x kw =>
      have : b = x := (List.cons_prefix_cons.1 hl).1
      subst this
      exact ⟨by rintro rfl; exact hE rfl, (hk b (by simp)).2.2, (hk b (by simp)).1⟩
  rw [show kw ++ (32 :: (t ++ 10 :: s)) = (kw ++ 32 :: t) ++ 10 :: s by simp] at hp
  rcases prefix_append_cases hp with hp | ⟨q, rfl, hq⟩
  · exact .inl (cut p hp)
  · rcases prefix_cons_cases hq with rfl | ⟨q, rfl, hq'⟩
    · rw [List.append_nil]; exact .inl (cut _ (List.prefix_refl _))
    · right
      refine ⟨q, hq', ?_, by simp⟩
      rw [show (kw ++ 32 :: t) ++ 10 :: q = kw ++ (32 :: (t ++ 10 :: q)) by simp, pamLoop_line hk hne ht h]

theorem pamLoop_end_cut {fuel : Nat} {p : List UInt8} {st : PamState} (hp : p <+: kwEndhdr ++ [10]) :
    (∃ e, pamLoop (fuel + 2) p st = errR e) ∨ pamLoop (fuel + 2) p st = .ok (st, []) := by
  have : p ∈ (List.range 8).map fun k => (kwEndhdr ++ [10]).take k := by
    rw [List.mem_map]
    refine ⟨p.length, ?_, (List.prefix_iff_eq_take.1 hp).symm⟩
    have := hp.length_le
    simp [kwEndhdr] at this
    simp; omega
  have hr : (List.range 8).map (fun k => (kwEndhdr ++ [10]).take k) =
    [[], [69], [69, 78], [69, 78, 68], [69, 78, 68, 72], [69, 78, 68, 72, 68], [69, 78, 68, 72, 68, 82],
      [69, 78, 68, 72, 68, 82, 10]] := by decide
  rw [hr] at this
  simp only [List.mem_cons, List.not_mem_nil, or_false] at this
  rcases this with rfl | rfl | rfl | rfl | rfl | rfl | rfl | rfl
  · exact .inl ⟨.decoding, rfl⟩
  · exact .inl ⟨.decoding, rfl⟩
  · exact .inl ⟨.decoding, rfl⟩
  · exact .inl ⟨.decoding, rfl⟩
  · exact .inl ⟨.decoding, rfl⟩
  · exact .inl ⟨.decoding, rfl⟩
  · exact .inr rfl
  · exact .inr rfl

theorem readArbitraryHeader_cut {h w d m : Nat} {t : TuplType} (hf : Header.Fits (.arbitrary h w d m (some t))) {p : List UInt8}
    (hp : p <+: 10 :: pamText h w d m (some t) []) :
    CutHeader (.arbitrary h w d m (some t)) (readArbitraryHeader p) := by
  obtain ⟨hh, hw, hd, hm, ht⟩ := hf
  have kW : (∀ b ∈ kwWidth, IsTok b) ∧ kwWidth ≠ [] := by decide +kernel
  have kH : (∀ b ∈ kwHeight, IsTok b) ∧ kwHeight ≠ [] := by decide +kernel
  have kD : (∀ b ∈ kwDepth, IsTok b) ∧ kwDepth ≠ [] := by decide +kernel
  have kM : (∀ b ∈ kwMaxval, IsTok b) ∧ kwMaxval ≠ [] := by decide +kernel
  have kT : (∀ b ∈ kwTupltype, IsTok b) ∧ kwTupltype ≠ [] := by decide +kernel
  have dt : ∀ n, ∀ b ∈ dec n, IsTok b := fun n b hb => (dec_digit hb).tok
  obtain ⟨t1, t2, t3⟩ := ht t rfl
  rcases prefix_cons_cases hp with rfl | ⟨p, rfl, hp'⟩
  · exact .inl ⟨.io, rfl⟩
  unfold readArbitraryHeader
  dsimp only
  rw [if_neg (by decide)]
  have fin : ∀ {fuel : Nat} {q : List UInt8}, (∃ e, pamLoop fuel q {} = errR e) → CutHeader (.arbitrary h w d m (some t)) (do
      let (st, s) ← pamLoop fuel q {}
      match st.height, st.width, st.depth, st.maxval with
      | some h, some w, some d, some m => .ok (.arbitrary h w d m (st.tupltype.map tuplOfName), s)
      | _, _, _, _ => errR .decoding) := by
    rintro fuel q ⟨e, h⟩
    rw [h]; exact .inl ⟨e, rfl⟩
  have wl : ∀ n, 1 ≤ (dec n).length := fun n => List.length_pos_iff.2 (dec_ne_nil n)
  by_cases h0 : p = []
  · subst h0; exact fin ⟨.decoding, rfl⟩
  obtain ⟨F, hF⟩ : ∃ F, p.length + 1 = F + 2 := by
    cases p with
    | nil => exact absurd rfl h0
    | cons b p => exact ⟨p.length, rfl⟩
  unfold pamText at hp'
  rw [hF]
  rcases pamLoop_cut (fuel := F) (st := {}) (st' := { width := some w }) kW.1 kW.2 (by decide) (dt _) (by
      unfold pamDispatch
      rw [if_neg (by decide), if_neg (by decide), if_pos rfl, parseSingleValueLine_dec hw]; rfl) hp' with he | ⟨q, hq, he, hpq⟩
  · exact fin he
  obtain ⟨F, rfl⟩ : ∃ G, F = G + 5 := ⟨F - 5, by
    have := congrArg List.length hpq
    simp [kwWidth] at this; omega⟩
  have lift : ∀ {x : R (PamState × List UInt8)}, pamLoop (F + 5 + 2) p {} = x → (∃ e, x = errR e) →
      ∃ e, pamLoop (F + 5 + 2) p {} = errR e := fun h1 h2 => h1 ▸ h2
  rcases pamLoop_cut (fuel := F + 4) (st := { width := some w }) (st' := { width := some w, height := some h }) kH.1 kH.2 (by decide) (dt _) (by
      unfold pamDispatch
      rw [if_neg (by decide), if_pos rfl, parseSingleValueLine_dec hh]; rfl) hq with he' | ⟨q, hq, he', -⟩
  · exact fin (lift he he')
  have he := he.trans he'
  rcases pamLoop_cut (fuel := F + 3) (st := { width := some w, height := some h }) (st' := { width := some w, height := some h, depth := some d }) kD.1 kD.2 (by decide) (dt _) (by
      unfold pamDispatch
      rw [if_neg (by decide), if_neg (by decide), if_neg (by decide), if_pos rfl, parseSingleValueLine_dec hd]; rfl) hq with he' | ⟨q, hq, he', -⟩
  · exact fin (lift he he')
  have he := he.trans he'
  rcases pamLoop_cut (fuel := F + 2) (st := { width := some w, height := some h, depth := some d }) (st' := { width := some w, height := some h, depth := some d, maxval := some m }) kM.1 kM.2 (by decide) (dt _) (by
      unfold pamDispatch
      rw [if_neg (by decide), if_neg (by decide), if_neg (by decide), if_neg (by decide), if_pos rfl,
        parseSingleValueLine_dec hm]; rfl) hq with he' | ⟨q, hq, he', -⟩
  · exact fin (lift he he')
  have he := he.trans he'
  dsimp only at hq
  rw [show kwTupltype ++ 32 :: (t.name ++ [10]) ++ (kwEndhdr ++ [10]) =
    kwTupltype ++ (32 :: (t.name ++ 10 :: (kwEndhdr ++ [10]))) by simp] at hq
  rcases pamLoop_cut (fuel := F + 1) (st := { width := some w, height := some h, depth := some d, maxval := some m })
      (st' := { width := some w, height := some h, depth := some d, maxval := some m, tupltype := some t.name })
      kT.1 kT.2 (by decide) t2 (by
        unfold pamDispatch
        rw [if_neg (by decide), if_neg (by decide), if_neg (by decide), if_neg (by decide), if_neg (by decide),
          if_pos rfl]
        dsimp only
        rw [trim_tok t2]) hq with he' | ⟨q, hq, he', -⟩
  · exact fin (lift he he')
  have he := he.trans he'
  rcases pamLoop_end_cut (fuel := F) hq with he' | he'
  · exact fin (lift he he')
  · rw [he, he']
    refine .inr ⟨_, rfl, rfl, rfl, rfl, rfl, ?_⟩
    simp [t3]

/-- Reading any cut header of a written file. -/
theorem readHeader_cut {hd : Header} (hf : hd.Fits) (h1 : 1 ≤ hd.height) (w1 : 1 ≤ hd.width) (m1 : 1 ≤ hd.maximalSample)
    (ht : ∀ h w d m, hd ≠ .arbitrary h w d m none) {p : List UInt8} (hp : p <+: hd.bytes) : CutHeader hd (readHeader p) := by
  have hm : hd.subtype.magic.length = 2 := by
    rcases hd with ⟨_ | _⟩ | ⟨_ | _⟩ | ⟨_ | _⟩ | _ <;> rfl
  have hp0 := hp
  unfold Header.bytes at hp
  rcases prefix_append_cases hp with hp | ⟨q, rfl, hq⟩
  · by_cases hlen : p.length < 2
    · left
      refine ⟨.io, ?_⟩
      unfold readHeader
      rw [readExact_short hlen]
      rfl
    · -- exactly the magic
      have : p = hd.subtype.magic := hp.eq_of_length_le (by omega)
      subst this
      left
      rcases hd with ⟨_ | _⟩ | ⟨_ | _⟩ | ⟨_ | _⟩ | _ <;> exact ⟨.io, rfl⟩
  · unfold readHeader
    rw [readExact_append' hm]
    simp only [ok_bind]
    rcases hd with ⟨e, h, w⟩ | ⟨e, h, w, m⟩ | ⟨e, h, w, m⟩ | ⟨h, w, d, m, t⟩
    · have := readBitmapHeader_cut (e := e) hf.1 hf.2 h1 w1 (p := q) (by simpa using hq)
      cases e <;> exact this
    · have := readPixmapHeader_cut (mk := .graymap) (e := e) hf.1 hf.2.1 hf.2.2 h1 w1 m1 (.inl rfl) (p := q) (by simpa using hq)
      cases e <;> exact this
    · have := readPixmapHeader_cut (mk := .pixmap) (e := e) hf.1 hf.2.1 hf.2.2 h1 w1 m1 (.inr rfl) (p := q) (by simpa using hq)
      cases e <;> exact this
    · cases t with
      | none => exact absurd rfl (ht h w d m)
      | some t =>
        have := readArbitraryHeader_cut hf (p := q) (by simpa [pamText] using hq)
        exact this

/-! ## Cut rasters -/

theorem bytelen_ok {t : TupleType} {w h : Nat} (hsz : w * h * t.colorType.bytesPerPixel < 2 ^ 32) (hw : 1 ≤ w) (hh : 1 ≤ h) :
    ∃ n, t.sample.1.bytelen w h t.sample.2 = .ok n ∧ 1 ≤ n := by
  have hpos : 1 ≤ w * h := Nat.mul_pos hw hh
  have hw' : w ≤ w * h := Nat.le_mul_of_pos_right _ hh
  have h0 : w * h < 2 ^ 32 := Nat.lt_of_le_of_lt (Nat.le_mul_of_pos_right _ (bpp_pos t)) hsz
  have gen : ∀ c sz, 1 ≤ c → 1 ≤ sz → w * h * (c * sz) < 2 ^ 32 → ∃ n, (do
      let a ← mulC 32 w h
      let b ← mulC 32 a c
      mulC 32 b sz) = Except.ok n ∧ 1 ≤ n := by
    intro c sz hc hs hlt
    rw [← Nat.mul_assoc] at hlt
    refine ⟨w * h * c * sz, ?_, Nat.mul_pos (Nat.mul_pos hpos hc) hs⟩
    rw [mulC_ok h0, ok_bind, mulC_ok (Nat.lt_of_le_of_lt (Nat.le_mul_of_pos_right _ hs) hlt), ok_bind, mulC_ok hlt]
  cases t with
  | pbmBit =>
    show ∃ n, (do
      let count ← mulC 32 w 1
      let linelen := count / 8 + if count % 8 ≠ 0 then 1 else 0
      mulC 32 linelen h) = Except.ok n ∧ 1 ≤ n
    rw [mulC_ok (by omega), ok_bind]
    dsimp only
    have e1 : 1 ≤ w * 1 / 8 + (if w * 1 % 8 ≠ 0 then 1 else 0) := by split <;> omega
    have e2 : w * 1 / 8 + (if w * 1 % 8 ≠ 0 then 1 else 0) ≤ w := by split <;> omega
    refine ⟨_, mulC_ok (Nat.lt_of_le_of_lt (Nat.mul_le_mul_right h e2) h0), Nat.mul_pos e1 hh⟩
  | bwBit => exact gen 1 1 (by omega) (by omega) hsz
  | grayU8 => exact gen 1 1 (by omega) (by omega) hsz
  | grayU16 => exact gen 1 2 (by omega) (by omega) hsz
  | rgbU8 => exact gen 3 1 (by omega) (by omega) hsz
  | rgbU16 => exact gen 3 2 (by omega) (by omega) hsz

/-- Reading too few bytes of a binary raster is an error. -/
theorem readSamples_short (le : Bool) {hd : Header} {t : TupleType} (he : hd.subtype.sampleEncoding = .binary) {n : Nat}
    (hb : t.sample.1.bytelen hd.width hd.height t.sample.2 = .ok n) {s : List UInt8} (hs : s.length < n) (k : Nat) :
    Decoder.readSamples le ⟨s, hd, t⟩ t.sample.1 t.sample.2 k = errR .decoding := by
  unfold Decoder.readSamples
  dsimp only
  rw [he]
  dsimp only
  rw [hb, ok_bind, if_pos (by rw [List.length_take]; omega)]
  rfl

theorem tuple_smaller {h' h : Header} (hs : Smaller h' h) {t' t : TupleType} (ht' : h'.tupleType = .ok t') (ht : h.tupleType = .ok t) :
    t'.colorType.bytesPerPixel ≤ t.colorType.bytesPerPixel := by
  rcases h' with ⟨_, h', w'⟩ | ⟨_, h', w', m'⟩ | ⟨_, h', w', m'⟩ | ⟨h', w', d', m', u'⟩ <;>
    rcases h with ⟨_, h, w⟩ | ⟨_, h, w, m⟩ | ⟨_, h, w, m⟩ | ⟨h, w, d, m, u⟩ <;> simp only [Smaller] at hs
  · cases ht; cases ht'; exact Nat.le_refl _
  · simp only [Header.tupleType] at ht ht'
    by_cases c0 : m = 0
    · rw [if_pos c0] at ht; cases ht
    by_cases c1 : m ≤ 255
    · rw [if_neg (by omega), if_pos (by omega)] at ht
      by_cases c0' : m' = 0
      · rw [if_pos c0'] at ht'; cases ht'
      rw [if_neg c0', if_pos (by omega)] at ht'
      cases ht; cases ht'; exact Nat.le_refl _
    · rw [if_neg c0, if_neg c1] at ht
      by_cases c2 : m ≤ 65535
      · rw [if_pos c2] at ht
        cases ht
        by_cases c0' : m' = 0
        · rw [if_pos c0'] at ht'; cases ht'
        rw [if_neg c0'] at ht'
        by_cases c1' : m' ≤ 255
        · rw [if_pos c1'] at ht'; cases ht'; decide
        · rw [if_neg c1', if_pos (by omega)] at ht'; cases ht'; decide
      · rw [if_neg c2] at ht; cases ht
  · simp only [Header.tupleType] at ht ht'
    by_cases c0 : m = 0
    · rw [if_pos c0] at ht; cases ht
    by_cases c1 : m ≤ 255
    · rw [if_neg (by omega), if_pos (by omega)] at ht
      by_cases c0' : m' = 0
      · rw [if_pos c0'] at ht'; cases ht'
      rw [if_neg c0', if_pos (by omega)] at ht'
      cases ht; cases ht'; exact Nat.le_refl _
    · rw [if_neg c0, if_neg c1] at ht
      by_cases c2 : m ≤ 65535
      · rw [if_pos c2] at ht
        cases ht
        by_cases c0' : m' = 0
        · rw [if_pos c0'] at ht'; cases ht'
        rw [if_neg c0'] at ht'
        by_cases c1' : m' ≤ 255
        · rw [if_pos c1'] at ht'; cases ht'; decide
        · rw [if_neg c1', if_pos (by omega)] at ht'; cases ht'; decide
      · rw [if_neg c2] at ht; cases ht
  · obtain ⟨rfl, rfl, rfl, rfl, rfl⟩ := hs
    rw [ht] at ht'
    cases ht'; exact Nat.le_refl _

theorem Smaller.dims {h' h : Header} (hs : Smaller h' h) (h1 : 1 ≤ h.height) (w1 : 1 ≤ h.width) :
    1 ≤ h'.width ∧ h'.width ≤ h.width ∧ 1 ≤ h'.height ∧ h'.height ≤ h.height ∧ h'.subtype = h.subtype := by
  rcases h' with ⟨_, h', w'⟩ | ⟨_, h', w', m'⟩ | ⟨_, h', w', m'⟩ | ⟨h', w', d', m', u'⟩ <;>
    rcases h with ⟨_, h, w⟩ | ⟨_, h, w, m⟩ | ⟨_, h, w, m⟩ | ⟨h, w, d, m, u⟩ <;> simp only [Smaller] at hs
  · obtain ⟨rfl, rfl, a, b⟩ := hs; exact ⟨w1, Nat.le_refl _, a, b, rfl⟩
  · obtain ⟨rfl, rfl, rfl, b⟩ := hs; exact ⟨w1, Nat.le_refl _, h1, Nat.le_refl _, rfl⟩
  · obtain ⟨rfl, rfl, rfl, b⟩ := hs; exact ⟨w1, Nat.le_refl _, h1, Nat.le_refl _, rfl⟩
  · obtain ⟨rfl, rfl, rfl, rfl, rfl⟩ := hs; exact ⟨w1, Nat.le_refl _, h1, Nat.le_refl _, rfl⟩

theorem tupleType_cases (h : Header) : (∃ e, h.tupleType = errR e) ∨ ∃ t, h.tupleType = .ok t := by
  unfold Header.tupleType
  repeat' split
  all_goals first
    | exact .inl ⟨_, rfl⟩
    | exact .inr ⟨_, rfl⟩

/-- A binary file that ends early is rejected. -/
theorem decode_cut (le : Bool) {hd : Header} (hf : hd.Fits) (he : hd.subtype.sampleEncoding = .binary) (h1 : 1 ≤ hd.height)
    (w1 : 1 ≤ hd.width) (ht0 : ∀ h w d m, hd ≠ .arbitrary h w d m none) {t : TupleType} (ht : hd.tupleType = .ok t)
    (hsz : hd.width * hd.height * t.colorType.bytesPerPixel < 2 ^ 32) {raster : List UInt8}
    (hr : t.sample.1.bytelen hd.width hd.height t.sample.2 = .ok raster.length)
    {p : List UInt8} (hp : p <+: hd.bytes ++ raster) (hlt : p.length < (hd.bytes ++ raster).length) :
    ∃ e, decode le p = errR e := by
  rcases prefix_append_cases hp with hp' | ⟨q, rfl, hq⟩
  · have m1 : 1 ≤ hd.maximalSample := by
      rcases hd with ⟨e, h, w⟩ | ⟨e, h, w, m⟩ | ⟨e, h, w, m⟩ | ⟨h, w, d, m, t⟩
      · exact Nat.le_refl _
      all_goals
        simp only [Header.tupleType] at ht
        by_cases c0 : m = 0
        · rw [if_pos c0] at ht; cases ht
        · simp only [Header.maximalSample]; omega
    rcases readHeader_cut hf h1 w1 m1 ht0 hp' with ⟨e, h⟩ | ⟨h', h, hs⟩
    · refine ⟨e, ?_⟩
      unfold decode Decoder.new
      rw [h]; rfl
    · obtain ⟨d1, d2, d3, d4, d5⟩ := hs.dims h1 w1
      obtain ⟨f1, f2⟩ := hf.dims
      rcases tupleType_cases h' with ⟨e, ht'⟩ | ⟨t', ht'⟩
      · refine ⟨e, ?_⟩
        unfold decode Decoder.new
        rw [h, ok_bind]
        dsimp only
        rw [ht']; rfl
      · have hb := tuple_smaller hs ht' ht
        have hsz' : h'.width * h'.height * t'.colorType.bytesPerPixel < 2 ^ 32 :=
          Nat.lt_of_le_of_lt (Nat.mul_le_mul (Nat.mul_le_mul d2 d4) hb) hsz
        have hn : Decoder.new p = .ok ⟨[], h', t'⟩ := by
          unfold Decoder.new
          rw [h, ok_bind]
          dsimp only
          rw [ht', ok_bind, C35_check_dimension_overflow _ _ _ (by omega) (by omega) (bpp_pos t'), decide_eq_false (by omega)]
          rfl
        obtain ⟨n, n1, n2⟩ := bytelen_ok hsz' d1 d3
        refine ⟨.decoding, ?_⟩
        unfold decode Decoder.readImage
        rw [hn, ok_bind]
        dsimp only
        rw [readSamples_short le (by rw [d5]; exact he) n1 (by show 0 < n; omega)]
        simp
        rfl
  · refine ⟨.decoding, ?_⟩
    have hq' : q.length < raster.length := by simpa using hlt
    rw [decode_header le hf ht (by omega), readSamples_short le he hr hq']
    rfl

/-- **C54** (PNM, binary): a binary PGM, PPM, PAM or PBM file of a non-empty image, as written by the encoder, that is
cut anywhere (inside the header or inside the raster) is rejected with an error. -/
theorem C54_pnm_binary (le : Bool) (strategy : Strategy) (image : Samples) (w h : Nat) (color : ExtendedColorType)
    (hcase :
      (∃ s, image = .u8 s ∧ color = .L8 ∧
        (strategy = .dynamic ∨ strategy = .subtype .arbitraryMap ∨ strategy = .subtype (.graymap .binary))) ∨
      (∃ s, image = .u8 s ∧ color = .Rgb8 ∧
        (strategy = .dynamic ∨ strategy = .subtype .arbitraryMap ∨ strategy = .subtype (.pixmap .binary))) ∨
      (∃ s, image = .u16 s ∧ color = .L16 ∧
        (strategy = .dynamic ∨ strategy = .subtype .arbitraryMap ∨ strategy = .chosen (.graymap .binary h w 65535))) ∨
      (∃ s, image = .u8 s ∧ (color = .L1 ∨ color = .L8) ∧ strategy = .subtype (.bitmap .binary)))
    (hw1 : 1 ≤ w) (hh1 : 1 ≤ h) (hw : w < 2 ^ 32) (hh : h < 2 ^ 32) (hsize : w * h * 3 < 2 ^ 32)
    {file : List UInt8} (hfile : encode strategy image w h color = .ok file) {k : Nat} (hk : k < file.length) :
    ∃ e, decode le (file.take k) = errR e := by
  have raw : ∀ (hd : Header) (t : TupleType), hd.Fits → hd.subtype.sampleEncoding = .binary → hd.height = h → hd.width = w →
      (∀ h w d m, hd ≠ .arbitrary h w d m none) → hd.tupleType = .ok t → t.colorType.bytesPerPixel ≤ 3 →
      (∀ r, writeRaster hd image = .ok r → image.len = w * h * color.channelCount → t.sample.1.bytelen w h t.sample.2 = .ok r.length) →
      encode strategy image w h color = writeWithHeader hd image w h color → ∃ e, decode le (file.take k) = errR e := by
    intro hd t hf he h1 w1 ht0 ht hb hr henc
    rw [henc] at hfile
    unfold writeWithHeader at hfile
    obtain ⟨-, -, hfile⟩ := bind_eq_ok.1 hfile
    obtain ⟨-, -, hfile⟩ := bind_eq_ok.1 hfile
    obtain ⟨u, hcs, hfile⟩ := bind_eq_ok.1 hfile
    obtain ⟨r, hwr, hfile⟩ := bind_eq_ok.1 hfile
    cases hfile
    have hlen : image.len = w * h * color.channelCount := by
      unfold checkSampleValues at hcs
      obtain ⟨m, -, hcs⟩ := bind_eq_ok.1 hcs
      split at hcs
      · cases hcs
      · unfold checkBuffer at hcs
        dsimp only at hcs
        split at hcs
        · cases hcs
        · rename_i hx
          simp only [ne_eq, Decidable.not_not] at hx
          unfold checkedMul at hx
          split at hx
          · rw [Option.bind_some] at hx
            split at hx
            · rw [Option.some.inj hx, Nat.mul_assoc, Nat.mul_comm]
            · cases hx
          · cases hx
    have hsz : w * h * t.colorType.bytesPerPixel < 2 ^ 32 := Nat.lt_of_le_of_lt (Nat.mul_le_mul_left _ hb) hsize
    refine decode_cut le hf he (by omega) (by omega) ht0 ht (by rw [h1, w1]; exact hsz) (raster := r) (by
      rw [h1, w1]; exact hr r hwr hlen) (List.take_prefix _ _) ?_
    rw [List.length_take]; omega
  have bl : ∀ c sz, w * h * c * sz < 2 ^ 32 → 1 ≤ c → 1 ≤ sz → (do
      let a ← mulC 32 w h
      let b ← mulC 32 a c
      mulC 32 b sz) = Except.ok (w * h * c * sz) := by
    intro c sz hlt hc hs
    have e1 := Nat.lt_of_le_of_lt (Nat.le_mul_of_pos_right (w * h * c) hs) hlt
    rw [mulC_ok (Nat.lt_of_le_of_lt (Nat.le_mul_of_pos_right _ hc) e1), ok_bind, mulC_ok e1, ok_bind, mulC_ok hlt]
  rcases hcase with ⟨s, rfl, rfl, hst⟩ | ⟨s, rfl, rfl, hst⟩ | ⟨s, rfl, rfl, hst⟩ | ⟨s, rfl, hc, rfl⟩
  · have hb : Samples.len (.u8 s) = w * h * 1 → Sample.U8.bytelen w h 1 = .ok s.length := by
      intro hl
      have := bl 1 1 (by omega) (by omega) (by omega)
      rw [show s.length = w * h * 1 * 1 by rw [Nat.mul_one]; exact hl, ← this]; rfl
    rcases hst with rfl | rfl | rfl
    · exact raw (.arbitrary h w 1 255 (some .grayscale)) .grayU8 ⟨hh, hw, by omega, by omega, by rintro x hx; cases hx; exact plain_known.2.2.1⟩
        rfl rfl rfl (by intros; exact fun h => nomatch h) rfl (by decide) (by rintro r hr hl; cases hr; exact hb hl) rfl
    · exact raw (.arbitrary h w 1 255 (some .grayscale)) .grayU8 ⟨hh, hw, by omega, by omega, by rintro x hx; cases hx; exact plain_known.2.2.1⟩
        rfl rfl rfl (by intros; exact fun h => nomatch h) rfl (by decide) (by rintro r hr hl; cases hr; exact hb hl) rfl
    · exact raw (.graymap .binary h w 255) .grayU8 ⟨hh, hw, by omega⟩
        rfl rfl rfl (by intros; exact fun h => nomatch h) rfl (by decide) (by rintro r hr hl; cases hr; exact hb hl) rfl
  · have hb : Samples.len (.u8 s) = w * h * 3 → Sample.U8.bytelen w h 3 = .ok s.length := by
      intro hl
      have := bl 3 1 (by omega) (by omega) (by omega)
      rw [show s.length = w * h * 3 * 1 by rw [Nat.mul_one]; exact hl, ← this]; rfl
    rcases hst with rfl | rfl | rfl
    · exact raw (.arbitrary h w 3 255 (some .rgb)) .rgbU8 ⟨hh, hw, by omega, by omega, by rintro x hx; cases hx; exact plain_known.2.2.2.2.1⟩
        rfl rfl rfl (by intros; exact fun h => nomatch h) rfl (by decide) (by rintro r hr hl; cases hr; exact hb hl) rfl
    · exact raw (.arbitrary h w 3 255 (some .rgb)) .rgbU8 ⟨hh, hw, by omega, by omega, by rintro x hx; cases hx; exact plain_known.2.2.2.2.1⟩
        rfl rfl rfl (by intros; exact fun h => nomatch h) rfl (by decide) (by rintro r hr hl; cases hr; exact hb hl) rfl
    · exact raw (.pixmap .binary h w 255) .rgbU8 ⟨hh, hw, by omega⟩
        rfl rfl rfl (by intros; exact fun h => nomatch h) rfl (by decide) (by rintro r hr hl; cases hr; exact hb hl) rfl
  · have hb : Samples.len (.u16 s) = w * h * 1 → Sample.U16.bytelen w h 1 = .ok (Samples.bytes (.u16 s)).length := by
      intro hl
      have := bl 1 2 (by omega) (by omega) (by omega)
      have e : (Samples.bytes (.u16 s)).length = w * h * 1 * 2 := by
        rw [← hl]
        exact length_flatMap_const (n := 2) _ s (fun b _ => length_beBytes 2 _)
      rw [e, ← this]; rfl
    rcases hst with rfl | rfl | rfl
    · exact raw (.arbitrary h w 1 65535 (some .grayscale)) .grayU16 ⟨hh, hw, by omega, by omega, by rintro x hx; cases hx; exact plain_known.2.2.1⟩
        rfl rfl rfl (by intros; exact fun h => nomatch h) rfl (by decide) (by rintro r hr hl; cases hr; exact hb hl) rfl
    · exact raw (.arbitrary h w 1 65535 (some .grayscale)) .grayU16 ⟨hh, hw, by omega, by omega, by rintro x hx; cases hx; exact plain_known.2.2.1⟩
        rfl rfl rfl (by intros; exact fun h => nomatch h) rfl (by decide) (by rintro r hr hl; cases hr; exact hb hl) rfl
    · exact raw (.graymap .binary h w 65535) .grayU16 ⟨hh, hw, by omega⟩
        rfl rfl rfl (by intros; exact fun h => nomatch h) rfl (by decide) (by rintro r hr hl; cases hr; exact hb hl) rfl
  · have hb : s.length = w * h → ∀ r, writePbmBits s w = .ok r → Sample.PbmBit.bytelen w h 1 = .ok r.length := by
      intro hl r hr
      obtain ⟨p1, p2, -⟩ := writePbmBits_rows (samples := s) (h := h) hw1 (by rw [hl, Nat.mul_comm])
      rw [p1] at hr
      cases hr
      simp only [Sample.bytelen]
      rw [mulC_ok (by omega), ok_bind]
      have e : w * 1 / 8 + (if w * 1 % 8 ≠ 0 then 1 else 0) = packedRowBytes 1 w := by
        unfold packedRowBytes; split <;> omega
      rw [e, p2, Nat.mul_comm h, mulC_ok]
      have e2 : packedRowBytes 1 w ≤ w := by unfold packedRowBytes; omega
      have := Nat.mul_le_mul_right h e2
      omega
    have hch : color.channelCount = 1 := by rcases hc with rfl | rfl <;> rfl
    exact raw (.bitmap .binary h w) .pbmBit ⟨hh, hw⟩
      rfl rfl rfl (by intros; exact fun h => nomatch h) rfl (by decide) (by
        rintro r hr hl
        rw [hch, Nat.mul_one] at hl
        exact hb hl r hr) (by rcases hc with rfl | rfl <;> rfl)

-- Non-vacuity: the 14 bytes of a 3x1 binary PGM, cut at each place.
example : encode (.subtype (.graymap .binary)) (.u8 [1, 2, 3]) 3 1 .L8 =
    .ok [80, 53, 10, 51, 32, 49, 32, 50, 53, 53, 10, 1, 2, 3] := by decide +kernel
example : decode true ([80, 53, 10, 51, 32, 49, 32, 50, 53, 53, 10, 1, 2, 3].take 8) = errR .decoding := by decide +kernel

/-- **C54** does not hold for ASCII files: a cut in the last number changes it. -/
theorem C54_pnm_ascii_false : ∃ (samples : List UInt8) (file : List UInt8) (k : Nat),
    encode (.subtype (.graymap .ascii)) (.u8 samples) 2 1 .L8 = .ok file ∧ k < file.length ∧
    (file.take k).length < file.length ∧ decode true (file.take k) = .ok (2, 1, .L8, [1, 2]) ∧ samples = [1, 234] := by
  refine ⟨[1, 234], [80, 50, 10, 50, 32, 49, 32, 50, 53, 53, 10, 49, 32, 50, 51, 52, 32], 14, ?_, ?_, ?_, ?_, rfl⟩
  · decide +kernel
  · decide
  · decide
  · decide +kernel

end Pnm
end Verif
