import Verif.Spec.Pam
import Verif.Proofs.PnmRaster

/-! # PAM files: the header reader against `Verif.Spec.Pam` -/

namespace Verif
namespace Pnm
open PnmSpec PamSpec

theorem trim_has {t word : List UInt8} (h : Has t word) (hw : word ≠ []) (hs : ∀ b ∈ word, ¬ Space b) : trim t = word := by
  obtain ⟨gap, gap', h1, h2, rfl⟩ := h
  unfold trim
  rw [List.append_assoc, dropWhile_gap h1]
  have e1 : (word ++ gap').dropWhile isSpace = word ++ gap' := by
    cases word with
    | nil => exact absurd rfl hw
    | cons b word =>
      rw [List.cons_append, List.dropWhile_cons, if_neg]
      rw [isSpace_iff]; exact hs b List.mem_cons_self
  rw [e1, List.reverse_append, dropWhile_gap (fun b hb => h2 b (List.mem_reverse.1 hb))]
  have e2 : word.reverse.dropWhile isSpace = word.reverse := by
    cases hr : word.reverse with
    | nil => rfl
    | cons b r =>
      rw [List.dropWhile_cons, if_neg]
      rw [isSpace_iff]
      exact hs b (List.mem_reverse.1 (by rw [hr]; exact List.mem_cons_self))
  rw [e2, List.reverse_reverse]

theorem has_trim (t : List UInt8) : Has t (trim t) := by
  obtain ⟨gap, h1, h2, -⟩ := exists_gap t
  obtain ⟨gap', h3, h4, -⟩ := exists_gap (t.dropWhile isSpace).reverse
  refine ⟨gap, gap'.reverse, h1, fun b hb => h3 b (List.mem_reverse.1 hb), ?_⟩
  unfold trim
  have h5 := congrArg List.reverse h4
  rw [List.reverse_reverse, List.reverse_append] at h5
  rw [List.append_assoc, ← h5]
  exact h2

theorem numeral_word {word : List UInt8} {v : Nat} (h : Numeral word v) : word ≠ [] ∧ ∀ b ∈ word, ¬ Space b := by
  obtain ⟨ds, hd, h | h, -⟩ := h <;> subst h
  · exact ⟨hd.1, fun b hb => digit_notSpace (hd.2 b hb)⟩
  · refine ⟨by simp, fun b hb => ?_⟩
    rcases List.mem_cons.1 hb with rfl | hb
    · decide
    · exact digit_notSpace (hd.2 b hb)

theorem parseTrim_iff (t : List UInt8) (v : Nat) : parseU32 (trim t) = some v ↔ ∃ word, Has t word ∧ Numeral word v := by
  rw [parseU32_iff]
  constructor
  · intro h; exact ⟨trim t, has_trim t, h⟩
  · rintro ⟨word, h1, h2⟩
    obtain ⟨a, b⟩ := numeral_word h2
    rw [trim_has h1 a b]; exact h2

/-! ## Lines -/

theorem lineLoop_eq : ∀ (s acc : List UInt8) (line rest : List UInt8), lineLoop s acc = (line, rest) ↔ ∃ l, line = acc ++ l ∧ Line s l rest := by
  intro s
  induction s with
  | nil =>
    intro acc line rest
    unfold lineLoop
    constructor
    · intro h; cases h; exact ⟨[], by simp, by simp, .inr ⟨rfl, rfl⟩⟩
    · rintro ⟨l, rfl, hl, h | ⟨h, h'⟩⟩
      · simp at h
      · rw [← h, h']; simp
  | cons b s ih =>
    intro acc line rest
    unfold lineLoop
    by_cases hb : b = 10
    · rw [if_pos hb, hb]
      constructor
      · intro h; cases h; exact ⟨[], by simp, by simp, .inl rfl⟩
      · rintro ⟨l, rfl, hl, h | ⟨h, h'⟩⟩
        · cases l with
          | nil => cases h; simp
          | cons c l => cases h; simp at hl
        · rw [← h] at hl; simp at hl
    · rw [if_neg hb, ih]
      constructor
      · rintro ⟨l, rfl, hl, h⟩
        refine ⟨b :: l, by simp, by simp [hl, Ne.symm hb], ?_⟩
        rcases h with h | ⟨h, h'⟩
        · exact .inl (by rw [h]; rfl)
        · exact .inr ⟨by rw [h], h'⟩
      · rintro ⟨l, rfl, hl, h⟩
        cases l with
        | nil =>
          rcases h with h | ⟨h, -⟩
          · cases h; exact absurd rfl hb
          · cases h
        | cons c l =>
          have hc : b = c ∧ (s = l ++ 10 :: rest ∨ (s = l ∧ rest = [])) := by
            rcases h with h | ⟨h, h'⟩
            · cases h; exact ⟨rfl, .inl rfl⟩
            · cases h; exact ⟨rfl, .inr ⟨rfl, h'⟩⟩
          obtain ⟨rfl, h'⟩ := hc
          exact ⟨l, by simp, fun hm => hl (List.mem_cons_of_mem _ hm), h'⟩

theorem nextLine_iff (s line rest : List UInt8) : nextLine s = .ok (line, rest) ↔ utf8Valid line = true ∧ Line s line rest := by
  unfold nextLine
  rcases e : lineLoop s [] with ⟨l, r⟩
  have := (lineLoop_eq s [] l r).1 e
  obtain ⟨l', h1, h2⟩ := this
  rw [List.nil_append] at h1
  subst h1
  dsimp only
  constructor
  · intro h
    split at h
    · cases h; exact ⟨by assumption, h2⟩
    · cases h
  · rintro ⟨hu, hl⟩
    have := (lineLoop_eq s [] line rest).2 ⟨line, rfl, hl⟩
    rw [e] at this
    cases this
    rw [if_pos hu]

theorem utf8_ascii : ∀ (l : List UInt8), (∀ b ∈ l, b < 128) → utf8Valid l = true := by
  intro l
  induction l with
  | nil => intro _; rfl
  | cons b l ih =>
    intro h
    rw [utf8Valid.eq_def]
    dsimp only
    rw [if_pos (h b List.mem_cons_self)]
    exact ih fun c hc => h c (List.mem_cons_of_mem _ hc)

/-! ## Keywords -/

theorem pamLine_split {key t : List UInt8} (hk : ∀ b ∈ key, ¬ Space b) (hne : key ≠ []) (ht : t = [] ∨ ∃ c u, t = c :: u ∧ Space c) (st : PamState) :
    pamLine (key ++ t) st = pamDispatch key t st := by
  have e1 : (key ++ t).dropWhile isSpace = key ++ t := by
    cases key with
    | nil => exact absurd rfl hne
    | cons b key =>
      rw [List.cons_append, List.dropWhile_cons, if_neg]
      rw [isSpace_iff]; exact hk b List.mem_cons_self
  have e2 : ((key ++ t).findIdx? isSpace).getD (key ++ t).length = key.length := by
    have h0 : key.findIdx? isSpace = none := by
      rw [List.findIdx?_eq_none_iff]
      intro b hb
      have := hk b hb
      rw [← isSpace_iff] at this
      simpa using this
    rw [List.findIdx?_append, h0]
    rcases ht with rfl | ⟨c, u, rfl, hc⟩
    · simp
    · simp [List.findIdx?_cons, (isSpace_iff c).2 hc]
  unfold pamLine
  dsimp only
  rw [e1, e2, assertR_dec (by simp), ok_bind, List.take_left, List.drop_left]

theorem pamLine_blank {c : UInt8} {u : List UInt8} (hc : Space c) (st : PamState) (r : Option PamState) : pamLine (c :: u) st ≠ .ok r := by
  unfold pamLine
  dsimp only
  rw [List.findIdx?_cons, if_pos ((isSpace_iff c).2 hc), Option.getD_some, assertR_dec (by simp), ok_bind, List.take_zero]
  intro h
  unfold pamDispatch at h
  rw [if_neg (by decide), if_neg (by decide), if_neg (by decide), if_neg (by decide), if_neg (by decide), if_neg (by decide)] at h
  cases h

/-- The five keywords with a value. -/
def IsKey (key : List UInt8) : Prop := key = wordWidth ∨ key = wordHeight ∨ key = wordDepth ∨ key = wordMaxval ∨ key = wordTuple

/-- The effect of a line. -/
def applyField (key t : List UInt8) (st : PamState) : R PamState :=
  if key = wordTuple then .ok { st with tupltype := some (match st.tupltype with | some v => v ++ [32] ++ trim t | none => trim t) }
  else if key = wordHeight then do
    let v ← parseSingleValueLine st.height t
    .ok { st with height := v }
  else if key = wordWidth then do
    let v ← parseSingleValueLine st.width t
    .ok { st with width := v }
  else if key = wordDepth then do
    let v ← parseSingleValueLine st.depth t
    .ok { st with depth := v }
  else do
    let v ← parseSingleValueLine st.maxval t
    .ok { st with maxval := v }

theorem bind_some_iff {x : R (Option Nat)} {f : Option Nat → PamState} {st' : PamState} :
    (x >>= fun v => .ok (some (f v))) = Except.ok (some st') ↔ (x >>= fun v => Except.ok (f v)) = Except.ok st' := by
  rw [bind_eq_ok, bind_eq_ok]
  constructor
  · rintro ⟨v, h1, h2⟩; cases h2; exact ⟨v, h1, rfl⟩
  · rintro ⟨v, h1, h2⟩; cases h2; exact ⟨v, h1, rfl⟩

theorem dispatch_some {key t : List UInt8} {st st' : PamState} : pamDispatch key t st = .ok (some st') ↔ IsKey key ∧ applyField key t st = .ok st' := by
  unfold pamDispatch IsKey applyField
  by_cases h0 : key = kwEndhdr
  · rw [if_pos h0]
    constructor
    · intro h; cases h
    · rintro ⟨h, -⟩
      subst h0
      exact absurd h (by decide)
  rw [if_neg h0]
  by_cases h1 : key = wordHeight
  · rw [if_pos (show key = kwHeight from h1), if_neg (by rw [h1]; decide), if_pos h1, bind_some_iff]
    simp [h1]
  rw [if_neg (show ¬ key = kwHeight from h1)]
  by_cases h2 : key = wordWidth
  · rw [if_pos (show key = kwWidth from h2), if_neg (by rw [h2]; decide), if_neg (by rw [h2]; decide), if_pos h2, bind_some_iff]
    simp [h2]
  rw [if_neg (show ¬ key = kwWidth from h2)]
  by_cases h3 : key = wordDepth
  · rw [if_pos (show key = kwDepth from h3), if_neg (by rw [h3]; decide), if_neg (by rw [h3]; decide), if_neg (by rw [h3]; decide), if_pos h3, bind_some_iff]
    simp [h3]
  rw [if_neg (show ¬ key = kwDepth from h3)]
  by_cases h4 : key = wordMaxval
  · rw [if_pos (show key = kwMaxval from h4), if_neg (by rw [h4]; decide), if_neg (by rw [h4]; decide), if_neg (by rw [h4]; decide), if_neg (by rw [h4]; decide), bind_some_iff]
    simp [h4]
  rw [if_neg (show ¬ key = kwMaxval from h4)]
  by_cases h5 : key = wordTuple
  · rw [if_pos (show key = kwTupltype from h5), if_pos h5]
    rcases st.tupltype with _ | v <;> simp [h5]
  rw [if_neg (show ¬ key = kwTupltype from h5)]
  constructor
  · intro h; cases h
  · rintro ⟨h, -⟩
    rcases h with h | h | h | h | h <;> contradiction

theorem dispatch_none {key t : List UInt8} {st : PamState} : pamDispatch key t st = .ok none ↔ key = wordEnd := by
  constructor
  · intro h
    unfold pamDispatch at h
    split at h
    · assumption
    · exfalso
      have nb : ∀ {x : R (Option Nat)} {f : Option Nat → PamState}, (x >>= fun v => .ok (some (f v))) ≠ Except.ok none := by
        intro x f h
        obtain ⟨_, _, h⟩ := bind_eq_ok.1 h
        cases h
      repeat' split at h
      all_goals first | exact nb h | cases h
  · rintro rfl; unfold pamDispatch; rw [if_pos (show wordEnd = kwEndhdr from rfl)]

theorem key_word {key : List UInt8} (h : IsKey key ∨ key = wordEnd) : key ≠ [] ∧ (∀ b ∈ key, ¬ Space b) ∧ (∀ b ∈ key, b < 128) ∧ key.head? ≠ some 35 := by
  rcases h with (h | h | h | h | h) | h <;> subst h <;> exact ⟨by decide, by decide, by decide, by decide⟩

/-- The effect of the lines. -/
def applyFields : List (List UInt8 × List UInt8) → PamState → R PamState
  | [], st => .ok st
  | f :: fs, st => do
    let st ← applyField f.1 f.2 st
    applyFields fs st

theorem split_word (line : List UInt8) : ∃ key t, line = key ++ t ∧ (∀ b ∈ key, ¬ Space b) ∧ (t = [] ∨ ∃ c u, t = c :: u ∧ Space c) := by
  refine ⟨line.takeWhile (fun b => !isSpace b), line.dropWhile (fun b => !isSpace b), List.takeWhile_append_dropWhile.symm, ?_, ?_⟩
  · intro b hb
    have := takeWhile_mem hb
    rw [← isSpace_iff]
    simpa using this
  · cases h : line.dropWhile (fun b => !isSpace b) with
    | nil => exact .inl rfl
    | cons c u =>
      refine .inr ⟨c, u, rfl, ?_⟩
      have := List.head?_dropWhile_not (fun b => !isSpace b) line
      rw [h] at this
      rw [← isSpace_iff]
      simpa using this

theorem line_length {s line rest : List UInt8} (h : Line s line rest) : rest.length + line.length ≤ s.length := by
  rcases h.2 with h | ⟨h, h'⟩ <;> subst h
  · simp; omega
  · rw [h']; simp

theorem pamLoop_iff : ∀ (fuel : Nat) (s : List UInt8), s.length < fuel → ∀ (st st' : PamState) (rest : List UInt8),
    pamLoop fuel s st = .ok (st', rest) ↔ ∃ fs, Statements (fun t => utf8Valid t = true) fs s rest ∧ applyFields fs st = .ok st' := by
  intro fuel
  induction fuel with
  | zero => intro s hs; omega
  | succ fuel ih =>
    intro s hs st st' rest
    constructor
    · intro h
      rw [pamLoop_succ] at h
      obtain ⟨⟨line, s1⟩, hl, h⟩ := bind_eq_ok.1 h
      obtain ⟨hu, hl⟩ := (nextLine_iff s line s1).1 hl
      have hlen := line_length hl
      cases line with
      | nil => cases h
      | cons b line =>
        dsimp only at h
        rw [List.length_cons] at hlen
        by_cases hb : b = 35
        · rw [if_pos hb] at h
          obtain ⟨fs, h1, h2⟩ := (ih s1 (by omega) st st' rest).1 h
          subst hb
          exact ⟨fs, .comment hu hl h1, h2⟩
        · rw [if_neg hb] at h
          split at h
          · cases h
          · rename_i ha
            have ha' : ∀ c ∈ b :: line, c < 128 := by
              intro c hc
              have := ha
              rw [Bool.not_eq_true, List.any_eq_false] at this
              have := this c hc
              simp at this
              show c.toNat < 128
              omega
            obtain ⟨r, hr, h⟩ := bind_eq_ok.1 h
            obtain ⟨key, t, hkt, hk, ht⟩ := split_word (b :: line)
            have hne : key ≠ [] := by
              rintro rfl
              rw [List.nil_append] at hkt
              rcases ht with ht | ⟨c, u, ht, hc⟩
              · rw [ht] at hkt; cases hkt
              · rw [hkt, ht] at hr
                exact pamLine_blank hc _ _ hr
            rw [hkt, pamLine_split hk hne ht] at hr
            have htail : Tail t := ⟨fun c hc => ha' c (by rw [hkt]; exact List.mem_append_right _ hc), ht⟩
            rw [hkt] at hl
            cases r with
            | none =>
              cases h
              have := dispatch_none.1 hr
              subst this
              exact ⟨[], .stop htail hl, rfl⟩
            | some st1 =>
              obtain ⟨h1, h2⟩ := dispatch_some.1 hr
              obtain ⟨fs, h3, h4⟩ := (ih s1 (by omega) st1 st' rest).1 h
              refine ⟨(key, t) :: fs, .field h1 htail hl h3, ?_⟩
              unfold applyFields
              rw [h2, ok_bind, h4]
    · rintro ⟨fs, hst, hf⟩
      have keyed : ∀ {key t s1 : List UInt8}, (IsKey key ∨ key = wordEnd) → Tail t → Line s (key ++ t) s1 →
          pamLoop (fuel + 1) s st = (pamDispatch key t st >>= fun r => match r with
                | none => .ok (st, s1)
                | some st => pamLoop fuel s1 st) := by
        intro key t s1 hk ht hl
        obtain ⟨k1, k2, k3, k4⟩ := key_word hk
        have hasc : ∀ b ∈ key ++ t, b < 128 := by
          intro b hb
          rcases List.mem_append.1 hb with h | h
          · exact k3 b h
          · exact ht.1 b h
        rw [pamLoop_succ, (nextLine_iff s _ s1).2 ⟨utf8_ascii _ hasc, hl⟩, ok_bind]
        rw [← pamLine_split k2 k1 ht.2]
        have hany : ((key ++ t).any fun b => decide (b.toNat ≥ 128)) = false := by
          rw [List.any_eq_false]
          intro b hb
          have : b.toNat < 128 := hasc b hb
          simp; omega
        dsimp only
        revert hany k4
        generalize hkt : key ++ t = line
        cases key with
        | nil => exact absurd rfl k1
        | cons c key =>
          intro k4 hany
          subst hkt
          have hc : c ≠ 35 := by simpa using k4
          dsimp only [List.cons_append] at hany ⊢
          rw [if_neg hc]
          exact if_neg (by rw [hany]; decide)
      cases hst with
      | stop ht hl =>
        rw [keyed (.inr rfl) ht hl, dispatch_none.2 rfl, ok_bind]
        cases hf
        rfl
      | @comment _ t _ s1 _ hu hl h1 =>
        have hlen := line_length hl
        rw [List.length_cons] at hlen
        rw [pamLoop_succ, (nextLine_iff s _ s1).2 ⟨hu, hl⟩, ok_bind]
        show (if (35 : UInt8) = 35 then _ else _) = _
        rw [if_pos rfl]
        exact (ih s1 (by omega) st st' rest).2 ⟨fs, h1, hf⟩
      | @field fs key t _ s1 _ hk ht hl h1 =>
        have hlen := line_length hl
        have hk1 := List.length_pos_iff.2 (key_word (.inl hk)).1
        rw [List.length_append] at hlen
        unfold applyFields at hf
        obtain ⟨st1, h2, h3⟩ := bind_eq_ok.1 hf
        rw [keyed (.inl hk) ht hl, dispatch_some.2 ⟨hk, h2⟩, ok_bind]
        exact (ih s1 (by omega) st1 st' rest).2 ⟨fs, h1, h3⟩

/-! ## Values -/

/-- The four keywords with a number. -/
def IsNum (key : List UInt8) : Prop := key = wordWidth ∨ key = wordHeight ∨ key = wordDepth ∨ key = wordMaxval

/-- The value of a keyword. -/
def num (key : List UInt8) (st : PamState) : Option Nat :=
  if key = wordHeight then st.height else if key = wordWidth then st.width else if key = wordDepth then st.depth else st.maxval

theorem parseSingle_iff {o : Option Nat} {t : List UInt8} {r : Option Nat} :
    parseSingleValueLine o t = .ok r ↔ o = none ∧ ∃ v, r = some v ∧ parseU32 (trim t) = some v := by
  unfold parseSingleValueLine
  rcases o with _ | o
  · rcases parseU32 (trim t) with _ | v
    · exact ⟨fun h => (by cases h), fun ⟨_, v, _, h⟩ => (by cases h)⟩
    · constructor
      · intro h; cases h; exact ⟨rfl, v, rfl, rfl⟩
      · rintro ⟨-, v', rfl, h⟩; cases h; rfl
  · exact ⟨fun h => (by cases h), fun h => (by cases h.1)⟩

theorem state_ext {a b : PamState} (h : ∀ k, IsNum k → num k a = num k b) (ht : a.tupltype = b.tupltype) : a = b := by
  have h1 := h wordWidth (.inl rfl)
  have h2 := h wordHeight (.inr (.inl rfl))
  have h3 := h wordDepth (.inr (.inr (.inl rfl)))
  have h4 := h wordMaxval (.inr (.inr (.inr rfl)))
  obtain ⟨ah, aw, ad, am, at'⟩ := a
  obtain ⟨bh, bw, bd, bm, bt⟩ := b
  have e1 : aw = bw := h1
  have e2 : ah = bh := h2
  have e3 : ad = bd := h3
  have e4 : am = bm := h4
  cases e1; cases e2; cases e3; cases e4; cases ht
  rfl

theorem apply_num {key t : List UInt8} {st : PamState} (hk : IsNum key) {v : Nat} (h0 : num key st = none) (hv : parseU32 (trim t) = some v) :
    ∃ st', applyField key t st = .ok st' ∧ num key st' = some v ∧ (∀ k, IsNum k → k ≠ key → num k st' = num k st) ∧ st'.tupltype = st.tupltype := by
  have oth : ∀ {key : List UInt8} {st' : PamState}, (∀ k, IsNum k → k = key ∨ num k st' = num k st) → ∀ k, IsNum k → k ≠ key → num k st' = num k st :=
    fun h k hk hne => (h k hk).resolve_left hne
  rcases hk with rfl | rfl | rfl | rfl
  · refine ⟨{ st with width := some v }, ?_, rfl, oth ?_, rfl⟩
    · unfold applyField
      rw [if_neg (by decide), if_neg (by decide), if_pos rfl, parseSingle_iff.2 ⟨show st.width = none from h0, v, rfl, hv⟩, ok_bind]
    · rintro k (rfl | rfl | rfl | rfl) <;> first | exact .inl rfl | exact .inr rfl
  · refine ⟨{ st with height := some v }, ?_, rfl, oth ?_, rfl⟩
    · unfold applyField
      rw [if_neg (by decide), if_pos rfl, parseSingle_iff.2 ⟨show st.height = none from h0, v, rfl, hv⟩, ok_bind]
    · rintro k (rfl | rfl | rfl | rfl) <;> first | exact .inl rfl | exact .inr rfl
  · refine ⟨{ st with depth := some v }, ?_, rfl, oth ?_, rfl⟩
    · unfold applyField
      rw [if_neg (by decide), if_neg (by decide), if_neg (by decide), if_pos rfl, parseSingle_iff.2 ⟨show st.depth = none from h0, v, rfl, hv⟩, ok_bind]
    · rintro k (rfl | rfl | rfl | rfl) <;> first | exact .inl rfl | exact .inr rfl
  · refine ⟨{ st with maxval := some v }, ?_, rfl, oth ?_, rfl⟩
    · unfold applyField
      rw [if_neg (by decide), if_neg (by decide), if_neg (by decide), if_neg (by decide), parseSingle_iff.2 ⟨show st.maxval = none from h0, v, rfl, hv⟩, ok_bind]
    · rintro k (rfl | rfl | rfl | rfl) <;> first | exact .inl rfl | exact .inr rfl

theorem apply_num_ok {key t : List UInt8} {st st' : PamState} (hk : IsNum key) (h : applyField key t st = .ok st') :
    num key st = none ∧ ∃ v, parseU32 (trim t) = some v := by
  rcases hk with rfl | rfl | rfl | rfl
  · unfold applyField at h
    rw [if_neg (by decide), if_neg (by decide), if_pos rfl] at h
    obtain ⟨r, h, -⟩ := bind_eq_ok.1 h
    obtain ⟨h1, v, -, h2⟩ := parseSingle_iff.1 h
    exact ⟨h1, v, h2⟩
  · unfold applyField at h
    rw [if_neg (by decide), if_pos rfl] at h
    obtain ⟨r, h, -⟩ := bind_eq_ok.1 h
    obtain ⟨h1, v, -, h2⟩ := parseSingle_iff.1 h
    exact ⟨h1, v, h2⟩
  · unfold applyField at h
    rw [if_neg (by decide), if_neg (by decide), if_neg (by decide), if_pos rfl] at h
    obtain ⟨r, h, -⟩ := bind_eq_ok.1 h
    obtain ⟨h1, v, -, h2⟩ := parseSingle_iff.1 h
    exact ⟨h1, v, h2⟩
  · unfold applyField at h
    rw [if_neg (by decide), if_neg (by decide), if_neg (by decide), if_neg (by decide)] at h
    obtain ⟨r, h, -⟩ := bind_eq_ok.1 h
    obtain ⟨h1, v, -, h2⟩ := parseSingle_iff.1 h
    exact ⟨h1, v, h2⟩

/-- What the lines make of one value. -/
def NumIs (key : List UInt8) (st st' : PamState) (fs : List (List UInt8 × List UInt8)) : Prop :=
  (entries key fs = [] ∧ num key st' = num key st) ∨
    ∃ t v, entries key fs = [t] ∧ num key st = none ∧ num key st' = some v ∧ parseU32 (trim t) = some v

/-- What the lines make of the tuple type. -/
def joined (o : Option (List UInt8)) (ts : List (List UInt8)) : Option (List UInt8) :=
  ts.foldl (fun o t => some (match o with | some v => v ++ [32] ++ trim t | none => trim t)) o

theorem entries_self {key t : List UInt8} {fs : List (List UInt8 × List UInt8)} : entries key ((key, t) :: fs) = t :: entries key fs := by
  simp [entries]

theorem entries_other {key k t : List UInt8} {fs : List (List UInt8 × List UInt8)} (h : k ≠ key) : entries k ((key, t) :: fs) = entries k fs := by
  simp [entries, Ne.symm h]

theorem numIs_other {key k t : List UInt8} {st st1 st' : PamState} {fs : List (List UInt8 × List UInt8)} (h : k ≠ key) (he : num k st1 = num k st) :
    NumIs k st st' ((key, t) :: fs) ↔ NumIs k st1 st' fs := by
  unfold NumIs
  rw [entries_other h, he]

theorem numIs_self {key t : List UInt8} {st st1 st' : PamState} {fs : List (List UInt8 × List UInt8)} {v : Nat} (h0 : num key st = none)
    (hv : parseU32 (trim t) = some v) (h1 : num key st1 = some v) : NumIs key st st' ((key, t) :: fs) ↔ NumIs key st1 st' fs := by
  unfold NumIs
  rw [entries_self, h0, h1]
  constructor
  · rintro (⟨h, -⟩ | ⟨t', v', h, -, h2, h3⟩)
    · cases h
    · obtain ⟨rfl, h'⟩ := List.cons.inj h
      rw [hv] at h3
      cases h3
      exact .inl ⟨h', h2⟩
  · rintro (⟨h, h2⟩ | ⟨t', v', h, h2, -⟩)
    · exact .inr ⟨t, v, by rw [h], rfl, h2, hv⟩
    · cases h2

theorem fields_iff : ∀ (fs : List (List UInt8 × List UInt8)), (∀ f ∈ fs, IsKey f.1) → ∀ st st' : PamState,
    applyFields fs st = .ok st' ↔ (∀ k, IsNum k → NumIs k st st' fs) ∧ st'.tupltype = joined st.tupltype (entries wordTuple fs) := by
  intro fs
  induction fs with
  | nil =>
    intro _ st st'
    unfold applyFields
    constructor
    · intro h; cases h
      exact ⟨fun k _ => .inl ⟨rfl, rfl⟩, rfl⟩
    · rintro ⟨h1, h2⟩
      congr 1
      refine (state_ext (fun k hk => ?_) h2).symm
      rcases h1 k hk with ⟨-, h⟩ | ⟨_, _, h, -⟩
      · exact h
      · cases h
  | cons f fs ih =>
    obtain ⟨key, t⟩ := f
    intro hk st st'
    have ih := ih fun f hf => hk f (List.mem_cons_of_mem _ hf)
    have hkey : IsKey key := hk (key, t) List.mem_cons_self
    have hcase : IsNum key ∨ key = wordTuple := by
      rcases hkey with h | h | h | h | h
      · exact .inl (.inl h)
      · exact .inl (.inr (.inl h))
      · exact .inl (.inr (.inr (.inl h)))
      · exact .inl (.inr (.inr (.inr h)))
      · exact .inr h
    have hnt : ∀ k, IsNum k → wordTuple ≠ k := by rintro k (rfl | rfl | rfl | rfl) <;> decide
    rcases hcase with hn | rfl
    · have step : ∀ v, num key st = none → parseU32 (trim t) = some v →
          (applyFields ((key, t) :: fs) st = .ok st' ↔ (∀ k, IsNum k → NumIs k st st' ((key, t) :: fs)) ∧
            st'.tupltype = joined st.tupltype (entries wordTuple ((key, t) :: fs))) := by
        intro v h0 hv
        obtain ⟨st1, h1, h2, h3, h4⟩ := apply_num (t := t) hn h0 hv
        rw [applyFields]
        dsimp only
        rw [h1, ok_bind, ih, entries_other (hnt key hn), h4]
        refine and_congr_left' (forall_congr' fun k => forall_congr' fun hk => ?_)
        by_cases he : k = key
        · subst he; exact (numIs_self h0 hv h2).symm
        · exact (numIs_other he (h3 k hk he)).symm
      constructor
      · intro h
        have h' := h
        unfold applyFields at h'
        obtain ⟨st1, h1, -⟩ := bind_eq_ok.1 h'
        obtain ⟨h0, v, hv⟩ := apply_num_ok hn h1
        exact (step v h0 hv).1 h
      · intro h
        rcases h.1 key hn with ⟨h1, -⟩ | ⟨t', v, h1, h0, -, hv⟩
        · rw [entries_self] at h1; cases h1
        · rw [entries_self] at h1
          obtain ⟨rfl, -⟩ := List.cons.inj h1
          exact (step v h0 hv).2 h
    · rw [applyFields]
      dsimp only
      unfold applyField
      rw [if_pos rfl, ok_bind, ih, entries_self]
      refine and_congr (forall_congr' fun k => forall_congr' fun hk => ?_) Iff.rfl
      refine (numIs_other (fun h => hnt k hk h.symm) ?_).symm
      rcases hk with rfl | rfl | rfl | rfl <;> rfl

theorem statements_keys {text : List UInt8 → Prop} {fs : List (List UInt8 × List UInt8)} {s rest : List UInt8} (h : Statements text fs s rest) :
    ∀ f ∈ fs, IsKey f.1 := by
  induction h with
  | stop => simp
  | comment _ _ _ ih => exact ih
  | field hk _ _ _ ih =>
    intro f hf
    rcases List.mem_cons.1 hf with rfl | hf
    · exact hk
    · exact ih f hf

theorem statements_mono {text text' : List UInt8 → Prop} (ht : ∀ t, text t → text' t) {fs : List (List UInt8 × List UInt8)} {s rest : List UInt8}
    (h : Statements text fs s rest) : Statements text' fs s rest := by
  induction h with
  | stop h1 h2 => exact .stop h1 h2
  | comment h1 h2 _ ih => exact .comment (ht _ h1) h2 ih
  | field h1 h2 h3 _ ih => exact .field h1 h2 h3 ih

theorem says_iff {fs : List (List UInt8 × List UInt8)} {key : List UInt8} {st' : PamState} {v : Nat} (hk : IsNum key) (h : NumIs key {} st' fs) :
    num key st' = some v ↔ Says fs key v := by
  have h0 : num key {} = none := by rcases hk with rfl | rfl | rfl | rfl <;> rfl
  unfold NumIs at h
  unfold Says
  rw [h0] at h
  constructor
  · intro hv
    rcases h with ⟨-, h⟩ | ⟨t, v', h1, -, h2, h3⟩
    · rw [hv] at h; cases h
    · rw [hv] at h2; cases h2
      obtain ⟨word, h4, h5⟩ := (parseTrim_iff t v).1 h3
      exact ⟨t, word, h1, h4, h5⟩
  · rintro ⟨t, word, h1, h2, h3⟩
    rcases h with ⟨h, -⟩ | ⟨t', v', h4, -, h5, h6⟩
    · rw [h1] at h; cases h
    · rw [h1] at h4; cases h4
      rw [(parseTrim_iff t v).2 ⟨word, h2, h3⟩] at h6
      cases h6
      exact h5

/-! ## The tuple type -/

theorem joined_some {o : List UInt8} {ts : List (List UInt8)} : ∃ v, joined (some o) ts = some v ∧ (ts ≠ [] → (32 : UInt8) ∈ v) ∧ (32 ∈ o → (32 : UInt8) ∈ v) := by
  induction ts generalizing o with
  | nil => exact ⟨o, rfl, fun h => absurd rfl h, id⟩
  | cons t ts ih =>
    obtain ⟨v, h1, h2, h3⟩ := ih (o := o ++ [32] ++ trim t)
    exact ⟨v, h1, fun _ => h3 (by simp), fun _ => h3 (by simp)⟩

theorem joined_iff {ts : List (List UInt8)} {name : List UInt8} (hne : name ≠ []) (h : ∀ b ∈ name, ¬ Space b) :
    joined none ts = some name ↔ ∃ t, ts = [t] ∧ Has t name := by
  constructor
  · intro hj
    cases ts with
    | nil => cases hj
    | cons t ts =>
      obtain ⟨v, h1, h2, -⟩ := joined_some (o := trim t) (ts := ts)
      have hv : v = name := by
        have : joined none (t :: ts) = joined (some (trim t)) ts := rfl
        rw [this, h1] at hj
        exact Option.some.inj hj
      subst hv
      have hts : ts = [] := by
        by_cases h0 : ts = []
        · exact h0
        · exact absurd (h 32 (h2 h0)) (by decide)
      subst hts
      cases h1
      exact ⟨t, rfl, has_trim t⟩
  · rintro ⟨t, rfl, ht⟩
    show some (trim t) = some name
    rw [trim_has ht hne h]

theorem joined_none {ts : List (List UInt8)} : joined none ts = none ↔ ts = [] := by
  cases ts with
  | nil => simp [joined]
  | cons t ts =>
    obtain ⟨v, h1, -⟩ := joined_some (o := trim t) (ts := ts)
    have : joined none (t :: ts) = joined (some (trim t)) ts := rfl
    rw [this, h1]
    simp

/-- The tuple type as the decoder knows it. -/
def typeOf (type : Option (List UInt8)) : Option TuplType := type.map tuplOfName

/-- The header reader, for the tuple types that are supported. -/
theorem arbitrary_iff (s : List UInt8) (hd : Pnm.Header) (rest : List UInt8) : readArbitraryHeader s = .ok (hd, rest) ↔
    ∃ s' fs w h d m, s = 10 :: s' ∧ Statements (fun t => utf8Valid t = true) fs s' rest ∧ Says fs wordWidth w ∧ Says fs wordHeight h ∧ Says fs wordDepth d ∧
      Says fs wordMaxval m ∧ hd = .arbitrary h w d m (typeOf (joined none (entries wordTuple fs))) := by
  unfold readArbitraryHeader
  constructor
  · intro hr
    cases s with
    | nil => cases hr
    | cons b s =>
      dsimp only at hr
      split at hr
      · cases hr
      · rename_i hb
        obtain ⟨⟨st, r⟩, h1, hr⟩ := bind_eq_ok.1 hr
        obtain ⟨fs, h2, h3⟩ := (pamLoop_iff _ s (by omega) _ _ _).1 h1
        obtain ⟨h4, h5⟩ := (fields_iff fs (statements_keys h2) _ _).1 h3
        rcases e1 : st.height with _ | h <;> rcases e2 : st.width with _ | w <;> rcases e3 : st.depth with _ | d <;> rcases e4 : st.maxval with _ | m <;>
          rw [e1, e2, e3, e4] at hr <;> cases hr
        refine ⟨s, fs, w, h, d, m, by rw [show b = 10 by simpa using hb], h2, ?_, ?_, ?_, ?_, ?_⟩
        · exact (says_iff (.inl rfl) (h4 _ (.inl rfl))).1 e2
        · exact (says_iff (.inr (.inl rfl)) (h4 _ (.inr (.inl rfl)))).1 e1
        · exact (says_iff (.inr (.inr (.inl rfl))) (h4 _ (.inr (.inr (.inl rfl))))).1 e3
        · exact (says_iff (.inr (.inr (.inr rfl))) (h4 _ (.inr (.inr (.inr rfl))))).1 e4
        · rw [h5]; rfl
  · rintro ⟨s', fs, w, h, d, m, rfl, h2, s1, s2, s3, s4, rfl⟩
    dsimp only
    rw [if_neg (by simp)]
    have hnum : ∀ {key v}, IsNum key → Says fs key v → ∀ st', num key st' = some v → NumIs key {} st' fs := by
      rintro key v hk ⟨t, word, a, b, c⟩ st' hv
      refine .inr ⟨t, v, a, ?_, hv, (parseTrim_iff t v).2 ⟨word, b, c⟩⟩
      rcases hk with rfl | rfl | rfl | rfl <;> rfl
    have h3 : applyFields fs {} = .ok ⟨some h, some w, some d, some m, joined none (entries wordTuple fs)⟩ := by
      rw [fields_iff fs (statements_keys h2)]
      refine ⟨?_, rfl⟩
      rintro k (rfl | rfl | rfl | rfl)
      · exact hnum (.inl rfl) s1 _ rfl
      · exact hnum (.inr (.inl rfl)) s2 _ rfl
      · exact hnum (.inr (.inr (.inl rfl))) s3 _ rfl
      · exact hnum (.inr (.inr (.inr rfl))) s4 _ rfl
    rw [(pamLoop_iff _ s' (by omega) _ _ _).2 ⟨fs, h2, h3⟩, ok_bind]
    rfl

theorem magic7 (s : List UInt8) : readHeader (80 :: 55 :: s) = readArbitraryHeader s := by
  unfold readHeader
  rw [readExact_two, ok_bind]
  rfl

theorem tuplOfName_eq {o : List UInt8} :
    (tuplOfName o = .blackAndWhite ↔ o = wordBlackAndWhite) ∧ (tuplOfName o = .grayscale ↔ o = wordGray) ∧ (tuplOfName o = .rgb ↔ o = wordRgb) := by
  unfold tuplOfName
  by_cases h1 : o = kwBW
  · subst h1; decide
  rw [if_neg h1]
  by_cases h2 : o = kwBWA
  · subst h2; decide
  rw [if_neg h2]
  by_cases h3 : o = kwGray
  · subst h3; decide
  rw [if_neg h3]
  by_cases h4 : o = kwGrayA
  · subst h4; decide
  rw [if_neg h4]
  by_cases h5 : o = kwRgb
  · subst h5; decide
  rw [if_neg h5]
  by_cases h6 : o = kwRgbA
  · subst h6; decide
  rw [if_neg h6]
  refine ⟨⟨fun h => (by cases h), fun h => absurd h h1⟩, ⟨fun h => (by cases h), fun h => absurd h h3⟩, ⟨fun h => (by cases h), fun h => absurd h h5⟩⟩

theorem readSamples_congr {le : Bool} {data : List UInt8} {hd hd' : Pnm.Header} {t t' : TupleType} {S : Sample} {c n : Nat}
    (h1 : hd.subtype.sampleEncoding = hd'.subtype.sampleEncoding) (h2 : hd.width = hd'.width) (h3 : hd.height = hd'.height)
    (h4 : hd.maximalSample = hd'.maximalSample) :
    Decoder.readSamples le ⟨data, hd, t⟩ S c n = Decoder.readSamples le ⟨data, hd', t'⟩ S c n := by
  unfold Decoder.readSamples
  dsimp only
  rw [h1, h2, h3, h4]

/-- Samples of BLACKANDWHITE are samples of one byte, 0 or 1. -/
theorem readSamples_bw {le : Bool} {data : List UInt8} {hd : Pnm.Header} {t : TupleType} {n : Nat} (hb : hd.subtype.sampleEncoding = .binary) (buf : List UInt8) :
    Decoder.readSamples le ⟨data, hd, t⟩ .BWBit 1 n = .ok buf ↔
      Decoder.readSamples le ⟨data, hd, t⟩ .U8 1 n = .ok buf ∧ ∀ b ∈ data.take n, b.toNat ≤ 1 := by
  unfold Decoder.readSamples
  dsimp only
  rw [ok_scale, ok_scale, hb]
  dsimp only
  have e1 : ∀ w h c, Sample.BWBit.bytelen w h c = Sample.U8.bytelen w h c := fun _ _ _ => rfl
  have e2 : ∀ m b, scaleBuffer le .BWBit m b = scaleBuffer le .U8 m b := fun _ _ => rfl
  rw [e1]
  simp only [e2]
  rcases Sample.U8.bytelen hd.width hd.height 1 with e | k
  · exact ⟨fun ⟨b, h, _⟩ => (by cases h), fun ⟨⟨b, h, _⟩, _⟩ => (by cases h)⟩
  simp only [ok_bind]
  by_cases hl : (data.take k).length ≠ k
  · simp only [if_pos hl]
    exact ⟨fun ⟨b, h, _⟩ => (by cases h), fun ⟨⟨b, h, _⟩, _⟩ => (by cases h)⟩
  simp only [if_neg hl]
  rcases checkedMul 64 hd.width 1 with _ | rs
  · exact ⟨fun ⟨b, h, _⟩ => (by cases h), fun ⟨⟨b, h, _⟩, _⟩ => (by cases h)⟩
  dsimp only
  unfold Sample.fromBytes
  dsimp only
  by_cases hn : (data.take k).length = n
  · have hkn : k = n := by rw [← hn]; exact (by simpa using hl : (data.take k).length = k).symm
    subst hkn
    rw [assertR_dec (by simpa using hn), ok_bind, ok_bind]
    by_cases ha : ((data.take k).any fun b => decide (b.toNat > 1)) = true
    · rw [if_pos ha]
      constructor
      · rintro ⟨b, h, _⟩; cases h
      · rintro ⟨-, h⟩
        obtain ⟨b, hb, hb1⟩ := List.any_eq_true.1 ha
        have := h b hb
        simp at hb1
        omega
    · rw [if_neg ha]
      refine ⟨fun h => ⟨h, fun b hb => ?_⟩, fun h => h.1⟩
      rw [Bool.not_eq_true, List.any_eq_false] at ha
      have := ha b hb
      simpa using this
  · have : assertR (decide ((data.take k).length = n)) = panicR := by
      rw [show decide ((data.take k).length = n) = false by simpa using hn]; rfl
    rw [this]
    exact ⟨fun ⟨b, h, _⟩ => (by cases h), fun ⟨⟨b, h, _⟩, _⟩ => (by cases h)⟩

end Pnm
end Verif
