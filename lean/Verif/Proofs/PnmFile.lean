import Verif.Spec.Pnm
import Verif.Props.PnmTotal
import Verif.Props.PnmMore

/-! # PNM files: the decoder against `Verif.Spec.Pnm` -/

namespace Verif
namespace Pnm

open PnmSpec

theorem isSpace_iff (b : UInt8) : isSpace b = true ↔ Space b := by
  unfold isSpace Space
  simp [or_assoc]

/-! ## Numbers -/

theorem value_eq (ds : List UInt8) : value ds = decVal 0 ds := rfl

theorem parseDigits_some : ∀ (l : List UInt8) (acc v : Nat), parseDigits acc l = some v → (∀ b ∈ l, IsDigit b) ∧ decVal acc l = v := by
  intro l
  induction l with
  | nil => intro acc v h; cases h; exact ⟨by simp, rfl⟩
  | cons b l ih =>
    intro acc v h
    unfold parseDigits at h
    by_cases hb : 48 ≤ b.toNat ∧ b.toNat ≤ 57
    · rw [if_pos hb] at h
      unfold checkedMul checkedAdd at h
      by_cases h1 : acc * 10 < 2 ^ 32
      · rw [if_pos h1] at h
        dsimp only [Option.bind] at h
        by_cases h2 : acc * 10 + (b.toNat - 48) < 2 ^ 32
        · rw [if_pos h2] at h
          dsimp only at h
          obtain ⟨g1, g2⟩ := ih _ _ h
          exact ⟨fun c hc => (List.mem_cons.1 hc).elim (fun e => e ▸ hb) (g1 c), g2⟩
        · rw [if_neg h2] at h; cases h
      · rw [if_neg h1] at h; cases h
    · rw [if_neg hb] at h; cases h

theorem parseU32_iff (l : List UInt8) (v : Nat) : parseU32 l = some v ↔ Numeral l v := by
  constructor
  · intro h
    have hlt := parseU32_lt h
    unfold parseU32 at h
    split at h
    · cases h
    · rename_i b
      split at h
      · cases h
      · obtain ⟨g1, g2⟩ := parseDigits_some _ _ _ h
        exact ⟨[b], ⟨by simp, g1⟩, .inl rfl, g2.symm, hlt⟩
    · rename_i b s hne
      split at h
      · rename_i hb
        obtain ⟨g1, g2⟩ := parseDigits_some _ _ _ h
        refine ⟨s, ⟨?_, g1⟩, .inr (by rw [hb]), g2.symm, hlt⟩
        rintro rfl; exact hne rfl
      · obtain ⟨g1, g2⟩ := parseDigits_some _ _ _ h
        exact ⟨b :: s, ⟨by simp, g1⟩, .inl rfl, g2.symm, hlt⟩
  · rintro ⟨ds, ⟨h1, h2⟩, h3 | h3, rfl, h4⟩
    · subst h3
      exact parseU32_digits h1 h2 h4
    · subst h3
      cases ds with
      | nil => exact absurd rfl h1
      | cons d ds =>
        show (if (43 : UInt8) = 43 then parseDigits 0 (d :: ds) else parseDigits 0 (43 :: d :: ds)) = _
        rw [if_pos rfl]
        exact parseDigits_eq _ 0 h2 h4

/-! ## Words -/

/-- What is left of a word of which `acc` has been read. -/
def WordTail (acc s word rest : List UInt8) : Prop :=
  ∃ gap tail : List UInt8, (acc ≠ [] → gap = []) ∧ (∀ b ∈ gap, Space b) ∧ (∀ b ∈ tail, ¬ Space b ∧ b < 128) ∧ word = acc ++ tail ∧ word ≠ [] ∧
    ((∃ c, Space c ∧ Reads (gap ++ tail ++ [c]) s rest) ∨ (∃ t, Reads (gap ++ tail) s t ∧ Comments t ∧ rest = []))

theorem reads_cons_iff {c b : UInt8} {cs s rest : List UInt8} (hb : b ≠ 35) : Reads (c :: cs) (b :: s) rest ↔ b = c ∧ Reads cs s rest := by
  constructor
  · intro h
    cases h with
    | char _ h => exact ⟨rfl, h⟩
    | comment => exact absurd rfl hb
  · rintro ⟨rfl, h⟩
    exact .char hb h

theorem comments_cons {b : UInt8} {s : List UInt8} (hb : b ≠ 35) : ¬ Comments (b :: s) := by
  intro h
  cases h <;> exact hb rfl

theorem reads_nil_iff {s rest : List UInt8} : Reads [] s rest ↔ s = rest := ⟨fun h => by cases h; rfl, fun h => h ▸ .done⟩

/-- In a comment the scanner looks for the end of the line. -/
theorem nextStringLoop_false : ∀ (s bytes : List UInt8) (r : List UInt8 × List UInt8), nextStringLoop s false bytes = .ok r ↔
    (OneLine s ∧ bytes ≠ [] ∧ r = (bytes, [])) ∨ ∃ t e s', s = t ++ e :: s' ∧ OneLine t ∧ (e = 10 ∨ e = 13) ∧ nextStringLoop s' true bytes = .ok r := by
  intro s
  induction s with
  | nil =>
    intro bytes r
    rw [nextStringLoop]
    constructor
    · intro h
      by_cases hb : bytes = []
      · rw [if_pos hb] at h; cases h
      · rw [if_neg hb] at h; cases h
        exact .inl ⟨fun b hb => (by cases hb), hb, rfl⟩
    · rintro (⟨-, hb, rfl⟩ | ⟨t, e, s', h, -⟩)
      · rw [if_neg hb]
      · simp at h
  | cons b s ih =>
    intro bytes r
    rw [nextStringLoop]
    simp only [Bool.false_and, Bool.false_or]
    rw [if_neg (by simp)]
    by_cases hb : b = 10 ∨ b = 13
    · have : (b == 13 || b == 10) = true := by simpa [or_comm] using hb
      rw [this]
      constructor
      · intro h; exact .inr ⟨[], b, s, rfl, fun b hb => (by cases hb), hb, h⟩
      · rintro (⟨h, -⟩ | ⟨t, e, s', h1, h2, h3, h4⟩)
        · exact absurd hb (by have := h b List.mem_cons_self; tauto)
        · cases t with
          | nil => cases h1; exact h4
          | cons c t => cases h1; exact absurd hb (by have := h2 b List.mem_cons_self; tauto)
    · have : (b == 13 || b == 10) = false := by
        rw [Bool.eq_false_iff]; intro h; apply hb; simpa [or_comm] using h
      rw [this, ih]
      constructor
      · rintro (⟨h, h1, h2⟩ | ⟨t, e, s', h1, h2, h3, h4⟩)
        · exact .inl ⟨fun c hc => (List.mem_cons.1 hc).elim (fun e => e ▸ not_or.1 hb) (h c), h1, h2⟩
        · exact .inr ⟨b :: t, e, s', by rw [h1]; rfl, fun c hc => (List.mem_cons.1 hc).elim (fun e => e ▸ not_or.1 hb) (h2 c), h3, h4⟩
      · rintro (⟨h, h1, h2⟩ | ⟨t, e, s', h1, h2, h3, h4⟩)
        · exact .inl ⟨fun c hc => h c (List.mem_cons_of_mem _ hc), h1, h2⟩
        · cases t with
          | nil => cases h1; exact absurd h3 hb
          | cons c t => cases h1; exact .inr ⟨t, e, s', rfl, fun c hc => h2 c (List.mem_cons_of_mem _ hc), h3, h4⟩

theorem oneLine_unique {t t' s s' : List UInt8} {e e' : UInt8} (h : t ++ e :: s = t' ++ e' :: s') (ht : OneLine t) (ht' : OneLine t')
    (he : e = 10 ∨ e = 13) (he' : e' = 10 ∨ e' = 13) : t = t' ∧ e = e' ∧ s = s' := by
  induction t generalizing t' with
  | nil =>
    cases t' with
    | nil => cases h; exact ⟨rfl, rfl, rfl⟩
    | cons c t' => cases h; exact absurd he (by have := ht' e List.mem_cons_self; tauto)
  | cons c t ih =>
    cases t' with
    | nil => cases h; exact absurd he' (by have := ht e' List.mem_cons_self; tauto)
    | cons c' t' =>
      simp only [List.cons_append, List.cons.injEq] at h
      obtain ⟨rfl, h⟩ := h
      obtain ⟨rfl, rfl, rfl⟩ := ih h (fun b hb => ht b (List.mem_cons_of_mem _ hb)) (fun b hb => ht' b (List.mem_cons_of_mem _ hb))
      exact ⟨rfl, rfl, rfl⟩

theorem oneLine_split {t s : List UInt8} {e : UInt8} (h : OneLine (t ++ e :: s)) (he : e = 10 ∨ e = 13) : False := by
  have := h e (by simp)
  tauto

/-- A word behind a comment. -/
theorem wordTail_comment {acc s word rest : List UInt8} : WordTail acc (35 :: s) word rest ↔
    (OneLine s ∧ acc ≠ [] ∧ word = acc ∧ rest = []) ∨ ∃ t e s', s = t ++ e :: s' ∧ OneLine t ∧ (e = 10 ∨ e = 13) ∧ WordTail acc s' word rest := by
  constructor
  · rintro ⟨gap, tail, h0, h1, h2, rfl, h3, ⟨c, hc, hr⟩ | ⟨t, hr, ht, rfl⟩⟩
    · cases hcs : gap ++ tail ++ [c] with
      | nil => simp at hcs
      | cons x cs =>
        rw [hcs] at hr
        cases hr with
        | char h _ => exact absurd rfl h
        | comment g1 g2 g3 => exact .inr ⟨_, _, _, rfl, g1, g2, gap, tail, h0, h1, h2, rfl, h3, .inl ⟨c, hc, by rw [hcs]; exact g3⟩⟩
    · cases hcs : gap ++ tail with
      | nil =>
        rw [hcs] at hr
        cases hr
        obtain ⟨rfl, rfl⟩ := List.append_eq_nil_iff.1 hcs
        rw [List.append_nil] at h3 ⊢
        cases ht with
        | last h => exact .inl ⟨h, h3, rfl, rfl⟩
        | more g1 g2 g3 =>
          exact .inr ⟨_, _, _, rfl, g1, g2, [], [], h0, h1, h2, by simp, h3, .inr ⟨_, .done, g3, rfl⟩⟩
      | cons x cs =>
        rw [hcs] at hr
        cases hr with
        | char h _ => exact absurd rfl h
        | comment g1 g2 g3 => exact .inr ⟨_, _, _, rfl, g1, g2, gap, tail, h0, h1, h2, rfl, h3, .inr ⟨t, by rw [hcs]; exact g3, ht, rfl⟩⟩
  · rintro (⟨h1, h2, rfl, rfl⟩ | ⟨t, e, s', rfl, g1, g2, gap, tail, h0, h1, h2, rfl, h3, ⟨c, hc, hr⟩ | ⟨t', hr, ht, rfl⟩⟩)
    · exact ⟨[], [], fun _ => rfl, by simp, by simp, by simp, h2, .inr ⟨_, .done, .last h1, rfl⟩⟩
    · refine ⟨gap, tail, h0, h1, h2, rfl, h3, .inl ⟨c, hc, ?_⟩⟩
      cases hcs : gap ++ tail ++ [c] with
      | nil => simp at hcs
      | cons x cs => exact .comment g1 g2 (hcs ▸ hr)
    · refine ⟨gap, tail, h0, h1, h2, rfl, h3, .inr ?_⟩
      cases hcs : gap ++ tail with
      | nil =>
        rw [hcs] at hr
        cases hr
        exact ⟨_, .done, .more g1 g2 ht, rfl⟩
      | cons x cs => exact ⟨t', .comment g1 g2 (hcs ▸ hr), ht, rfl⟩

theorem nextStringLoop_true : ∀ (n : Nat) (s : List UInt8), s.length ≤ n → ∀ (acc : List UInt8) (r : List UInt8 × List UInt8),
    nextStringLoop s true acc = .ok r ↔ WordTail acc s r.1 r.2 := by
  intro n
  induction n with
  | zero =>
    intro s hs acc r
    have : s = [] := List.length_eq_zero_iff.1 (by omega)
    subst this
    unfold nextStringLoop
    constructor
    · intro h
      by_cases ha : acc = []
      · rw [if_pos ha] at h; cases h
      · rw [if_neg ha] at h; cases h
        exact ⟨[], [], fun _ => rfl, by simp, by simp, by simp, ha, .inr ⟨[], .done, .none, rfl⟩⟩
    · rintro ⟨gap, tail, h0, h1, h2, h3, h4, ⟨c, hc, hr⟩ | ⟨t, hr, ht, h5⟩⟩
      · cases hcs : gap ++ tail ++ [c] with
        | nil => simp at hcs
        | cons x cs => rw [hcs] at hr; cases hr
      · cases hcs : gap ++ tail with
        | nil =>
          obtain ⟨rfl, rfl⟩ := List.append_eq_nil_iff.1 hcs
          rw [List.append_nil] at h3
          rw [if_neg (h3 ▸ h4), ← h3, ← h5]
        | cons x cs => rw [hcs] at hr; cases hr
  | succ n ih =>
    intro s hs acc r
    cases s with
    | nil => exact ih [] (by simp) acc r
    | cons b s =>
      have hs' : s.length ≤ n := by simpa using hs
      by_cases hb : b = 35
      · subst hb
        rw [wordTail_comment]
        unfold nextStringLoop
        simp only [bne_self_eq_false, Bool.and_false, Bool.false_or, if_neg (by simp : ¬ (false = true))]
        rw [show ((35 : UInt8) == 13 || (35 : UInt8) == 10) = false from by decide, nextStringLoop_false]
        obtain ⟨r1, r2⟩ := r
        constructor
        · rintro (⟨h1, h2, h3⟩ | ⟨t, e, s', rfl, h2, h3, h4⟩)
          · cases h3; exact .inl ⟨h1, h2, rfl, rfl⟩
          · exact .inr ⟨t, e, s', rfl, h2, h3, (ih s' (by simp at hs'; omega) acc _).1 h4⟩
        · rintro (⟨h1, h2, h3, h4⟩ | ⟨t, e, s', rfl, h2, h3, h4⟩)
          · dsimp only at h3 h4; subst h3 h4; exact .inl ⟨h1, h2, rfl⟩
          · exact .inr ⟨t, e, s', rfl, h2, h3, (ih s' (by simp at hs'; omega) acc _).2 h4⟩
      · unfold nextStringLoop
        have hc1 : (true && b != 35) = true := by simpa using hb
        simp only [hc1, Bool.true_or, if_true]
        by_cases hsp : isSpace b = true
        · have hsp' := (isSpace_iff b).1 hsp
          rw [if_pos hsp]
          by_cases ha : acc = []
          · rw [if_neg (not_not.2 ha), ih s hs']
            subst ha
            constructor
            · rintro ⟨gap, tail, h0, h1, h2, h3, h4, h5⟩
              refine ⟨b :: gap, tail, fun h => absurd rfl h, fun c hc => (List.mem_cons.1 hc).elim (fun e => e ▸ hsp') (h1 c), h2, h3, h4, ?_⟩
              rcases h5 with ⟨c, hc, hr⟩ | ⟨t, hr, ht, h5⟩
              · exact .inl ⟨c, hc, .char hb hr⟩
              · exact .inr ⟨t, .char hb hr, ht, h5⟩
            · rintro ⟨gap, tail, h0, h1, h2, h3, h4, h5⟩
              cases gap with
              | nil =>
                exfalso
                cases tail with
                | nil => exact h4 (by rw [h3]; rfl)
                | cons x tail =>
                  have hx : b = x := by
                    rcases h5 with ⟨c, hc, hr⟩ | ⟨t, hr, ht, h5⟩
                    · exact ((reads_cons_iff hb).1 hr).1
                    · exact ((reads_cons_iff hb).1 hr).1
                  exact (h2 x List.mem_cons_self).1 (hx ▸ hsp')
              | cons g gap =>
                refine ⟨gap, tail, fun h => absurd rfl h, fun c hc => h1 c (List.mem_cons_of_mem _ hc), h2, h3, h4, ?_⟩
                rcases h5 with ⟨c, hc, hr⟩ | ⟨t, hr, ht, h5⟩
                · exact .inl ⟨c, hc, ((reads_cons_iff hb).1 hr).2⟩
                · exact .inr ⟨t, ((reads_cons_iff hb).1 hr).2, ht, h5⟩
          · rw [if_pos ha]
            constructor
            · intro h; cases h
              exact ⟨[], [], fun _ => rfl, by simp, by simp, by simp, ha, .inl ⟨b, hsp', .char hb .done⟩⟩
            · rintro ⟨gap, tail, h0, h1, h2, h3, h4, h5⟩
              have hg := h0 ha
              subst hg
              cases tail with
              | nil =>
                rcases h5 with ⟨c, hc, hr⟩ | ⟨t, hr, ht, h5⟩
                · have := ((reads_cons_iff hb).1 hr).2
                  have := reads_nil_iff.1 this
                  rw [this, ← List.append_nil acc, ← h3]
                · have := reads_nil_iff.1 hr
                  exact absurd (this ▸ ht) (comments_cons hb)
              | cons x tail =>
                exfalso
                have hx : b = x := by
                  rcases h5 with ⟨c, hc, hr⟩ | ⟨t, hr, ht, h5⟩
                  · exact ((reads_cons_iff hb).1 hr).1
                  · exact ((reads_cons_iff hb).1 hr).1
                exact (h2 x List.mem_cons_self).1 (hx ▸ hsp')
        · have hsp' : ¬ Space b := fun h => hsp ((isSpace_iff b).2 h)
          rw [if_neg hsp]
          have first : ∀ {word rest : List UInt8}, WordTail acc (b :: s) word rest → b < 128 ∧ WordTail (acc ++ [b]) s word rest := by
            rintro word rest ⟨gap, tail, h0, h1, h2, h3, h4, h5⟩
            cases gap with
            | cons g gap =>
              exfalso
              have hx : b = g := by
                rcases h5 with ⟨c, hc, hr⟩ | ⟨t, hr, ht, h5⟩
                · exact ((reads_cons_iff hb).1 hr).1
                · exact ((reads_cons_iff hb).1 hr).1
              exact hsp' (hx ▸ h1 g List.mem_cons_self)
            | nil =>
              cases tail with
              | nil =>
                exfalso
                rcases h5 with ⟨c, hc, hr⟩ | ⟨t, hr, ht, h5⟩
                · exact hsp' (((reads_cons_iff hb).1 hr).1 ▸ hc)
                · have := reads_nil_iff.1 hr
                  exact absurd (this ▸ ht) (comments_cons hb)
              | cons x tail =>
                have hx : b = x := by
                  rcases h5 with ⟨c, hc, hr⟩ | ⟨t, hr, ht, h5⟩
                  · exact ((reads_cons_iff hb).1 hr).1
                  · exact ((reads_cons_iff hb).1 hr).1
                subst hx
                refine ⟨(h2 b List.mem_cons_self).2, [], tail, fun _ => rfl, by simp, fun c hc => h2 c (List.mem_cons_of_mem _ hc), by simpa using h3, h4, ?_⟩
                rcases h5 with ⟨c, hc, hr⟩ | ⟨t, hr, ht, h5⟩
                · exact .inl ⟨c, hc, ((reads_cons_iff hb).1 hr).2⟩
                · exact .inr ⟨t, ((reads_cons_iff hb).1 hr).2, ht, h5⟩
          by_cases h128 : b.toNat ≥ 128
          · rw [if_pos h128]
            constructor
            · intro h; cases h
            · intro h
              have := UInt8.lt_iff_toNat_lt.1 (first h).1
              simp at this
              omega
          · rw [if_neg h128, ih s hs']
            constructor
            · rintro ⟨gap, tail, h0, h1, h2, h3, h4, h5⟩
              have hg := h0 (by simp)
              subst hg
              have hlt : b < 128 := UInt8.lt_iff_toNat_lt.2 (by simp; omega)
              refine ⟨[], b :: tail, fun _ => rfl, by simp, fun c hc => (List.mem_cons.1 hc).elim (fun e => e ▸ ⟨hsp', hlt⟩) (h2 c), by simpa using h3, h4, ?_⟩
              rcases h5 with ⟨c, hc, hr⟩ | ⟨t, hr, ht, h5⟩
              · exact .inl ⟨c, hc, .char hb hr⟩
              · exact .inr ⟨t, .char hb hr, ht, h5⟩
            · intro h; exact (first h).2

theorem nextString_iff (s : List UInt8) (r : List UInt8 × List UInt8) : nextString s = .ok r ↔ Word s r.1 r.2 := by
  unfold nextString
  rw [nextStringLoop_true s.length s (le_refl _)]
  unfold WordTail Word
  constructor
  · rintro ⟨gap, tail, -, h1, h2, h3, h4, h5⟩
    rw [List.nil_append] at h3
    subst h3
    exact ⟨h4, h2, gap, h1, h5⟩
  · rintro ⟨h4, h2, gap, h1, h5⟩
    exact ⟨gap, r.1, fun h => absurd rfl h, h1, h2, by simp, h4, h5⟩

theorem nextU32_iff (s : List UInt8) (v : Nat) (rest : List UInt8) : nextU32 s = .ok (v, rest) ↔ Entry s v rest := by
  unfold nextU32 Entry
  rw [bind_eq_ok]
  constructor
  · rintro ⟨⟨t, s'⟩, h1, h2⟩
    dsimp only at h2
    rcases h3 : parseU32 t with _ | v'
    · rw [h3] at h2; cases h2
    · rw [h3] at h2; cases h2
      exact ⟨t, (nextString_iff _ _).1 h1, (parseU32_iff _ _).1 h3⟩
  · rintro ⟨t, h1, h2⟩
    refine ⟨(t, rest), (nextString_iff _ _).2 h1, ?_⟩
    dsimp only
    rw [(parseU32_iff _ _).2 h2]

/-! ## The header -/

/-- The header of the model for a description. -/
def headerOf (i : Info) : Header :=
  let e := if i.plain then Enc.ascii else Enc.binary
  if i.bilevel then .bitmap e i.height i.width
  else if i.channels = 1 then .graymap e i.height i.width i.maxval else .pixmap e i.height i.width i.maxval

/-- The tuple type of the model for a description. -/
def tupleOf (i : Info) : TupleType :=
  if i.bilevel then .pbmBit
  else if i.channels = 1 then (if i.maxval ≤ 255 then .grayU8 else .grayU16) else (if i.maxval ≤ 255 then .rgbU8 else .rgbU16)

theorem readExact_two (a b : UInt8) (s : List UInt8) : readExact 2 (a :: b :: s) = .ok ([a, b], s) :=
  readExact_append' (a := [a, b]) rfl s

theorem bitmapHeader_iff (e : Enc) (s : List UInt8) (hd : Header) (rest : List UInt8) :
    readBitmapHeader e s = .ok (hd, rest) ↔ ∃ w h s1, Entry s w s1 ∧ Entry s1 h rest ∧ hd = .bitmap e h w := by
  unfold readBitmapHeader
  rw [bind_eq_ok]
  constructor
  · rintro ⟨⟨w, s1⟩, h1, h⟩
    obtain ⟨⟨h, s2⟩, h2, h⟩ := bind_eq_ok.1 h
    cases h
    exact ⟨w, _, s1, (nextU32_iff _ _ _).1 h1, (nextU32_iff _ _ _).1 h2, rfl⟩
  · rintro ⟨w, h, s1, h1, h2, rfl⟩
    refine ⟨(w, s1), (nextU32_iff _ _ _).2 h1, ?_⟩
    dsimp only
    rw [(nextU32_iff _ _ _).2 h2, ok_bind]

theorem pixmapHeader_iff (mk : Enc → Nat → Nat → Nat → Header) (e : Enc) (s : List UInt8) (hd : Header) (rest : List UInt8) :
    readPixmapHeader mk e s = .ok (hd, rest) ↔ ∃ w h m s1 s2, Entry s w s1 ∧ Entry s1 h s2 ∧ Entry s2 m rest ∧ hd = mk e h w m := by
  unfold readPixmapHeader
  rw [bind_eq_ok]
  constructor
  · rintro ⟨⟨w, s1⟩, h1, h⟩
    obtain ⟨⟨hh, s2⟩, h2, h⟩ := bind_eq_ok.1 h
    obtain ⟨⟨m, s3⟩, h3, h⟩ := bind_eq_ok.1 h
    cases h
    exact ⟨w, hh, m, s1, s2, (nextU32_iff _ _ _).1 h1, (nextU32_iff _ _ _).1 h2, (nextU32_iff _ _ _).1 h3, rfl⟩
  · rintro ⟨w, h, m, s1, s2, h1, h2, h3, rfl⟩
    refine ⟨(w, s1), (nextU32_iff _ _ _).2 h1, ?_⟩
    dsimp only
    rw [(nextU32_iff _ _ _).2 h2, ok_bind]
    dsimp only
    rw [(nextU32_iff _ _ _).2 h3, ok_bind]

theorem tuple_map {m : Nat} {t8 t16 t : TupleType} :
    (if m = 0 then errR .decoding else if m ≤ 0xff then .ok t8 else if m ≤ 0xffff then .ok t16 else errR .decoding : R TupleType) = .ok t ↔
      1 ≤ m ∧ m ≤ 65535 ∧ t = if m ≤ 255 then t8 else t16 := by
  by_cases h0 : m = 0
  · rw [if_pos h0]
    exact ⟨fun h => (by cases h), fun h => (by omega)⟩
  rw [if_neg h0]
  by_cases h1 : m ≤ 255
  · rw [if_pos h1, if_pos h1]
    exact ⟨fun h => (by cases h; exact ⟨by omega, by omega, rfl⟩), fun h => (by rw [h.2.2])⟩
  rw [if_neg h1, if_neg h1]
  by_cases h2 : m ≤ 65535
  · rw [if_pos h2]
    exact ⟨fun h => (by cases h; exact ⟨by omega, by omega, rfl⟩), fun h => (by rw [h.2.2])⟩
  · rw [if_neg h2]
    exact ⟨fun h => (by cases h), fun h => (by omega)⟩

/-- Opening a file that is not a PAM file. -/
theorem header_iff (file : List UInt8) (h7 : ∀ s, file ≠ 80 :: 55 :: s) (hd : Header) (t : TupleType) (rest : List UInt8) :
    (readHeader file = .ok (hd, rest) ∧ hd.tupleType = .ok t) ↔ ∃ i, Opens file i rest ∧ hd = headerOf i ∧ t = tupleOf i := by
  constructor
  · rintro ⟨h, ht⟩
    unfold readHeader at h
    rcases file with _ | ⟨a, _ | ⟨b, s⟩⟩
    · cases h
    · cases h
    rw [readExact_two, ok_bind] at h
    replace h : (if [a, b] = [80, 49] then readBitmapHeader Enc.ascii s
      else if [a, b] = [80, 50] then readPixmapHeader Header.graymap Enc.ascii s
      else if [a, b] = [80, 51] then readPixmapHeader Header.pixmap Enc.ascii s
      else if [a, b] = [80, 52] then readBitmapHeader Enc.binary s
      else if [a, b] = [80, 53] then readPixmapHeader Header.graymap Enc.binary s
      else if [a, b] = [80, 54] then readPixmapHeader Header.pixmap Enc.binary s
      else if [a, b] = [80, 55] then readArbitraryHeader s else errR Err.decoding) = Except.ok (hd, rest) := h
    by_cases c1 : [a, b] = [80, 49]
    · rw [if_pos c1] at h
      cases c1
      obtain ⟨w, hh, s1, g1, g2, rfl⟩ := (bitmapHeader_iff _ _ _ _).1 h
      cases ht
      exact ⟨⟨true, true, 1, w, hh, 1⟩, ⟨s, s1, rest, rfl, g1, g2, rfl, rfl, rfl⟩, rfl, rfl⟩
    rw [if_neg c1] at h
    by_cases c2 : [a, b] = [80, 50]
    · rw [if_pos c2] at h
      cases c2
      obtain ⟨w, hh, m, s1, s2, g1, g2, g3, rfl⟩ := (pixmapHeader_iff _ _ _ _ _).1 h
      obtain ⟨m1, m2, rfl⟩ := tuple_map.1 ht
      exact ⟨⟨true, false, 1, w, hh, m⟩, ⟨s, s1, s2, rfl, g1, g2, .inl rfl, g3, m1, m2⟩, rfl, rfl⟩
    rw [if_neg c2] at h
    by_cases c3 : [a, b] = [80, 51]
    · rw [if_pos c3] at h
      cases c3
      obtain ⟨w, hh, m, s1, s2, g1, g2, g3, rfl⟩ := (pixmapHeader_iff _ _ _ _ _).1 h
      obtain ⟨m1, m2, rfl⟩ := tuple_map.1 ht
      exact ⟨⟨true, false, 3, w, hh, m⟩, ⟨s, s1, s2, rfl, g1, g2, .inr rfl, g3, m1, m2⟩, rfl, rfl⟩
    rw [if_neg c3] at h
    by_cases c4 : [a, b] = [80, 52]
    · rw [if_pos c4] at h
      cases c4
      obtain ⟨w, hh, s1, g1, g2, rfl⟩ := (bitmapHeader_iff _ _ _ _).1 h
      cases ht
      exact ⟨⟨false, true, 1, w, hh, 1⟩, ⟨s, s1, rest, rfl, g1, g2, rfl, rfl, rfl⟩, rfl, rfl⟩
    rw [if_neg c4] at h
    by_cases c5 : [a, b] = [80, 53]
    · rw [if_pos c5] at h
      cases c5
      obtain ⟨w, hh, m, s1, s2, g1, g2, g3, rfl⟩ := (pixmapHeader_iff _ _ _ _ _).1 h
      obtain ⟨m1, m2, rfl⟩ := tuple_map.1 ht
      exact ⟨⟨false, false, 1, w, hh, m⟩, ⟨s, s1, s2, rfl, g1, g2, .inl rfl, g3, m1, m2⟩, rfl, rfl⟩
    rw [if_neg c5] at h
    by_cases c6 : [a, b] = [80, 54]
    · rw [if_pos c6] at h
      cases c6
      obtain ⟨w, hh, m, s1, s2, g1, g2, g3, rfl⟩ := (pixmapHeader_iff _ _ _ _ _).1 h
      obtain ⟨m1, m2, rfl⟩ := tuple_map.1 ht
      exact ⟨⟨false, false, 3, w, hh, m⟩, ⟨s, s1, s2, rfl, g1, g2, .inr rfl, g3, m1, m2⟩, rfl, rfl⟩
    rw [if_neg c6] at h
    by_cases c7 : [a, b] = [80, 55]
    · cases c7; exact absurd rfl (h7 s)
    · rw [if_neg c7] at h; cases h
  · rintro ⟨⟨plain, bilevel, ch, w, hh, m⟩, ⟨s, s1, s2, rfl, g1, g2, g3⟩, rfl, rfl⟩
    dsimp only at g1 g2 g3 ⊢
    unfold readHeader
    rw [readExact_two, ok_bind]
    dsimp only [Subtype.magic]
    cases bilevel with
    | true =>
      rw [if_pos rfl] at g3
      obtain ⟨rfl, rfl, rfl⟩ := g3
      refine ⟨?_, rfl⟩
      cases plain with
      | true => exact (bitmapHeader_iff _ _ _ _).2 ⟨w, hh, s1, g1, g2, rfl⟩
      | false => exact (bitmapHeader_iff _ _ _ _).2 ⟨w, hh, s1, g1, g2, rfl⟩
    | false =>
      rw [if_neg (by simp)] at g3
      obtain ⟨hc, g3, m1, m2⟩ := g3
      rcases hc with rfl | rfl
      · refine ⟨?_, tuple_map.2 ⟨m1, m2, rfl⟩⟩
        cases plain with
        | true => exact (pixmapHeader_iff _ _ _ _ _).2 ⟨w, hh, m, s1, s2, g1, g2, g3, rfl⟩
        | false => exact (pixmapHeader_iff _ _ _ _ _).2 ⟨w, hh, m, s1, s2, g1, g2, g3, rfl⟩
      · refine ⟨?_, tuple_map.2 ⟨m1, m2, rfl⟩⟩
        cases plain with
        | true => exact (pixmapHeader_iff _ _ _ _ _).2 ⟨w, hh, m, s1, s2, g1, g2, g3, rfl⟩
        | false => exact (pixmapHeader_iff _ _ _ _ _).2 ⟨w, hh, m, s1, s2, g1, g2, g3, rfl⟩

/-! ## Text rasters -/

theorem forRange_front {σ : Type} (body : σ → R σ) : ∀ (n : Nat) (st : σ),
    forRange (n + 1) (fun _ s => body s) st = (body st >>= fun st' => forRange n (fun _ s => body s) st') := by
  intro n
  induction n with
  | zero =>
    intro st
    rw [forRange_succ, forRange_zero, ok_bind]
    cases body st <;> rfl
  | succ n ih =>
    intro st
    rw [forRange_succ, ih]
    cases body st with
    | error e => rfl
    | ok s => rw [ok_bind, ok_bind, forRange_succ]

theorem sep_eof (l : List UInt8) : ∀ acc, (∀ b ∈ l, IsDigit b) → decVal acc l < 65536 → separatedLoop acc l = .ok (decVal acc l, []) := by
  induction l with
  | nil => intro acc _ _; rfl
  | cons b l ih =>
    intro acc hd hv
    have hb := hd b (by simp)
    have hge := decVal_ge l (acc * 10 + (b.toNat - 48))
    have he : decVal acc (b :: l) = decVal (acc * 10 + (b.toNat - 48)) l := rfl
    rw [he] at hv ⊢
    have hns : isSpace b = false := by
      have := hb.tok.1; exact this
    simp only [separatedLoop]
    rw [if_neg (by simp [hns]), if_pos (show 48 ≤ b.toNat ∧ b.toNat ≤ 57 from hb), checkedMul, if_pos (by omega), Option.bind_some,
      checkedAdd, if_pos (by omega)]
    exact ih _ (fun x hx => hd x (List.mem_cons_of_mem _ hx)) hv

theorem sep_some : ∀ (s : List UInt8) (acc v : Nat) (s1 : List UInt8), separatedLoop acc s = .ok (v, s1) →
    ∃ ds, (∀ b ∈ ds, IsDigit b) ∧ v = decVal acc ds ∧ ((s = ds ∧ s1 = []) ∨ ∃ c, Space c ∧ s = ds ++ c :: s1) := by
  intro s
  induction s with
  | nil => intro acc v s1 h; cases h; exact ⟨[], by simp, rfl, .inl ⟨rfl, rfl⟩⟩
  | cons c s ih =>
    intro acc v s1 h
    rw [separatedLoop] at h
    by_cases hs : isSpace c = true
    · rw [if_pos hs] at h; cases h
      exact ⟨[], by simp, rfl, .inr ⟨c, (isSpace_iff c).1 hs, rfl⟩⟩
    rw [if_neg hs] at h
    by_cases hd : 48 ≤ c.toNat ∧ c.toNat ≤ 57
    · rw [if_pos hd] at h
      unfold checkedMul checkedAdd at h
      by_cases h1 : acc * 10 < 2 ^ 16
      · rw [if_pos h1, Option.bind_some] at h
        by_cases h2 : acc * 10 + (c.toNat - 48) < 2 ^ 16
        · rw [if_pos h2] at h
          obtain ⟨ds, g1, g2, g3⟩ := ih _ _ _ h
          refine ⟨c :: ds, fun b hb => (List.mem_cons.1 hb).elim (fun e => e ▸ hd) (g1 b), g2, ?_⟩
          rcases g3 with ⟨rfl, rfl⟩ | ⟨x, hx, rfl⟩
          · exact .inl ⟨rfl, rfl⟩
          · exact .inr ⟨x, hx, rfl⟩
        · rw [if_neg h2] at h; cases h
      · rw [if_neg h1] at h; cases h
    · rw [if_neg hd] at h; cases h

theorem dropWhile_gap {gap s : List UInt8} (hg : ∀ b ∈ gap, Space b) : (gap ++ s).dropWhile isSpace = s.dropWhile isSpace := by
  induction gap with
  | nil => rfl
  | cons c gap ih =>
    rw [List.cons_append, List.dropWhile_cons, if_pos ((isSpace_iff c).2 (hg c List.mem_cons_self))]
    exact ih fun b hb => hg b (List.mem_cons_of_mem _ hb)

theorem takeWhile_mem {p : UInt8 → Bool} {s : List UInt8} {b : UInt8} (h : b ∈ s.takeWhile p) : p b = true := by
  induction s with
  | nil => cases h
  | cons c s ih =>
    by_cases hc : p c = true
    · rw [List.takeWhile_cons, if_pos hc] at h
      exact (List.mem_cons.1 h).elim (fun e => e ▸ hc) ih
    · rw [List.takeWhile_cons, if_neg hc] at h; cases h

theorem exists_gap (s : List UInt8) : ∃ gap, (∀ b ∈ gap, Space b) ∧ s = gap ++ s.dropWhile isSpace ∧
    ∀ c t, s.dropWhile isSpace = c :: t → ¬ Space c := by
  refine ⟨s.takeWhile isSpace, fun b hb => (isSpace_iff b).1 (takeWhile_mem hb), (List.takeWhile_append_dropWhile).symm, ?_⟩
  intro c t h hc
  have := List.head?_dropWhile_not isSpace s
  rw [h] at this
  simp [(isSpace_iff c).2 hc] at this

theorem digit_notSpace {b : UInt8} (h : IsDigit b) : ¬ Space b := fun hs => by
  have := h.tok.1; rw [(isSpace_iff b).2 hs] at this; cases this

/-- One number of a text raster. -/
theorem readSep_iff {lim : Nat} (hl : lim < 65536) (s : List UInt8) (v : Nat) (s1 : List UInt8) : readSeparatedAscii lim s = .ok (v, s1) ↔
    ((∀ b ∈ s, Space b) ∧ v = 0 ∧ s1 = []) ∨ ∃ gap ds, (∀ b ∈ gap, Space b) ∧ Digits ds ∧ v = value ds ∧ v ≤ lim ∧
      ((s = gap ++ ds ∧ s1 = []) ∨ ∃ c, Space c ∧ s = gap ++ ds ++ c :: s1) := by
  unfold readSeparatedAscii
  constructor
  · intro h
    obtain ⟨⟨v', s'⟩, h1, h⟩ := bind_eq_ok.1 h
    dsimp only at h
    by_cases hv : v' ≤ lim
    · rw [if_pos hv] at h; cases h
      obtain ⟨gap, g1, g2, g3⟩ := exists_gap s
      obtain ⟨ds, k1, k2, k3⟩ := sep_some _ _ _ _ h1
      by_cases hds : ds = []
      · subst hds
        left
        rcases k3 with ⟨k3, rfl⟩ | ⟨c, hc, k3⟩
        · rw [k3, List.append_nil] at g2
          exact ⟨g2 ▸ g1, k2, rfl⟩
        · exact absurd hc (g3 c s1 k3)
      · right
        refine ⟨gap, ds, g1, ⟨hds, k1⟩, k2, hv, ?_⟩
        rcases k3 with ⟨k3, rfl⟩ | ⟨c, hc, k3⟩
        · exact .inl ⟨by rw [g2, k3], rfl⟩
        · exact .inr ⟨c, hc, by rw [g2, k3, List.append_assoc]⟩
    · rw [if_neg hv] at h; cases h
  · rintro (⟨h1, rfl, rfl⟩ | ⟨gap, ds, g1, ⟨k0, k1⟩, rfl, hv, ⟨rfl, rfl⟩ | ⟨c, hc, rfl⟩⟩)
    · have := dropWhile_gap (s := []) h1
      rw [List.append_nil] at this
      rw [this]
      rfl
    · have hdw : ds.dropWhile isSpace = ds := by
        cases ds with
        | nil => rfl
        | cons d ds =>
          rw [List.dropWhile_cons, if_neg]
          intro h; exact digit_notSpace (k1 d List.mem_cons_self) ((isSpace_iff d).1 h)
      have hv' : decVal 0 ds < 65536 := by rw [← value_eq]; omega
      rw [dropWhile_gap g1, hdw, sep_eof ds 0 k1 hv', ok_bind]
      dsimp only
      rw [if_pos (by rw [← value_eq]; exact hv)]
      rfl
    · have hdw : (ds ++ c :: s1).dropWhile isSpace = ds ++ c :: s1 := by
        cases ds with
        | nil => exact absurd rfl k0
        | cons d ds =>
          rw [List.cons_append, List.dropWhile_cons, if_neg]
          intro h; exact digit_notSpace (k1 d List.mem_cons_self) ((isSpace_iff d).1 h)
      have hv' : decVal 0 ds < 65536 := by rw [← value_eq]; omega
      rw [List.append_assoc, dropWhile_gap g1, hdw, separatedLoop_digits ds c ((isSpace_iff c).2 hc) s1 0 k1 hv', ok_bind]
      dsimp only
      rw [if_pos (by rw [← value_eq]; exact hv)]
      rfl

theorem digits_head {ds s : List UInt8} {c : UInt8} {t : List UInt8} (hd : Digits ds) (h : ds ++ s = c :: t) : ¬ Space c := by
  cases ds with
  | nil => exact absurd rfl hd.1
  | cons d ds => cases h; exact digit_notSpace (hd.2 c List.mem_cons_self)

theorem plain_space {lenient : Bool} {lim n : Nat} {c : UInt8} (hc : Space c) {s : List UInt8} {raw : List Nat} :
    PlainNumbers lenient lim n (c :: s) raw ↔ PlainNumbers lenient lim n s raw := by
  constructor
  · intro h
    generalize hs : c :: s = s0 at h
    cases h with
    | done => exact .done
    | @number n gap ds s' raw' h1 h2 h3 h4 h5 =>
      cases gap with
      | nil => exact absurd hc (digits_head h2 hs.symm)
      | cons g gap =>
        simp only [List.cons_append, List.cons.injEq] at hs
        obtain ⟨rfl, rfl⟩ := hs
        exact .number (fun b hb => h1 b (List.mem_cons_of_mem _ hb)) h2 h3 h4 h5
    | missing h1 h2 =>
      subst hs
      exact .missing h1 fun b hb => h2 b (List.mem_cons_of_mem _ hb)
  · intro h
    cases h with
    | done => exact .done
    | @number n gap ds s' raw' h1 h2 h3 h4 h5 =>
      have : c :: (gap ++ ds ++ s') = (c :: gap) ++ ds ++ s' := rfl
      rw [this]
      exact .number (fun b hb => (List.mem_cons.1 hb).elim (fun e => e ▸ hc) (h1 b)) h2 h3 h4 h5
    | missing h1 h2 => exact .missing h1 fun b hb => (List.mem_cons.1 hb).elim (fun e => e ▸ hc) (h2 b)

theorem plain_nil {lim n : Nat} {raw : List Nat} : PlainNumbers true lim n [] raw ↔ raw = List.replicate n 0 := by
  constructor
  · intro h
    generalize hs : ([] : List UInt8) = s at h
    cases h with
    | done => rfl
    | number h1 h2 =>
      have := congrArg List.length hs
      simp at this
      exact absurd (List.length_eq_zero_iff.1 (by omega)) h2.1
    | missing => rfl
  · rintro rfl
    exact .missing rfl (by simp)

theorem numbers_iff {lim : Nat} (hl : lim < 65536) (out : Nat → List UInt8) : ∀ (n : Nat) (s acc o : List UInt8),
    (∃ s', forRange n (fun _ (st : List UInt8 × List UInt8) => do
      let (v, s) ← readSeparatedAscii lim st.2
      .ok (st.1 ++ out v, s)) (acc, s) = .ok (o, s')) ↔ ∃ raw, PlainNumbers true lim n s raw ∧ o = acc ++ raw.flatMap out := by
  intro n
  induction n with
  | zero =>
    intro s acc o
    rw [forRange_zero]
    constructor
    · rintro ⟨s', h⟩; cases h; exact ⟨[], .done, by simp⟩
    · rintro ⟨raw, h, rfl⟩
      have : raw = [] := by
        generalize hn : 0 = n at h
        cases h with
        | done => rfl
        | number => omega
        | missing => subst hn; rfl
      subst this
      exact ⟨s, by simp⟩
  | succ n ih =>
    intro s acc o
    rw [forRange_front]
    have key : (∃ s', ((do
        let (v, s) ← readSeparatedAscii lim s
        .ok (acc ++ out v, s) : R (List UInt8 × List UInt8)) >>= fun st' => forRange n (fun _ (st : List UInt8 × List UInt8) => do
          let (v, s) ← readSeparatedAscii lim st.2
          .ok (st.1 ++ out v, s)) st') = .ok (o, s')) ↔
        ∃ v s1 raw, readSeparatedAscii lim s = .ok (v, s1) ∧ PlainNumbers true lim n s1 raw ∧ o = acc ++ out v ++ raw.flatMap out := by
      constructor
      · rintro ⟨s', h⟩
        obtain ⟨⟨a, s1⟩, h1, h⟩ := bind_eq_ok.1 h
        obtain ⟨⟨v, s2⟩, h2, h1⟩ := bind_eq_ok.1 h1
        cases h1
        obtain ⟨raw, g1, g2⟩ := (ih s1 _ o).1 ⟨s', h⟩
        exact ⟨v, s1, raw, h2, g1, g2⟩
      · rintro ⟨v, s1, raw, h1, h2, h3⟩
        obtain ⟨s', h⟩ := (ih s1 (acc ++ out v) o).2 ⟨raw, h2, h3⟩
        exact ⟨s', by rw [h1]; exact h⟩
    refine key.trans ?_
    constructor
    · rintro ⟨v, s1, raw, h1, h2, rfl⟩
      rcases (readSep_iff hl _ _ _).1 h1 with ⟨g1, rfl, rfl⟩ | ⟨gap, ds, g1, g2, rfl, g3, ⟨rfl, rfl⟩ | ⟨c, hc, rfl⟩⟩
      · rw [plain_nil] at h2
        subst h2
        exact ⟨List.replicate (n + 1) 0, .missing rfl g1, by simp [List.replicate_succ]⟩
      · refine ⟨value ds :: raw, ?_, by simp⟩
        have := PlainNumbers.number g1 g2 g3 (.inl rfl) h2
        rwa [List.append_nil] at this
      · exact ⟨value ds :: raw, .number g1 g2 g3 (.inr ⟨c, s1, rfl, hc⟩) ((plain_space hc).2 h2), by simp⟩
    · rintro ⟨raw, h, rfl⟩
      generalize hn : n + 1 = n' at h
      cases h with
      | done => omega
      | @number n2 gap ds s' raw' h1 h2 h3 h4 h5 =>
        have : n2 = n := by omega
        subst this
        rcases h4 with rfl | ⟨c, t, rfl, hc⟩
        · refine ⟨value ds, [], raw', (readSep_iff hl _ _ _).2 (.inr ⟨gap, ds, h1, h2, rfl, h3, .inl ⟨by simp, rfl⟩⟩), h5, by simp⟩
        · exact ⟨value ds, t, raw', (readSep_iff hl _ _ _).2 (.inr ⟨gap, ds, h1, h2, rfl, h3, .inr ⟨c, hc, rfl⟩⟩), (plain_space hc).1 h5, by simp⟩
      | missing h1 h2 =>
        subst hn
        exact ⟨0, [], List.replicate n 0, (readSep_iff hl _ _ _).2 (.inl ⟨h2, rfl, rfl⟩), plain_nil.2 rfl, by simp [List.replicate_succ]⟩

theorem readPbm_iff (s : List UInt8) (v : UInt8) (s1 : List UInt8) : readPbmAscii s = .ok (v, s1) ↔
    ∃ gap, (∀ b ∈ gap, Space b) ∧ ((s = gap ++ 48 :: s1 ∧ v = 255) ∨ (s = gap ++ 49 :: s1 ∧ v = 0)) := by
  induction s with
  | nil =>
    constructor
    · intro h; cases h
    · rintro ⟨gap, -, ⟨h, -⟩ | ⟨h, -⟩⟩ <;> simp at h
  | cons c s ih =>
    rw [readPbmAscii]
    by_cases hs : isSpace c = true
    · have hc := (isSpace_iff c).1 hs
      rw [if_pos hs, ih]
      constructor
      · rintro ⟨gap, h1, h2⟩
        refine ⟨c :: gap, fun b hb => (List.mem_cons.1 hb).elim (fun e => e ▸ hc) (h1 b), ?_⟩
        rcases h2 with ⟨rfl, h⟩ | ⟨rfl, h⟩
        · exact .inl ⟨rfl, h⟩
        · exact .inr ⟨rfl, h⟩
      · rintro ⟨gap, h1, h2⟩
        cases gap with
        | nil =>
          rcases h2 with ⟨h2, h⟩ | ⟨h2, h⟩ <;> cases h2 <;> simp [isSpace] at hs
        | cons g gap =>
          refine ⟨gap, fun b hb => h1 b (List.mem_cons_of_mem _ hb), ?_⟩
          rcases h2 with ⟨h2, h⟩ | ⟨h2, h⟩
          · cases h2; exact .inl ⟨rfl, h⟩
          · cases h2; exact .inr ⟨rfl, h⟩
    · rw [if_neg hs]
      have hgap : ∀ {gap : List UInt8} {x : UInt8}, (∀ b ∈ gap, Space b) → c :: s = gap ++ x :: s1 → c = x ∧ s = s1 := by
        intro gap x h1 h2
        cases gap with
        | nil => cases h2; exact ⟨rfl, rfl⟩
        | cons g gap => cases h2; exact absurd ((isSpace_iff c).2 (h1 c List.mem_cons_self)) hs
      by_cases h0 : c = 48
      · rw [if_pos h0]
        subst h0
        constructor
        · intro h; cases h; exact ⟨[], by simp, .inl ⟨rfl, rfl⟩⟩
        · rintro ⟨gap, h1, ⟨h2, rfl⟩ | ⟨h2, rfl⟩⟩
          · rw [(hgap h1 h2).2]
          · exact absurd (hgap h1 h2).1 (by decide)
      · rw [if_neg h0]
        by_cases h1' : c = 49
        · rw [if_pos h1']
          subst h1'
          constructor
          · intro h; cases h; exact ⟨[], by simp, .inr ⟨rfl, rfl⟩⟩
          · rintro ⟨gap, h1, ⟨h2, rfl⟩ | ⟨h2, rfl⟩⟩
            · exact absurd (hgap h1 h2).1 (by decide)
            · rw [(hgap h1 h2).2]
        · rw [if_neg h1']
          constructor
          · intro h; cases h
          · rintro ⟨gap, h1, ⟨h2, -⟩ | ⟨h2, -⟩⟩
            · exact absurd (hgap h1 h2).1 h0
            · exact absurd (hgap h1 h2).1 h1'

/-- Bits as samples: 1 is black. -/
def shade (v : Nat) : UInt8 := if v = 0 then 255 else 0

theorem plainBits_gap {n : Nat} {gap s : List UInt8} {raw : List Nat} (hg : ∀ b ∈ gap, Space b) (h : PlainBits n s raw) : PlainBits n (gap ++ s) raw := by
  induction gap with
  | nil => exact h
  | cons c gap ih => exact .space (hg c List.mem_cons_self) (ih fun b hb => hg b (List.mem_cons_of_mem _ hb))

theorem plainBits_zero {s : List UInt8} {raw : List Nat} : PlainBits 0 s raw → raw = [] := by
  intro h
  generalize hn : 0 = n at h
  induction h with
  | done => rfl
  | space _ _ ih => exact ih hn
  | zero => omega
  | one => omega

theorem plainBits_succ {n : Nat} {s : List UInt8} {raw : List Nat} (h : PlainBits (n + 1) s raw) :
    ∃ gap b s1 raw', (∀ c ∈ gap, Space c) ∧ raw = b :: raw' ∧ PlainBits n s1 raw' ∧
      ((s = gap ++ 48 :: s1 ∧ b = 0) ∨ (s = gap ++ 49 :: s1 ∧ b = 1)) := by
  generalize hn : n + 1 = n' at h
  induction h with
  | done => omega
  | @space _ c s raw hc _ ih =>
    obtain ⟨gap, b, s1, raw', h1, h2, h3, h4⟩ := ih hn
    refine ⟨c :: gap, b, s1, raw', fun x hx => (List.mem_cons.1 hx).elim (fun e => e ▸ hc) (h1 x), h2, h3, ?_⟩
    rcases h4 with ⟨rfl, h4⟩ | ⟨rfl, h4⟩
    · exact .inl ⟨rfl, h4⟩
    · exact .inr ⟨rfl, h4⟩
  | @zero k s raw h _ =>
    have : k = n := by omega
    subst this
    exact ⟨[], 0, s, raw, by simp, rfl, h, .inl ⟨rfl, rfl⟩⟩
  | @one k s raw h _ =>
    have : k = n := by omega
    subst this
    exact ⟨[], 1, s, raw, by simp, rfl, h, .inr ⟨rfl, rfl⟩⟩

theorem bits_iff : ∀ (n : Nat) (s acc o : List UInt8),
    (∃ s', forRange n (fun _ (st : List UInt8 × List UInt8) => do
      let (v, s) ← readPbmAscii st.2
      .ok (st.1 ++ [v], s)) (acc, s) = .ok (o, s')) ↔ ∃ raw, PlainBits n s raw ∧ o = acc ++ raw.map shade := by
  intro n
  induction n with
  | zero =>
    intro s acc o
    rw [forRange_zero]
    constructor
    · rintro ⟨s', h⟩; cases h; exact ⟨[], .done, by simp⟩
    · rintro ⟨raw, h, rfl⟩
      rw [plainBits_zero h]
      exact ⟨s, by simp⟩
  | succ n ih =>
    intro s acc o
    rw [forRange_front]
    constructor
    · rintro ⟨s', h⟩
      obtain ⟨⟨a, s1⟩, h1, h⟩ := bind_eq_ok.1 h
      obtain ⟨⟨v, s2⟩, h2, h1⟩ := bind_eq_ok.1 h1
      cases h1
      obtain ⟨raw, g1, rfl⟩ := (ih s1 _ o).1 ⟨s', h⟩
      obtain ⟨gap, k1, ⟨hs, hv⟩ | ⟨hs, hv⟩⟩ := (readPbm_iff _ _ _).1 h2
      · refine ⟨0 :: raw, ?_, by rw [hv]; simp [shade]⟩
        rw [show s = gap ++ 48 :: s1 from hs]
        exact plainBits_gap k1 (.zero g1)
      · refine ⟨1 :: raw, ?_, by rw [hv]; simp [shade]⟩
        rw [show s = gap ++ 49 :: s1 from hs]
        exact plainBits_gap k1 (.one g1)
    · rintro ⟨raw, h, rfl⟩
      obtain ⟨gap, b, s1, raw', h1, rfl, h3, h4⟩ := plainBits_succ h
      obtain ⟨s', hf⟩ := (ih s1 (acc ++ [shade b]) (acc ++ (b :: raw').map shade)).2 ⟨raw', h3, by simp⟩
      refine ⟨s', ?_⟩
      dsimp only
      rw [(readPbm_iff s (shade b) s1).2 ⟨gap, h1, ?_⟩, ok_bind]
      · exact hf
      · rcases h4 with ⟨h4, rfl⟩ | ⟨h4, rfl⟩
        · exact .inl ⟨h4, rfl⟩
        · exact .inr ⟨h4, rfl⟩

end Pnm
end Verif
