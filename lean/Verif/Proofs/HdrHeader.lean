import Verif.Proofs.HdrScan
import Verif.Props.HdrFloat
import Verif.Props.HdrTotal

/-! # The header of Radiance files: the decoder against `Verif.Spec.Hdr` -/

namespace Verif
namespace Hdr

open HdrSpec

theorem readLine_some : ∀ (s acc l rest : List UInt8), 
    readLine acc s = (some l, rest) ↔ ∃ t, l = acc ++ t ∧ 10 ∉ t ∧ (s = t ++ 10 :: rest ∨ s = t ∧ acc ++ t ≠ [] ∧ rest = []) := by
  intro s
  induction s with
  | nil =>
    intro acc l rest
    rw [readLine]
    constructor
    · intro h
      by_cases ha : acc = []
      · rw [if_pos ha] at h; cases h
      · rw [if_neg ha] at h; cases h
        exact ⟨[], by simp, by simp, .inr ⟨rfl, by simpa using ha, rfl⟩⟩
    · rintro ⟨t, rfl, h1, h2 | ⟨rfl, h2, rfl⟩⟩
      · simp at h2
      · rw [List.append_nil] at h2 ⊢; rw [if_neg h2]
  | cons b s ih =>
    intro acc l rest
    rw [readLine]
    by_cases hb : b = 10
    · rw [if_pos hb]
      subst hb
      constructor
      · intro h; cases h
        exact ⟨[], by simp, by simp, .inl rfl⟩
      · rintro ⟨t, rfl, h1, h2 | ⟨rfl, h2, rfl⟩⟩
        · cases t with
          | nil => simp at h2; rw [h2, List.append_nil]
          | cons c t => simp at h2; exact absurd List.mem_cons_self (h2.1 ▸ h1)
        · exact absurd List.mem_cons_self h1
    · rw [if_neg hb, ih]
      constructor
      · rintro ⟨t, rfl, h1, h2⟩
        refine ⟨b :: t, by simp, by simp [Ne.symm hb, h1], ?_⟩
        rcases h2 with h2 | ⟨h2, h3, h4⟩
        · exact .inl (by rw [h2]; rfl)
        · exact .inr ⟨by rw [h2], by simp, h4⟩
      · rintro ⟨t, rfl, h1, h2⟩
        cases t with
        | nil => rcases h2 with h2 | ⟨h2, -, -⟩ <;> simp at h2; exact absurd h2.1 hb
        | cons c t =>
          have hc : c = b := by rcases h2 with h2 | ⟨h2, -, -⟩ <;> simp at h2 <;> exact h2.1.symm
          subst hc
          refine ⟨t, by simp, fun h => h1 (List.mem_cons_of_mem _ h), ?_⟩
          rcases h2 with h2 | ⟨h2, h3, h4⟩
          · exact .inl (by simpa using h2)
          · exact .inr ⟨by simpa using h2, by simp, h4⟩

theorem readLine_iff (s l rest : List UInt8) : readLine [] s = (some l, rest) ↔ Line l s rest := by
  rw [readLine_some]
  unfold Line
  constructor
  · rintro ⟨t, rfl, h1, h2⟩; exact ⟨h1, h2⟩
  · rintro ⟨h1, h2⟩; exact ⟨l, rfl, h1, h2⟩

theorem findIdx_take : ∀ (l : List UInt8), (l.findIdx? (· == 61) = none ∧ l.takeWhile (· ≠ 61) = l ∧ l.dropWhile (· ≠ 61) = []) ∨
    ∃ p, l.findIdx? (· == 61) = some p ∧ p < l.length ∧ l.takeWhile (· ≠ 61) = l.take p ∧ l.dropWhile (· ≠ 61) = l.drop p := by
  intro l
  induction l with
  | nil => left; simp
  | cons b l ih =>
    by_cases hb : b = 61
    · right; exact ⟨0, by simp [List.findIdx?_cons, hb], by simp, by simp [hb], by simp [hb]⟩
    · rcases ih with ⟨h1, h2, h3⟩ | ⟨p, h1, h2, h3, h4⟩
      · left
        exact ⟨by simp [List.findIdx?_cons, hb, h1], by simpa [hb] using h2, by simpa [hb] using h3⟩
      · right
        exact ⟨p + 1, by simp [List.findIdx?_cons, hb, h1], by simpa using h2, by simpa [hb] using h3, by simpa [hb] using h4⟩

theorem splitAtFirst_attr (T : Text) (l : List UInt8) : attr T l =
    match splitAtFirst l with
    | none => ([], l)
    | some (k, v) => (T.trim k, v) := by
  unfold attr splitAtFirst
  rcases findIdx_take l with ⟨h1, h2, h3⟩ | ⟨p, h1, h2, h3, h4⟩
  · rw [h1, h2, h3]; simp
  · rw [h1, h3, h4]
    cases p with
    | zero => simp
    | succ p =>
      show _ = (match (if p + 1 ≥ l.length - 1 then none else some (l.take (p + 1), l.drop (p + 1 + 1)) : Option (List UInt8 × List UInt8)) with
        | none => ([], l)
        | some (k, v) => (T.trim k, v))
      dsimp only
      by_cases hp : p + 1 ≥ l.length - 1
      · rw [if_pos hp, if_neg]
        rintro ⟨-, h⟩
        apply h
        rw [List.drop_drop]
        exact List.drop_eq_nil_of_le (by omega)
      · rw [if_neg hp, if_pos]
        · rw [List.drop_drop]
        · rw [List.drop_drop]
          refine ⟨fun h => ?_, fun h => ?_⟩
          · have := congrArg List.length h; rw [List.length_take, List.length_nil] at this; omega
          · have := congrArg List.length h; rw [List.length_drop, List.length_nil] at this; omega

/-- One attribute is accepted. -/
def okAttr (T : Text) (strict : Bool) (a : List UInt8 × List UInt8) : Prop := Accepted T strict [a]

theorem accepted_append (T : Text) (strict : Bool) (A B : List (List UInt8 × List UInt8)) :
    Accepted T strict (A ++ B) ↔ Accepted T strict A ∧ Accepted T strict B := by
  have hv : ∀ k, valuesOf k (A ++ B) = valuesOf k A ++ valuesOf k B := by intro k; unfold valuesOf; simp
  constructor
  · rintro ⟨h1, h2, h3, h4⟩
    simp only [hv, List.mem_append] at h1 h2 h3 h4
    exact ⟨⟨fun v h => h1 v (.inl h), fun s v h => h2 s v (.inl h), fun s v h => h3 s v (.inl h), fun s v h => h4 s v (.inl h)⟩,
      ⟨fun v h => h1 v (.inr h), fun s v h => h2 s v (.inr h), fun s v h => h3 s v (.inr h), fun s v h => h4 s v (.inr h)⟩⟩
  · rintro ⟨⟨a1, a2, a3, a4⟩, ⟨b1, b2, b3, b4⟩⟩
    refine ⟨?_, ?_, ?_, ?_⟩ <;> simp only [hv, List.mem_append]
    · exact fun v h => h.elim (a1 v) (b1 v)
    · exact fun s v h => h.elim (a2 s v) (b2 s v)
    · exact fun s v h => h.elim (a3 s v) (b3 s v)
    · exact fun s v h => h.elim (a4 s v) (b4 s v)

theorem kFormat_eq : kFormat = kwFormat := by decide +kernel
theorem kExposure_eq : kExposure = kwExposure := by decide +kernel
theorem kAspect_eq : kAspect = kwPixaspect := by decide +kernel
theorem kCorrection_eq : kCorrection = kwColorcorr := by decide +kernel
theorem rgbe_eq : rgbe = kwRgbe := by decide +kernel

theorem valuesOf_one (k : List UInt8) (a : List UInt8 × List UInt8) : valuesOf k [a] = if a.1 = k then [a.2] else [] := by
  unfold valuesOf
  by_cases h : a.1 = k <;> simp [h]

theorem valuesOf_snoc (k : List UInt8) (A : List (List UInt8 × List UInt8)) (a : List UInt8 × List UInt8) :
    valuesOf k (A ++ [a]) = valuesOf k A ++ if a.1 = k then [a.2] else [] := by
  rw [← valuesOf_one]; unfold valuesOf; simp

theorem product_snoc (l : List Fl) (x : Fl) : product (l ++ [x]) = (product l).mul f32 x := by
  unfold product; simp

/-- The product so far, or 1. -/
theorem product_getD (l : List Fl) : (if l = [] then none else some (product l)).getD (.fin 1) = product l := by
  by_cases h : l = []
  · rw [if_pos h, h]; rfl
  · rw [if_neg h]; rfl

theorem three_eq (T : Text) (v : List UInt8) : parseThree T v = (three T v).map fun c => (c, decide ((T.words v).length ≠ 3)) := by
  unfold parseThree three
  rcases hw : T.words v with _ | ⟨a, _ | ⟨b, _ | ⟨c, rest⟩⟩⟩
  · rfl
  · rfl
  · rfl
  · dsimp only
    rcases T.parseF32 a with _ | x
    · rfl
    rcases T.parseF32 b with _ | y
    · rfl
    rcases T.parseF32 c with _ | z
    · rfl
    cases rest <;> simp

/-- One line of the header. -/
theorem update_iff (T : Text) (strict : Bool) (A : List (List UInt8 × List UInt8)) (line : List UInt8) (m : Meta) :
    updateHeaderInfo T (metadata T A) line strict = .ok m ↔ okAttr T strict (attr T line) ∧ m = metadata T (A ++ [attr T line]) := by
  have hd : kwExposure ≠ kwFormat ∧ kwPixaspect ≠ kwFormat ∧ kwColorcorr ≠ kwFormat ∧ kwPixaspect ≠ kwExposure ∧ kwColorcorr ≠ kwExposure ∧
      kwColorcorr ≠ kwPixaspect := by decide +kernel
  have hn : kwFormat ≠ [] ∧ kwExposure ≠ [] ∧ kwPixaspect ≠ [] ∧ kwColorcorr ≠ [] := by decide +kernel
  obtain ⟨d1, d2, d3, d4, d5, d6⟩ := hd
  obtain ⟨n1, n2, n3, n4⟩ := hn
  have hmeta : ∀ a : List UInt8 × List UInt8, a.1 ≠ kwExposure → a.1 ≠ kwPixaspect → a.1 ≠ kwColorcorr →
      metadata T (A ++ [a]) = { metadata T A with custom := A ++ [a] } := by
    intro a h1 h2 h3
    unfold metadata numbers corrections
    simp only [valuesOf_snoc, kExposure_eq, kAspect_eq, kCorrection_eq, if_neg h1, if_neg h2, if_neg h3, List.append_nil]
  have hok : ∀ a : List UInt8 × List UInt8, okAttr T strict a ↔
      (a.1 = kwFormat → T.trim a.2 = kwRgbe) ∧ (strict = true → a.1 = kwExposure → (T.parseF32 (T.trim a.2)).isSome) ∧
      (strict = true → a.1 = kwPixaspect → (T.parseF32 (T.trim a.2)).isSome) ∧
      (strict = true → a.1 = kwColorcorr → (three T a.2).isSome ∧ (T.words a.2).length = 3) := by
    intro a
    have hm : ∀ k (P : List UInt8 → Prop), (∀ v ∈ valuesOf k [a], P v) ↔ (a.1 = k → P a.2) := by
      intro k P
      rw [valuesOf_one]
      by_cases h : a.1 = k <;> simp [h]
    constructor
    · rintro ⟨h1, h2, h3, h4⟩
      simp only [hm, kFormat_eq, kExposure_eq, kAspect_eq, kCorrection_eq, rgbe_eq] at h1 h2 h3 h4
      exact ⟨h1, h2, h3, h4⟩
    · rintro ⟨h1, h2, h3, h4⟩
      refine ⟨?_, ?_, ?_, ?_⟩ <;> simp only [hm, kFormat_eq, kExposure_eq, kAspect_eq, kCorrection_eq, rgbe_eq] <;> assumption
  rw [hok]
  unfold updateHeaderInfo
  rw [splitAtFirst_attr]
  rcases hsp : splitAtFirst line with _ | ⟨k, v⟩
  · dsimp only
    rw [hmeta _ (Ne.symm n2) (Ne.symm n3) (Ne.symm n4)]
    constructor
    · intro h; cases h
      exact ⟨⟨fun h => absurd h.symm n1, fun _ h => absurd h.symm n2, fun _ h => absurd h.symm n3, fun _ h => absurd h.symm n4⟩, rfl⟩
    · rintro ⟨-, rfl⟩; rfl
  · dsimp only
    generalize T.trim k = k'
    by_cases h1 : k' = kwFormat
    · subst h1
      rw [if_pos rfl, hmeta _ (Ne.symm d1) (Ne.symm d2) (Ne.symm d3)]
      by_cases hv : T.trim v = kwRgbe
      · rw [if_neg (not_not.2 hv)]
        constructor
        · intro h; cases h
          exact ⟨⟨fun _ => hv, fun _ h => absurd h.symm d1, fun _ h => absurd h.symm d2, fun _ h => absurd h.symm d3⟩, rfl⟩
        · rintro ⟨-, rfl⟩; rfl
      · rw [if_pos hv]
        constructor
        · intro h; cases h
        · rintro ⟨⟨h, -⟩, -⟩; exact absurd (h rfl) hv
    rw [if_neg h1]
    by_cases h2 : k' = kwExposure
    · subst h2
      rw [if_pos rfl]
      have hms : metadata T (A ++ [(kwExposure, v)]) = { metadata T A with
          exposure := match T.parseF32 (T.trim v) with
            | some x => some ((product (numbers T kExposure A)).mul f32 x)
            | none => (metadata T A).exposure
          custom := A ++ [(kwExposure, v)] } := by
        unfold metadata numbers corrections
        simp only [valuesOf_snoc, kExposure_eq, kAspect_eq, kCorrection_eq, if_true, if_neg (Ne.symm d4), if_neg (Ne.symm d5), List.append_nil,
          List.filterMap_append]
        rcases hpx : T.parseF32 (T.trim v) with _ | x <;> simp [product_snoc, hpx]
      rcases hp : T.parseF32 (T.trim v) with _ | x
      · rw [hp] at hms
        dsimp only at hms ⊢
        rw [hms]
        by_cases hs : strict = true
        · rw [if_pos hs]
          constructor
          · intro h; cases h
          · rintro ⟨⟨-, h, -, -⟩, -⟩; simpa using h hs rfl
        · rw [if_neg hs]
          constructor
          · intro h; cases h
            exact ⟨⟨fun h => absurd h d1, fun h => absurd h hs, fun h => absurd h hs, fun h => absurd h hs⟩, rfl⟩
          · rintro ⟨-, rfl⟩; rfl
      · rw [hp] at hms
        dsimp only at hms ⊢
        rw [hms]
        have he : ((metadata T A).exposure.getD (.fin 1)) = product (numbers T kExposure A) := product_getD _
        rw [he]
        constructor
        · intro h; cases h
          exact ⟨⟨fun h => absurd h d1, fun _ _ => rfl, fun _ h => absurd h.symm d4, fun _ h => absurd h.symm d5⟩, rfl⟩
        · rintro ⟨-, rfl⟩; rfl
    rw [if_neg h2]
    by_cases h3 : k' = kwPixaspect
    · subst h3
      rw [if_pos rfl]
      have hms : metadata T (A ++ [(kwPixaspect, v)]) = { metadata T A with
          pixelAspect := match T.parseF32 (T.trim v) with
            | some x => some ((product (numbers T kAspect A)).mul f32 x)
            | none => (metadata T A).pixelAspect
          custom := A ++ [(kwPixaspect, v)] } := by
        unfold metadata numbers corrections
        simp only [valuesOf_snoc, kExposure_eq, kAspect_eq, kCorrection_eq, if_true, if_neg d4, if_neg (Ne.symm d6), List.append_nil,
          List.filterMap_append]
        rcases hpx : T.parseF32 (T.trim v) with _ | x <;> simp [product_snoc, hpx]
      rcases hp : T.parseF32 (T.trim v) with _ | x
      · rw [hp] at hms
        dsimp only at hms ⊢
        rw [hms]
        by_cases hs : strict = true
        · rw [if_pos hs]
          constructor
          · intro h; cases h
          · rintro ⟨⟨-, -, h, -⟩, -⟩; simpa using h hs rfl
        · rw [if_neg hs]
          constructor
          · intro h; cases h
            exact ⟨⟨fun h => absurd h d2, fun h => absurd h hs, fun h => absurd h hs, fun h => absurd h hs⟩, rfl⟩
          · rintro ⟨-, rfl⟩; rfl
      · rw [hp] at hms
        dsimp only at hms ⊢
        rw [hms]
        have he : ((metadata T A).pixelAspect.getD (.fin 1)) = product (numbers T kAspect A) := product_getD _
        rw [he]
        constructor
        · intro h; cases h
          exact ⟨⟨fun h => absurd h d2, fun _ h => absurd h d4, fun _ _ => rfl, fun _ h => absurd h.symm d6⟩, rfl⟩
        · rintro ⟨-, rfl⟩; rfl
    rw [if_neg h3]
    by_cases h4 : k' = kwColorcorr
    · subst h4
      rw [if_pos rfl, three_eq]
      have hms : metadata T (A ++ [(kwColorcorr, v)]) = { metadata T A with
          colorCorrection := match three T v with
            | some x => some ⟨(product ((corrections T A).map (·.r))).mul f32 x.r, (product ((corrections T A).map (·.g))).mul f32 x.g,
                (product ((corrections T A).map (·.b))).mul f32 x.b⟩
            | none => (metadata T A).colorCorrection
          custom := A ++ [(kwColorcorr, v)] } := by
        unfold metadata numbers corrections
        simp only [valuesOf_snoc, kExposure_eq, kAspect_eq, kCorrection_eq, if_true, if_neg d5, if_neg d6, List.append_nil,
          List.filterMap_append]
        rcases hpx : three T v with _ | x <;> simp [product_snoc, hpx]
      rcases hp : three T v with _ | x
      · rw [hp] at hms
        dsimp only at hms ⊢
        rw [hms]
        dsimp only [Option.map]
        by_cases hs : strict = true
        · rw [if_pos hs]
          constructor
          · intro h; cases h
          · rintro ⟨⟨-, -, -, h⟩, -⟩; simpa using (h hs rfl).1
        · rw [if_neg hs]
          constructor
          · intro h; cases h
            exact ⟨⟨fun h => absurd h d3, fun h => absurd h hs, fun h => absurd h hs, fun h => absurd h hs⟩, rfl⟩
          · rintro ⟨-, rfl⟩; rfl
      · rw [hp] at hms
        dsimp only at hms ⊢
        rw [hms]
        dsimp only [Option.map]
        have he : ((metadata T A).colorCorrection.getD ⟨.fin 1, .fin 1, .fin 1⟩) =
            ⟨product ((corrections T A).map (·.r)), product ((corrections T A).map (·.g)), product ((corrections T A).map (·.b))⟩ := by
          unfold metadata
          dsimp only
          by_cases h : corrections T A = []
          · rw [if_pos h, h]; rfl
          · rw [if_neg h]; rfl
        rw [he]
        by_cases hs : strict = true ∧ (T.words v).length ≠ 3
        · rw [if_pos (by simp [hs])]
          constructor
          · intro h; cases h
          · rintro ⟨⟨-, -, -, h⟩, -⟩; exact absurd (h hs.1 rfl).2 hs.2
        · rw [if_neg (by simpa using hs)]
          constructor
          · intro h; cases h
            exact ⟨⟨fun h => absurd h d3, fun _ h => absurd h d5, fun _ h => absurd h d6,
              fun h _ => ⟨rfl, not_not.1 fun h' => hs ⟨h, h'⟩⟩⟩, rfl⟩
          · rintro ⟨-, rfl⟩; rfl
    rw [if_neg h4, hmeta _ h2 h3 h4]
    constructor
    · intro h; cases h
      exact ⟨⟨fun h => absurd h h1, fun _ h => absurd h h2, fun _ h => absurd h h3, fun _ h => absurd h h4⟩, rfl⟩
    · rintro ⟨-, rfl⟩; rfl

theorem line_nil_iff (s rest : List UInt8) : Line [] s rest ↔ s = 10 :: rest := by
  unfold Line; simp

theorem attributes_cons (T : Text) (l : List UInt8) (ls : List (List UInt8)) :
    attributes T (l :: ls) = (if l.head? = some 35 then [] else [attr T (T.lossy l)]) ++ attributes T ls := by
  unfold attributes
  by_cases h : l.head? = some 35 <;> simp [h]

theorem headerLoop_iff (T : Text) (strict : Bool) : ∀ (fuel : Nat) (A : List (List UInt8 × List UInt8)) (s : List UInt8) (r : Meta × List UInt8),
    s.length < fuel → (headerLoop T strict fuel (metadata T A) s = .ok r ↔
      ∃ ls, Lines ls s r.2 ∧ Accepted T strict (attributes T ls) ∧ r.1 = metadata T (A ++ attributes T ls)) := by
  intro fuel
  induction fuel with
  | zero => intro A s r h; omega
  | succ fuel ih =>
    intro A s r hf
    obtain ⟨m, rest⟩ := r
    have hacc : Accepted T strict [] := ⟨by simp [valuesOf], by simp [valuesOf], by simp [valuesOf], by simp [valuesOf]⟩
    rw [headerLoop]
    have hl := readLine_length s []
    rcases he : readLine [] s with ⟨_ | l, s'⟩
    · constructor
      · intro h; cases h
      · rintro ⟨ls, h1, -⟩
        cases h1 with
        | blank h => rw [(readLine_iff _ _ _).2 h] at he; cases he
        | line _ h _ => rw [(readLine_iff _ _ _).2 h] at he; cases he
    · have hline := (readLine_iff _ _ _).1 he
      cases l with
      | nil =>
        dsimp only
        constructor
        · intro h; cases h
          exact ⟨[], .blank hline, hacc, by simp [attributes]⟩
        · rintro ⟨ls, h1, h2, h3⟩
          cases h1 with
          | blank h =>
            rw [(readLine_iff _ _ _).2 h] at he; cases he
            rw [show m = metadata T A from by simpa [attributes] using h3]
          | line hne h _ => rw [(readLine_iff _ _ _).2 h] at he; cases he; exact absurd rfl hne
      | cons b line =>
        dsimp only
        have hne : s ≠ [] := by rintro rfl; simp [readLine] at he
        have hlen : s'.length < fuel := by have := hl.2.1 hne; rw [he] at this; dsimp only at this; omega
        have hsplit : ∀ P : List (List UInt8) → Prop, (∃ ls, Lines ls s rest ∧ P ls) ↔ ∃ ls, Lines ls s' rest ∧ P ((b :: line) :: ls) := by
          intro P
          constructor
          · rintro ⟨ls, h1, h2⟩
            cases h1 with
            | blank h => rw [(readLine_iff _ _ _).2 h] at he; cases he
            | line hne h h' => rw [(readLine_iff _ _ _).2 h] at he; cases he; exact ⟨_, h', h2⟩
          · rintro ⟨ls, h1, h2⟩
            exact ⟨_, .line (by simp) hline h1, h2⟩
        rw [hsplit fun ls => Accepted T strict (attributes T ls) ∧ m = metadata T (A ++ attributes T ls)]
        simp only [attributes_cons, List.head?_cons, Option.some.injEq]
        by_cases hb : b = 35
        · rw [if_pos hb]
          simp only [if_pos hb, List.nil_append]
          exact ih A s' (m, rest) hlen
        · rw [if_neg hb]
          simp only [if_neg hb, accepted_append, ← List.append_assoc]
          constructor
          · intro h
            obtain ⟨m1, h1, h⟩ := bind_some h
            obtain ⟨g1, rfl⟩ := (update_iff T strict A _ m1).1 h1
            obtain ⟨ls, k1, k2, k3⟩ := (ih _ s' (m, rest) hlen).1 h
            exact ⟨ls, k1, ⟨g1, k2⟩, k3⟩
          · rintro ⟨ls, k1, ⟨g1, k2⟩, k3⟩
            rw [(update_iff T strict A _ _).2 ⟨g1, rfl⟩, ok_bind]
            exact (ih _ s' (m, rest) hlen).2 ⟨ls, k1, k2, k3⟩

theorem parseDimensionsLine_iff (T : Text) (strict : Bool) (line : List UInt8) (w h : Nat) :
    parseDimensionsLine T (T.lossy line) strict = .ok (w, h) ↔ Dimensions T strict line w h := by
  have e1 : ascii "-Y" = [45, 89] := by decide +kernel
  have e2 : ascii "+X" = [43, 88] := by decide +kernel
  unfold parseDimensionsLine Dimensions
  rw [e1, e2]
  generalize T.words (T.lossy line) = ws
  rcases ws with _ | ⟨t1, _ | ⟨c1, _ | ⟨t2, _ | ⟨c2, rest⟩⟩⟩⟩
  · constructor
    · intro h; cases h
    · rintro ⟨a, b, x, h, -⟩; simp at h
  · constructor
    · intro h; cases h
    · rintro ⟨a, b, x, h, -⟩; simp at h
  · constructor
    · intro h; cases h
    · rintro ⟨a, b, x, h, -⟩; simp at h
  · constructor
    · intro h; cases h
    · rintro ⟨a, b, x, h, -⟩; simp at h
  · dsimp only
    constructor
    · intro e
      by_cases hs : (strict && !rest.isEmpty) = true
      · rw [if_pos hs] at e; cases e
      · rw [if_neg hs] at e
        by_cases ht : t1 = [45, 89] ∧ t2 = [43, 88]
        · rw [if_pos ht] at e
          rcases h1 : Pnm.parseU32 c1 with _ | x
          · rw [h1] at e; cases e
          rcases h2 : Pnm.parseU32 c2 with _ | y
          · rw [h1, h2] at e; cases e
          rw [h1, h2] at e; cases e
          refine ⟨c1, c2, rest, by rw [ht.1, ht.2], ?_, h1, h2⟩
          intro hst; rw [hst] at hs; simpa using hs
        · rw [if_neg ht] at e; cases e
    · rintro ⟨a, b, x, hw, hs, h1, h2⟩
      cases hw
      rw [if_neg (by intro h; rw [Bool.and_eq_true] at h; rw [hs h.1] at h; simp at h), if_pos ⟨rfl, rfl⟩, h1, h2]

theorem readLine_none : ∀ (s acc : List UInt8) {r : List UInt8}, readLine acc s = (none, r) → r = [] := by
  intro s
  induction s with
  | nil => intro acc r h; rw [readLine] at h; exact (congrArg Prod.snd h).symm
  | cons b s ih =>
    intro acc r h
    rw [readLine] at h
    by_cases hb : b = 10
    · rw [if_pos hb] at h; cases h
    · rw [if_neg hb] at h; exact ih _ h

theorem readExact_eq {n : Nat} {s a t : List UInt8} (h : readExact n s = .ok (a, t)) : s = a ++ t := by
  unfold readExact at h
  by_cases hn : n ≤ s.length
  · rw [if_pos hn] at h; cases h; exact (List.take_append_drop _ _).symm
  · rw [if_neg hn] at h; cases h

theorem readSignature_iff (strict : Bool) (file : List UInt8) {s : List UInt8} (hs : s ≠ []) :
    readSignature strict file = .ok s ↔ Signed strict file s := by
  have e1 : ascii "#?RADIANCE" = signature := by decide +kernel
  unfold readSignature Signed
  cases strict with
  | false => simp
  | true =>
    rw [if_pos rfl, if_pos rfl, e1]
    constructor
    · intro e
      obtain ⟨⟨sig, t⟩, h1, e⟩ := bind_some e
      dsimp only at e
      by_cases hsig : sig = signature
      · rw [if_neg (not_not.2 hsig)] at e
        have hf := readExact_eq h1
        have : (readLine [] t).2 = s := Except.ok.inj e
        rcases he : readLine [] t with ⟨_ | l, r⟩
        · rw [he] at this
          cases this
          exfalso
          apply hs
          exact readLine_none t [] he
        · rw [he] at this
          cases this
          exact ⟨l, t, by rw [hf, hsig], (readLine_iff _ _ _).1 he⟩
      · rw [if_pos hsig] at e; cases e
    · rintro ⟨l, t, rfl, hl⟩
      rw [readExact_append' (by decide), ok_bind]
      dsimp only
      rw [if_neg (not_not.2 rfl), (readLine_iff _ _ _).2 hl]

end Hdr
end Verif
