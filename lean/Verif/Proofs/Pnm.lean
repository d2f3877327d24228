import Verif.Model.PnmEncoder
import Verif.Model.PnmDecoder
import Verif.Proofs.Outcome

/-!
# Numbers and strings in PNM files
-/

namespace Verif
namespace Pnm

/-! ## Decimal numbers -/

/-- A decimal digit. -/
def IsDigit (b : UInt8) : Prop := 48 ≤ b.toNat ∧ b.toNat ≤ 57

/-- The value of digits. -/
def decVal (acc : Nat) (l : List UInt8) : Nat := l.foldl (fun a b => a * 10 + (b.toNat - 48)) acc

theorem decVal_ge (l : List UInt8) : ∀ acc, acc ≤ decVal acc l := by
  induction l with
  | nil => intro acc; exact Nat.le_refl _
  | cons b l ih =>
    intro acc
    have := ih (acc * 10 + (b.toNat - 48))
    simp only [decVal, List.foldl_cons] at *
    omega

theorem digit_byte {d : Nat} (h : d < 10) : (UInt8.ofNat (48 + d)).toNat = 48 + d := by
  rw [UInt8.toNat_ofNat']; omega

theorem decLoop_spec : ∀ fuel n, n < fuel →
    decLoop fuel n ≠ [] ∧ (∀ b ∈ decLoop fuel n, IsDigit b) ∧ decVal 0 (decLoop fuel n) = n := by
  intro fuel
  induction fuel with
  | zero => intro n h; omega
  | succ fuel ih =>
    intro n hn
    simp only [decLoop]
    split
    · rename_i h
      refine ⟨by simp, ?_, ?_⟩
      · intro b hb; rw [List.mem_singleton] at hb; subst hb
        unfold IsDigit; rw [digit_byte h]; omega
      · simp only [decVal, List.foldl_cons, List.foldl_nil, digit_byte h]; omega
    · rename_i h
      obtain ⟨h1, h2, h3⟩ := ih (n / 10) (by omega)
      have hd : n % 10 < 10 := by omega
      refine ⟨by simp, ?_, ?_⟩
      · intro b hb
        rcases List.mem_append.1 hb with hb | hb
        · exact h2 b hb
        · rw [List.mem_singleton] at hb; subst hb
          unfold IsDigit; rw [digit_byte hd]; omega
      · unfold decVal at *
        rw [List.foldl_append, h3]
        simp only [List.foldl_cons, List.foldl_nil, digit_byte hd]; omega

theorem dec_ne_nil (n : Nat) : dec n ≠ [] := (decLoop_spec _ n (by omega)).1
theorem dec_digit {n : Nat} {b : UInt8} (h : b ∈ dec n) : IsDigit b := (decLoop_spec _ n (by omega)).2.1 b h
theorem dec_val (n : Nat) : decVal 0 (dec n) = n := (decLoop_spec _ n (by omega)).2.2

theorem decLoop_length : ∀ fuel n k, n < 10 ^ (k + 1) → (decLoop fuel n).length ≤ k + 1 := by
  intro fuel
  induction fuel with
  | zero => intro n k _; simp [decLoop]
  | succ fuel ih =>
    intro n k hn
    simp only [decLoop]
    split
    · simp
    · cases k with
      | zero => omega
      | succ k =>
        have : n / 10 < 10 ^ (k + 1) := by
          rw [Nat.div_lt_iff_lt_mul (by omega)]; rw [Nat.pow_succ] at hn; omega
        have := ih (n / 10) k this
        rw [List.length_append, List.length_singleton]; omega

theorem parseDigits_eq (l : List UInt8) : ∀ acc, (∀ b ∈ l, IsDigit b) → decVal acc l < 2 ^ 32 →
    parseDigits acc l = some (decVal acc l) := by
  induction l with
  | nil => intro acc _ _; rfl
  | cons b l ih =>
    intro acc hd hv
    have hb := hd b (by simp)
    have hge := decVal_ge l (acc * 10 + (b.toNat - 48))
    have he : decVal acc (b :: l) = decVal (acc * 10 + (b.toNat - 48)) l := rfl
    rw [he] at hv ⊢
    unfold parseDigits
    unfold IsDigit at hb
    rw [if_pos hb]
    rw [checkedMul, if_pos (by omega), Option.bind_some, checkedAdd, if_pos (by omega), Option.bind_some]
    exact ih _ (fun x hx => hd x (List.mem_cons_of_mem _ hx)) hv

theorem digit_not_sign {b : UInt8} (h : IsDigit b) : b ≠ 43 ∧ b ≠ 45 := by
  constructor <;> rintro rfl <;> revert h <;> unfold IsDigit <;> decide

theorem parseU32_digits {l : List UInt8} (hne : l ≠ []) (hd : ∀ b ∈ l, IsDigit b) (hv : decVal 0 l < 2 ^ 32) :
    parseU32 l = some (decVal 0 l) := by
  match l, hne with
  | [b], _ =>
    have hb := digit_not_sign (hd b (by simp))
    simp only [parseU32]
    rw [if_neg (by simp [hb.1, hb.2])]
    exact parseDigits_eq _ _ hd hv
  | b :: c :: l, _ =>
    have hb := digit_not_sign (hd b (by simp))
    simp only [parseU32]
    rw [if_neg hb.1]
    exact parseDigits_eq _ _ hd hv

theorem parseU32_dec {n : Nat} (h : n < 2 ^ 32) : parseU32 (dec n) = some n := by
  have h1 : decVal 0 (dec n) < 2 ^ 32 := by rw [dec_val]; exact h
  have := parseU32_digits (l := dec n) (dec_ne_nil n) (fun b hb => dec_digit hb) h1
  rwa [dec_val] at this

theorem separatedLoop_digits (l : List UInt8) (c : UInt8) (hc : isSpace c = true) (s : List UInt8) :
    ∀ acc, (∀ b ∈ l, IsDigit b) → decVal acc l < 65536 → separatedLoop acc (l ++ c :: s) = .ok (decVal acc l, s) := by
  induction l with
  | nil => intro acc _ _; simp [separatedLoop, hc, decVal]
  | cons b l ih =>
    intro acc hd hv
    have hb := hd b (by simp)
    have hge := decVal_ge l (acc * 10 + (b.toNat - 48))
    have he : decVal acc (b :: l) = decVal (acc * 10 + (b.toNat - 48)) l := rfl
    rw [he] at hv ⊢
    have hns : isSpace b = false := by
      unfold IsDigit at hb
      unfold isSpace
      simp only [Bool.or_eq_false_iff, decide_eq_false_iff_not]
      refine ⟨⟨⟨⟨⟨?_, ?_⟩, ?_⟩, ?_⟩, ?_⟩, ?_⟩ <;> rintro rfl <;> revert hb <;> decide
    simp only [List.cons_append, separatedLoop]
    rw [if_neg (by simp [hns]), if_pos (show 48 ≤ b.toNat ∧ b.toNat ≤ 57 from hb), checkedMul, if_pos (by omega), Option.bind_some,
      checkedAdd, if_pos (by omega)]
    exact ih _ (fun x hx => hd x (List.mem_cons_of_mem _ hx)) hv

/-! ## Tokens -/

/-- A character of a token: printable ASCII other than `#`. -/
def IsTok (b : UInt8) : Prop := isSpace b = false ∧ b.toNat < 128 ∧ b ≠ 35

theorem IsDigit.tok {b : UInt8} (h : IsDigit b) : IsTok b := by
  unfold IsDigit at h
  refine ⟨?_, by omega, by rintro rfl; revert h; decide⟩
  unfold isSpace
  simp only [Bool.or_eq_false_iff, decide_eq_false_iff_not]
  refine ⟨⟨⟨⟨⟨?_, ?_⟩, ?_⟩, ?_⟩, ?_⟩, ?_⟩ <;> rintro rfl <;> revert h <;> decide

theorem nextStringLoop_tok (t : List UInt8) (c : UInt8) (hc : isSpace c = true) (s : List UInt8) : ∀ acc,
    (∀ b ∈ t, IsTok b) → acc ++ t ≠ [] → nextStringLoop (t ++ c :: s) true acc = .ok (acc ++ t, s) := by
  have hc35 : c ≠ 35 := by rintro rfl; revert hc; decide
  induction t with
  | nil =>
    intro acc _ hne
    rw [List.append_nil] at hne
    simp [nextStringLoop, hc, hc35, hne]
  | cons b t ih =>
    intro acc ht hne
    obtain ⟨h1, h2, h3⟩ := ht b (by simp)
    simp only [List.cons_append, nextStringLoop]
    rw [if_pos (by simp [h3]), if_neg (by simp [h1]), if_neg (by omega)]
    rw [show (true && b != 35 || (b == 13 || b == 10)) = true by simp [h3]]
    rw [ih (acc ++ [b]) (fun x hx => ht x (List.mem_cons_of_mem _ hx)) (by simp)]
    simp

theorem nextStringLoop_eof (t : List UInt8) : ∀ acc,
    (∀ b ∈ t, IsTok b) → acc ++ t ≠ [] → nextStringLoop t true acc = .ok (acc ++ t, []) := by
  induction t with
  | nil =>
    intro acc _ hne
    rw [List.append_nil] at hne
    simp [nextStringLoop, hne]
  | cons b t ih =>
    intro acc ht hne
    obtain ⟨h1, h2, h3⟩ := ht b (by simp)
    simp only [nextStringLoop]
    rw [if_pos (by simp [h3]), if_neg (by simp [h1]), if_neg (by omega)]
    rw [show (true && b != 35 || (b == 13 || b == 10)) = true by simp [h3]]
    rw [ih (acc ++ [b]) (fun x hx => ht x (List.mem_cons_of_mem _ hx)) (by simp)]
    simp

theorem nextString_tok {t : List UInt8} (ht : ∀ b ∈ t, IsTok b) (hne : t ≠ []) {c : UInt8} (hc : isSpace c = true)
    (s : List UInt8) : nextString (t ++ c :: s) = .ok (t, s) := by
  have := nextStringLoop_tok t c hc s [] ht (by simpa using hne)
  simpa [nextString] using this

theorem nextString_newline (s : List UInt8) : nextString (10 :: s) = nextString s := by
  simp [nextString, nextStringLoop, isSpace]

theorem nextU32_dec {n : Nat} (h : n < 2 ^ 32) {c : UInt8} (hc : isSpace c = true) (s : List UInt8) :
    nextU32 (dec n ++ c :: s) = .ok (n, s) := by
  unfold nextU32
  rw [nextString_tok (fun b hb => (dec_digit hb).tok) (dec_ne_nil n) hc]
  simp only [ok_bind]
  rw [parseU32_dec h]

theorem nextU32_newline (s : List UInt8) : nextU32 (10 :: s) = nextU32 s := by
  unfold nextU32; rw [nextString_newline]

/-! ## Lines -/

theorem lineLoop_line (t s : List UInt8) : ∀ acc, (∀ b ∈ t, b ≠ 10) → lineLoop (t ++ 10 :: s) acc = (acc ++ t, s) := by
  induction t with
  | nil => intro acc _; simp [lineLoop]
  | cons b t ih =>
    intro acc ht
    simp only [List.cons_append, lineLoop]
    rw [if_neg (ht b (by simp)), ih _ (fun x hx => ht x (List.mem_cons_of_mem _ hx))]
    simp

theorem lineLoop_eof (t : List UInt8) : ∀ acc, (∀ b ∈ t, b ≠ 10) → lineLoop t acc = (acc ++ t, []) := by
  induction t with
  | nil => intro acc _; simp [lineLoop]
  | cons b t ih =>
    intro acc ht
    simp only [lineLoop]
    rw [if_neg (ht b (by simp)), ih _ (fun x hx => ht x (List.mem_cons_of_mem _ hx))]
    simp

theorem utf8Valid_ascii (t : List UInt8) (h : ∀ b ∈ t, b.toNat < 128) : utf8Valid t = true := by
  induction t with
  | nil => rfl
  | cons b t ih =>
    unfold utf8Valid
    rw [if_pos (by have := h b (by simp); exact UInt8.lt_iff_toNat_lt.2 (by simpa using this))]
    exact ih (fun x hx => h x (List.mem_cons_of_mem _ hx))

/-- A character of a header line: ASCII, not a newline. -/
def IsLineChar (b : UInt8) : Prop := b ≠ 10 ∧ b.toNat < 128

theorem nextLine_line {t : List UInt8} (ht : ∀ b ∈ t, IsLineChar b) (s : List UInt8) :
    nextLine (t ++ 10 :: s) = .ok (t, s) := by
  unfold nextLine
  rw [lineLoop_line t s [] (fun b hb => (ht b hb).1)]
  dsimp only
  rw [List.nil_append, if_pos (utf8Valid_ascii t (fun b hb => (ht b hb).2))]

theorem nextLine_eof {t : List UInt8} (ht : ∀ b ∈ t, IsLineChar b) : nextLine t = .ok (t, []) := by
  unfold nextLine
  rw [lineLoop_eof t [] (fun b hb => (ht b hb).1)]
  dsimp only
  rw [List.nil_append, if_pos (utf8Valid_ascii t (fun b hb => (ht b hb).2))]

theorem IsTok.lineChar {b : UInt8} (h : IsTok b) : IsLineChar b := by
  refine ⟨?_, h.2.1⟩
  rintro rfl
  exact absurd h.1 (by decide)

theorem dropWhile_tok {t : List UInt8} (h : ∀ b ∈ t, IsTok b) (s : List UInt8) (hne : t ≠ []) :
    (t ++ s).dropWhile isSpace = t ++ s := by
  cases t with
  | nil => exact absurd rfl hne
  | cons b t => rw [List.cons_append, List.dropWhile_cons_of_neg (by simp [(h b (by simp)).1])]

theorem findIdx_tok {t : List UInt8} (h : ∀ b ∈ t, IsTok b) (s : List UInt8) :
    (t ++ 32 :: s).findIdx? isSpace = some t.length := by
  induction t with
  | nil => rw [List.nil_append, List.findIdx?_cons]; rfl
  | cons b t ih =>
    rw [List.cons_append, List.findIdx?_cons, (h b (by simp)).1]
    simp only [Bool.false_eq_true, if_false]
    rw [ih (fun x hx => h x (List.mem_cons_of_mem _ hx))]
    simp

theorem findIdx_none {t : List UInt8} (h : ∀ b ∈ t, IsTok b) : t.findIdx? isSpace = none := by
  rw [List.findIdx?_eq_none_iff]
  intro x hx; exact (h x hx).1

theorem trim_tok {t : List UInt8} (h : ∀ b ∈ t, IsTok b) : trim (32 :: t) = t := by
  unfold trim
  have h1 : (32 :: t).dropWhile isSpace = t := by
    rw [List.dropWhile_cons_of_pos (by decide)]
    cases t with
    | nil => rfl
    | cons b t => rw [List.dropWhile_cons_of_neg (by simp [(h b (by simp)).1])]
  rw [h1]
  cases hr : t.reverse with
  | nil => rw [List.dropWhile_nil, ← hr, List.reverse_reverse]
  | cons b r =>
    have hb : b ∈ t := by rw [← List.mem_reverse, hr]; simp
    rw [List.dropWhile_cons_of_neg (by simp [(h b hb).1]), ← hr, List.reverse_reverse]

end Pnm
end Verif
