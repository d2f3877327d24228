import Verif.Base.Bytes

/-!
# Outcomes that are values or errors but never panics
-/

namespace Verif

/-- The outcome is a value satisfying `P`, or an error that satisfies `E`; never a panic. -/
def OkOr {α : Type} (E : Err → Prop) (P : α → Prop) : R α → Prop
  | .ok a => P a
  | .error (.err e) => E e
  | .error .panic => False

theorem OkOr.bind {α β : Type} {E : Err → Prop} {P : α → Prop} {Q : β → Prop} {x : R α} {f : α → R β}
    (hx : OkOr E P x) (hf : ∀ a, P a → OkOr E Q (f a)) : OkOr E Q (x >>= f) := by
  cases x with
  | ok a => exact hf a hx
  | error e => cases e with
    | panic => exact hx
    | err e => exact hx

theorem OkOr.mono {α : Type} {E : Err → Prop} {P Q : α → Prop} {x : R α} (hx : OkOr E P x) (h : ∀ a, P a → Q a) :
    OkOr E Q x := by
  cases x with
  | ok a => exact h a hx
  | error e => cases e <;> exact hx

/-- Loop rule for loops whose body may fail. -/
theorem forRange_okOr {σ : Type} {E : Err → Prop} {n : Nat} {f : Nat → σ → R σ} (Inv : Nat → σ → Prop) {s : σ}
    (h0 : Inv 0 s) (hs : ∀ i, i < n → ∀ s, Inv i s → OkOr E (Inv (i + 1)) (f i s)) :
    OkOr E (Inv n) (forRange n f s) := by
  induction n with
  | zero => exact h0
  | succ n ih =>
    rw [forRange_succ]
    exact OkOr.bind (ih (fun i hi => hs i (by omega))) (fun s hs' => hs n (by omega) s hs')

theorem OkOr.ne_panic {α : Type} {E : Err → Prop} {P : α → Prop} {x : R α} (h : OkOr E P x) : x ≠ panicR := by
  rintro rfl; exact h

theorem OkOr.of_ok {α : Type} {E : Err → Prop} {P : α → Prop} {x : R α} {a : α} (h : OkOr E P x) (he : x = .ok a) :
    P a := by
  subst he; exact h

theorem OkOr.and_ok {α : Type} {E : Err → Prop} {P : α → Prop} {x : R α} (h : OkOr E P x) :
    OkOr E (fun a => P a ∧ x = .ok a) x := by
  cases x with
  | ok a => exact ⟨h, rfl⟩
  | error e => cases e <;> exact h

/-- Loop rule over a list. -/
theorem forList_okOr {σ β : Type} {E : Err → Prop} {xs : List β} {f : β → σ → R σ} (Inv : σ → Prop) {s : σ}
    (h0 : Inv s) (hs : ∀ x ∈ xs, ∀ s, Inv s → OkOr E Inv (f x s)) :
    OkOr E Inv (forList xs f s) := by
  induction xs generalizing s with
  | nil => exact h0
  | cons x xs ih =>
    rw [forList]
    exact OkOr.bind (hs x (by simp) s h0) (fun s' h' => ih h' (fun y hy => hs y (by simp [hy])))

theorem OkOr.weaken {α : Type} {E F : Err → Prop} {P : α → Prop} {x : R α} (h : OkOr E P x) (hef : ∀ e, E e → F e) :
    OkOr F P x := by
  cases x with
  | ok a => exact h
  | error e => cases e with
    | panic => exact h
    | err e => exact hef e h

theorem readU8_total (s : List UInt8) : OkOr (fun e => e = .io) (fun r => r.1 < 2 ^ 8) (readU8 s) := by
  cases s with
  | nil => rfl
  | cons b s => exact b.toNat_lt

theorem readExact_total (n : Nat) (s : List UInt8) : OkOr (fun e => e = .io) (fun r => r.1.length = n) (readExact n s) := by
  unfold readExact
  split
  · rename_i h
    simp only [OkOr, List.length_take]; omega
  · rfl

theorem readU8_ofNat {v : Nat} (h : v < 2 ^ 8) (s : List UInt8) : readU8 (UInt8.ofNat v :: s) = .ok (v, s) := by
  simp only [readU8, UInt8.toNat_ofNat']
  rw [Nat.mod_eq_of_lt h]

end Verif
