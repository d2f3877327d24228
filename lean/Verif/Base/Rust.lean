/-!
# The fragment of Rust semantics used by the model

`R α` is the outcome of running a Rust function: a value, a returned `Err`, or a panic.
Machine integers are natural numbers with explicit range checks.
-/

namespace Verif

/-- The kinds of `ImageError` (src/error.rs:27-65) that the model distinguishes. -/
inductive Err
  | dimensionMismatch      -- `ImageError::Parameter(DimensionMismatch)`
  | parameter              -- other `ImageError::Parameter`
  | limitsDimension        -- `ImageError::Limits(DimensionError)`
  | limitsMemory           -- `ImageError::Limits(InsufficientMemory)`
  | unsupported            -- `ImageError::Unsupported`
  | decoding               -- `ImageError::Decoding`
  | encoding               -- `ImageError::Encoding`
  | io                     -- `ImageError::IoError`
  deriving DecidableEq, Repr

/-- Abnormal outcome of a Rust function. -/
inductive Fault
  | panic
  | err (e : Err)
  deriving DecidableEq, Repr

/-- Outcome of a Rust function. -/
abbrev R (α : Type) := Except Fault α

/-- Outcomes can be compared when values can. -/
instance {α : Type} [DecidableEq α] : DecidableEq (R α)
  | .ok a, .ok b => if h : a = b then isTrue (h ▸ rfl) else isFalse (fun e => h (Except.ok.inj e))
  | .error a, .error b => if h : a = b then isTrue (h ▸ rfl) else isFalse (fun e => h (Except.error.inj e))
  | .ok _, .error _ => isFalse (fun e => nomatch e)
  | .error _, .ok _ => isFalse (fun e => nomatch e)

/-- A panic. -/
def panicR {α : Type} : R α := .error .panic
/-- `return Err(e)`. -/
def errR {α : Type} (e : Err) : R α := .error (.err e)

/-- Lift an `Option` by `unwrap`/`expect`. -/
def unwrapR {α : Type} : Option α → R α
  | some a => .ok a
  | none => panicR

/-- `assert!(c)` -/
def assertR (c : Bool) : R Unit := if c then .ok () else panicR

/-- Plain `a + b` on a `bits`-bit unsigned type with overflow checks on. -/
def addC (bits a b : Nat) : R Nat := if a + b < 2 ^ bits then .ok (a + b) else panicR
/-- Plain `a * b` on a `bits`-bit unsigned type with overflow checks on. -/
def mulC (bits a b : Nat) : R Nat := if a * b < 2 ^ bits then .ok (a * b) else panicR
/-- Plain `a - b` on an unsigned type with overflow checks on. -/
def subC (a b : Nat) : R Nat := if b ≤ a then .ok (a - b) else panicR

/-- `a.checked_add(b)` -/
def checkedAdd (bits a b : Nat) : Option Nat := if a + b < 2 ^ bits then some (a + b) else none
/-- `a.checked_mul(b)` -/
def checkedMul (bits a b : Nat) : Option Nat := if a * b < 2 ^ bits then some (a * b) else none
/-- `a.checked_sub(b)` -/
def checkedSub (a b : Nat) : Option Nat := if b ≤ a then some (a - b) else none
/-- `a.saturating_add(b)` -/
def satAdd (bits a b : Nat) : Nat := min (a + b) (2 ^ bits - 1)
/-- `a.saturating_mul(b)` -/
def satMul (bits a b : Nat) : Nat := min (a * b) (2 ^ bits - 1)
/-- `a.saturating_sub(b)`; natural subtraction already truncates at zero. -/
def satSub (a b : Nat) : Nat := a - b

/-- `for i in 0..n { s = f(i, s)? }` -/
def forRange {σ : Type} : Nat → (Nat → σ → R σ) → σ → R σ
  | 0, _, s => .ok s
  | n + 1, f, s => do f n (← forRange n f s)

/-- `for i in (0..n).rev() { s = f(i, s)? }` -/
def forRangeRev {σ : Type} : Nat → (Nat → σ → R σ) → σ → R σ
  | 0, _, s => .ok s
  | n + 1, f, s => do forRangeRev n f (← f n s)

/-- `for x in xs { s = f(x, s)? }` -/
def forList {σ β : Type} : List β → (β → σ → R σ) → σ → R σ
  | [], _, s => .ok s
  | x :: xs, f, s => do forList xs f (← f x s)

/-! ## Lemmas -/

@[simp] theorem ok_bind {α β : Type} (a : α) (f : α → R β) : (Except.ok a >>= f) = f a := rfl
@[simp] theorem error_bind {α β : Type} (e : Fault) (f : α → R β) :
    ((Except.error e : R α) >>= f) = Except.error e := rfl
@[simp] theorem pure_eq_ok {α : Type} (a : α) : (pure a : R α) = Except.ok a := rfl

theorem bind_eq_ok {α β : Type} {x : R α} {f : α → R β} {b : β} :
    (x >>= f) = .ok b ↔ ∃ a, x = .ok a ∧ f a = .ok b := by
  cases x <;> simp

theorem addC_ok {bits a b : Nat} (h : a + b < 2 ^ bits) : addC bits a b = .ok (a + b) := by
  simp [addC, h]
theorem mulC_ok {bits a b : Nat} (h : a * b < 2 ^ bits) : mulC bits a b = .ok (a * b) := by
  simp [mulC, h]
theorem subC_ok {a b : Nat} (h : b ≤ a) : subC a b = .ok (a - b) := by
  simp [subC, h]

@[simp] theorem assertR_true : assertR true = .ok () := rfl
@[simp] theorem assertR_false : assertR false = panicR := rfl

@[simp] theorem forRange_zero {σ : Type} (f : Nat → σ → R σ) (s : σ) : forRange 0 f s = .ok s := rfl
theorem forRange_succ {σ : Type} (n : Nat) (f : Nat → σ → R σ) (s : σ) :
    forRange (n + 1) f s = (forRange n f s >>= f n) := rfl

/-- Loop invariant rule for an ascending loop. -/
theorem forRange_inv {σ : Type} {n : Nat} {f : Nat → σ → R σ} (Inv : Nat → σ → Prop) {s : σ}
    (h0 : Inv 0 s)
    (hs : ∀ i, i < n → ∀ s, Inv i s → ∃ s', f i s = .ok s' ∧ Inv (i + 1) s') :
    ∃ s', forRange n f s = .ok s' ∧ Inv n s' := by
  induction n with
  | zero => exact ⟨s, rfl, h0⟩
  | succ n ih =>
    obtain ⟨s', he, hi⟩ := ih (fun i hi => hs i (by omega))
    obtain ⟨s'', he', hi'⟩ := hs n (by omega) s' hi
    exact ⟨s'', by rw [forRange_succ, he]; simpa using he', hi'⟩

/-- Loop invariant rule for a descending loop: `Inv k` holds when the indices below `k` remain. -/
theorem forRangeRev_inv {σ : Type} {n : Nat} {f : Nat → σ → R σ} (Inv : Nat → σ → Prop) {s : σ}
    (h0 : Inv n s)
    (hs : ∀ i, i < n → ∀ s, Inv (i + 1) s → ∃ s', f i s = .ok s' ∧ Inv i s') :
    ∃ s', forRangeRev n f s = .ok s' ∧ Inv 0 s' := by
  induction n generalizing s with
  | zero => exact ⟨s, rfl, h0⟩
  | succ n ih =>
    obtain ⟨s', he, hi⟩ := hs n (by omega) s h0
    obtain ⟨s'', he', hi'⟩ := ih hi (fun i hi' => hs i (by omega))
    exact ⟨s'', by simp only [forRangeRev, he, ok_bind, he'], hi'⟩

/-- Loop invariant rule for a loop over a list: `Inv pre post` with `pre` done, `post` to do. -/
theorem forList_inv {σ β : Type} {xs : List β} {f : β → σ → R σ}
    (Inv : List β → List β → σ → Prop) {s : σ} (h0 : Inv [] xs s)
    (hs : ∀ pre x post, pre ++ x :: post = xs → ∀ s, Inv pre (x :: post) s →
      ∃ s', f x s = .ok s' ∧ Inv (pre ++ [x]) post s') :
    ∃ s', forList xs f s = .ok s' ∧ Inv xs [] s' := by
  suffices H : ∀ (post pre : List β) (s : σ), pre ++ post = xs → Inv pre post s →
      ∃ s', forList post f s = .ok s' ∧ Inv xs [] s' from H xs [] s rfl h0
  intro post
  induction post with
  | nil => intro pre s he hi; simp at he; subst he; exact ⟨s, rfl, hi⟩
  | cons x post ih =>
    intro pre s he hi
    obtain ⟨s', h1, h2⟩ := hs pre x post he s hi
    obtain ⟨s'', h3, h4⟩ := ih (pre ++ [x]) s' (by simpa using he) h2
    exact ⟨s'', by simp only [forList, h1, ok_bind, h3], h4⟩

theorem forRange_congr {σ : Type} {n : Nat} {f g : Nat → σ → R σ} {s : σ}
    (h : ∀ i, i < n → ∀ s, f i s = g i s) : forRange n f s = forRange n g s := by
  induction n with
  | zero => rfl
  | succ n ih =>
    rw [forRange_succ, forRange_succ, ih (fun i hi => h i (by omega))]
    congr 1; funext s; exact h n (by omega) s

end Verif
