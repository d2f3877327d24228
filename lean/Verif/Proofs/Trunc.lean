import Verif.Proofs.Prefix
import Verif.Proofs.Outcome

/-!
# Truncated files

`Trunc Q x y`: where `y` (reading a file) yields a value, `x` (reading a prefix of it) yields a value related by `Q` or reports
an input/output error.
-/

namespace Verif

/-- See above. -/
def Trunc {α β : Type} (Q : α → β → Prop) (x : R α) (y : R β) : Prop :=
  ∀ b, y = .ok b → x = errR .io ∨ ∃ a, x = .ok a ∧ Q a b

theorem Trunc.bind {α β α' β' : Type} {Q : α → β → Prop} {P : α' → β' → Prop} {x : R α} {y : R β} {f : α → R α'} {g : β → R β'}
    (h : Trunc Q x y) (hf : ∀ a b, Q a b → Trunc P (f a) (g b)) : Trunc P (x >>= f) (y >>= g) := by
  intro c hc
  obtain ⟨b, hb, hc⟩ := bind_eq_ok.1 hc
  rcases h b hb with he | ⟨a, ha, hq⟩
  · left; rw [he]; rfl
  · rw [ha]; exact hf a b hq c hc

theorem Trunc.refl {α : Type} (x : R α) : Trunc Eq x x := fun b h => .inr ⟨b, h, rfl⟩

theorem Trunc.same {α α' β' : Type} {P : α' → β' → Prop} {x : R α} {f : α → R α'} {g : α → R β'}
    (hf : ∀ a, Trunc P (f a) (g a)) : Trunc P (x >>= f) (x >>= g) := (Trunc.refl x).bind fun a b h => by subst h; exact hf a

theorem Trunc.ok {α β : Type} {Q : α → β → Prop} {a : α} {b : β} (h : Q a b) : Trunc Q (.ok a) (.ok b) := by
  intro c hc; cases hc; exact .inr ⟨a, rfl, h⟩

theorem Trunc.errR {α β : Type} {Q : α → β → Prop} {e : Err} {x : R α} : Trunc Q x (errR e : R β) := by intro b h; cases h
theorem Trunc.panicR {α β : Type} {Q : α → β → Prop} {x : R α} : Trunc Q x (panicR : R β) := by intro b h; cases h
theorem Trunc.io {α β : Type} {Q : α → β → Prop} {y : R β} : Trunc Q (Verif.errR .io : R α) y := fun _ _ => .inl rfl

theorem Trunc.mono {α β : Type} {Q P : α → β → Prop} {x : R α} {y : R β} (h : Trunc Q x y) (hp : ∀ a b, Q a b → P a b) :
    Trunc P x y := fun b hb => (h b hb).imp_right fun ⟨a, ha, hq⟩ => ⟨a, ha, hp a b hq⟩

theorem readExact_trunc {n : Nat} {s s' : List UInt8} (h : s <+: s') : Trunc Longer (readExact n s) (readExact n s') := by
  obtain ⟨t, rfl⟩ := h
  unfold readExact
  split
  · rename_i hn
    rw [if_pos (by rw [List.length_append]; omega)]
    refine .ok ⟨?_, ?_⟩
    · dsimp only; rw [List.take_append_of_le_length hn]
    · dsimp only; rw [List.drop_append_of_le_length hn]; exact List.prefix_append _ _
  · exact .io

theorem readLE_trunc {n : Nat} {s s' : List UInt8} (h : s <+: s') : Trunc Longer (readLE n s) (readLE n s') :=
  (readExact_trunc h).bind fun a b hab => .ok ⟨by dsimp only; rw [hab.1], hab.2⟩

theorem readBE_trunc {n : Nat} {s s' : List UInt8} (h : s <+: s') : Trunc Longer (readBE n s) (readBE n s') :=
  (readExact_trunc h).bind fun a b hab => .ok ⟨by dsimp only; rw [hab.1], hab.2⟩

theorem readU8_trunc {s s' : List UInt8} (h : s <+: s') : Trunc Longer (readU8 s) (readU8 s') := by
  obtain ⟨t, rfl⟩ := h
  cases s with
  | nil => exact .io
  | cons a s => exact .ok ⟨rfl, List.prefix_append _ _⟩

theorem forList_trunc {σ τ β : Type} {Q : σ → τ → Prop} {f : β → σ → R σ} {g : β → τ → R τ} :
    ∀ (xs : List β) (s : σ) (t : τ), Q s t → (∀ x s t, Q s t → Trunc Q (f x s) (g x t)) →
      Trunc Q (forList xs f s) (forList xs g t) := by
  intro xs
  induction xs with
  | nil => intro s t h _; exact .ok h
  | cons x xs ih => intro s t h hf; exact (hf x s t h).bind fun a b hab => ih a b hab hf

theorem forRange_trunc {σ τ : Type} {Q : σ → τ → Prop} {f : Nat → σ → R σ} {g : Nat → τ → R τ} (n : Nat) (s : σ) (t : τ) (h : Q s t)
    (hf : ∀ x s t, Q s t → Trunc Q (f x s) (g x t)) : Trunc Q (forRange n f s) (forRange n g t) := by
  induction n with
  | zero => exact .ok h
  | succ n ih => rw [forRange_succ, forRange_succ]; exact ih.bind fun a b hab => hf n a b hab

/-- Both branches of a condition that does not depend on the rest of the file. -/
theorem Trunc.ite {α β : Type} {Q : α → β → Prop} {c : Prop} [Decidable c] {x x' : R α} {y y' : R β}
    (h : c → Trunc Q x y) (h' : ¬c → Trunc Q x' y') : Trunc Q (if c then x else x') (if c then y else y') := by
  split
  · rename_i hc; exact h hc
  · rename_i hc; exact h' hc

end Verif
