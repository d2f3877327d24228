import Verif.Base.Cursor

/-!
# Readers of a file and of a longer file

`Sim Q x y`: when `x` yields a value, so does `y`, and the two are related by `Q`. `Post P x`: when `x` yields a value, `P`
holds of it.
-/

namespace Verif

/-- When `x` yields a value, `y` yields one that `Q` relates to it. -/
def Sim {α β : Type} (Q : α → β → Prop) (x : R α) (y : R β) : Prop := ∀ a, x = .ok a → ∃ b, y = .ok b ∧ Q a b

/-- When `x` yields a value, it satisfies `P`. -/
def Post {α : Type} (P : α → Prop) (x : R α) : Prop := ∀ a, x = .ok a → P a

theorem Sim.bind {α β α' β' : Type} {Q : α → β → Prop} {P : α' → β' → Prop} {x : R α} {y : R β} {f : α → R α'} {g : β → R β'}
    (h : Sim Q x y) (hf : ∀ a b, Q a b → Sim P (f a) (g b)) : Sim P (x >>= f) (y >>= g) := by
  intro c hc
  obtain ⟨a, ha, hc⟩ := bind_eq_ok.1 hc
  obtain ⟨b, hb, hq⟩ := h a ha
  obtain ⟨d, hd, hp⟩ := hf a b hq c hc
  exact ⟨d, by rw [hb, ok_bind, hd], hp⟩

theorem Sim.refl {α : Type} (x : R α) : Sim Eq x x := fun a h => ⟨a, h, rfl⟩

theorem Sim.same {α α' β' : Type} {P : α' → β' → Prop} {x : R α} {f : α → R α'} {g : α → R β'}
    (hf : ∀ a, Sim P (f a) (g a)) : Sim P (x >>= f) (x >>= g) := (Sim.refl x).bind fun a b h => by subst h; exact hf a

theorem Sim.ok {α β : Type} {Q : α → β → Prop} {a : α} {b : β} (h : Q a b) : Sim Q (.ok a) (.ok b) := by
  intro c hc; cases hc; exact ⟨b, rfl, h⟩

theorem Sim.error {α β : Type} {Q : α → β → Prop} {e : Fault} {y : R β} : Sim Q (.error e) y := by intro a h; cases h

theorem Sim.errR {α β : Type} {Q : α → β → Prop} {e : Err} {y : R β} : Sim Q (errR e) y := Sim.error
theorem Sim.panicR {α β : Type} {Q : α → β → Prop} {y : R β} : Sim Q panicR y := Sim.error

theorem Sim.mono {α β : Type} {Q P : α → β → Prop} {x : R α} {y : R β} (h : Sim Q x y) (hp : ∀ a b, Q a b → P a b) :
    Sim P x y := fun a ha => let ⟨b, hb, hq⟩ := h a ha; ⟨b, hb, hp a b hq⟩

theorem forList_sim {σ τ β : Type} {Q : σ → τ → Prop} {f : β → σ → R σ} {g : β → τ → R τ} :
    ∀ (xs : List β) (s : σ) (t : τ), Q s t → (∀ x s t, Q s t → Sim Q (f x s) (g x t)) →
      Sim Q (forList xs f s) (forList xs g t) := by
  intro xs
  induction xs with
  | nil => intro s t h _; exact .ok h
  | cons x xs ih => intro s t h hf; exact (hf x s t h).bind fun a b hab => ih a b hab hf

theorem forRange_sim {σ τ : Type} {Q : σ → τ → Prop} {f : Nat → σ → R σ} {g : Nat → τ → R τ} (n : Nat) (s : σ) (t : τ) (h : Q s t)
    (hf : ∀ x s t, Q s t → Sim Q (f x s) (g x t)) : Sim Q (forRange n f s) (forRange n g t) := by
  induction n with
  | zero => exact .ok h
  | succ n ih => rw [forRange_succ, forRange_succ]; exact ih.bind fun a b hab => hf n a b hab

theorem Post.bind {α β : Type} {Q : α → Prop} {P : β → Prop} {x : R α} {f : α → R β}
    (h : Post Q x) (hf : ∀ a, Q a → Post P (f a)) : Post P (x >>= f) := by
  intro c hc
  obtain ⟨a, ha, hc⟩ := bind_eq_ok.1 hc
  exact hf a (h a ha) c hc

theorem Post.any {α β : Type} {P : β → Prop} {x : R α} {f : α → R β} (hf : ∀ a, Post P (f a)) : Post P (x >>= f) :=
  Post.bind (Q := fun _ => True) (fun _ _ => trivial) fun a _ => hf a

theorem Post.ok {α : Type} {P : α → Prop} {a : α} (h : P a) : Post P (.ok a) := by intro c hc; cases hc; exact h
theorem Post.errR {α : Type} {P : α → Prop} {e : Err} : Post P (errR e : R α) := by intro a h; cases h
theorem Post.panicR {α : Type} {P : α → Prop} : Post P (panicR : R α) := by intro a h; cases h

theorem forList_post {σ β : Type} (Inv : List β → σ → Prop) {f : β → σ → R σ} :
    ∀ (xs : List β) (s : σ), Inv xs s → (∀ x xs s, Inv (x :: xs) s → Post (Inv xs) (f x s)) → Post (Inv []) (forList xs f s) := by
  intro xs
  induction xs with
  | nil => intro s h _; exact .ok h
  | cons x xs ih => intro s h hf; exact (hf x xs s h).bind fun a ha => ih a ha hf

/-- The relation between what a reader gives for a file and for a longer one: same value, longer rest. -/
def Longer {α : Type} (a b : α × List UInt8) : Prop := a.1 = b.1 ∧ a.2 <+: b.2

theorem readExact_sim {n : Nat} {s s' : List UInt8} (h : s <+: s') : Sim Longer (readExact n s) (readExact n s') := by
  obtain ⟨t, rfl⟩ := h
  unfold readExact
  split
  · rename_i hn
    rw [if_pos (by rw [List.length_append]; omega)]
    refine .ok ⟨?_, ?_⟩
    · dsimp only; rw [List.take_append_of_le_length hn]
    · dsimp only; rw [List.drop_append_of_le_length hn]; exact List.prefix_append _ _
  · exact .errR

theorem readU8_sim {s s' : List UInt8} (h : s <+: s') : Sim Longer (readU8 s) (readU8 s') := by
  obtain ⟨t, rfl⟩ := h
  cases s with
  | nil => exact .errR
  | cons a s => exact .ok ⟨rfl, List.prefix_append _ _⟩

theorem readExact_post (n : Nat) (s : List UInt8) : Post (fun r => r.1.length = n ∧ r.2.length + n = s.length) (readExact n s) := by
  unfold readExact
  split
  · refine .ok ⟨?_, ?_⟩
    · dsimp only; rw [List.length_take]; omega
    · dsimp only; rw [List.length_drop]; omega
  · exact .errR

/-- A cursor over a file and one over a longer file, at the same position. -/
def CLe (c c' : Cursor) : Prop := c.bytes <+: c'.bytes ∧ c.pos = c'.pos

/-- Same value, and a cursor over the longer file. -/
def CLonger {α : Type} (a b : α × Cursor) : Prop := a.1 = b.1 ∧ CLe a.2 b.2

theorem cursorReadExact_sim {n : Nat} {c c' : Cursor} (h : CLe c c') : Sim CLonger (c.readExact n) (c'.readExact n) := by
  obtain ⟨b, p⟩ := c
  obtain ⟨b', p'⟩ := c'
  obtain ⟨⟨t, rfl⟩, rfl⟩ := h
  unfold Cursor.readExact
  dsimp only
  split
  · rename_i hn
    rw [if_pos (by rw [List.length_append]; omega)]
    refine .ok ⟨?_, List.prefix_append _ _, rfl⟩
    dsimp only
    by_cases hp : p ≤ b.length
    · rw [List.drop_append_of_le_length hp, List.take_append_of_le_length (by rw [List.length_drop]; omega)]
    · have : n = 0 := by omega
      subst this
      simp
  · exact .errR

theorem seekStart_sim {n : Nat} {c c' : Cursor} (h : CLe c c') : Sim CLonger (c.seekStart n) (c'.seekStart n) :=
  .ok ⟨rfl, h.1, rfl⟩

theorem seekCurrent_sim {d : Int} {c c' : Cursor} (h : CLe c c') : Sim CLonger (c.seekCurrent d) (c'.seekCurrent d) := by
  unfold Cursor.seekCurrent
  rw [h.2]
  split
  · exact .ok ⟨rfl, h.1, rfl⟩
  · exact .errR

end Verif
