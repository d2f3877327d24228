import Verif.Model.PixelOps
import Verif.Spec.Color

/-!
# Closures on pixels (C134)

Specification: `runCalls`, a sequence of calls of closures in order.
-/

namespace Verif
namespace PixelOps
variable {σ α : Type}

/-- Call the closures one after the other, each with its argument, and collect what they return. The first panic ends everything. -/
def runCalls : σ → List ((σ → α → R (σ × α)) × α) → R (σ × List α)
  | s, [] => .ok (s, [])
  | s, (f, a) :: rest => do
    let (s, r) ← f s a
    let (s, rs) ← runCalls s rest
    .ok (s, r :: rs)

/-- The closure for the channel with number `i`: `g` for the alpha channel and `f` for the others. -/
def closureFor (m : PixelType) (f g : σ → α → R (σ × α)) (i : Nat) : σ → α → R (σ × α) :=
  if m.hasAlpha = true ∧ i + 1 = m.ch then g else f

theorem applyIter_eq (f : σ → α → R (σ × α)) (s : σ) (p : List α) : applyIter f s p = runCalls s (p.map fun a => (f, a)) := by
  induction p generalizing s with
  | nil => rfl
  | cons a p ih => simp only [applyIter, List.map_cons, runCalls, ih]

/-- **C134: `map` and `apply`** call the closure once for each channel, in order, and put what it returns in the place of the channel. -/
theorem C134_map (f : σ → α → R (σ × α)) (s : σ) (p : List α) : apply f s p = runCalls s (p.map fun a => (f, a)) := applyIter_eq f s p

/-- **C134: `map_with_alpha` and `apply_with_alpha`** call `f` once for each colour channel in order and then `g` once for the alpha channel if there is
one, and put what they return in the place of the channel. -/
theorem C134_map_with_alpha (m : PixelType) (f g : σ → α → R (σ × α)) (s : σ) (p : List α) (h : p.length = m.ch) :
    applyWithAlpha m f g s p = runCalls s (p.zipIdx.map fun a => (closureFor m f g a.2, a.1)) := by
  cases m with
  | luma =>
    match p, h with
    | [a], _ =>
      have c0 : closureFor .luma f g 0 = f := by simp [closureFor, PixelType.hasAlpha]
      show (do let (s, c) ← applyIter f s [a]; _) = _
      simp only [applyIter, runCalls, List.zipIdx, List.map, c0]
      cases f s a with
      | error e => rfl
      | ok q => rfl
  | rgb =>
    match p, h with
    | [a, b, c], _ =>
      have cc : ∀ i, closureFor .rgb f g i = f := by intro i; simp [closureFor, PixelType.hasAlpha]
      show (do let (s, c) ← applyIter f s [a, b, c]; _) = _
      simp only [applyIter, runCalls, List.zipIdx, List.map, cc]
      cases f s a with
      | error e => rfl
      | ok q =>
        obtain ⟨s1, a1⟩ := q
        simp only [ok_bind]
        cases f s1 b with
        | error e => rfl
        | ok q =>
          obtain ⟨s2, b1⟩ := q
          simp only [ok_bind]
          cases f s2 c with
          | error e => rfl
          | ok q => rfl
  | lumaA =>
    match p, h with
    | [a, b], _ =>
      have c0 : closureFor .lumaA f g 0 = f := by simp [closureFor, PixelType.ch]
      have c1 : closureFor .lumaA f g 1 = g := by simp [closureFor, PixelType.ch, PixelType.hasAlpha]
      show (do let (s, c) ← applyIter f s [a]; _) = _
      simp only [applyIter, runCalls, List.zipIdx, List.map, c0, c1, Nat.zero_add]
      cases f s a with
      | error e => rfl
      | ok q =>
        obtain ⟨s1, a1⟩ := q
        cases hg : g s1 b with
        | error e => simp [hg, PixelType.ch, PixelType.alphas]
        | ok q => simp [hg, PixelType.ch, PixelType.alphas]
  | rgba =>
    match p, h with
    | [a, b, c, d], _ =>
      have c0 : closureFor .rgba f g 0 = f := by simp [closureFor, PixelType.ch]
      have c1 : closureFor .rgba f g 1 = f := by simp [closureFor, PixelType.ch]
      have c2 : closureFor .rgba f g 2 = f := by simp [closureFor, PixelType.ch]
      have c3 : closureFor .rgba f g 3 = g := by simp [closureFor, PixelType.ch, PixelType.hasAlpha]
      show (do let (s, c) ← applyIter f s [a, b, c]; _) = _
      simp only [applyIter, runCalls, List.zipIdx, List.map, c0, c1, c2, c3, Nat.zero_add, Nat.reduceAdd]
      cases f s a with
      | error e => rfl
      | ok q =>
        obtain ⟨s1, a1⟩ := q
        simp only [ok_bind]
        cases f s1 b with
        | error e => rfl
        | ok q =>
          obtain ⟨s2, b1⟩ := q
          simp only [ok_bind]
          cases f s2 c with
          | error e => rfl
          | ok q =>
            obtain ⟨s3, c1⟩ := q
            cases hg : g s3 d with
            | error e => simp [hg, PixelType.ch, PixelType.alphas]
            | ok q => simp [hg, PixelType.ch, PixelType.alphas]

/-- **C134: `map_without_alpha` and `apply_without_alpha`** call `f` once for each colour channel in order; the alpha channel keeps its value. -/
theorem C134_map_without_alpha (m : PixelType) (f : σ → α → R (σ × α)) (s : σ) (p : List α) (h : p.length = m.ch) :
    applyWithoutAlpha m f s p
      = runCalls s (p.zipIdx.map fun a => (if m.hasAlpha = true ∧ a.2 + 1 = m.ch then fun s x => .ok (s, x) else f, a.1)) :=
  C134_map_with_alpha m f _ s p h

/-- The alpha channel after `map_without_alpha` is the one before. -/
theorem C134_alpha_kept (m : PixelType) (f : σ → α → R (σ × α)) (s s' : σ) (p q : List α) (h : p.length = m.ch) (ha : m.hasAlpha = true)
    (hr : applyWithoutAlpha m f s p = .ok (s', q)) : q.length = m.ch ∧ q[m.ch - 1]? = p[m.ch - 1]? := by
  rw [C134_map_without_alpha m f s p h] at hr
  cases m with
  | luma => simp [PixelType.hasAlpha] at ha
  | rgb => simp [PixelType.hasAlpha] at ha
  | lumaA =>
    match p, h with
    | [a, b], _ =>
      simp only [runCalls, List.zipIdx, List.map, PixelType.hasAlpha] at hr
      cases h0 : f s a with
      | error e => simp [h0, PixelType.ch] at hr
      | ok r =>
        obtain ⟨s1, a1⟩ := r
        simp [h0, PixelType.ch] at hr
        rw [← hr.2]
        simp [PixelType.ch]
  | rgba =>
    match p, h with
    | [a, b, c, d], _ =>
      simp only [runCalls, List.zipIdx, List.map, PixelType.hasAlpha] at hr
      cases h0 : f s a with
      | error e => simp [h0, PixelType.ch] at hr
      | ok r =>
        obtain ⟨s1, a1⟩ := r
        cases h1 : f s1 b with
        | error e => simp [h0, h1, PixelType.ch] at hr
        | ok r =>
          obtain ⟨s2, b1⟩ := r
          cases h2 : f s2 c with
          | error e => simp [h0, h1, h2, PixelType.ch] at hr
          | ok r =>
            obtain ⟨s3, c1⟩ := r
            simp [h0, h1, h2, PixelType.ch] at hr
            rw [← hr.2]
            simp [PixelType.ch]

/-- **C134: `map2` and `apply2`** call the closure once for each channel, in order, with the two channels of that number, the receiver's first. -/
theorem C134_map2 (f : σ → α → α → R (σ × α)) (s : σ) (p q : List α) (h : p.length = q.length) :
    apply2 f s p q = runCalls s ((p.zip q).map fun a => (fun s x => f s x a.2, a.1)) := by
  induction p generalizing s q with
  | nil => cases q <;> rfl
  | cons a p ih =>
    cases q with
    | nil => simp at h
    | cons b q =>
      simp only [List.length_cons, Nat.add_right_cancel_iff] at h
      simp only [apply2, List.zip_cons_cons, List.map_cons, runCalls, ih _ _ h]

/-- Calls of pure closures: each argument is mapped. -/
theorem runCalls_pure (l : List ((α → α) × α)) : runCalls () (l.map fun a => (fun _ x => .ok ((), a.1 x), a.2)) = .ok ((), l.map fun a => a.1 a.2) := by
  induction l with
  | nil => rfl
  | cons a l ih => simp only [List.map_cons, runCalls, ok_bind, ih]

/-- **C134, without state**: for pure total functions channel `i` of the result is the function of that channel applied to channel `i`. -/
theorem C134_pure (m : PixelType) (f g : α → α) (p : List α) (h : p.length = m.ch) :
    apply (fun _ x => .ok ((), f x)) () p = .ok ((), p.map f)
    ∧ applyWithAlpha m (fun _ x => .ok ((), f x)) (fun _ x => .ok ((), g x)) () p
      = .ok ((), p.zipIdx.map fun a => if m.hasAlpha = true ∧ a.2 + 1 = m.ch then g a.1 else f a.1) := by
  constructor
  · rw [C134_map]
    have := runCalls_pure (p.map fun a => (f, a))
    simpa [Function.comp_def] using this
  · rw [C134_map_with_alpha m _ _ _ p h]
    have := runCalls_pure (p.zipIdx.map fun a => (if m.hasAlpha = true ∧ a.2 + 1 = m.ch then g else f, a.1))
    simp only [List.map_map, Function.comp_def] at this
    have e : ∀ i, closureFor m (fun _ x => .ok ((), f x)) (fun _ x => .ok ((), g x)) i
        = (fun (_ : Unit) x => (.ok ((), (if m.hasAlpha = true ∧ i + 1 = m.ch then g else f) x) : R (Unit × α))) := by
      intro i
      unfold closureFor
      split <;> rfl
    simp only [e]
    rw [this]
    congr 2
    apply List.map_congr_left
    intro a _
    split <;> rfl

/-- **C134: `from_slice`** returns the slice as a pixel if it has as many samples as the pixel has channels, and panics for every other length. -/
theorem C134_from_slice (m : PixelType) (l : List α) :
    (l.length = m.ch → fromSlice m l = .ok l) ∧ (l.length ≠ m.ch → fromSlice m l = .error .panic) := by
  constructor <;> intro h <;> simp [fromSlice, assertR, h]
  rfl

/-- **C134: `from_channels` and `channels4`**: the pixel made of four channels holds the first of them, and `channels4` of it returns those, with the
largest value in the place of the channels it does not have. -/
theorem C134_channels (m : PixelType) (max a b c d : α) :
    ∃ p : List α, fromChannels m a b c d = .ok p ∧ p.length = m.ch ∧ (∀ i < m.ch, p[i]? = [a, b, c, d][i]?)
      ∧ channels4 m max p = .ok (match m with
        | .luma => (a, max, max, max)
        | .lumaA => (a, b, max, max)
        | .rgb => (a, b, c, max)
        | .rgba => (a, b, c, d)) := by
  refine ⟨[a, b, c, d].take m.ch, ?_, ?_, ?_, ?_⟩
  · cases m <;> rfl
  · cases m <;> rfl
  · intro i hi
    rw [List.getElem?_take_of_lt hi]
  · cases m <;> rfl

/-- A counting closure: it sees the channels in order, alpha last. -/
example : applyWithAlpha .rgba (fun (s : Nat) (x : Nat) => .ok (s + 1, x + s)) (fun s _ => .ok (s, 100 * s)) 0 [10, 20, 30, 40]
    = .ok (3, [10, 21, 32, 300]) := rfl

example : applyWithAlpha .rgb (fun (s : Nat) (x : Nat) => .ok (s + 1, x + s)) (fun s _ => .ok (s, 100 * s)) 0 [10, 20, 30] = .ok (3, [10, 21, 32]) := rfl

example : applyWithoutAlpha .lumaA (fun (s : Nat) (x : Nat) => .ok (s + 1, x + 7)) 0 [10, 20] = .ok (1, [17, 20]) := rfl

example : apply2 (fun (s : Nat) (x y : Nat) => .ok (s + 1, x - y)) 0 [10, 20] [1, 5] = .ok (2, [9, 15]) := rfl

example : fromSlice .rgb [1, 2] = .error .panic := rfl

end PixelOps
end Verif
