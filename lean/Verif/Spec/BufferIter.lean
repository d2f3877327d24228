import Verif.Model.BufferIter

/-!
# What the iterators of `ImageBuffer` should do

An iterator over pixels is the list of the coordinates not yet handed out, an iterator over rows the list of the rows, a reference is a coordinate, and the image
is a function from coordinates to pixels.
-/

namespace Verif
namespace BufIter

/-- The coordinates of row `y`, from left to right. -/
def rowCoords (w y : Nat) : List (Nat × Nat) := (List.range w).map fun x => (x, y)

/-- All coordinates, row by row. -/
def allCoords (w h : Nat) : List (Nat × Nat) := (List.range h).flatMap (rowCoords w)

/-- The rows that `rows()` yields: as documented none if the width is 0. -/
def allRows (w h : Nat) : List Nat := if w = 0 then [] else List.range h

/-- The state of the specification. -/
structure Ideal (P : Type) where
  width : Nat
  pic : Nat → Nat → P
  rows : Option (List Nat)
  its : List (List (Nat × Nat))
  refs : List (Nat × Nat)

/-- One step; `enumerated` iterators tell the coordinates and can only be taken from the front. -/
def Ideal.step {P : Type} (enumerated : Bool) (s : Ideal P) : Step P → Ans P × Ideal P
  | .rowNext => match s.rows with
    | none => (.invalid, s)
    | some [] => (if enumerated then .row none else .item false, s)
    | some (y :: ys) => (if enumerated then .row (some y) else .item true, { s with rows := some ys, its := s.its ++ [rowCoords s.width y] })
  | .rowBack => if enumerated then (.invalid, s) else match s.rows with
    | none => (.invalid, s)
    | some ys => match ys.getLast? with
      | none => (.item false, s)
      | some y => (.item true, { s with rows := some ys.dropLast, its := s.its ++ [rowCoords s.width y] })
  | .rowLen => match s.rows with
    | none => (.invalid, s)
    | some ys => (.count ys.length, s)
  | .next i => match s.its[i]? with
    | none => (.invalid, s)
    | some [] => (if enumerated then .coord none else .item false, s)
    | some (c :: cs) => (if enumerated then .coord (some c) else .item true, { s with its := s.its.set i cs, refs := s.refs ++ [c] })
  | .nextBack i => if enumerated then (.invalid, s) else match s.its[i]? with
    | none => (.invalid, s)
    | some cs => match cs.getLast? with
      | none => (.item false, s)
      | some c => (.item true, { s with its := s.its.set i cs.dropLast, refs := s.refs ++ [c] })
  | .len i => match s.its[i]? with
    | none => (.invalid, s)
    | some cs => (.count cs.length, s)
  | .read k => match s.refs[k]? with
    | none => (.invalid, s)
    | some (x, y) => (.pixel (s.pic x y), s)
  | .write k p => match s.refs[k]? with
    | none => (.invalid, s)
    | some (x, y) => (.done, { s with pic := fun i j => if (i, j) = (x, y) then p else s.pic i j })

/-- A history: the answers and the final picture. -/
def Ideal.run {P : Type} (enumerated : Bool) (s : Ideal P) : List (Step P) → List (Ans P) × (Nat → Nat → P)
  | [] => ([], s.pic)
  | a :: as => (((s.step enumerated a).1 :: ((s.step enumerated a).2.run enumerated as).1), ((s.step enumerated a).2.run enumerated as).2)

end BufIter
end Verif
