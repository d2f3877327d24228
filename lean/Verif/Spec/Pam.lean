import Verif.Spec.Pnm

/-!
# PAM files (P7): what the bytes say

Written from pam(5). The raster is that of `Verif.Spec.Pnm`: binary samples of one or two bytes.
-/

namespace Verif
namespace PamSpec
open PnmSpec

/-- WIDTH -/
def wordWidth : List UInt8 := [87, 73, 68, 84, 72]
/-- HEIGHT -/
def wordHeight : List UInt8 := [72, 69, 73, 71, 72, 84]
/-- DEPTH -/
def wordDepth : List UInt8 := [68, 69, 80, 84, 72]
/-- MAXVAL -/
def wordMaxval : List UInt8 := [77, 65, 88, 86, 65, 76]
/-- TUPLTYPE -/
def wordTuple : List UInt8 := [84, 85, 80, 76, 84, 89, 80, 69]
/-- ENDHDR -/
def wordEnd : List UInt8 := [69, 78, 68, 72, 68, 82]
/-- BLACKANDWHITE -/
def wordBlackAndWhite : List UInt8 := [66, 76, 65, 67, 75, 65, 78, 68, 87, 72, 73, 84, 69]
/-- GRAYSCALE -/
def wordGray : List UInt8 := [71, 82, 65, 89, 83, 67, 65, 76, 69]
/-- RGB -/
def wordRgb : List UInt8 := [82, 71, 66]

/-- `Line s line rest`: `line` is the first line of `s`; `rest` follows its line feed, or the file ends with it. -/
def Line (s line rest : List UInt8) : Prop := 10 ∉ line ∧ (s = line ++ 10 :: rest ∨ (s = line ∧ rest = []))

/-- What follows a keyword on its line: nothing, or white space and more ASCII. -/
def Tail (t : List UInt8) : Prop := (∀ b ∈ t, b < 128) ∧ (t = [] ∨ ∃ c u, t = c :: u ∧ Space c)

/-- `Statements text fields s rest`: `s` begins with header lines up to ENDHDR, behind which `rest` follows: comments, of which
`text` holds, and the keywords `fields` with the text that follows each on its line. -/
inductive Statements (text : List UInt8 → Prop) : List (List UInt8 × List UInt8) → List UInt8 → List UInt8 → Prop
  | stop {t s rest : List UInt8} : Tail t → Line s (wordEnd ++ t) rest → Statements text [] s rest
  | comment {fs : List (List UInt8 × List UInt8)} {t s s' rest : List UInt8} : text (35 :: t) → Line s (35 :: t) s' →
      Statements text fs s' rest → Statements text fs s rest
  | field {fs : List (List UInt8 × List UInt8)} {key t s s' rest : List UInt8} :
      key = wordWidth ∨ key = wordHeight ∨ key = wordDepth ∨ key = wordMaxval ∨ key = wordTuple → Tail t → Line s (key ++ t) s' →
      Statements text fs s' rest → Statements text ((key, t) :: fs) s rest

/-- The texts that follow a keyword, line by line. -/
def entries (key : List UInt8) (fs : List (List UInt8 × List UInt8)) : List (List UInt8) := (fs.filter fun f => f.1 = key).map (·.2)

/-- The word in a text: white space, the word, white space. -/
def Has (t word : List UInt8) : Prop := ∃ gap gap' : List UInt8, (∀ b ∈ gap, Space b) ∧ (∀ b ∈ gap', Space b) ∧ t = gap ++ word ++ gap'

/-- The keyword occurs once, with the number `v`. -/
def Says (fs : List (List UInt8 × List UInt8)) (key : List UInt8) (v : Nat) : Prop := ∃ t word, entries key fs = [t] ∧ Has t word ∧ Numeral word v

/-- The tuple type: given once, or not at all. -/
def Typed (fs : List (List UInt8 × List UInt8)) : Option (List UInt8) → Prop
  | none => entries wordTuple fs = []
  | some name => ∃ t, entries wordTuple fs = [t] ∧ Has t name

/-- A grey or colour image, as a description of a raster. -/
def info (width height depth maxval : Nat) : Info := ⟨false, false, depth, width, height, maxval⟩

/-- What the tuple types demand. -/
def Allowed (type : Option (List UInt8)) (depth maxval : Nat) : Prop :=
  (type = some wordBlackAndWhite ∧ depth = 1 ∧ maxval = 1) ∨ (type = some wordGray ∧ depth = 1) ∨ (type = some wordRgb ∧ depth = 3) ∨
    (type = none ∧ (depth = 1 ∨ depth = 3))

/-- `Header text file w h d m type rest`: `file` begins with a header that says the width `w`, the height `h`, the depth `d`,
the maximal sample `m` and the tuple type `type`; `rest` follows. -/
def Header (text : List UInt8 → Prop) (file : List UInt8) (w h d m : Nat) (type : Option (List UInt8)) (rest : List UInt8) : Prop :=
  ∃ s fs, file = 80 :: 55 :: 10 :: s ∧ Statements text fs s rest ∧ Says fs wordWidth w ∧ Says fs wordHeight h ∧ Says fs wordDepth d ∧
    Says fs wordMaxval m ∧ Typed fs type

end PamSpec
end Verif
