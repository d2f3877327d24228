import Verif.Model.Hdr

/-!
# Radiance HDR files: the pixel data and the header

Written from the description of the Radiance picture format (`freadcolrs`, `oldreadcolrs`); the only things taken from
the model are the types `Rgbe` (four bytes), `RgbF` (three floats) and `Meta` (the metadata), the parameter `Text` (the functions
on text of the standard library) and `Pnm.parseU32` (`str::parse::<u32>`).
-/

namespace Verif
namespace HdrSpec

open Hdr (Rgbe)

/-- The four bytes of a pixel. -/
def four (p : Rgbe) : List UInt8 := [p.r, p.g, p.b, p.e]

/-- `Component n code data`: `code` denotes the `n` samples `data` of one component of a scanline. A byte `128 + k` is
followed by a byte that is repeated `k` times; a byte `k ≤ 128` is followed by `k` samples. -/
inductive Component : Nat → List UInt8 → List UInt8 → Prop
  | done : Component 0 [] []
  | run {n k : Nat} {v : UInt8} {code data : List UInt8} : 1 ≤ k → k ≤ 127 → Component n code data →
      Component (k + n) (UInt8.ofNat (128 + k) :: v :: code) (List.replicate k v ++ data)
  | samples {n : Nat} {vals code data : List UInt8} : vals.length ≤ 128 → 0 < vals.length + n → Component n code data →
      Component (vals.length + n) (UInt8.ofNat vals.length :: (vals ++ code)) (vals ++ data)

/-- A pixel with red, green and blue 1 is a repeat marker. -/
def Marker (p : Rgbe) : Prop := p.r = 1 ∧ p.g = 1 ∧ p.b = 1
instance (p : Rgbe) : Decidable (Marker p) := inferInstanceAs (Decidable (_ ∧ _))

/-- `Flat lim n k prev code row`: after the pixel `prev` and `k` repeat markers, `code` denotes the `n` pixels `row` that
are left in the scanline. A pixel stands for itself; the `k`-th marker in a row (from 0) with exponent byte `e` stands for
`e * 256 ^ k` more copies of the pixel before. At most `lim` markers follow one another. -/
inductive Flat (lim : Nat) : Nat → Nat → Rgbe → List UInt8 → List Rgbe → Prop
  | done {k : Nat} {prev : Rgbe} : Flat lim 0 k prev [] []
  | pixel {n k : Nat} {prev p : Rgbe} {code : List UInt8} {row : List Rgbe} : ¬ Marker p → Flat lim n 0 p code row →
      Flat lim (n + 1) k prev (four p ++ code) (p :: row)
  | again {n k : Nat} {prev : Rgbe} {e : UInt8} {code : List UInt8} {row : List Rgbe} : k < lim → 0 < e.toNat * 256 ^ k + n →
      Flat lim n (k + 1) prev code row →
      Flat lim (e.toNat * 256 ^ k + n) k prev ([1, 1, 1, e] ++ code) (List.replicate (e.toNat * 256 ^ k) prev ++ row)

/-- `Scanline lim code row`: `code` denotes the scanline `row`, either as the bytes 2, 2, and two bytes of which the first
is below 128, and the four components one after the other, or pixel by pixel with repeat markers. -/
inductive Scanline (lim : Nat) : List UInt8 → List Rgbe → Prop
  | components {row : List Rgbe} {hi lo : UInt8} {cr cg cb ce : List UInt8} : hi < 128 → row ≠ [] →
      Component row.length cr (row.map (·.r)) → Component row.length cg (row.map (·.g)) →
      Component row.length cb (row.map (·.b)) → Component row.length ce (row.map (·.e)) →
      Scanline lim ([2, 2, hi, lo] ++ cr ++ cg ++ cb ++ ce) row
  | flat {p : Rgbe} {code : List UInt8} {row : List Rgbe} : ¬ (p.r = 2 ∧ p.g = 2 ∧ p.b < 128) → ¬ Marker p →
      Flat lim row.length 0 p code row → Scanline lim (four p ++ code) (p :: row)

/-- `Picture lim w data rows rest`: `data` begins with the scanlines `rows`, each of `w` pixels, and `rest` follows. -/
inductive Picture (lim w : Nat) : List UInt8 → List (List Rgbe) → List UInt8 → Prop
  | done {rest : List UInt8} : Picture lim w rest [] rest
  | row {code data rest : List UInt8} {row : List Rgbe} {rows : List (List Rgbe)} : row.length = w → Scanline lim code row →
      Picture lim w data rows rest → Picture lim w (code ++ data) (row :: rows) rest

/-- The value of a component: the byte times 2 to the power of the exponent byte minus 136; black if the exponent byte
is 0. -/
def value (v e : UInt8) : ℚ := if e = 0 then 0 else v.toNat * 2 ^ ((e.toNat : ℤ) - 136)

/-! ## The header -/

open Hdr (Text RgbF)

/-- The bytes of an ASCII text. -/
def ascii (s : String) : List UInt8 := s.toList.map fun c => UInt8.ofNat c.toNat

/-- `s` begins with the line `line`, and `rest` follows its end; the last line of a file need not have an end. -/
def Line (line s rest : List UInt8) : Prop :=
  10 ∉ line ∧ (s = line ++ 10 :: rest ∨ s = line ∧ line ≠ [] ∧ rest = [])

/-- `s` begins with the lines `ls`, none of them empty, and an empty line, and `rest` follows. -/
inductive Lines : List (List UInt8) → List UInt8 → List UInt8 → Prop
  | blank {s rest : List UInt8} : Line [] s rest → Lines [] s rest
  | line {l s s' rest : List UInt8} {ls : List (List UInt8)} : l ≠ [] → Line l s s' → Lines ls s' rest → Lines (l :: ls) s rest

/-- A line that is `key=value`, with the first `=` and neither part empty: the two parts; otherwise the empty key and the
whole line. -/
def attr (T : Text) (line : List UInt8) : List UInt8 × List UInt8 :=
  let key := line.takeWhile (· ≠ 61)
  let value := (line.dropWhile (· ≠ 61)).drop 1
  if key ≠ [] ∧ value ≠ [] then (T.trim key, value) else ([], line)

/-- The attributes: one for each line that does not begin with `#`, in order. -/
def attributes (T : Text) (ls : List (List UInt8)) : List (List UInt8 × List UInt8) :=
  (ls.filter fun l => l.head? ≠ some 35).map fun l => attr T (T.lossy l)

/-- The values of all attributes with the given key, in order. -/
def valuesOf (key : List UInt8) (attrs : List (List UInt8 × List UInt8)) : List (List UInt8) :=
  (attrs.filter fun a => a.1 = key).map (·.2)

/-- The product of the numbers, from left to right in single precision. -/
def product (l : List Fl) : Fl := l.foldl (fun a b => a.mul f32 b) (.fin 1)

/-- The first three words as numbers. -/
def three (T : Text) (v : List UInt8) : Option RgbF :=
  match T.words v with
  | a :: b :: c :: _ => do some ⟨← T.parseF32 a, ← T.parseF32 b, ← T.parseF32 c⟩
  | _ => none

/-- The keys of the attributes with a meaning, and the only supported format. -/
def kFormat : List UInt8 := ascii "FORMAT"
/-- See `kFormat`. -/
def kExposure : List UInt8 := ascii "EXPOSURE"
/-- See `kFormat`. -/
def kAspect : List UInt8 := ascii "PIXASPECT"
/-- See `kFormat`. -/
def kCorrection : List UInt8 := ascii "COLORCORR"
/-- See `kFormat`. -/
def rgbe : List UInt8 := ascii "32-bit_rle_rgbe"

/-- What the attributes must satisfy: the format is supported; in strict mode, numbers are numbers. -/
structure Accepted (T : Text) (strict : Bool) (attrs : List (List UInt8 × List UInt8)) : Prop where
  format : ∀ v ∈ valuesOf kFormat attrs, T.trim v = rgbe
  exposure : strict = true → ∀ v ∈ valuesOf kExposure attrs, (T.parseF32 (T.trim v)).isSome
  aspect : strict = true → ∀ v ∈ valuesOf kAspect attrs, (T.parseF32 (T.trim v)).isSome
  correction : strict = true → ∀ v ∈ valuesOf kCorrection attrs, (three T v).isSome ∧ (T.words v).length = 3

/-- The numbers that are the values of the attributes with the given key; in lenient mode other values are skipped. -/
def numbers (T : Text) (key : List UInt8) (attrs : List (List UInt8 × List UInt8)) : List Fl :=
  (valuesOf key attrs).filterMap fun v => T.parseF32 (T.trim v)

/-- The colour corrections; in lenient mode those that are not three numbers are skipped. -/
def corrections (T : Text) (attrs : List (List UInt8 × List UInt8)) : List RgbF :=
  (valuesOf kCorrection attrs).filterMap (three T)

/-- The metadata that the attributes give: every attribute in order, and the products of the exposures, the colour
corrections and the aspect ratios, where there are any. -/
def metadata (T : Text) (attrs : List (List UInt8 × List UInt8)) : Hdr.Meta where
  exposure := if numbers T kExposure attrs = [] then none else some (product (numbers T kExposure attrs))
  colorCorrection := if corrections T attrs = [] then none else some
    ⟨product ((corrections T attrs).map (·.r)), product ((corrections T attrs).map (·.g)), product ((corrections T attrs).map (·.b))⟩
  pixelAspect := if numbers T kAspect attrs = [] then none else some (product (numbers T kAspect attrs))
  custom := attrs

/-- The line of the dimensions, `-Y height +X width`, in strict mode nothing after it. -/
def Dimensions (T : Text) (strict : Bool) (line : List UInt8) (w h : Nat) : Prop :=
  ∃ a b extra, T.words (T.lossy line) = ascii "-Y" :: a :: ascii "+X" :: b :: extra ∧
    (strict = true → extra = []) ∧ Pnm.parseU32 a = some h ∧ Pnm.parseU32 b = some w

/-- In strict mode the file begins with `#?RADIANCE` and the rest of that line; `rest` follows. -/
def Signed (strict : Bool) (file rest : List UInt8) : Prop :=
  if strict then ∃ l t, file = ascii "#?RADIANCE" ++ t ∧ Line l t rest else file = rest

end HdrSpec
end Verif
