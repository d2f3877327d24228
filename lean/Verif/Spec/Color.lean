import Verif.Model.Color

/-!
# Vocabulary for the colour properties
-/

namespace Verif

/-- Is the pixel type coloured? -/
def PixelType.isColor : PixelType → Bool
  | .luma | .lumaA => false
  | .rgb | .rgba => true

/-- Does the pixel type have an alpha channel? -/
def PixelType.hasAlpha : PixelType → Bool
  | .luma | .rgb => false
  | .lumaA | .rgba => true

/-- The red (0), green (1) and blue (2) a pixel stands for; a grey stands for three equal samples. -/
def rgbOf : (m : PixelType) → Pix Nat m.ch → Fin 3 → Nat
  | .luma, p, _ => p 0
  | .lumaA, p, _ => p 0
  | .rgb, p, i => p i
  | .rgba, p, i => p (i.castLE (by decide))

/-- The alpha of a pixel, if its type has one. -/
def alphaOf : (m : PixelType) → Pix Nat m.ch → Option Nat
  | .luma, _ => none
  | .lumaA, p => some (p 1)
  | .rgb, _ => none
  | .rgba, p => some (p 3)

/-- Change of sample depth: the identity, multiplication by 257, or rounding of `v / 257`. -/
def rescale (S T : Prim) (v : Nat) : Nat :=
  match S, T with
  | .u8, .u16 => v * 257
  | .u16, .u8 => (2 * v + 257) / (2 * 257)
  | _, _ => v

/-- The pairs of sample types between which the library converts integers. -/
def Convertible (S T : Prim) : Prop := S = T ∨ (S = .u8 ∧ T = .u16) ∨ (S = .u16 ∧ T = .u8)

/-- Luminance of a pixel with the sRGB weights, rounded down. -/
def lumaOf (m : PixelType) (p : Pix Nat m.ch) : Nat :=
  if m.isColor then (2126 * rgbOf m p 0 + 7152 * rgbOf m p 1 + 722 * rgbOf m p 2) / 10000 else rgbOf m p 0

end Verif
