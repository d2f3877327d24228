import Verif.Base.Bytes
import Verif.Model.Color

/-!
# PNM headers (src/codecs/pnm/header.rs) and decimal numbers

Strings are lists of ASCII codes. `PnmHeader.encoded` is always `None` outside the crate's tests (no constructor sets
it), so a header is its `HeaderRecord`.
-/

namespace Verif
namespace Pnm

/-- `SampleEncoding` (src/codecs/pnm/header.rs:5-11) -/
inductive Enc
  | binary
  | ascii
  deriving DecidableEq

/-- `PnmSubtype` (src/codecs/pnm/header.rs:15-27) -/
inductive Subtype
  | bitmap (e : Enc)
  | graymap (e : Enc)
  | pixmap (e : Enc)
  | arbitraryMap
  deriving DecidableEq

/-- `ArbitraryTuplType` (src/codecs/pnm/header.rs:113-134) -/
inductive TuplType
  | blackAndWhite
  | blackAndWhiteAlpha
  | grayscale
  | grayscaleAlpha
  | rgb
  | rgbAlpha
  | custom (name : List UInt8)
  deriving DecidableEq

/-- `HeaderRecord` with the headers in it (src/codecs/pnm/header.rs:40-111) -/
inductive Header
  | bitmap (e : Enc) (height width : Nat)
  | graymap (e : Enc) (height width maxwhite : Nat)
  | pixmap (e : Enc) (height width maxval : Nat)
  | arbitrary (height width depth maxval : Nat) (tupltype : Option TuplType)
  deriving DecidableEq

/-- `"BLACKANDWHITE"` -/
def kwBW : List UInt8 := [66, 76, 65, 67, 75, 65, 78, 68, 87, 72, 73, 84, 69]
/-- `"BLACKANDWHITE_ALPHA"` -/
def kwBWA : List UInt8 := [66, 76, 65, 67, 75, 65, 78, 68, 87, 72, 73, 84, 69, 95, 65, 76, 80, 72, 65]
/-- `"GRAYSCALE"` -/
def kwGray : List UInt8 := [71, 82, 65, 89, 83, 67, 65, 76, 69]
/-- `"GRAYSCALE_ALPHA"` -/
def kwGrayA : List UInt8 := [71, 82, 65, 89, 83, 67, 65, 76, 69, 95, 65, 76, 80, 72, 65]
/-- `"RGB"` -/
def kwRgb : List UInt8 := [82, 71, 66]
/-- `"RGB_ALPHA"` -/
def kwRgbA : List UInt8 := [82, 71, 66, 95, 65, 76, 80, 72, 65]
/-- `"WIDTH"` -/
def kwWidth : List UInt8 := [87, 73, 68, 84, 72]
/-- `"HEIGHT"` -/
def kwHeight : List UInt8 := [72, 69, 73, 71, 72, 84]
/-- `"DEPTH"` -/
def kwDepth : List UInt8 := [68, 69, 80, 84, 72]
/-- `"MAXVAL"` -/
def kwMaxval : List UInt8 := [77, 65, 88, 86, 65, 76]
/-- `"TUPLTYPE"` -/
def kwTupltype : List UInt8 := [84, 85, 80, 76, 84, 89, 80, 69]
/-- `"ENDHDR"` -/
def kwEndhdr : List UInt8 := [69, 78, 68, 72, 68, 82]

/-- `ArbitraryTuplType::name` (src/codecs/pnm/header.rs:137-147) -/
def TuplType.name : TuplType → List UInt8
  | blackAndWhite => kwBW
  | blackAndWhiteAlpha => kwBWA
  | grayscale => kwGray
  | grayscaleAlpha => kwGrayA
  | rgb => kwRgb
  | rgbAlpha => kwRgbA
  | custom name => name

/-- `magic_constant` (src/codecs/pnm/header.rs:153-163) -/
def Subtype.magic : Subtype → List UInt8
  | bitmap .ascii => [80, 49]
  | graymap .ascii => [80, 50]
  | pixmap .ascii => [80, 51]
  | bitmap .binary => [80, 52]
  | graymap .binary => [80, 53]
  | pixmap .binary => [80, 54]
  | arbitraryMap => [80, 55]

/-- `sample_encoding` (src/codecs/pnm/header.rs:167-174) -/
def Subtype.sampleEncoding : Subtype → Enc
  | arbitraryMap => .binary
  | bitmap e | graymap e | pixmap e => e

namespace Header

/-- `subtype` (src/codecs/pnm/header.rs:180-187) -/
def subtype : Header → Subtype
  | bitmap e _ _ => .bitmap e
  | graymap e _ _ _ => .graymap e
  | pixmap e _ _ _ => .pixmap e
  | arbitrary .. => .arbitraryMap

/-- `width` (src/codecs/pnm/header.rs:191-198) -/
def width : Header → Nat
  | bitmap _ _ w | graymap _ _ w _ | pixmap _ _ w _ | arbitrary _ w _ _ _ => w

/-- `height` (src/codecs/pnm/header.rs:202-209) -/
def height : Header → Nat
  | bitmap _ h _ | graymap _ h _ _ | pixmap _ h _ _ | arbitrary h _ _ _ _ => h

/-- `maximal_sample` (src/codecs/pnm/header.rs:213-220) -/
def maximalSample : Header → Nat
  | bitmap .. => 1
  | graymap _ _ _ m | pixmap _ _ _ m | arbitrary _ _ _ m _ => m

end Header

/-- Decimal digits of `n`, most significant first; `fuel = n + 1` is always enough. -/
def decLoop : Nat → Nat → List UInt8
  | 0, _ => []
  | fuel + 1, n => if n < 10 then [UInt8.ofNat (48 + n)] else decLoop fuel (n / 10) ++ [UInt8.ofNat (48 + n % 10)]

/-- `Display` of an unsigned integer (std). -/
def dec (n : Nat) : List UInt8 := decLoop (n + 1) n

/-- `write` (src/codecs/pnm/header.rs:259-327), with `encoded` absent: the bytes written. -/
def Header.bytes (h : Header) : List UInt8 :=
  h.subtype.magic ++
  match h with
  | .bitmap _ height width => [10] ++ dec width ++ [32] ++ dec height ++ [10]
  | .graymap _ height width m => [10] ++ dec width ++ [32] ++ dec height ++ [32] ++ dec m ++ [10]
  | .pixmap _ height width m => [10] ++ dec width ++ [32] ++ dec height ++ [32] ++ dec m ++ [10]
  | .arbitrary height width depth m t =>
    [10] ++ kwWidth ++ [32] ++ dec width ++ [10] ++ kwHeight ++ [32] ++ dec height ++ [10] ++
      kwDepth ++ [32] ++ dec depth ++ [10] ++ kwMaxval ++ [32] ++ dec m ++ [10] ++
      (match t with
       | some t => kwTupltype ++ [32] ++ t.name ++ [10]
       | none => []) ++ kwEndhdr ++ [10]

end Pnm
end Verif
