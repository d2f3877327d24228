import Verif.Model.PnmHeader
import Verif.Model.FloatOps
import Verif.Model.LoadRect
import Verif.Model.Farbfeld

/-!
# PNM decoder (src/codecs/pnm/decoder.rs)

A reader is the list of the remaining bytes; it never fails other than by ending. `le` tells whether the target is
little-endian. All variants of the decoder's own error type are `Err.decoding`.
-/

namespace Verif
namespace Pnm

/-- `b'\t' | b'\n' | b'\x0b' | b'\x0c' | b'\r' | b' '` (src/codecs/pnm/decoder.rs:387, 690, 777), which are also the
ASCII characters for which `char::is_whitespace` holds. -/
def isSpace (b : UInt8) : Bool := b = 9 || b = 10 || b = 11 || b = 12 || b = 13 || b = 32

/-- `read_next_string` (src/codecs/pnm/decoder.rs:369-416): `partof` is the state of the comment scanner, `bytes` the
string so far. -/
def nextStringLoop : List UInt8 → Bool → List UInt8 → R (List UInt8 × List UInt8)
  | [], _, bytes => if bytes = [] then errR .io else .ok (bytes, [])
  | b :: s, partof, bytes =>
    let cur := partof && b != 35
    let next := cur || (b == 13 || b == 10)
    if cur then
      if isSpace b then (if bytes ≠ [] then .ok (bytes, s) else nextStringLoop s next bytes)
      else if b.toNat ≥ 128 then errR .decoding
      else nextStringLoop s next (bytes ++ [b])
    else nextStringLoop s next bytes

/-- `read_next_string` (src/codecs/pnm/decoder.rs:369-416): the string and the rest. -/
def nextString (s : List UInt8) : R (List UInt8 × List UInt8) := nextStringLoop s true []

/-- The digits of `str::parse::<u32>` (std), checked. -/
def parseDigits : Nat → List UInt8 → Option Nat
  | acc, [] => some acc
  | acc, b :: s =>
    if 48 ≤ b.toNat ∧ b.toNat ≤ 57 then
      ((checkedMul 32 acc 10).bind fun a => checkedAdd 32 a (b.toNat - 48)).bind fun a => parseDigits a s
    else none

/-- `str::parse::<u32>` (std): an optional `+` and at least one digit. -/
def parseU32 : List UInt8 → Option Nat
  | [] => none
  | [b] => if b = 43 ∨ b = 45 then none else parseDigits 0 [b]
  | b :: s => if b = 43 then parseDigits 0 s else parseDigits 0 (b :: s)

/-- `read_next_u32` (src/codecs/pnm/decoder.rs:432-436) -/
def nextU32 (s : List UInt8) : R (Nat × List UInt8) := do
  let (t, s) ← nextString s
  match parseU32 t with
  | some v => .ok (v, s)
  | none => errR .decoding

/-- Well-formed UTF-8 (`String::from_utf8`, std). -/
def utf8Valid : List UInt8 → Bool
  | [] => true
  | a :: s =>
    if a < 0x80 then utf8Valid s
    else match s with
      | [] => false
      | b :: s =>
        if 0xC2 ≤ a ∧ a ≤ 0xDF then decide (0x80 ≤ b ∧ b ≤ 0xBF) && utf8Valid s
        else match s with
          | [] => false
          | c :: s =>
            if 0xE0 ≤ a ∧ a ≤ 0xEF then
              decide ((if a = 0xE0 then 0xA0 else 0x80) ≤ b ∧ b ≤ (if a = 0xED then 0x9F else 0xBF)) &&
                decide (0x80 ≤ c ∧ c ≤ 0xBF) && utf8Valid s
            else match s with
              | [] => false
              | d :: s =>
                decide (0xF0 ≤ a ∧ a ≤ 0xF4) &&
                  decide ((if a = 0xF0 then 0x90 else 0x80) ≤ b ∧ b ≤ (if a = 0xF4 then 0x8F else 0xBF)) &&
                  decide (0x80 ≤ c ∧ c ≤ 0xBF) && decide (0x80 ≤ d ∧ d ≤ 0xBF) && utf8Valid s

/-- The loop of `read_next_line` (src/codecs/pnm/decoder.rs:419-426): up to a newline, which is consumed, or the end. -/
def lineLoop : List UInt8 → List UInt8 → List UInt8 × List UInt8
  | [], buffer => (buffer, [])
  | b :: s, buffer => if b = 10 then (buffer, s) else lineLoop s (buffer ++ [b])

/-- `read_next_line` (src/codecs/pnm/decoder.rs:418-430) -/
def nextLine (s : List UInt8) : R (List UInt8 × List UInt8) :=
  let (line, s) := lineLoop s []
  if utf8Valid line then .ok (line, s) else errR .decoding

/-- `str::trim` of an ASCII string (std) -/
def trim (s : List UInt8) : List UInt8 := ((s.dropWhile isSpace).reverse.dropWhile isSpace).reverse

/-- The values collected by `read_arbitrary_header` (src/codecs/pnm/decoder.rs:501-506). -/
structure PamState where
  height : Option Nat := none
  width : Option Nat := none
  depth : Option Nat := none
  maxval : Option Nat := none
  tupltype : Option (List UInt8) := none
  deriving DecidableEq

/-- `parse_single_value_line` (src/codecs/pnm/decoder.rs:477-491): the new value. -/
def parseSingleValueLine (lineVal : Option Nat) (rest : List UInt8) : R (Option Nat) :=
  match lineVal with
  | some _ => errR .decoding
  | none => match parseU32 (trim rest) with
    | some v => .ok (some v)
    | none => errR .decoding

/-- The `match identifier` of `read_arbitrary_header` (src/codecs/pnm/decoder.rs:521-543): the new state, or `none` at
`ENDHDR`. -/
def pamDispatch (identifier rest : List UInt8) (st : PamState) : R (Option PamState) :=
  if identifier = kwEndhdr then .ok none
  else if identifier = kwHeight then do
    let v ← parseSingleValueLine st.height rest
    .ok (some { st with height := v })
  else if identifier = kwWidth then do
    let v ← parseSingleValueLine st.width rest
    .ok (some { st with width := v })
  else if identifier = kwDepth then do
    let v ← parseSingleValueLine st.depth rest
    .ok (some { st with depth := v })
  else if identifier = kwMaxval then do
    let v ← parseSingleValueLine st.maxval rest
    .ok (some { st with maxval := v })
  else if identifier = kwTupltype then
    match st.tupltype with
    | some v => .ok (some { st with tupltype := some (v ++ [32] ++ trim rest) })
    | none => .ok (some { st with tupltype := some (trim rest) })
  else errR .decoding

/-- The body of the loop of `read_arbitrary_header` for an ASCII line that is not a comment
(src/codecs/pnm/decoder.rs:517-543). `str::split_at` panics out of range. -/
def pamLine (line : List UInt8) (st : PamState) : R (Option PamState) := do
  let trimmed := line.dropWhile isSpace
  let at_ := (line.findIdx? isSpace).getD line.length
  assertR (decide (at_ ≤ trimmed.length))
  pamDispatch (trimmed.take at_) (trimmed.drop at_) st

/-- The loop of `read_arbitrary_header` (src/codecs/pnm/decoder.rs:507-544): the state and the rest. Every line that
does not end the loop consumes input, so that `fuel = s.length + 1` is enough. -/
def pamLoop : Nat → List UInt8 → PamState → R (PamState × List UInt8)
  | 0, _, _ => panicR
  | fuel + 1, s, st => do
    let (line, s) ← nextLine s
    match line with
    | [] => errR .decoding
    | b :: _ =>
      if b = 35 then pamLoop fuel s st
      else if line.any fun b => decide (b.toNat ≥ 128) then errR .decoding
      else do
        match ← pamLine line st with
        | none => .ok (st, s)
        | some st => pamLoop fuel s st

/-- The recognition of the tuple type (src/codecs/pnm/decoder.rs:556-566) -/
def tuplOfName (t : List UInt8) : TuplType :=
  if t = kwBW then .blackAndWhite
  else if t = kwBWA then .blackAndWhiteAlpha
  else if t = kwGray then .grayscale
  else if t = kwGrayA then .grayscaleAlpha
  else if t = kwRgb then .rgb
  else if t = kwRgbA then .rgbAlpha
  else .custom t

/-- `read_arbitrary_header` (src/codecs/pnm/decoder.rs:476-575) -/
def readArbitraryHeader (s : List UInt8) : R (Header × List UInt8) :=
  match s with
  | [] => errR .io
  | b :: s =>
    if b ≠ 10 then errR .decoding
    else do
      let (st, s) ← pamLoop (s.length + 1) s {}
      match st.height, st.width, st.depth, st.maxval with
      | some h, some w, some d, some m => .ok (.arbitrary h w d m (st.tupltype.map tuplOfName), s)
      | _, _, _, _ => errR .decoding

/-- `read_bitmap_header` (src/codecs/pnm/decoder.rs:438-446) -/
def readBitmapHeader (e : Enc) (s : List UInt8) : R (Header × List UInt8) := do
  let (width, s) ← nextU32 s
  let (height, s) ← nextU32 s
  .ok (.bitmap e height width, s)

/-- `read_pixmap_header` and `read_graymap_header` (src/codecs/pnm/decoder.rs:448-474); `mk` is the kind of header. -/
def readPixmapHeader (mk : Enc → Nat → Nat → Nat → Header) (e : Enc) (s : List UInt8) : R (Header × List UInt8) := do
  let (width, s) ← nextU32 s
  let (height, s) ← nextU32 s
  let (maxval, s) ← nextU32 s
  .ok (mk e height width maxval, s)

/-- `TupleType` (src/codecs/pnm/decoder.rs:221-228) -/
inductive TupleType
  | pbmBit | bwBit | grayU8 | grayU16 | rgbU8 | rgbU16
  deriving DecidableEq

/-- `tuple_type` of the headers (src/codecs/pnm/decoder.rs:807-919) -/
def Header.tupleType : Header → R TupleType
  | .bitmap .. => .ok .pbmBit
  | .graymap _ _ _ m =>
    if m = 0 then errR .decoding else if m ≤ 0xff then .ok .grayU8 else if m ≤ 0xffff then .ok .grayU16 else errR .decoding
  | .pixmap _ _ _ m =>
    if m = 0 then errR .decoding else if m ≤ 0xff then .ok .rgbU8 else if m ≤ 0xffff then .ok .rgbU16 else errR .decoding
  | .arbitrary _ _ depth maxval t =>
    if maxval = 0 then errR .decoding
    else match t with
      | none =>
        if depth = 1 then .ok .grayU8 else if depth = 2 then errR .unsupported
        else if depth = 3 then .ok .rgbU8 else if depth = 4 then errR .unsupported else errR .decoding
      | some .blackAndWhite => if maxval = 1 ∧ depth = 1 then .ok .bwBit else errR .decoding
      | some .grayscale =>
        if depth = 1 ∧ maxval ≤ 0xff then .ok .grayU8 else if depth ≤ 1 ∧ maxval ≤ 0xffff then .ok .grayU16
        else errR .decoding
      | some .rgb =>
        if depth = 3 ∧ maxval ≤ 0xff then .ok .rgbU8 else if depth = 3 ∧ maxval ≤ 0xffff then .ok .rgbU16
        else errR .decoding
      | some .blackAndWhiteAlpha | some .grayscaleAlpha | some .rgbAlpha | some (.custom _) => errR .unsupported

/-- `color_type` (src/codecs/pnm/decoder.rs:585-594) -/
def TupleType.colorType : TupleType → ColorType
  | pbmBit | bwBit | grayU8 => .L8
  | grayU16 => .L16
  | rgbU8 => .Rgb8
  | rgbU16 => .Rgb16

/-- `struct PnmDecoder` (src/codecs/pnm/decoder.rs:254-258) -/
structure Decoder where
  reader : List UInt8
  header : Header
  tuple : TupleType

/-- The header reader chosen by the magic (src/codecs/pnm/decoder.rs:263-281) -/
def readHeader (s : List UInt8) : R (Header × List UInt8) := do
  let (magic, s) ← readExact 2 s
  if magic = (Subtype.bitmap .ascii).magic then readBitmapHeader .ascii s
  else if magic = (Subtype.graymap .ascii).magic then readPixmapHeader .graymap .ascii s
  else if magic = (Subtype.pixmap .ascii).magic then readPixmapHeader .pixmap .ascii s
  else if magic = (Subtype.bitmap .binary).magic then readBitmapHeader .binary s
  else if magic = (Subtype.graymap .binary).magic then readPixmapHeader .graymap .binary s
  else if magic = (Subtype.pixmap .binary).magic then readPixmapHeader .pixmap .binary s
  else if magic = Subtype.arbitraryMap.magic then readArbitraryHeader s
  else errR .decoding

/-- `PnmDecoder::new` (src/codecs/pnm/decoder.rs:262-301) -/
def Decoder.new (s : List UInt8) : R Decoder := do
  let (header, s) ← readHeader s
  let tuple ← header.tupleType
  if ← checkDimensionOverflow header.width header.height tuple.colorType.bytesPerPixel then errR .unsupported
  else .ok ⟨s, header, tuple⟩

/-- The sample kinds `U8`, `U16`, `PbmBit`, `BWBit` (src/codecs/pnm/decoder.rs:244-247) -/
inductive Sample
  | U8 | U16 | PbmBit | BWBit
  deriving DecidableEq

/-- `sample_size` (src/codecs/pnm/decoder.rs:234-236) -/
def Sample.size : Sample → Nat
  | U16 => 2
  | _ => 1

/-- `bytelen` (src/codecs/pnm/decoder.rs:237-239, 753-757); `u32` products. -/
def Sample.bytelen (S : Sample) (width height samples : Nat) : R Nat :=
  match S with
  | PbmBit => do
    let count ← mulC 32 width samples
    let linelen := count / 8 + if count % 8 ≠ 0 then 1 else 0
    mulC 32 linelen height
  | S => do
    let a ← mulC 32 width height
    let b ← mulC 32 a samples
    mulC 32 b S.size

/-- Two bytes in the native order, given the most significant first (`NativeEndian::write_u16`). -/
def native16 (le : Bool) (be : List UInt8) : List UInt8 := if le then be.reverse else be

/-- `NativeEndian::read_u16` -/
def readNative16 (le : Bool) (b : List UInt8) : Nat := if le then leNat b else beNat b

/-- `from_bytes` (src/codecs/pnm/decoder.rs:713-716, 729-736, 759-766, 794-800) into a buffer of `bufLen` bytes;
`copy_from_slice` panics when the lengths differ. -/
def Sample.fromBytes (le : Bool) (S : Sample) (bytes : List UInt8) (rowSize bufLen : Nat) : R (List UInt8) :=
  match S with
  | U8 => do
    assertR (decide (bytes.length = bufLen))
    .ok bytes
  | U16 => do
    assertR (decide (bytes.length = bufLen))
    .ok ((chunksExact 2 bytes).flatMap (native16 le) ++ bytes.drop (bytes.length / 2 * 2))
  | PbmBit => do
    assertR (decide (rowSize < 2 ^ 32))
    let expanded ← expandBits 1 rowSize bytes
    let expanded := expanded.map fun b => ~~~b
    assertR (decide (expanded.length = bufLen))
    .ok expanded
  | BWBit => do
    assertR (decide (bytes.length = bufLen))
    if bytes.any fun b => decide (b.toNat > 1) then errR .decoding else .ok bytes

/-- The loop of `read_separated_ascii` after the leading separators (src/codecs/pnm/decoder.rs:694-706): the value and
the rest behind the separator. -/
def separatedLoop : Nat → List UInt8 → R (Nat × List UInt8)
  | v, [] => .ok (v, [])
  | v, c :: s =>
    if isSpace c then .ok (v, s)
    else if 48 ≤ c.toNat ∧ c.toNat ≤ 57 then
      match (checkedMul 16 v 10).bind fun v => checkedAdd 16 v (c.toNat - 48) with
      | none => errR .decoding
      | some v => separatedLoop v s
    else errR .decoding

/-- `read_separated_ascii::<T>` (src/codecs/pnm/decoder.rs:689-708) where `max` is the greatest `T`. -/
def readSeparatedAscii (max : Nat) (s : List UInt8) : R (Nat × List UInt8) := do
  let (v, s) ← separatedLoop 0 (s.dropWhile isSpace)
  if v ≤ max then .ok (v, s) else errR .decoding

/-- One sample of `PbmBit::from_ascii` (src/codecs/pnm/decoder.rs:772-783) -/
def readPbmAscii : List UInt8 → R (UInt8 × List UInt8)
  | [] => errR .decoding
  | c :: s =>
    if isSpace c then readPbmAscii s
    else if c = 48 then .ok (255, s)
    else if c = 49 then .ok (0, s)
    else errR .decoding

/-- `from_ascii` (src/codecs/pnm/decoder.rs:718-723, 738-744, 768-787, 802-804) into a buffer of `bufLen` bytes: the
contents of the buffer. `BWBit` is `unreachable!`. For `U16` the last byte of a buffer of odd length would be left as
it was (here 0); buffers have even length then. -/
def Sample.fromAscii (le : Bool) (S : Sample) (s : List UInt8) (bufLen : Nat) : R (List UInt8) :=
  match S with
  | U8 => do
    let (out, _) ← forRange bufLen (fun _ (st : List UInt8 × List UInt8) => do
      let (v, s) ← readSeparatedAscii 255 st.2
      .ok (st.1 ++ [UInt8.ofNat v], s)) ([], s)
    .ok out
  | U16 => do
    let (out, _) ← forRange (bufLen / 2) (fun _ (st : List UInt8 × List UInt8) => do
      let (v, s) ← readSeparatedAscii 65535 st.2
      .ok (st.1 ++ native16 le (beBytes 2 v), s)) ([], s)
    .ok (out ++ List.replicate (bufLen % 2) 0)
  | PbmBit => do
    let (out, _) ← forRange bufLen (fun _ (st : List UInt8 × List UInt8) => do
      let (v, s) ← readPbmAscii st.2
      .ok (st.1 ++ [v], s)) ([], s)
    .ok out
  | BWBit => panicR

/-- `(f32::from(v) * factor).round() as uN` with `factor = target as f32 / current as f32`
(src/codecs/pnm/decoder.rs:658-671) -/
def scaleSample (bits current : Nat) (v : Nat) : Nat :=
  let factor := (Fl.ofNat f32 (2 ^ bits - 1)).div f32 (Fl.ofNat f32 current)
  (((Fl.ofNat f32 v).mul f32 factor).round).toUSat bits

/-- The scaling step of `read_samples` (src/codecs/pnm/decoder.rs:654-674) -/
def scaleBuffer (le : Bool) (S : Sample) (current : Nat) (buf : List UInt8) : List UInt8 :=
  if current ≠ 256 ^ S.size - 1 then
    if S.size = 1 then buf.map fun v => UInt8.ofNat (scaleSample 8 current v.toNat)
    else (chunksExact 2 buf).flatMap (fun c => native16 le (beBytes 2 (scaleSample 16 current (readNative16 le c)))) ++
      buf.drop (buf.length / 2 * 2)
  else buf

/-- `read_samples` (src/codecs/pnm/decoder.rs:625-677) into a buffer of `bufLen` bytes -/
def Decoder.readSamples (le : Bool) (d : Decoder) (S : Sample) (components bufLen : Nat) : R (List UInt8) := do
  let buf ← (match d.header.subtype.sampleEncoding with
    | .binary => do
      let bytecount ← S.bytelen d.header.width d.header.height components
      let bytes := d.reader.take bytecount
      if bytes.length ≠ bytecount then errR .decoding
      else match checkedMul 64 d.header.width components with
        | none => errR .decoding
        | some rowSize => S.fromBytes le bytes rowSize bufLen
    | .ascii => S.fromAscii le d.reader bufLen)
  .ok (scaleBuffer le S d.header.maximalSample buf)

/-- The sample kind and number of components of a tuple type (src/codecs/pnm/decoder.rs:609-616) -/
def TupleType.sample : TupleType → Sample × Nat
  | pbmBit => (.PbmBit, 1)
  | bwBit => (.BWBit, 1)
  | rgbU8 => (.U8, 3)
  | rgbU16 => (.U16, 3)
  | grayU8 => (.U8, 1)
  | grayU16 => (.U16, 1)

/-- `read_image` (src/codecs/pnm/decoder.rs:607-617) into a buffer of `bufLen` bytes -/
def Decoder.readImage (le : Bool) (d : Decoder) (bufLen : Nat) : R (List UInt8) := do
  assertR (decide (bufLen = totalBytes d.header.width d.header.height d.tuple.colorType.bytesPerPixel))
  d.readSamples le d.tuple.sample.1 d.tuple.sample.2 bufLen

/-- Decoding a file: `new`, then `read_image` into a buffer of `total_bytes`: dimensions, colour type and bytes. -/
def decode (le : Bool) (file : List UInt8) : R (Nat × Nat × ColorType × List UInt8) := do
  let d ← Decoder.new file
  let buf ← d.readImage le (totalBytes d.header.width d.header.height d.tuple.colorType.bytesPerPixel)
  .ok (d.header.width, d.header.height, d.tuple.colorType, buf)

end Pnm
end Verif
