import Verif.Model.PnmDecoder
import Verif.Model.Utils

/-!
# Radiance HDR (src/codecs/hdr)

The reader is the list of the remaining bytes, the writer never fails. Strings are lists of bytes (UTF-8). Functions of the
standard library whose exact behaviour is not modelled are parameters (`Text`, `lg`).
-/

namespace Verif
namespace Hdr

/-- `Rgbe8Pixel` (src/codecs/hdr/decoder.rs:131-136) -/
structure Rgbe where
  r : UInt8
  g : UInt8
  b : UInt8
  e : UInt8
  deriving DecidableEq

/-- A pixel with three floats (`Rgb<f32>`). -/
structure RgbF where
  r : Fl
  g : Fl
  b : Fl
  deriving DecidableEq

/-- Functions on text of the standard library: `String::from_utf8_lossy`, `str::trim`, `str::split_whitespace`,
`str::parse::<f32>`. -/
structure Text where
  lossy : List UInt8 → List UInt8
  trim : List UInt8 → List UInt8
  words : List UInt8 → List (List UInt8)
  parseF32 : List UInt8 → Option Fl

/-- `str::split_whitespace` of an ASCII string (std); `cur` is the word that is being read. -/
def asciiWordsLoop : List UInt8 → List UInt8 → List (List UInt8)
  | cur, [] => if cur = [] then [] else [cur]
  | cur, b :: s =>
    if Pnm.isSpace b then (if cur = [] then asciiWordsLoop [] s else cur :: asciiWordsLoop [] s)
    else asciiWordsLoop (cur ++ [b]) s

/-- `str::split_whitespace` of an ASCII string, see `asciiWordsLoop`. -/
def asciiWords (s : List UInt8) : List (List UInt8) := asciiWordsLoop [] s

/-- What is known of the text functions: their effect on ASCII text. -/
structure Text.Ascii (T : Text) : Prop where
  lossy : ∀ s, (∀ b ∈ s, b.toNat < 128) → T.lossy s = s
  trim : ∀ s, (∀ b ∈ s, b.toNat < 128) → T.trim s = Pnm.trim s
  words : ∀ s, (∀ b ∈ s, b.toNat < 128) → T.words s = asciiWords s

/-! ## Decoder -/

/-- `SIGNATURE`, `"#?RADIANCE"` (src/codecs/hdr/decoder.rs:116-116) -/
def signature : List UInt8 := [35, 63, 82, 65, 68, 73, 65, 78, 67, 69]

/-- `Rgbe8Pixel::to_hdr` (src/codecs/hdr/decoder.rs:146-158). `f32::exp2` of an integer in the range in question is taken to
be exact. -/
def Rgbe.toHdr (p : Rgbe) : RgbF :=
  if p.e = 0 then ⟨.fin 0, .fin 0, .fin 0⟩
  else
    let exp : Fl := .fin (2 ^ ((p.e.toNat : ℤ) - 136))
    ⟨exp.mul f32 (Fl.ofNat f32 p.r.toNat), exp.mul f32 (Fl.ofNat f32 p.g.toNat), exp.mul f32 (Fl.ofNat f32 p.b.toNat)⟩

/-- `read_line_u8` (src/codecs/hdr/decoder.rs:687-700): the line without its end, or `none` at the end of the file; the
rest. -/
def readLine : List UInt8 → List UInt8 → Option (List UInt8) × List UInt8
  | ret, [] => (if ret = [] then none else some ret, [])
  | ret, b :: s => if b = 10 then (some ret, s) else readLine (ret ++ [b]) s

/-- `split_at_first(s, "=")` (src/codecs/hdr/decoder.rs:676-682). -/
def splitAtFirst (s : List UInt8) : Option (List UInt8 × List UInt8) :=
  match s.findIdx? (· == 61) with
  | none => none
  | some 0 => none
  | some p => if p ≥ s.length - 1 then none else some (s.take p, s.drop (p + 1))

/-- `HdrMetadata` (src/codecs/hdr/decoder.rs:465-491) without the dimensions and the orientation, which never changes. -/
structure Meta where
  exposure : Option Fl
  colorCorrection : Option RgbF
  pixelAspect : Option Fl
  custom : List (List UInt8 × List UInt8)
  deriving DecidableEq

/-- `HdrMetadata::new` (src/codecs/hdr/decoder.rs:494-504) -/
def Meta.new : Meta := ⟨none, none, none, []⟩

/-- `"FORMAT"` -/
def kwFormat : List UInt8 := [70, 79, 82, 77, 65, 84]
/-- `"32-bit_rle_rgbe"` -/
def kwRgbe : List UInt8 := [51, 50, 45, 98, 105, 116, 95, 114, 108, 101, 95, 114, 103, 98, 101]
/-- `"EXPOSURE"` -/
def kwExposure : List UInt8 := [69, 88, 80, 79, 83, 85, 82, 69]
/-- `"PIXASPECT"` -/
def kwPixaspect : List UInt8 := [80, 73, 88, 65, 83, 80, 69, 67, 84]
/-- `"COLORCORR"` -/
def kwColorcorr : List UInt8 := [67, 79, 76, 79, 82, 67, 79, 82, 82]

/-- `parse_space_separated_f32` with three values (src/codecs/hdr/decoder.rs:599-613): the values and whether there are
more; `none` for an error (which is a `Decoding` error). -/
def parseThree (T : Text) (line : List UInt8) : Option (RgbF × Bool) :=
  match T.words line with
  | a :: b :: c :: rest =>
    (T.parseF32 a).bind fun a => (T.parseF32 b).bind fun b => (T.parseF32 c).map fun c => (⟨a, b, c⟩, !rest.isEmpty)
  | _ => none

/-- `update_header_info` (src/codecs/hdr/decoder.rs:508-596). -/
def updateHeaderInfo (T : Text) (m : Meta) (line : List UInt8) (strict : Bool) : R Meta :=
  match splitAtFirst line with
  | none => .ok { m with custom := m.custom ++ [([], line)] }
  | some (key, val) =>
    let key := T.trim key
    let m := { m with custom := m.custom ++ [(key, val)] }
    if key = kwFormat then
      if T.trim val ≠ kwRgbe then errR .unsupported else .ok m
    else if key = kwExposure then
      match T.parseF32 (T.trim val) with
      | some v => .ok { m with exposure := some ((m.exposure.getD (.fin 1)).mul f32 v) }
      | none => if strict then errR .decoding else .ok m
    else if key = kwPixaspect then
      match T.parseF32 (T.trim val) with
      | some v => .ok { m with pixelAspect := some ((m.pixelAspect.getD (.fin 1)).mul f32 v) }
      | none => if strict then errR .decoding else .ok m
    else if key = kwColorcorr then
      match parseThree T val with
      | some (c, extra) =>
        if strict && extra then errR .decoding
        else
          let o := m.colorCorrection.getD ⟨.fin 1, .fin 1, .fin 1⟩
          .ok { m with colorCorrection := some ⟨o.r.mul f32 c.r, o.g.mul f32 c.g, o.b.mul f32 c.b⟩ }
      | none => if strict then errR .decoding else .ok m
    else .ok m

/-- The loop over the header lines (src/codecs/hdr/decoder.rs:200-220). Every line read takes at least a byte, so that
`fuel = s.length + 1` is enough. -/
def headerLoop (T : Text) (strict : Bool) : Nat → Meta → List UInt8 → R (Meta × List UInt8)
  | 0, _, _ => panicR
  | fuel + 1, m, s =>
    match readLine [] s with
    | (none, _) => errR .decoding
    | (some [], s) => .ok (m, s)
    | (some (b :: line), s) =>
      if b = 35 then headerLoop T strict fuel m s
      else do
        let m ← updateHeaderInfo T m (T.lossy (b :: line)) strict
        headerLoop T strict fuel m s

/-- `parse_dimensions_line` (src/codecs/hdr/decoder.rs:617-662): width and height. -/
def parseDimensionsLine (T : Text) (line : List UInt8) (strict : Bool) : R (Nat × Nat) :=
  match T.words line with
  | t1 :: c1 :: t2 :: c2 :: rest =>
    if strict && !rest.isEmpty then errR .decoding
    else if t1 = [45, 89] ∧ t2 = [43, 88] then
      match Pnm.parseU32 c1 with
      | none => errR .decoding
      | some height =>
        match Pnm.parseU32 c2 with
        | none => errR .decoding
        | some width => .ok (width, height)
    else errR .unsupported
  | _ => errR .decoding

/-- `HdrDecoder` (src/codecs/hdr/decoder.rs:121-126) -/
structure Decoder where
  r : List UInt8
  width : Nat
  height : Nat
  info : Meta

/-- The signature line in strict mode (src/codecs/hdr/decoder.rs:187-194): the rest behind it. -/
def readSignature (strict : Bool) (s : List UInt8) : R (List UInt8) :=
  if strict then do
    let (sig, s) ← readExact 10 s
    if sig ≠ signature then errR .decoding else .ok (readLine [] s).2
  else .ok s

/-- `HdrDecoder::with_strictness` (src/codecs/hdr/decoder.rs:181-258) -/
def Decoder.new (T : Text) (strict : Bool) (s : List UInt8) : R Decoder := do
  let s ← readSignature strict s
  let (m, s) ← headerLoop T strict (s.length + 1) Meta.new s
  match readLine [] s with
  | (none, _) => errR .decoding
  | (some line, s) => do
    let (width, height) ← parseDimensionsLine T (T.lossy line) strict
    if ← checkDimensionOverflow width height 3 then errR .unsupported
    else .ok ⟨s, width, height, m⟩

/-- `read_rgbe` (src/codecs/hdr/decoder.rs:454-461) -/
def readRgbe (s : List UInt8) : R (Rgbe × List UInt8) := do
  let (b, s) ← readExact 4 s
  .ok (⟨b.getD 0 0, b.getD 1 0, b.getD 2 0, b.getD 3 0⟩, s)

/-- The calls of `set_component` for consecutive offsets (src/codecs/hdr/decoder.rs:371-373, 384-386). -/
def setValues (set : Rgbe → UInt8 → Rgbe) : Nat → List UInt8 → List Rgbe → R (List Rgbe)
  | _, [], buf => .ok buf
  | pos, v :: vs, buf => do
    let p ← unwrapR buf[pos]?
    setValues set (pos + 1) vs (buf.set pos (set p v))

/-- The loop of `decode_component` (src/codecs/hdr/decoder.rs:360-391); every iteration reads a byte. -/
def componentLoop (set : Rgbe → UInt8 → Rgbe) (width : Nat) :
    Nat → Nat → List Rgbe → List UInt8 → R (List Rgbe × List UInt8)
  | 0, _, _, _ => panicR
  | fuel + 1, pos, buf, s =>
    if pos < width then do
      let (rl, s) ← readU8 s
      if rl ≤ 128 then
        if pos + rl > width then errR .decoding
        else do
          let (vals, s) ← readExact rl s
          let buf ← setValues set pos vals buf
          componentLoop set width fuel (pos + rl) buf s
      else
        if pos + (rl - 128) > width then errR .decoding
        else do
          let (v, s) ← readU8 s
          let buf ← setValues set pos (List.replicate (rl - 128) (UInt8.ofNat v)) buf
          componentLoop set width fuel (pos + (rl - 128)) buf s
    else if pos ≠ width then errR .decoding
    else .ok (buf, s)

/-- `decode_component` (src/codecs/hdr/decoder.rs:353-395) -/
def decodeComponent (set : Rgbe → UInt8 → Rgbe) (width : Nat) (buf : List Rgbe) (s : List UInt8) :
    R (List Rgbe × List UInt8) := componentLoop set width (s.length + 1) 0 buf s

/-- `rl_marker` (src/codecs/hdr/decoder.rs:406-412) -/
def rlMarker (p : Rgbe) : Option Nat := if p.r = 1 ∧ p.g = 1 ∧ p.b = 1 then some p.e.toNat else none

/-- The loop of `decode_old_rle` (src/codecs/hdr/decoder.rs:420-447): offset, multiplier, previous pixel, buffer; every
iteration reads four bytes. -/
def oldRleLoop (width : Nat) : Nat → Nat → Nat → Rgbe → List Rgbe → List UInt8 → R (List Rgbe × List UInt8)
  | 0, _, _, _, _, _ => panicR
  | fuel + 1, xOff, rlMult, prev, buf, s =>
    if xOff < width then do
      let (pix, s) ← readRgbe s
      match rlMarker pix with
      | some rl => do
        let rl ← mulC 64 rl rlMult
        let rlMult ← mulC 64 rlMult 256
        let e ← addC 64 xOff rl
        if e ≤ width then oldRleLoop width fuel e rlMult prev (overwrite buf xOff (List.replicate rl prev)) s
        else errR .decoding
      | none => do
        assertR (decide (xOff < buf.length))
        oldRleLoop width fuel (xOff + 1) 1 pix (buf.set xOff pix) s
    else if xOff ≠ width then errR .decoding
    else .ok (buf, s)

/-- `decode_old_rle` (src/codecs/hdr/decoder.rs:400-452) -/
def decodeOldRle (fb : Rgbe) (buf : List Rgbe) (s : List UInt8) : R (List Rgbe × List UInt8) := do
  assertR (!buf.isEmpty)
  if (rlMarker fb).isSome then errR .decoding
  else oldRleLoop buf.length (s.length + 1) 1 1 fb (buf.set 0 fb) s

/-- `read_scanline` (src/codecs/hdr/decoder.rs:324-342): the new contents of the buffer and the rest. -/
def readScanline (buf : List Rgbe) (s : List UInt8) : R (List Rgbe × List UInt8) := do
  assertR (!buf.isEmpty)
  let (fb, s) ← readRgbe s
  if fb.r = 2 ∧ fb.g = 2 ∧ fb.b < 128 then do
    let (buf, s) ← decodeComponent (fun p v => { p with r := v }) buf.length buf s
    let (buf, s) ← decodeComponent (fun p v => { p with g := v }) buf.length buf s
    let (buf, s) ← decodeComponent (fun p v => { p with b := v }) buf.length buf s
    decodeComponent (fun p v => { p with e := v }) buf.length buf s
  else decodeOldRle fb buf s

/-- `read_image_transform` (src/codecs/hdr/decoder.rs:266-293) into a slice of `width * height` elements: the values stored,
in row-major order. The buffer for a scanline is used again for the next. -/
def Decoder.readTransform {α : Type} (d : Decoder) (f : Rgbe → α) : R (List α) :=
  if d.width = 0 ∨ d.height = 0 then .ok []
  else do
    let (out, _, _) ← forRange d.height (fun _ (st : List α × List Rgbe × List UInt8) => do
      let (buf, s) ← readScanline st.2.1 st.2.2
      .ok (st.1 ++ buf.map f, buf, s)) ([], List.replicate d.width ⟨0, 0, 0, 0⟩, d.r)
    .ok out

/-- Decoding a file: `with_strictness`, then `read_image` (src/codecs/hdr/decoder.rs:305-316): dimensions and pixels. The
pixels are floats; `read_image` copies their bytes to the output buffer. -/
def decode (T : Text) (strict : Bool) (file : List UInt8) : R (Nat × Nat × List RgbF) := do
  let d ← Decoder.new T strict file
  let px ← d.readTransform Rgbe.toHdr
  .ok (d.width, d.height, px)

/-! ## Encoder -/

/-- `enum RunOrNot` (src/codecs/hdr/encoder.rs:122-125) -/
inductive RunOrNot
  | run (c : UInt8) (len : Nat)
  | norun (idx len : Nat)
  deriving DecidableEq

/-- `RunIterator::next` (src/codecs/hdr/encoder.rs:146-164): the item and the new `curidx`. Indexing beyond the end would
panic; `curidx` never exceeds the length. -/
def runNext (data : List UInt8) (cur : Nat) : R (Option RunOrNot × Nat) :=
  if cur = data.length then .ok (none, cur)
  else do
    let cv ← unwrapR data[cur]?
    let crun := (((data.drop cur).takeWhile (· == cv)).take 127).length
    .ok (some (if crun > 2 then .run cv crun else .norun cur crun), cur + crun)

/-- The loop of `NorunCombineIterator::next` (src/codecs/hdr/encoder.rs:185-244): the item and the new state (`curidx`,
`prev`). Only a combination of two short runs continues the loop; the fuel `data.length + 2` is enough. -/
def combineLoop (data : List UInt8) : Nat → Nat → Option RunOrNot → R (Option RunOrNot × Nat × Option RunOrNot)
  | 0, _, _ => panicR
  | _ + 1, cur, some (.run c len) => .ok (some (.run c len), cur, none)
  | fuel + 1, cur, some (.norun idx len) => do
    let (next, cur) ← runNext data cur
    match next with
    | some (.norun _ len1) =>
      let clen := len + len1
      if clen = 128 then .ok (some (.norun idx clen), cur, none)
      else if clen > 128 then .ok (some (.norun idx 128), cur, some (.norun (idx + 128) (clen - 128)))
      else combineLoop data fuel cur (some (.norun idx (len + len1)))
    | some (.run c len1) => .ok (some (.norun idx len), cur, some (.run c len1))
    | none => .ok (some (.norun idx len), cur, none)
  | fuel + 1, cur, none => do
    let (next, cur) ← runNext data cur
    match next with
    | some (.norun idx len) => combineLoop data fuel cur (some (.norun idx len))
    | some (.run c len) => .ok (some (.run c len), cur, none)
    | none => .ok (none, cur, none)

/-- One item of the loop of `rle_compress` (src/codecs/hdr/encoder.rs:258-269): the bytes pushed. -/
def rleItem (data : List UInt8) : RunOrNot → R (List UInt8)
  | .run c len => do
    assertR (decide (len ≤ 127))
    let h ← addC 8 128 (len % 256)
    .ok [UInt8.ofNat h, c]
  | .norun idx len => do
    assertR (decide (len ≤ 128))
    let d ← sliceR data idx (idx + len)
    .ok (UInt8.ofNat len :: d)

/-- The loop of `rle_compress` (src/codecs/hdr/encoder.rs:257-270). -/
def compressLoop (data : List UInt8) : Nat → Nat → Option RunOrNot → List UInt8 → R (List UInt8)
  | 0, _, _, _ => panicR
  | fuel + 1, cur, prev, rle => do
    let (item, cur, prev) ← combineLoop data (data.length + 2) cur prev
    match item with
    | none => .ok rle
    | some item => do
      let b ← rleItem data item
      compressLoop data fuel cur prev (rle ++ b)

/-- `rle_compress` (src/codecs/hdr/encoder.rs:248-271): the contents of `rle` (which is cleared first). -/
def rleCompress (data : List UInt8) : R (List UInt8) :=
  if data = [] then .ok [0] else compressLoop data (data.length + 2) 0 none []

/-- `write_rgbe8` (src/codecs/hdr/encoder.rs:273-275) -/
def Rgbe.bytes (p : Rgbe) : List UInt8 := [p.r, p.g, p.b, p.e]

/-- What is written before the pixels (src/codecs/hdr/encoder.rs:67-71): the signature, a comment, the format and the
dimensions. -/
def headerBytes (width height : Nat) : List UInt8 :=
  signature ++ [10] ++
  [35, 32, 82, 117, 115, 116, 32, 72, 68, 82, 32, 101, 110, 99, 111, 100, 101, 114, 10] ++
  kwFormat ++ [61] ++ kwRgbe ++ [10, 10] ++
  [45, 89, 32] ++ Pnm.dec height ++ [32, 43, 88, 32] ++ Pnm.dec width ++ [10]

/-- A scanline in the new encoding (src/codecs/hdr/encoder.rs:77, 102-114): marker and the four components. -/
def encodeScanline (width : Nat) (row : List Rgbe) : R (List UInt8) := do
  let r ← rleCompress (row.map (·.r))
  let g ← rleCompress (row.map (·.g))
  let b ← rleCompress (row.map (·.b))
  let e ← rleCompress (row.map (·.e))
  .ok ([2, 2, UInt8.ofNat (width / 256), UInt8.ofNat (width % 256)] ++ r ++ g ++ b ++ e)

/-- `encode_pixels` (src/codecs/hdr/encoder.rs:55-118): the file. -/
def encodePixels (pixels : List Rgbe) (width height : Nat) : R (List UInt8) := do
  let n ← mulC 64 width height
  assertR (decide (n ≤ pixels.length))
  if ¬(8 ≤ width ∧ width ≤ 32768) then .ok (headerBytes width height ++ pixels.flatMap Rgbe.bytes)
  else do
    let (out, _) ← forRange height (fun _ (st : List UInt8 × List Rgbe) => do
      assertR (decide (width ≤ st.2.length))
      let b ← encodeScanline width (st.2.take width)
      .ok (st.1 ++ b, st.2.drop width)) ([], pixels)
    .ok (headerBytes width height ++ out)

/-- `a <= b` of floats. -/
def Fl.le (a b : Fl) : Bool := a.lt b || decide (a = b ∧ a ≠ .nan)

/-- `f32::powi(2.0, exp)`: repeated multiplication, and the reciprocal for negative exponents (the compiler's runtime
library; the results are exact where they are finite). -/
def powi2 (exp : ℤ) : Fl :=
  if 0 ≤ exp then f32.ofRat (2 ^ exp) else Fl.div f32 (.fin 1) (f32.ofRat (2 ^ (-exp)))

/-- `mx.log2().floor() as i32` (src/codecs/hdr/encoder.rs:286). `lg q` stands for the floor of the platform's `log2` of a
finite positive `q`. Infinity saturates, NaN gives 0. -/
def log2Floor (lg : ℚ → ℤ) : Fl → ℤ
  | .nan => 0
  | .inf _ => 2 ^ 31 - 1
  | .fin q => lg q

/-- One component of `to_rgbe8` (src/codecs/hdr/encoder.rs:290). -/
def convComponent (mul sv : Fl) : UInt8 := UInt8.ofNat (((sv.div f32 mul).mul f32 (.fin 256)).toUSat 8)

/-- `to_rgbe8` (src/codecs/hdr/encoder.rs:278-296). `exp` is an `i32`: `+ 1` is checked, `as u8` truncates. -/
def toRgbe8 (lg : ℚ → ℤ) (p : RgbF) : R Rgbe :=
  let mx := Fl.fmax p.r (Fl.fmax p.g p.b)
  if Fl.le mx (.fin 0) then .ok ⟨0, 0, 0, 0⟩
  else
    let exp := log2Floor lg mx + 1
    if exp < 2 ^ 31 then
      let mul := powi2 exp
      .ok ⟨convComponent mul p.r, convComponent mul p.g, convComponent mul p.b, UInt8.ofNat ((exp + 128) % 256).toNat⟩
    else panicR

/-- `HdrEncoder::encode` (src/codecs/hdr/encoder.rs:48-50): the file. The pixels are converted while the file is written; as the writer cannot fail it makes no difference that
the model converts them first, except that a panic of the conversion comes before one of the assertion on the number of
pixels. -/
def encode (lg : ℚ → ℤ) (pixels : List RgbF) (width height : Nat) : R (List UInt8) := do
  let px ← pixels.mapM (toRgbe8 lg)
  encodePixels px width height

/-- `write_image` (src/codecs/hdr/encoder.rs:14-37); `read` stands for `bytemuck::pod_read_unaligned`, which makes three floats of
twelve bytes. -/
def writeImage (lg : ℚ → ℤ) (read : List UInt8 → RgbF) (buf : List UInt8) (width height : Nat) (color : ExtendedColorType) : R (List UInt8) :=
  match color with
  | .Rgb32F => encode lg ((chunksExact (color.bitsPerPixel / 8) buf).map read) width height
  | _ => errR .encoding

end Hdr
end Verif
