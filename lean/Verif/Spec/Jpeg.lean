import Verif.Base.Bytes

/-!
# What a JPEG file means (ITU-T T.81), as far as the entropy-coded data

This file does not refer to the model of the encoder. It describes a decoder for the subset of files with a single
baseline frame, 8-bit samples, no subsampling, no restart intervals and one interleaved scan: `decodeFile` yields the
dimensions, the components with their quantisation tables, the quantised coefficients of all blocks, and the remaining
(application) segments. (The inverse cosine transform is not part of this specification.)
-/

namespace Verif
namespace JpegSpec

/-! ## Bits -/

/-- The `n` low bits of a number, most significant first. -/
def natBits : Nat → Nat → List Bool
  | 0, _ => []
  | n + 1, v => v.testBit n :: natBits n v

/-- The number with the given bits, most significant first. -/
def bitsVal (bits : List Bool) : Nat := bits.foldl (fun a b => 2 * a + b.toNat) 0

/-- The bits of a byte string, most significant bit first (T.81, C.3 and F.1.2.3). -/
def byteBits (bytes : List UInt8) : List Bool := bytes.flatMap fun b => natBits 8 b.toNat

/-- Separate the entropy-coded data from what follows it, removing the zero bytes stuffed after each `FF`; the data end at
an `FF` that is followed by a nonzero byte (a marker; T.81, B.1.1.5). -/
def unstuff : List UInt8 → List UInt8 × List UInt8
  | [] => ([], [])
  | [b] => if b = 0xFF then ([], [b]) else ([b], [])
  | b :: c :: rest =>
    if b = 0xFF then
      if c = 0 then (0xFF :: (unstuff rest).1, (unstuff rest).2) else ([], b :: c :: rest)
    else (b :: (unstuff (c :: rest)).1, (unstuff (c :: rest)).2)

/-! ## Huffman codes -/

/-- A Huffman table: the number of codes of each length 1, 2, ..., and the values in order of increasing code (T.81, B.2.4.2). -/
structure HuffTable where
  counts : List Nat
  vals : List Nat
  deriving DecidableEq

/-- Find the position of the code at the start of the bits: codes of one length are consecutive, and the first code of
each length is twice the number that follows the last code of the previous length (T.81, C.2 and F.2.2.3). -/
def huffGo : List Nat → (code first index : Nat) → List Bool → Option (Nat × List Bool)
  | n :: counts, code, first, index, b :: bits =>
    let code := 2 * code + b.toNat
    let first := 2 * first
    if code < first + n then some (index + (code - first), bits) else huffGo counts code (first + n) (index + n) bits
  | _, _, _, _, _ => none

/-- DECODE (T.81, F.2.2.3). -/
def decodeSym (t : HuffTable) (bits : List Bool) : Option (Nat × List Bool) := do
  let (i, bits) ← huffGo t.counts 0 0 0 bits
  let v ← t.vals[i]?
  some (v, bits)

/-- RECEIVE (T.81, F.2.2.4). -/
def receive (n : Nat) (bits : List Bool) : Option (Nat × List Bool) :=
  if n ≤ bits.length then some (bitsVal (bits.take n), bits.drop n) else none

/-- EXTEND (T.81, F.2.2.1, figure F.12). -/
def extend (v t : Nat) : Int := if 2 * v < 2 ^ t then (v : Int) - 2 ^ t + 1 else v

/-! ## Blocks -/

/-- Decode the DC coefficient (T.81, F.2.2.1). -/
def decodeDc (t : HuffTable) (pred : Int) (bits : List Bool) : Option (Int × List Bool) := do
  let (n, bits) ← decodeSym t bits
  let (v, bits) ← receive n bits
  some (pred + extend v n, bits)

/-- Decode the last `n` coefficients of a block, in zigzag order (T.81, F.2.2.2, figure F.13). -/
def decodeAc (t : HuffTable) (n : Nat) (bits : List Bool) : Option (List Int × List Bool) :=
  if n = 0 then some ([], bits)
  else
    match decodeSym t bits with
    | none => none
    | some (rs, bits) =>
      let run := rs / 16
      let size := rs % 16
      if size = 0 then
        if run = 15 then
          if 16 ≤ n then
            match decodeAc t (n - 16) bits with
            | none => none
            | some (l, bits) => some (List.replicate 16 0 ++ l, bits)
          else none
        else some (List.replicate n 0, bits)
      else if run < n then
        match receive size bits with
        | none => none
        | some (v, bits) =>
          match decodeAc t (n - run - 1) bits with
          | none => none
          | some (l, bits) => some (List.replicate run 0 ++ extend v size :: l, bits)
      else none
termination_by n
decreasing_by all_goals omega

/-- The positions (row * 8 + column) of a block in zigzag order: along the anti-diagonals, alternately upwards and
downwards (T.81, A.3.6, figure A.6). -/
def zigzag : List Nat :=
  (List.range 15).flatMap fun d =>
    let rows := (List.range 8).filter fun r => r ≤ d ∧ d - r < 8
    (if d % 2 = 0 then rows.reverse else rows).map fun r => r * 8 + (d - r)

/-- From zigzag order to rows. -/
def natural {α : Type} [Inhabited α] (zz : List α) : List α :=
  (List.range 64).map fun i => zz.getD (zigzag.idxOf i) default

/-- Decode a block, with the prediction for its DC coefficient; the result is in zigzag order. -/
def decodeBlock (dc ac : HuffTable) (pred : Int) (bits : List Bool) : Option (List Int × List Bool) := do
  let (d, bits) ← decodeDc dc pred bits
  let (l, bits) ← decodeAc ac 63 bits
  some (d :: l, bits)

/-- Decode one block for each component (T.81, A.2.3). `preds` are the DC coefficients of the previous blocks. The
coefficients of the blocks are given by rows. -/
def decodeMcu : List (HuffTable × HuffTable) → List Int → List Bool → Option (List (List Int) × List Int × List Bool)
  | [], [], bits => some ([], [], bits)
  | (dc, ac) :: tables, p :: preds, bits => do
    let (zz, bits) ← decodeBlock dc ac p bits
    let (blocks, preds', bits) ← decodeMcu tables preds bits
    some (natural zz :: blocks, zz.headD 0 :: preds', bits)
  | _, _, _ => none

/-- Decode `n` minimum coded units. -/
def decodeMcus (tables : List (HuffTable × HuffTable)) : Nat → List Int → List Bool → Option (List (List (List Int)) × List Bool)
  | 0, _, bits => some ([], bits)
  | n + 1, preds, bits => do
    let (mcu, preds, bits) ← decodeMcu tables preds bits
    let (mcus, bits) ← decodeMcus tables n preds bits
    some (mcu :: mcus, bits)

/-! ## Files -/

/-- The marker segments up to and including the start of scan, and what follows (T.81, B.1.1.4). -/
def segments (bytes : List UInt8) : Option (List (UInt8 × List UInt8) × List UInt8) :=
  match bytes with
  | 0xFF :: m :: l1 :: l0 :: rest =>
    let len := beNat [l1, l0]
    if len < 2 ∨ rest.length < len - 2 then none
    else
      let payload := rest.take (len - 2)
      let rest' := rest.drop (len - 2)
      if m = 0xDA then some ([(m, payload)], rest')
      else
        match segments rest' with
        | none => none
        | some (segs, tail) => some ((m, payload) :: segs, tail)
  | _ => none
termination_by bytes.length
decreasing_by simp; omega

/-- A component in a frame header: identifier and quantisation table; only components without subsampling. -/
def frameComponents : List UInt8 → Option (List (UInt8 × UInt8))
  | [] => some []
  | id :: hv :: tq :: rest => do
    if hv = 0x11 then some () else none
    let cs ← frameComponents rest
    some ((id, tq) :: cs)
  | _ => none

/-- The frame header of 8-bit samples (T.81, B.2.2): width, height, components. -/
def frameHeader : List UInt8 → Option (Nat × Nat × List (UInt8 × UInt8))
  | p :: y1 :: y0 :: x1 :: x0 :: nf :: comps => do
    if p = 8 ∧ beNat [x1, x0] ≠ 0 ∧ beNat [y1, y0] ≠ 0 ∧ comps.length = 3 * nf.toNat then some () else none
    let cs ← frameComponents comps
    some (beNat [x1, x0], beNat [y1, y0], cs)
  | _ => none

/-- A component in a scan header: identifier, DC table and AC table. -/
def scanComponents : List UInt8 → Option (List (UInt8 × Nat × Nat))
  | [] => some []
  | id :: t :: rest => do
    let cs ← scanComponents rest
    some ((id, t.toNat / 16, t.toNat % 16) :: cs)
  | _ => none

/-- The scan header of a baseline scan (T.81, B.2.3). -/
def scanHeader : List UInt8 → Option (List (UInt8 × Nat × Nat))
  | ns :: rest => do
    if rest.length = 2 * ns.toNat + 3 ∧ rest.drop (2 * ns.toNat) = [0, 63, 0] then some () else none
    scanComponents (rest.take (2 * ns.toNat))
  | _ => none

/-- The quantisation table with the given identifier: the table in the last such segment (T.81, B.2.4.1), by rows. -/
def quantTable (segs : List (UInt8 × List UInt8)) (id : UInt8) : Option (List Nat) := do
  let (_, payload) ← segs.reverse.find? fun s => s.1 = 0xDB ∧ s.2.head? = some id
  if payload.length = 65 then some (natural (payload.tail.map (·.toNat))) else none

/-- The Huffman table of the given class (0: DC, 1: AC) and identifier: that in the last such segment (T.81, B.2.4.2). -/
def huffTable (segs : List (UInt8 × List UInt8)) (cls id : Nat) : Option HuffTable := do
  let (_, payload) ← segs.reverse.find? fun s => s.1 = 0xC4 ∧ (s.2.head?.map (·.toNat)) = some (16 * cls + id)
  let counts := (payload.tail.take 16).map (·.toNat)
  let vals := (payload.drop 17).map (·.toNat)
  if counts.length = 16 ∧ counts.sum = vals.length then some ⟨counts, vals⟩ else none

/-- A decoded file. -/
structure Decoded where
  width : Nat
  height : Nat
  /-- identifiers and quantisation tables of the components -/
  components : List (UInt8 × List Nat)
  /-- for each minimum coded unit (8x8 pixels, from left to right and from top to bottom) the quantised coefficients of
  each component -/
  mcus : List (List (List Int))
  /-- application segments -/
  apps : List (UInt8 × List UInt8)
  deriving DecidableEq

/-- Decode a file up to the quantised coefficients. -/
def decodeFile (file : List UInt8) : Option Decoded := do
  let rest ← match file with
    | 0xFF :: 0xD8 :: rest => some rest
    | _ => none
  let (segs, data) ← segments rest
  let (_, sof) ← segs.find? fun s => s.1 = 0xC0
  let (w, h, comps) ← frameHeader sof
  let (_, sos) ← segs.find? fun s => s.1 = 0xDA
  let scan ← scanHeader sos
  if scan.map (·.1) = comps.map (·.1) then some () else none
  let quants ← comps.mapM fun c => do
    let q ← quantTable segs c.2
    some (c.1, q)
  let tables ← scan.mapM fun c => do
    let dc ← huffTable segs 0 c.2.1
    let ac ← huffTable segs 1 c.2.2
    some (dc, ac)
  let (entropy, tail) := unstuff data
  if tail = [0xFF, 0xD9] then some () else none
  let (mcus, pad) ← decodeMcus tables ((w + 7) / 8 * ((h + 7) / 8)) (tables.map fun _ => 0) (byteBits entropy)
  if pad.length < 8 ∧ pad.all id then some () else none
  some ⟨w, h, quants, mcus, segs.filter fun s => 0xE0 ≤ s.1 ∧ s.1 ≤ 0xEF⟩

end JpegSpec
end Verif
