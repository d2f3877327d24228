import Verif.Proofs.BmpRows
import Verif.Props.BmpTotal

/-!
# BMP: encoded images decode to what was encoded (C41)
-/

namespace Verif
namespace Bmp

/-! ## Reading the header back -/

/-- The bytes at the position of a cursor. -/
def At (c : Cursor) (l : List UInt8) : Prop := c.bytes.drop c.pos = l

theorem At.readExact {c : Cursor} {n : Nat} {a t : List UInt8} (h : At c (a ++ t)) (ha : a.length = n) :
    c.readExact n = .ok (a, ⟨c.bytes, c.pos + n⟩) ∧ At ⟨c.bytes, c.pos + n⟩ t := by
  have hl := congrArg List.length h
  rw [List.length_drop, List.length_append, ha] at hl
  unfold At at h ⊢
  constructor
  · unfold Cursor.readExact
    rw [if_pos (by omega), h, List.take_append_of_le_length (by omega), List.take_of_length_le (by omega)]
  · dsimp only
    rw [← List.drop_drop, h, List.drop_append_of_le_length (by omega), List.drop_of_length_le (by omega), List.nil_append]

theorem At.readU {c : Cursor} {n v : Nat} {t : List UInt8} (h : At c (leBytes n v ++ t)) (hv : v < 256 ^ n) :
    readU n c = .ok (v, ⟨c.bytes, c.pos + n⟩) ∧ At ⟨c.bytes, c.pos + n⟩ t := by
  obtain ⟨h1, h2⟩ := h.readExact (length_leBytes n v)
  refine ⟨?_, h2⟩
  unfold Bmp.readU
  rw [h1, ok_bind]
  dsimp only
  rw [leNat_leBytes, Nat.mod_eq_of_lt hv]

theorem checkForOverflow_ok {w h n : Nat} (hw : 1 ≤ w ∧ w ≤ 65535) (hh : 1 ≤ h ∧ h ≤ 65535) (hn : n ≤ 4) :
    checkForOverflow w h n = .ok () := by
  unfold checkForOverflow checkedMul
  rw [if_neg (by omega), Int.toNat_natCast, Int.toNat_natCast]
  have h1 : n * w ≤ 4 * 65535 := Nat.mul_le_mul hn hw.2
  have h2 : n * w * h ≤ 4 * 65535 * 65535 := Nat.mul_le_mul h1 hh.2
  rw [if_pos (by omega), Option.bind_some, if_pos (by omega)]

theorem toI32_small {v : Nat} (h : v ≤ 65535) : toI32 v = v := by unfold toI32; rw [if_pos (by omega)]

/-- The fields of an information header that the encoder writes. -/
theorem readInfoHeader_ok {c : Cursor} {w h bc comp isz colors : Nat} {ty : ImageType} {t : List UInt8}
    (hw : 1 ≤ w ∧ w ≤ 65535) (hh : 1 ≤ h ∧ h ≤ 65535) (hbc : bc < 256 ^ 2) (hcomp : comp < 256 ^ 4) (hisz : isz < 256 ^ 4)
    (hcol : colors < 256 ^ 4) (hty : imageTypeOf false comp bc = .ok ty)
    (hat : At c (leBytes 4 w ++ (leBytes 4 h ++ (leBytes 2 1 ++ (leBytes 2 bc ++ (leBytes 4 comp ++ (leBytes 4 isz ++
      (leBytes 4 0 ++ (leBytes 4 0 ++ (leBytes 4 colors ++ (leBytes 4 0 ++ t))))))))))) :
    ∃ c', readInfoHeader false c = .ok (⟨w, h, false, bc, ty, colors⟩, c') ∧ c'.bytes = c.bytes ∧ c'.pos = c.pos + 36 ∧ At c' t := by
  unfold readInfoHeader
  obtain ⟨e1, a1⟩ := hat.readU (by omega)
  rw [e1, ok_bind]
  obtain ⟨e2, a2⟩ := a1.readU (by omega)
  dsimp only
  rw [e2, ok_bind]
  dsimp only
  rw [toI32_small hw.2, toI32_small hh.2, if_neg (by omega), if_neg (by omega), if_neg (by omega), Int.natAbs_natCast,
    checkForOverflow_ok hw hh (by decide), ok_bind]
  obtain ⟨e3, a3⟩ := a2.readU (by decide)
  dsimp only at e3 a3
  rw [e3, ok_bind]
  dsimp only
  rw [if_neg (by decide)]
  obtain ⟨e4, a4⟩ := a3.readU hbc
  dsimp only at e4 a4
  rw [e4, ok_bind]
  obtain ⟨e5, a5⟩ := a4.readU hcomp
  dsimp only at e5 a5 ⊢
  rw [e5, ok_bind]
  dsimp only
  rw [if_neg (by
    rintro ⟨h1, -⟩
    rw [decide_eq_true_eq] at h1
    omega), hty, ok_bind]
  obtain ⟨e6, a6⟩ := a5.readU hisz
  dsimp only at e6 a6
  rw [e6, ok_bind]
  obtain ⟨e7, a7⟩ := a6.readU (by decide)
  dsimp only at e7 a7 ⊢
  rw [e7, ok_bind]
  obtain ⟨e8, a8⟩ := a7.readU (by decide)
  dsimp only at e8 a8 ⊢
  rw [e8, ok_bind]
  obtain ⟨e9, a9⟩ := a8.readU hcol
  dsimp only at e9 a9 ⊢
  rw [e9, ok_bind]
  obtain ⟨e10, a10⟩ := a9.readU (by decide)
  dsimp only at e10 a10 ⊢
  rw [e10, ok_bind]
  refine ⟨⟨c.bytes, c.pos + 4 + 4 + 2 + 2 + 4 + 4 + 4 + 4 + 4 + 4⟩, ?_, rfl, rfl, a10⟩
  have : decide ((h : Int) < 0) = false := decide_eq_false (by omega)
  rw [this, Int.toNat_natCast]

theorem readFileHeader_ok {c : Cursor} {fs off : Nat} {t : List UInt8} (hfs : fs < 256 ^ 4) (hoff : off < 256 ^ 4)
    (hat : At c ([66, 77] ++ (leBytes 4 fs ++ (leBytes 4 0 ++ (leBytes 4 off ++ t))))) :
    ∃ c', readFileHeader c = .ok (off, c') ∧ c'.bytes = c.bytes ∧ c'.pos = c.pos + 14 ∧ At c' t := by
  unfold readFileHeader
  obtain ⟨e1, a1⟩ := hat.readExact (n := 2) rfl
  rw [e1, ok_bind]
  dsimp only
  rw [if_neg (by simp)]
  obtain ⟨e2, a2⟩ := a1.readU hfs
  dsimp only at e2 a2
  rw [e2, ok_bind]
  obtain ⟨e3, a3⟩ := a2.readU (by decide)
  dsimp only at e3 a3 ⊢
  rw [e3, ok_bind]
  obtain ⟨e4, a4⟩ := a3.readU hoff
  dsimp only at e4 a4 ⊢
  exact ⟨_, e4, rfl, rfl, a4⟩

/-! ## The palette -/

/-- The bytes of palette entries. -/
def entries (p : List Rgb) : List UInt8 := p.flatMap fun (r, g, b) => [b, g, r, 0]

theorem length_entries (p : List Rgb) : (entries p).length = p.length * 4 :=
  length_flatMap_const _ p fun _ _ => rfl

theorem entries_get (p : List Rgb) {i : Nat} (h : i < p.length) (t : List UInt8) :
    (entries p ++ t)[4 * i]? = some p[i].2.2 ∧ (entries p ++ t)[4 * i + 1]? = some p[i].2.1 ∧ (entries p ++ t)[4 * i + 2]? = some p[i].1 := by
  have hd : (entries p ++ t).drop (4 * i) = p[i].2.2 :: p[i].2.1 :: p[i].1 :: 0 :: ((p.drop (i + 1)).flatMap (fun (r, g, b) => [b, g, r, 0]) ++ t) := by
    rw [List.drop_append_of_le_length (by rw [length_entries]; omega), Nat.mul_comm]
    unfold entries
    rw [drop_flatMap_const (n := 4) _ p (fun _ _ => rfl), List.drop_eq_getElem_cons h, List.flatMap_cons]
    rfl
  have g : ∀ j, (entries p ++ t)[4 * i + j]? = ((entries p ++ t).drop (4 * i))[j]? := fun j => by rw [List.getElem?_drop]
  refine ⟨?_, ?_, ?_⟩
  · rw [← Nat.add_zero (4 * i), g, hd]; rfl
  · rw [g, hd]; rfl
  · rw [g, hd]; rfl

/-- A palette of up to 256 colours is read back, filled up with black. -/
theorem readPalette_ok {c : Cursor} {p : List Rgb} {t : List UInt8} (h1 : 1 ≤ p.length) (h2 : p.length ≤ 256)
    (hat : At c (entries p ++ t)) :
    ∃ c', readPalette .Info p.length 8 c = .ok (p ++ List.replicate (256 - p.length) (0, 0, 0), c') ∧ c'.bytes = c.bytes := by
  unfold readPalette
  have hsz : paletteSize p.length 8 = .ok p.length := by
    unfold paletteSize
    rw [if_neg (by omega), if_neg (by omega)]
  dsimp only [bytesPerColor]
  rw [hsz, ok_bind]
  obtain ⟨e1, a1⟩ := hat.readExact (n := min (p.length * 4) (256 * 4)) (by rw [length_entries, Nat.min_eq_left (by omega)])
  rw [e1, ok_bind]
  dsimp only
  rw [if_neg (by omega), ok_bind]
  have hmap : (List.range 256).mapM (fun i => (do
      let b ← unwrapR (entries p ++ List.replicate (256 * 4 - (entries p).length) 0)[4 * i]?
      let g ← unwrapR (entries p ++ List.replicate (256 * 4 - (entries p).length) 0)[4 * i + 1]?
      let r ← unwrapR (entries p ++ List.replicate (256 * 4 - (entries p).length) 0)[4 * i + 2]?
      Except.ok (r, g, b) : R Rgb)) = .ok (p ++ List.replicate (256 - p.length) (0, 0, 0)) := by
    rw [length_entries]
    have key : ∀ i ∈ List.range 256, (do
        let b ← unwrapR (entries p ++ List.replicate (256 * 4 - p.length * 4) 0)[4 * i]?
        let g ← unwrapR (entries p ++ List.replicate (256 * 4 - p.length * 4) 0)[4 * i + 1]?
        let r ← unwrapR (entries p ++ List.replicate (256 * 4 - p.length * 4) 0)[4 * i + 2]?
        Except.ok (r, g, b) : R Rgb) = .ok ((p ++ List.replicate (256 - p.length) (0, 0, 0)).getD i (0, 0, 0)) := by
      intro i hi
      rw [List.mem_range] at hi
      rw [List.getD_eq_getElem?_getD]
      by_cases hp : i < p.length
      · obtain ⟨g1, g2, g3⟩ := entries_get p hp (List.replicate (256 * 4 - p.length * 4) 0)
        rw [g1, g2, g3, List.getElem?_append_left hp, List.getElem?_eq_getElem hp]
        rfl
      · have z : ∀ j, j < 4 → (entries p ++ List.replicate (256 * 4 - p.length * 4) (0 : UInt8))[4 * i + j]? = some 0 := by
          intro j hj
          rw [List.getElem?_append_right (by rw [length_entries]; omega), length_entries, List.getElem?_replicate, if_pos (by omega)]
        have z0 := z 0 (by omega)
        rw [Nat.add_zero] at z0
        rw [z0, z 1 (by omega), z 2 (by omega), List.getElem?_append_right (by omega), List.getElem?_replicate, if_pos (by omega)]
        rfl
    have hm : ∀ l : List Nat, (∀ i ∈ l, i ∈ List.range 256) → l.mapM (fun i => (do
        let b ← unwrapR (entries p ++ List.replicate (256 * 4 - p.length * 4) 0)[4 * i]?
        let g ← unwrapR (entries p ++ List.replicate (256 * 4 - p.length * 4) 0)[4 * i + 1]?
        let r ← unwrapR (entries p ++ List.replicate (256 * 4 - p.length * 4) 0)[4 * i + 2]?
        Except.ok (r, g, b) : R Rgb)) = .ok (l.map fun i => (p ++ List.replicate (256 - p.length) (0, 0, 0)).getD i (0, 0, 0)) := by
      intro l
      induction l with
      | nil => intro _; rfl
      | cons a l ih =>
        intro h
        rw [List.mapM_cons, key a (h a (by simp)), ok_bind, ih fun i hi => h i (by simp [hi])]
        rfl
    rw [hm _ fun _ h => h]
    congr 1
    apply List.ext_getElem?
    intro k
    rw [List.getElem?_map]
    by_cases hk : k < 256
    · rw [List.getElem?_range hk, Option.map_some, List.getD_eq_getElem?_getD,
        List.getElem?_eq_getElem (show k < (p ++ List.replicate (256 - p.length) ((0, 0, 0) : Rgb)).length by simp; omega)]
      rfl
    · rw [List.getElem?_eq_none (by simp; omega), List.getElem?_eq_none (by simp; omega)]; rfl
  rw [hmap, ok_bind]
  exact ⟨_, rfl, rfl⟩


/-! ## The decoder of an encoded file -/

/-- What the decoder knows of a file whose header the encoder wrote. -/
structure Opened (d : Decoder) (file : List UInt8) (w h off : Nat) (al : Bool) : Prop where
  bytes : d.reader.bytes = file
  indexed : d.indexedColor = false
  width : d.width = w
  height : d.height = h
  offset : d.dataOffset = off
  bottomUp : d.topDown = false
  alpha : d.addAlpha = al

theorem new_rgb {w h fs isz : Nat} (hw : 1 ≤ w ∧ w ≤ 65535) (hh : 1 ≤ h ∧ h ≤ 65535) (hfs : fs < 256 ^ 4) (hisz : isz < 256 ^ 4)
    (t : List UInt8) : ∃ d, Decoder.new (headerBytes fs 40 w h 3 isz 0 ++ t) = .ok d ∧
      Opened d (headerBytes fs 40 w h 3 isz 0 ++ t) w h 54 false ∧ d.imageType = .RGB24 ∧ d.bitCount = 24 := by
  generalize hfile : headerBytes fs 40 w h 3 isz 0 ++ t = file
  unfold headerBytes at hfile
  rw [if_neg (by decide), if_neg (by decide)] at hfile
  simp only [List.append_assoc] at hfile
  have hat : At ⟨file, 0⟩ _ := hfile.symm
  obtain ⟨c1, e1, b1, p1, a1⟩ := readFileHeader_ok (c := ⟨file, 0⟩) hfs (by decide) (off := 14 + 40 + 0 * 4) (by
    rw [At]; exact hat)
  unfold Decoder.new readMetadata
  simp only [Bool.false_eq_true, if_false]
  rw [e1, ok_bind]
  dsimp only
  obtain ⟨e2, a2⟩ := a1.readU (by decide)
  rw [e2, ok_bind]
  dsimp only
  rw [show headerTypeOf 40 = .ok .Info from rfl, ok_bind]
  obtain ⟨c3, e3, b3, p3, a3⟩ := readInfoHeader_ok (bc := 24) hw hh (by decide) (by decide) hisz (by decide) (ty := .RGB24) rfl a2
  dsimp only
  rw [e3, ok_bind]
  dsimp only
  rw [ok_bind]
  dsimp only [Cursor.seekStart]
  rw [ok_bind, ok_bind]
  refine ⟨_, rfl, ⟨?_, rfl, rfl, rfl, rfl, rfl, rfl⟩, rfl, rfl⟩
  dsimp only
  rw [b3]
  exact b1


theorem new_rgba {w h fs isz : Nat} (hw : 1 ≤ w ∧ w ≤ 65535) (hh : 1 ≤ h ∧ h ≤ 65535) (hfs : fs < 256 ^ 4) (hisz : isz < 256 ^ 4)
    (t : List UInt8) : ∃ d, Decoder.new (headerBytes fs 108 w h 4 isz 0 ++ t) = .ok d ∧
      Opened d (headerBytes fs 108 w h 4 isz 0 ++ t) w h 122 true ∧ d.imageType = .Bitfields32 ∧ d.bitfields = some mask8888 ∧ d.bitCount = 32 := by
  generalize hfile : headerBytes fs 108 w h 4 isz 0 ++ t = file
  unfold headerBytes at hfile
  rw [if_pos (by decide), if_pos (by decide)] at hfile
  simp only [List.append_assoc] at hfile
  have hat : At ⟨file, 0⟩ _ := hfile.symm
  obtain ⟨c1, e1, b1, p1, a1⟩ := readFileHeader_ok (c := ⟨file, 0⟩) hfs (by decide) (off := 14 + 108 + 0 * 4) (by
    rw [At]; exact hat)
  unfold Decoder.new readMetadata
  simp only [Bool.false_eq_true, if_false]
  rw [e1, ok_bind]
  dsimp only
  obtain ⟨e2, a2⟩ := a1.readU (by decide)
  rw [e2, ok_bind]
  dsimp only
  rw [show headerTypeOf 108 = .ok .V4 from rfl, ok_bind]
  obtain ⟨c3, e3, b3, p3, a3⟩ := readInfoHeader_ok (bc := 32) hw hh (by decide) (by decide) hisz (by decide) (ty := .Bitfields32) rfl a2
  dsimp only
  rw [e3, ok_bind]
  dsimp only
  unfold readBitmasks
  obtain ⟨e4, a4⟩ := a3.readU (by decide)
  rw [e4, ok_bind]
  obtain ⟨e5, a5⟩ := a4.readU (by decide)
  dsimp only at e5 a5 ⊢
  rw [e5, ok_bind]
  obtain ⟨e6, a6⟩ := a5.readU (by decide)
  dsimp only at e6 a6 ⊢
  rw [e6, ok_bind]
  obtain ⟨e7, a7⟩ := a6.readU (by decide)
  dsimp only at e7 a7 ⊢
  rw [e7, ok_bind]
  dsimp only
  rw [show Bitfields.fromMask (0xff * 2 ^ 16) (0xff * 2 ^ 8) 0xff (0xff * 2 ^ 24) 32 = .ok mask8888 from by decide +kernel, ok_bind, ok_bind]
  dsimp only [Cursor.seekStart]
  rw [ok_bind, ok_bind]
  refine ⟨_, rfl, ⟨?_, rfl, rfl, rfl, rfl, rfl, rfl⟩, rfl, rfl, rfl⟩
  dsimp only
  rw [b3]
  exact b1

theorem new_gray {w h fs isz : Nat} (hw : 1 ≤ w ∧ w ≤ 65535) (hh : 1 ≤ h ∧ h ≤ 65535) (hfs : fs < 256 ^ 4) (hisz : isz < 256 ^ 4)
    (p : List Rgb) (hp1 : 1 ≤ p.length) (hp2 : p.length ≤ 256) (t : List UInt8) :
    ∃ d, Decoder.new (headerBytes fs 40 w h 1 isz p.length ++ (entries p ++ t)) = .ok d ∧
      Opened d (headerBytes fs 40 w h 1 isz p.length ++ (entries p ++ t)) w h (54 + p.length * 4) false ∧
      d.imageType = .Palette ∧ d.bitCount = 8 ∧ d.palette = some (p ++ List.replicate (256 - p.length) (0, 0, 0)) := by
  generalize hfile : headerBytes fs 40 w h 1 isz p.length ++ (entries p ++ t) = file
  unfold headerBytes at hfile
  rw [if_neg (by decide), if_neg (by decide)] at hfile
  simp only [List.append_assoc] at hfile
  have hat : At ⟨file, 0⟩ _ := hfile.symm
  obtain ⟨c1, e1, b1, p1, a1⟩ := readFileHeader_ok (c := ⟨file, 0⟩) hfs (by omega) (off := 14 + 40 + p.length * 4) (by
    rw [At]; exact hat)
  unfold Decoder.new readMetadata
  simp only [Bool.false_eq_true, if_false]
  rw [e1, ok_bind]
  dsimp only
  obtain ⟨e2, a2⟩ := a1.readU (by decide)
  rw [e2, ok_bind]
  dsimp only
  rw [show headerTypeOf 40 = .ok .Info from rfl, ok_bind]
  obtain ⟨c3, e3, b3, p3, a3⟩ := readInfoHeader_ok (bc := 8) hw hh (by decide) (by decide) hisz (by omega) (ty := .Palette) rfl a2
  dsimp only
  rw [e3, ok_bind]
  dsimp only
  rw [ok_bind]
  dsimp only [Cursor.seekStart]
  rw [ok_bind]
  dsimp only
  have hpos : c1.pos + 40 = c3.pos := by rw [p3]
  obtain ⟨c4, e4, b4⟩ := readPalette_ok (c := { c3 with pos := c1.pos + 40 }) (t := t) hp1 hp2 (by
    rw [hpos]; exact a3)
  rw [e4, ok_bind, ok_bind]
  refine ⟨_, rfl, ⟨?_, rfl, rfl, rfl, rfl, rfl, rfl⟩, rfl, rfl, rfl⟩
  dsimp only
  rw [b4, b3]
  exact b1

/-! ## The encoder -/

/-- The number of bytes of a row in the file. -/
def stride (w px : Nat) : Nat := (w * px + 3) / 4 * 4

theorem pad_eq (n : Nat) : n + (4 - n % 4) % 4 = (n + 3) / 4 * 4 := by omega

/-- What the encoder writes, given what it writes for the pixels. -/
theorem encodeWithPalette_ok {img : List UInt8} {w h dib px colors : Nat} {c : ExtendedColorType} {pal : Option (List Rgb)}
    {data : List UInt8} (hinfo : pixelInfo c pal = .ok (dib, px, colors)) (hpal : ¬ (pal.isSome ∧ c ≠ .L8 ∧ c ≠ .La8))
    (hbuf : c.bufferSize w h = .ok img.length) (hw : w ≤ 65535) (hpx : 1 ≤ px ∧ px ≤ 4)
    (hsize : 14 + dib + colors * 4 + h * stride w px < 2 ^ 32)
    (hdata : encodeData img w h ((4 - w * px % 4) % 4) c pal = .ok data) :
    encodeWithPalette img w h c pal =
      .ok (headerBytes (14 + dib + colors * 4 + h * stride w px) dib w h px (h * stride w px) colors ++ data) := by
  unfold encodeWithPalette
  rw [if_neg hpal, hbuf, ok_bind, beq_self_eq_true, assertR_true, ok_bind, hinfo, ok_bind]
  have hwp : w * px ≤ 65535 * 4 := Nat.mul_le_mul hw hpx.2
  dsimp only
  rw [mulC_ok (by omega), ok_bind]
  have hst : h * stride w px = h * (w * px) + h * ((4 - w * px % 4) % 4) := by
    rw [← Nat.mul_add, pad_eq]; rfl
  have hwh : w * h * px = h * (w * px) := by rw [Nat.mul_comm w h, Nat.mul_assoc]
  have e1 : ((checkedMul 32 w h).bind fun v => checkedMul 32 v px) = some (h * (w * px)) := by
    have h1 : w * h * 1 ≤ w * h * px := Nat.mul_le_mul_left _ hpx.1
    unfold checkedMul
    rw [if_pos (by omega), Option.bind_some, if_pos (by omega), hwh]
  rw [e1]
  dsimp only
  rw [mulC_ok (by omega), ok_bind]
  unfold checkedAdd
  rw [if_pos (by omega)]
  dsimp only
  rw [mulC_ok (by omega), ok_bind, if_pos (by omega), Option.bind_some, if_pos (by omega), Option.bind_some, if_pos (by omega)]
  dsimp only
  rw [hdata, ok_bind, hst]


theorem chunksExact_eq_chunksOf {α : Type} {n k : Nat} (hn : 0 < n) {l : List α} (hl : l.length = k * n) :
    chunksExact n l = chunksOf n l := by
  unfold chunksExact chunksOf
  rw [hl, Nat.mul_div_cancel _ hn, Nat.add_sub_assoc (by omega), Nat.mul_comm, Nat.mul_add_div hn, Nat.div_eq_of_lt (by omega),
    Nat.add_zero]

/-- The rows of an image. -/
theorem rows_of {img : List UInt8} {w h bpp : Nat} (hpos : 0 < w * bpp) (hl : img.length = w * h * bpp) :
    (chunksOf (w * bpp) img).length = h ∧ (∀ r ∈ chunksOf (w * bpp) img, r.length = w * bpp) ∧
    (chunksOf (w * bpp) img).flatten = img ∧
    ∀ r (hr : r < (chunksOf (w * bpp) img).length), slice img (r * (w * bpp)) (w * bpp) = .ok (chunksOf (w * bpp) img)[r] := by
  have e : img.length = h * (w * bpp) := by rw [hl, Nat.mul_comm w h, Nat.mul_assoc]
  obtain ⟨g1, g2, g3⟩ := chunksOf_eq hpos e
  refine ⟨g3, g2, g1, fun r hr => ?_⟩
  rw [g3] at hr
  unfold slice
  have : (r + 1) * (w * bpp) ≤ h * (w * bpp) := Nat.mul_le_mul_right _ hr
  rw [Nat.add_mul, Nat.one_mul] at this
  rw [if_pos (by omega)]
  congr 1
  have hk : r < (img.length + w * bpp - 1) / (w * bpp) := by rw [← length_chunksOf, g3]; exact hr
  have := getElem?_chunksOf hk
  rw [List.getElem?_eq_getElem (by rw [g3]; exact hr)] at this
  exact (Option.some.inj this).symm

theorem mapM_eq {α β : Type} {f : α → R β} {g : α → β} : ∀ {l : List α}, (∀ a ∈ l, f a = .ok (g a)) → l.mapM f = .ok (l.map g) := by
  intro l
  induction l with
  | nil => intro _; rfl
  | cons a l ih =>
    intro h
    rw [List.mapM_cons, h a (by simp), ok_bind, ih fun i hi => h i (by simp [hi])]
    rfl

theorem encodeColor_ok {px : List UInt8 → R (List UInt8)} {enc : List UInt8 → List UInt8} {img : List UInt8} {w h bpp : Nat} (pad : Nat)
    (hw : 1 ≤ w) (hb : 0 < bpp) (hl : img.length = w * h * bpp) (hpx : ∀ p, p.length = bpp → px p = .ok (enc p)) :
    encodeColor px img w h pad bpp =
      .ok ((chunksOf (w * bpp) img).reverse.flatMap fun row => (chunksOf bpp row).flatMap enc ++ rowPad pad) := by
  obtain ⟨r1, r2, r3, r4⟩ := rows_of (Nat.mul_pos hw hb) hl
  unfold encodeColor
  refine encodeRows_ok (fun row => (chunksOf bpp row).flatMap enc) _ r1 fun r hr => ?_
  rw [r4 r hr, ok_bind]
  have hrow := r2 _ (List.getElem_mem hr)
  rw [chunksExact_eq_chunksOf hb hrow, mapM_eq (g := enc) fun p hp => hpx p ((chunksOf_eq hb hrow).2.1 p hp), ok_bind,
    List.flatMap_def]

/-- Full-byte pixels that were written one by one are read back. -/
theorem readFull_ok {d : Decoder} {fmt : FullFormat} {enc : List UInt8 → List UInt8} {img buf : List UInt8} {w h bpp pad off : Nat} {al : Bool}
    {file : List UInt8} {front : List UInt8} (hd : Opened d file w h off al) (hw : 1 ≤ w ∧ w ≤ 65535) (hh : h ≤ 65535)
    (hb : bpp = d.channels) (hb2 : 1 ≤ bpp ∧ bpp ≤ 4) (hl : img.length = w * h * bpp) (hbuf : buf.length = img.length)
    (hpad : pad = if fmt = .RGB24 then (4 - w * 3 % 4) % 4 else 0)
    (hfile : file = front ++ ((chunksOf (w * bpp) img).reverse.flatMap fun row => (chunksOf bpp row).flatMap enc ++ rowPad pad))
    (hoff : front.length = off)
    (henc : ∀ p, p.length = bpp → (enc p).length = fmt.size ∧ ∀ q, q.length = bpp → fullPixel fmt bpp (enc p) q = .ok p) :
    readFull d fmt buf = .ok img := by
  obtain ⟨r1, r2, r3, r4⟩ := rows_of (Nat.mul_pos hw.1 hb2.1) hl
  unfold readFull
  rw [hd.width, hd.height, hd.bottomUp, hd.bytes, hd.offset, ← hpad, ← hb, hfile, List.drop_append_of_le_length (by omega),
    List.drop_of_length_le (by omega), List.nil_append]
  have K := (withRows_chain (f := fun row s => do
    let it ← pixels bpp row
    let (row, s) ← pixelLoop fmt.size (fullPixel fmt bpp) it.rest s
    let (_, s) ← readExact pad s
    Except.ok (row, s)) hw (h := h) (by omega) hb2 (buf := buf) (by rw [hbuf, hl])
    (fun row => (chunksOf bpp row).flatMap enc ++ rowPad pad) (fun row => row) [] (chunksOf (w * bpp) img) r1 (by
      intro x hx row t hrow
      obtain ⟨it, e1, -, -, e2⟩ := pixels_ok (c := bpp) (by omega) hrow
      rw [e1, ok_bind, e2, List.append_assoc]
      obtain ⟨x1, x2, x3⟩ := chunksOf_eq (n := bpp) (by omega) (r2 x hx)
      obtain ⟨y1, y2, y3⟩ := chunksOf_eq (n := bpp) (by omega) hrow
      rw [pixelLoop_chain (c := bpp) enc (fun p => p) (rowPad pad ++ t) (chunksOf bpp x) (chunksOf bpp row) y2 (by rw [y3, x3])
        (fun p hp => henc p (x2 p hp)), ok_bind]
      dsimp only
      rw [readExact_append' (by simp [rowPad]), ok_bind]
      dsimp only
      rw [List.flatMap_def, List.map_id', x1])).1
  rw [List.append_nil] at K
  dsimp only
  rw [K, ok_bind]
  dsimp only
  rw [List.flatMap_def, List.map_id', r3]

/-- The rows of a grey image and of a palette image. -/
theorem paletteRow_ok {d : Decoder} {pal : List Rgb} {row idx t : List UInt8} {w : Nat} (hi : d.indexedColor = false) (hc : d.channels = 3)
    (hw : d.width = w) (hbc : d.bitCount = 8) (hp : pal.length = 256) (hidx : idx.length = w) (hrow : row.length = w * 3) :
    paletteRow d pal (stride w 1) row (idx ++ rowPad ((4 - w * 1 % 4) % 4) ++ t) =
      .ok (idx.flatMap fun i => rgbBytes (lookup pal i.toNat), t) := by
  unfold paletteRow
  rw [readExact_append' (by rw [List.length_append, hidx]; unfold rowPad stride; rw [List.length_replicate]; omega), ok_bind]
  dsimp only
  rw [hi, hc, hw, hbc]
  simp only [Bool.false_eq_true, if_false]
  obtain ⟨it, e1, ⟨g1, g2⟩, g3, g4⟩ := pixels_ok (c := 3) (by decide) hrow
  rw [e1, ok_bind, if_neg (by decide), if_neg (by decide), if_neg (by decide), if_pos trivial]
  rw [g3, List.nil_append] at g1 g2
  have e : (indices8 (idx ++ rowPad ((4 - w * 1 % 4) % 4))).take w = indices8 idx := by
    unfold indices8
    rw [List.map_append, List.take_append_of_le_length (by simp [hidx]), List.take_of_length_le (by simp [hidx])]
  rw [e, setRun_done _ it (by
    intro i hi
    obtain ⟨b, -, rfl⟩ := List.mem_map.1 hi
    rw [hp]; exact b.toNat_lt) g1, ok_bind]
  dsimp only
  have hlen : (indices8 idx).length = w := by simp [indices8, hidx]
  rw [g3, g2, List.take_of_length_le (by omega), List.drop_of_length_le (by omega), List.nil_append]
  congr 2
  unfold PixIter.bytes indices8
  rw [List.append_nil, List.map_map, List.flatMap_def]
  rfl

theorem readPalettized_ok {d : Decoder} {pal : List Rgb} {idx buf : List UInt8} {w h off : Nat} {file front : List UInt8}
    (hd : Opened d file w h off false) (hw : 1 ≤ w ∧ w ≤ 65535) (hh : h ≤ 65535) (hbc : d.bitCount = 8) (hpal : d.palette = some pal)
    (hp : pal.length = 256) (hl : idx.length = w * h) (hbuf : buf.length = w * h * 3)
    (hfile : file = front ++ ((chunksOf w idx).reverse.flatMap fun row => row ++ rowPad ((4 - w * 1 % 4) % 4)))
    (hoff : front.length = off) :
    readPalettized d buf = .ok (idx.flatMap fun i => rgbBytes (lookup pal i.toNat)) := by
  have hc : d.channels = 3 := by unfold Decoder.channels numChannels; rw [hd.indexed, hd.alpha]; rfl
  obtain ⟨r1, r2, r3⟩ := chunksOf_eq (n := w) (k := h) hw.1 (l := idx) (by rw [hl, Nat.mul_comm])
  unfold readPalettized
  rw [hpal]
  dsimp only [unwrapR]
  rw [ok_bind, hc, if_neg (by decide), hd.width, hd.height, hd.bottomUp, hd.bytes, hd.offset, hbc, hfile,
    List.drop_append_of_le_length (by omega), List.drop_of_length_le (by omega), List.nil_append,
    show (8 * w + 31) / 32 * 4 = stride w 1 from by unfold stride; omega]
  have K := (withRows_chain (f := paletteRow d pal (stride w 1)) hw (h := h) (by omega) (c := 3) (by decide) (buf := buf) hbuf
    (fun row => row ++ rowPad ((4 - w * 1 % 4) % 4)) (fun row => row.flatMap fun i => rgbBytes (lookup pal i.toNat)) []
    (chunksOf w idx) r3 (by
      intro x hx row t hrow
      exact paletteRow_ok hd.indexed hc hd.width hbc hp (r2 x hx) hrow)).1
  rw [List.append_nil] at K
  rw [K, ok_bind]
  dsimp only
  congr 1
  conv => rhs; rw [← r1]
  rw [List.flatMap_def, List.flatMap_def, List.map_flatten, List.flatten_flatten]
  congr 1
  rw [List.map_map]
  apply List.map_congr_left
  intro x _
  rw [Function.comp, List.flatMap_def]


/-! ## C41 -/

theorem bufferSize_ok {c : ExtendedColorType} {w h n : Nat} (hw : w ≤ 65535) (hh : h ≤ 65535) (hn : n ≤ 4) (hc : c.bitsPerPixel = 8 * n) :
    c.bufferSize w h = .ok (w * h * n) := by
  unfold ExtendedColorType.bufferSize
  have hp1 : w * n ≤ 65535 * 4 := Nat.mul_le_mul hw hn
  have hp : w * (8 * n) = 8 * (w * n) := by rw [Nat.mul_left_comm]
  rw [hc, mulC_ok (by rw [hp]; omega), ok_bind, hp, addC_ok (by omega), ok_bind]
  unfold satMul
  dsimp only
  have h3 : w * n * h ≤ 65535 * 4 * 65535 := Nat.mul_le_mul hp1 hh
  rw [show (8 * (w * n) + 7) / 8 = w * n by omega, Nat.min_eq_left (by omega), Nat.mul_right_comm]

theorem length_headerBytes {fs dib w h px isz colors : Nat} (hd : dib = 40 ∨ dib = 108) :
    (headerBytes fs dib w h px isz colors).length = 14 + dib := by
  unfold headerBytes
  rcases hd with rfl | rfl
  · rw [if_neg (by decide)]; simp
  · rw [if_pos (by decide), if_pos (by decide)]; simp [length_flatMap_const (n := 4)]

/-- The declared file size: bytes 2 to 5, little-endian. -/
def declaredSize (file : List UInt8) : Nat := leNat ((file.drop 2).take 4)

theorem declaredSize_header {fs dib w h px isz colors : Nat} (hfs : fs < 2 ^ 32) (t : List UInt8) :
    declaredSize (headerBytes fs dib w h px isz colors ++ t) = fs := by
  unfold declaredSize headerBytes
  simp only [List.append_assoc]
  rw [show [(66 : UInt8), 77] = List.take 2 [66, 77] from rfl]
  show leNat ((leBytes 4 fs ++ _).take 4) = fs
  rw [List.take_append_of_le_length (by simp), List.take_of_length_le (by simp), leNat_leBytes, Nat.mod_eq_of_lt (by omega)]

theorem length_rows {rows : List (List UInt8)} {n : Nat} (enc : List UInt8 → List UInt8) (pad : Nat) (h : ∀ r ∈ rows, (enc r).length = n) :
    (rows.reverse.flatMap fun row => enc row ++ rowPad pad).length = rows.length * (n + pad) := by
  rw [length_flatMap_const (n := n + pad), List.length_reverse]
  intro b hb
  rw [List.length_append, h b (by simpa using hb)]
  simp [rowPad]

/-- The file ends where its pixel rows end. -/
def Tight (file : List UInt8) : Prop := ∃ d, Decoder.new file = .ok d ∧ d.imageType ≠ .RLE4 ∧ d.imageType ≠ .RLE8 ∧
  d.dataOffset + d.height * ((d.bitCount * d.width + 31) / 32 * 4) = file.length

theorem tight_of {d : Decoder} {file : List UInt8} {w h off bc m : Nat} {al : Bool} (d1 : Decoder.new file = .ok d) (d2 : Opened d file w h off al)
    (d3 : d.imageType ≠ .RLE4 ∧ d.imageType ≠ .RLE8) (d4 : d.bitCount = bc) (hlen : file.length = off + h * m)
    (hm : (bc * w + 31) / 32 * 4 = m) : Tight file :=
  ⟨d, d1, d3.1, d3.2, by rw [hlen, d2.offset, d2.height, d2.width, d4, hm]⟩

/-- **C41** for RGB: an image of up to 65535 by 65535 pixels whose file fits in 32 bits is encoded, the declared size is the
number of bytes of the file, which is the header and `height` rows padded to a multiple of four bytes, and decoding the file
yields the same dimensions and bytes. Nothing follows the rows. -/
theorem C41_rgb8_roundtrip (w h : Nat) (hw : 1 ≤ w ∧ w ≤ 65535) (hh : 1 ≤ h ∧ h ≤ 65535) (img : List UInt8)
    (hl : img.length = w * h * 3) (hsize : 54 + h * ((w * 3 + 3) / 4 * 4) < 2 ^ 32) :
    ∃ file, encode img w h .Rgb8 = .ok file ∧ file.length = 54 + h * ((w * 3 + 3) / 4 * 4) ∧
      declaredSize file = file.length ∧ Tight file ∧ decode file = .ok (w, h, .Rgb8, img) := by
  have enc_ok : ∀ p : List UInt8, p.length = 3 → bgrPixel p = .ok (p.reverse) := by
    intro p hp
    match p, hp with
    | [a, b, c], _ => rfl
  have hdata := encodeColor_ok (px := bgrPixel) (enc := List.reverse) ((4 - w * 3 % 4) % 4) hw.1 (by decide) hl enc_ok
  have hb := bufferSize_ok (c := .Rgb8) hw.2 hh.2 (n := 3) (by decide) rfl
  have henc := encodeWithPalette_ok (c := .Rgb8) (pal := none) (w := w) (h := h) (img := img) (dib := 40) (px := 3) (colors := 0)
    rfl (by simp) (by rw [hb, hl]) hw.2 (by decide) (by unfold stride; omega) hdata
  obtain ⟨r1, r2, r3, -⟩ := rows_of (Nat.mul_pos hw.1 (by decide : 0 < 3)) hl
  have hlen : (headerBytes (14 + 40 + 0 * 4 + h * stride w 3) 40 w h 3 (h * stride w 3) 0 ++
      ((chunksOf (w * 3) img).reverse.flatMap fun row => (chunksOf 3 row).flatMap List.reverse ++ rowPad ((4 - w * 3 % 4) % 4))).length =
      54 + h * ((w * 3 + 3) / 4 * 4) := by
    rw [List.length_append, length_headerBytes (.inl rfl), length_rows (n := w * 3), r1, pad_eq]
    intro r hr
    obtain ⟨-, g2, g3⟩ := chunksOf_eq (n := 3) (by decide) (r2 r hr)
    rw [length_flatMap_const (n := 3) _ _ (fun p hp => by rw [List.length_reverse, g2 p hp]), g3]
  refine ⟨_, henc, hlen, ?_, ?_⟩
  · rw [declaredSize_header (by unfold stride; omega), hlen]; unfold stride; omega
  · obtain ⟨d, d1, d2, d3, dbc⟩ := new_rgb (w := w) (h := h) (fs := 14 + 40 + 0 * 4 + h * stride w 3) (isz := h * stride w 3) hw hh
      (by unfold stride; omega) (by unfold stride; omega)
      ((chunksOf (w * 3) img).reverse.flatMap fun row => (chunksOf 3 row).flatMap List.reverse ++ rowPad ((4 - w * 3 % 4) % 4))
    have hch : d.channels = 3 := by unfold Decoder.channels numChannels; rw [d2.indexed, d2.alpha]; rfl
    refine ⟨tight_of d1 d2 (by rw [d3]; decide) dbc hlen (by omega), ?_⟩
    have hct : d.colorType = .Rgb8 := by unfold Decoder.colorType; rw [d2.indexed, d2.alpha]; rfl
    have hmul : w * h * 3 ≤ 65535 * 65535 * 3 := Nat.mul_le_mul_right _ (Nat.mul_le_mul hw.2 hh.2)
    have ht : totalBytes d.width d.height d.colorType.bytesPerPixel = w * h * 3 := by
      rw [d2.width, d2.height, hct]
      show min (w * h * 3) _ = _
      rw [Nat.min_eq_left (by omega)]
    unfold decode
    rw [d1, ok_bind, ht]
    unfold Decoder.readImage
    rw [ht, decide_eq_true (List.length_replicate ..), assertR_true, ok_bind]
    unfold readImageData
    rw [d3]
    dsimp only
    rw [readFull_ok (enc := List.reverse) d2 hw hh.2 (bpp := 3) hch.symm (by decide) hl (by rw [List.length_replicate, hl])
      (pad := (4 - w * 3 % 4) % 4) (by rw [if_pos rfl]) rfl (length_headerBytes (.inl rfl)) ?_, ok_bind, d2.width, d2.height, hct]
    intro p hp
    match p, hp with
    | [a, b, c], _ =>
      refine ⟨rfl, fun q hq => ?_⟩
      match q, hq with
      | [_, _, _], _ => rfl

/-- **C41** for RGBA. -/
theorem C41_rgba8_roundtrip (w h : Nat) (hw : 1 ≤ w ∧ w ≤ 65535) (hh : 1 ≤ h ∧ h ≤ 65535) (img : List UInt8)
    (hl : img.length = w * h * 4) (hsize : 122 + h * (w * 4) < 2 ^ 32) :
    ∃ file, encode img w h .Rgba8 = .ok file ∧ file.length = 122 + h * (w * 4) ∧
      declaredSize file = file.length ∧ Tight file ∧ decode file = .ok (w, h, .Rgba8, img) := by
  let enc : List UInt8 → List UInt8 := fun p => [p.getD 2 0, p.getD 1 0, p.getD 0 0, p.getD 3 0]
  have enc_ok : ∀ p : List UInt8, p.length = 4 → bgraPixel p = .ok (enc p) := by
    intro p hp
    match p, hp with
    | [a, b, c, d], _ => rfl
  have hst : stride w 4 = w * 4 := by unfold stride; omega
  have hpad : (4 - w * 4 % 4) % 4 = 0 := by omega
  have hdata := encodeColor_ok (px := bgraPixel) (enc := enc) ((4 - w * 4 % 4) % 4) hw.1 (by decide) hl enc_ok
  have hb := bufferSize_ok (c := .Rgba8) hw.2 hh.2 (n := 4) (by decide) rfl
  have henc := encodeWithPalette_ok (c := .Rgba8) (pal := none) (w := w) (h := h) (img := img) (dib := 108) (px := 4) (colors := 0)
    rfl (by simp) (by rw [hb, hl]) hw.2 (by decide) (by rw [hst]; omega) hdata
  obtain ⟨r1, r2, r3, -⟩ := rows_of (Nat.mul_pos hw.1 (by decide : 0 < 4)) hl
  rw [hst, hpad] at henc
  have hlen : (headerBytes (14 + 108 + 0 * 4 + h * (w * 4)) 108 w h 4 (h * (w * 4)) 0 ++
      ((chunksOf (w * 4) img).reverse.flatMap fun row => (chunksOf 4 row).flatMap enc ++ rowPad 0)).length =
      122 + h * (w * 4) := by
    rw [List.length_append, length_headerBytes (.inr rfl), length_rows (n := w * 4), r1]
    · simp
    · intro r hr
      obtain ⟨-, g2, g3⟩ := chunksOf_eq (n := 4) (by decide) (r2 r hr)
      rw [length_flatMap_const (n := 4) _ _ (fun p hp => rfl), g3]
  refine ⟨_, henc, hlen, ?_, ?_⟩
  · rw [declaredSize_header (by omega), hlen]
  · obtain ⟨d, d1, d2, d3, d4, dbc⟩ := new_rgba (w := w) (h := h) (fs := 14 + 108 + 0 * 4 + h * (w * 4)) (isz := h * (w * 4)) hw hh
      (by omega) (by omega)
      ((chunksOf (w * 4) img).reverse.flatMap fun row => (chunksOf 4 row).flatMap enc ++ rowPad 0)
    have hch : d.channels = 4 := by unfold Decoder.channels numChannels; rw [d2.indexed, d2.alpha]; rfl
    refine ⟨tight_of d1 d2 (by rw [d3]; decide) dbc hlen (by omega), ?_⟩
    have hct : d.colorType = .Rgba8 := by unfold Decoder.colorType; rw [d2.indexed, d2.alpha]; rfl
    have hmul : w * h * 4 ≤ 65535 * 65535 * 4 := Nat.mul_le_mul_right _ (Nat.mul_le_mul hw.2 hh.2)
    have ht : totalBytes d.width d.height d.colorType.bytesPerPixel = w * h * 4 := by
      rw [d2.width, d2.height, hct]
      show min (w * h * 4) _ = _
      rw [Nat.min_eq_left (by omega)]
    unfold decode
    rw [d1, ok_bind, ht]
    unfold Decoder.readImage
    rw [ht, decide_eq_true (List.length_replicate ..), assertR_true, ok_bind]
    unfold readImageData
    rw [d3, d4]
    dsimp only
    rw [if_neg (by decide), if_pos rfl]
    rw [readFull_ok (enc := enc) d2 hw hh.2 (bpp := 4) hch.symm (by decide) hl (by rw [List.length_replicate, hl])
      (pad := 0) (by rw [if_neg (by decide)]) rfl (length_headerBytes (.inr rfl)) ?_, ok_bind, d2.width, d2.height, hct]
    intro p hp
    match p, hp with
    | [a, b, c, d], _ =>
      refine ⟨rfl, fun q hq => ?_⟩
      match q, hq with
      | [_, _, _, _], _ => rfl


theorem encodeGray_ok {img : List UInt8} {w h : Nat} (pal : Option (List Rgb)) (hw : 1 ≤ w ∧ w ≤ 65535) (hl : img.length = w * h)
    (hsize : h * w < 2 ^ 32) (pad : Nat) :
    encodeGray img w h pad 1 pal = .ok (paletteBytes pal ++ (chunksOf w img).reverse.flatMap fun row => row ++ rowPad pad) := by
  obtain ⟨r1, -, -, r4⟩ := rows_of (img := img) (w := w) (h := h) (bpp := 1) (by omega) (by omega)
  unfold encodeGray
  rw [mulC_ok (by omega), ok_bind]
  rw [encodeRows_ok (fun row => row) (chunksOf (w * 1) img) r1 (fun r hr => by
    have hle : r * (w * 1) ≤ h * w := by rw [Nat.mul_one]; exact Nat.mul_le_mul_right _ (by omega)
    rw [mulC_ok (by omega), ok_bind, if_pos rfl, r4 r hr]), ok_bind, Nat.mul_one]

/-- The luma bytes of an image with alpha. -/
def lumaBytes (img : List UInt8) : List UInt8 := (chunksOf 2 img).map fun p => p.headD 0

theorem getElem?_even {img : List UInt8} {n : Nat} (hl : img.length = n * 2) {k : Nat} (hk : k < n) :
    img[k * 2]? = some ((lumaBytes img).getD k 0) := by
  unfold lumaBytes
  have h1 : k < (img.length + 2 - 1) / 2 := by omega
  rw [List.getD_eq_getElem?_getD, List.getElem?_map, getElem?_chunksOf h1, Option.map_some, Option.getD_some]
  rw [List.headD_eq_head?_getD, List.head?_take, if_neg (by decide), List.head?_drop, List.getElem?_eq_getElem (by omega)]
  rfl

theorem encodeGray2_ok {img : List UInt8} {w h : Nat} (pal : Option (List Rgb)) (hw : 1 ≤ w ∧ w ≤ 65535) (hl : img.length = w * h * 2)
    (hsize : h * (w * 2) < 2 ^ 32) (pad : Nat) :
    encodeGray img w h pad 2 pal =
      .ok (paletteBytes pal ++ (chunksOf w (lumaBytes img)).reverse.flatMap fun row => row ++ rowPad pad) := by
  have hll : (lumaBytes img).length = w * h := by
    unfold lumaBytes
    rw [List.length_map, (chunksOf_eq (by decide) hl).2.2]
  obtain ⟨r1, r2, -, r4⟩ := rows_of (img := lumaBytes img) (w := w) (h := h) (bpp := 1) (by omega) (by omega)
  unfold encodeGray
  rw [mulC_ok (by omega), ok_bind]
  rw [encodeRows_ok (fun row => row) (chunksOf (w * 1) (lumaBytes img)) r1 (fun r hr => ?_), ok_bind, Nat.mul_one]
  have hr' : r < h := by omega
  have hle : (r + 1) * (w * 2) ≤ h * (w * 2) := Nat.mul_le_mul_right _ hr'
  have hle1 : (r + 1) * (w * 1) ≤ h * (w * 1) := Nat.mul_le_mul_right _ hr'
  rw [Nat.add_mul, Nat.one_mul] at hle hle1
  have hwh : w * h = h * (w * 1) := by rw [Nat.mul_one, Nat.mul_comm]
  have h2 : r * (w * 2) = r * (w * 1) * 2 := by rw [Nat.mul_one, Nat.mul_assoc]
  rw [mulC_ok (by omega), ok_bind, if_neg (by decide)]
  have e := r4 r hr
  unfold slice at e
  rw [if_pos (by omega)] at e
  have e := Except.ok.inj e
  rw [← e]
  obtain ⟨s, f1, f2⟩ := forRange_inv (n := w) (f := fun col (out : List UInt8) => do
      let c ← mulC 32 col 2
      let p ← addC 32 (r * (w * 2)) c
      let b ← unwrapR img[p]?
      Except.ok (out ++ [b])) (s := []) (fun i s => s = ((lumaBytes img).drop (r * (w * 1))).take i) (by simp) (by
    intro i hi s hs
    rw [mulC_ok (by omega), ok_bind, addC_ok (by omega), ok_bind, h2, ← Nat.add_mul,
      getElem?_even hl (k := r * (w * 1) + i) (by omega)]
    refine ⟨_, rfl, ?_⟩
    rw [hs, List.take_add_one, List.getElem?_drop, List.getD_eq_getElem?_getD, List.getElem?_eq_getElem (by omega)]
    rfl)
  rw [f1, f2, Nat.mul_one]

/-- The grey palette. -/
def greys : List Rgb := (List.range 256).map fun v => (UInt8.ofNat v, UInt8.ofNat v, UInt8.ofNat v)

theorem length_greys : greys.length = 256 := by unfold greys; rw [List.length_map, List.length_range]

theorem paletteBytes_eq (pal : Option (List Rgb)) : paletteBytes pal = entries (pal.getD greys) := by
  cases pal with
  | some p => rfl
  | none =>
    unfold paletteBytes entries greys
    dsimp only [Option.getD]
    rw [List.flatMap_map]

theorem lookup_greys (i : UInt8) : rgbBytes (lookup greys i.toNat) = [i, i, i] := by
  unfold lookup greys
  rw [List.getD_eq_getElem?_getD, List.getElem?_map, List.getElem?_range i.toNat_lt]
  simp [rgbBytes]

attribute [local irreducible] greys

theorem pixelInfo_indexed {pal : Option (List Rgb)} {c : ExtendedColorType} (hp2 : (pal.getD greys).length ≤ 256)
    (hc : c = .L8 ∨ c = .La8) : pixelInfo c pal = .ok (40, 1, (pal.getD greys).length) := by
  cases pal with
  | none =>
    rw [Option.getD_none, length_greys]
    rcases hc with rfl | rfl <;> rfl
  | some p =>
    rw [Option.getD_some] at hp2 ⊢
    have h : p.length % 2 ^ 32 = p.length := Nat.mod_eq_of_lt (by omega)
    unfold pixelInfo
    rcases hc with rfl | rfl <;> dsimp only <;> rw [h]

/-- The palette and the rows of a file with one byte per pixel decode to the colours of the palette. -/
theorem indexed_roundtrip {img : List UInt8} {c : ExtendedColorType} {idx : List UInt8} {w h : Nat} (pal : Option (List Rgb))
    (hw : 1 ≤ w ∧ w ≤ 65535) (hh : 1 ≤ h ∧ h ≤ 65535) (hp1 : 1 ≤ (pal.getD greys).length) (hp2 : (pal.getD greys).length ≤ 256)
    (hc : c = .L8 ∨ c = .La8)
    (hb : c.bufferSize w h = .ok img.length)
    (hl : idx.length = w * h) (hsize : 54 + (pal.getD greys).length * 4 + h * ((w + 3) / 4 * 4) < 2 ^ 32)
    (hdata : encodeData img w h ((4 - w * 1 % 4) % 4) c pal =
      .ok (paletteBytes pal ++ (chunksOf w idx).reverse.flatMap fun row => row ++ rowPad ((4 - w * 1 % 4) % 4))) :
    ∃ file, encodeWithPalette img w h c pal = .ok file ∧ file.length = 54 + (pal.getD greys).length * 4 + h * ((w + 3) / 4 * 4) ∧
      declaredSize file = file.length ∧ Tight file ∧
      decode file = .ok (w, h, .Rgb8, idx.flatMap fun i => rgbBytes (lookup (pal.getD greys) i.toNat)) := by
  have hinfo := pixelInfo_indexed hp2 hc
  have hst : stride w 1 = (w + 3) / 4 * 4 := by unfold stride; rw [Nat.mul_one]
  have henc := encodeWithPalette_ok hinfo (by rcases hc with rfl | rfl <;> simp) hb hw.2 (by decide) (by rw [hst]; omega) hdata
  rw [hst, paletteBytes_eq] at henc
  generalize pal.getD greys = p at *
  obtain ⟨r1, r2, r3⟩ := chunksOf_eq (n := w) (k := h) hw.1 (l := idx) (by rw [hl, Nat.mul_comm])
  have hlen : (headerBytes (14 + 40 + p.length * 4 + h * ((w + 3) / 4 * 4)) 40 w h 1 (h * ((w + 3) / 4 * 4)) p.length ++
      (entries p ++ (chunksOf w idx).reverse.flatMap fun row => row ++ rowPad ((4 - w * 1 % 4) % 4))).length =
      54 + p.length * 4 + h * ((w + 3) / 4 * 4) := by
    rw [List.length_append, List.length_append, length_headerBytes (.inl rfl), length_entries,
      length_rows (n := w) (fun x => x) _ r2, r3, Nat.mul_one, pad_eq]
    omega
  refine ⟨_, henc, hlen, ?_, ?_⟩
  · rw [declaredSize_header (by omega), hlen]
  · obtain ⟨d, d1, d2, d3, d4, d5⟩ := new_gray (w := w) (h := h) (fs := 14 + 40 + p.length * 4 + h * ((w + 3) / 4 * 4))
      (isz := h * ((w + 3) / 4 * 4)) hw hh (by omega) (by omega) p hp1 hp2
      ((chunksOf w idx).reverse.flatMap fun row => row ++ rowPad ((4 - w * 1 % 4) % 4))
    refine ⟨tight_of d1 d2 (by rw [d3]; decide) d4 hlen (by omega), ?_⟩
    have hct : d.colorType = .Rgb8 := by unfold Decoder.colorType; rw [d2.indexed, d2.alpha]; rfl
    have hmul : w * h * 3 ≤ 65535 * 65535 * 3 := Nat.mul_le_mul_right _ (Nat.mul_le_mul hw.2 hh.2)
    have ht : totalBytes d.width d.height d.colorType.bytesPerPixel = w * h * 3 := by
      rw [d2.width, d2.height, hct]
      show min (w * h * 3) _ = _
      rw [Nat.min_eq_left (by omega)]
    unfold decode
    rw [d1, ok_bind, ht]
    unfold Decoder.readImage
    rw [ht, decide_eq_true (List.length_replicate ..), assertR_true, ok_bind]
    unfold readImageData
    rw [d3]
    dsimp only
    have hpl : (p ++ List.replicate (256 - p.length) ((0, 0, 0) : Rgb)).length = 256 := by
      rw [List.length_append, List.length_replicate]; omega
    have hfr : (headerBytes (14 + 40 + p.length * 4 + h * ((w + 3) / 4 * 4)) 40 w h 1 (h * ((w + 3) / 4 * 4)) p.length ++
        entries p).length = 54 + p.length * 4 := by
      rw [List.length_append, length_headerBytes (.inl rfl), length_entries]
    have hrd := readPalettized_ok (buf := List.replicate (w * h * 3) 0) d2 hw hh.2 d4 d5 hpl hl (List.length_replicate ..)
      (List.append_assoc ..).symm hfr
    rw [hrd, ok_bind, d2.width, d2.height, hct]
    have hcol : (fun i : UInt8 => rgbBytes (lookup (p ++ List.replicate (256 - p.length) (0, 0, 0)) i.toNat)) =
        fun i => rgbBytes (lookup p i.toNat) := by
     funext i
     have hi := i.toNat_lt
     unfold lookup
     rw [List.getD_eq_getElem?_getD, List.getD_eq_getElem?_getD]
     by_cases hlt : i.toNat < p.length
     · rw [List.getElem?_append_left hlt]
     · rw [List.getElem?_append_right (by omega), List.getElem?_replicate, if_pos (by omega), List.getElem?_eq_none (by omega)]
       rfl
    rw [hcol]

/-- **C41** for grey images: the decoded image has three samples per pixel, each equal to the grey value. -/
theorem C41_l8_roundtrip (w h : Nat) (hw : 1 ≤ w ∧ w ≤ 65535) (hh : 1 ≤ h ∧ h ≤ 65535) (img : List UInt8)
    (hl : img.length = w * h) (hsize : 1078 + h * ((w + 3) / 4 * 4) < 2 ^ 32) :
    ∃ file, encode img w h .L8 = .ok file ∧ file.length = 1078 + h * ((w + 3) / 4 * 4) ∧
      declaredSize file = file.length ∧ Tight file ∧ decode file = .ok (w, h, .Rgb8, img.flatMap fun v => [v, v, v]) := by
  have hg : greys.length = 256 := length_greys
  have hle : h * w ≤ h * ((w + 3) / 4 * 4) := Nat.mul_le_mul_left _ (by omega)
  have R := indexed_roundtrip (img := img) (c := .L8) (idx := img) none hw hh (by simp [hg]) (by simp [hg]) (.inl rfl)
    (by rw [bufferSize_ok hw.2 hh.2 (n := 1) (by decide) rfl, hl, Nat.mul_one]) hl (by simp only [Option.getD_none, hg]; omega)
    (encodeGray_ok none hw hl (by omega) _)
  simp only [Option.getD_none, hg, lookup_greys] at R
  exact R

/-- **C41** for grey images with alpha: the alpha samples are not stored. -/
theorem C41_la8_roundtrip (w h : Nat) (hw : 1 ≤ w ∧ w ≤ 65535) (hh : 1 ≤ h ∧ h ≤ 65535) (px : List (UInt8 × UInt8))
    (hl : px.length = w * h) (hsize : 1078 + h * (w * 2 + 3) < 2 ^ 32) :
    ∃ file, encode (px.flatMap fun p => [p.1, p.2]) w h .La8 = .ok file ∧ file.length = 1078 + h * ((w + 3) / 4 * 4) ∧
      declaredSize file = file.length ∧ Tight file ∧ decode file = .ok (w, h, .Rgb8, px.flatMap fun p => [p.1, p.1, p.1]) := by
  have hg : greys.length = 256 := length_greys
  have hle : h * ((w + 3) / 4 * 4) ≤ h * (w * 2 + 3) := Nat.mul_le_mul_left _ (by omega)
  have hle2 : h * (w * 2) ≤ h * (w * 2 + 3) := Nat.mul_le_mul_left _ (by omega)
  have hlen : (px.flatMap fun p => [p.1, p.2]).length = w * h * 2 := by
    rw [length_flatMap_const (n := 2) _ _ (fun _ _ => rfl), hl]
  have hlu : lumaBytes (px.flatMap fun p => [p.1, p.2]) = px.map (·.1) := by
    unfold lumaBytes
    rw [← chunksExact_eq_chunksOf (by decide) hlen, chunksExact_flatMap (n := 2) (by decide) (fun p : UInt8 × UInt8 => [p.1, p.2]) (fun _ => rfl), List.map_map]
    rfl
  have R := indexed_roundtrip (img := px.flatMap fun p => [p.1, p.2]) (c := .La8) (idx := px.map (·.1)) none hw hh (by simp [hg])
    (by simp [hg]) (.inr rfl)
    (by rw [bufferSize_ok hw.2 hh.2 (n := 2) (by decide) rfl, hlen]) (by rw [List.length_map, hl]) (by simp only [Option.getD_none, hg]; omega)
    (by rw [← hlu]; exact encodeGray2_ok none hw hlen (by omega) _)
  simp only [Option.getD_none, hg, lookup_greys, List.flatMap_map] at R
  exact R

/-- **C41** with a palette of 1 to 256 colours: the decoded image has the colour of each index; an index beyond the palette
decodes to black. -/
theorem C41_palette_roundtrip (w h : Nat) (hw : 1 ≤ w ∧ w ≤ 65535) (hh : 1 ≤ h ∧ h ≤ 65535) (img : List UInt8)
    (hl : img.length = w * h) (p : List Rgb) (hp1 : 1 ≤ p.length) (hp2 : p.length ≤ 256)
    (hsize : 54 + p.length * 4 + h * ((w + 3) / 4 * 4) < 2 ^ 32) :
    ∃ file, encodeWithPalette img w h .L8 (some p) = .ok file ∧ file.length = 54 + p.length * 4 + h * ((w + 3) / 4 * 4) ∧
      declaredSize file = file.length ∧ Tight file ∧
      decode file = .ok (w, h, .Rgb8, img.flatMap fun i => rgbBytes (p.getD i.toNat (0, 0, 0))) := by
  have hle : h * w ≤ h * ((w + 3) / 4 * 4) := Nat.mul_le_mul_left _ (by omega)
  exact indexed_roundtrip (img := img) (c := .L8) (idx := img) (some p) hw hh hp1 hp2 (.inl rfl)
    (by rw [bufferSize_ok hw.2 hh.2 (n := 1) (by decide) rfl, hl, Nat.mul_one]) hl hsize (encodeGray_ok (some p) hw hl (by omega) _)


/-! ## What the encoder accepts and the decoder refuses -/

theorem headerTypeOf_info {dib : Nat} (h : dib = 40 ∨ dib = 108) : ∃ ht, headerTypeOf dib = .ok ht ∧ ht ≠ .Core := by
  rcases h with rfl | rfl
  · exact ⟨_, rfl, by decide⟩
  · exact ⟨_, rfl, by decide⟩

/-- A file whose header has a size of zero or above 65535 is refused. -/
theorem new_refused {w h fs dib px isz colors : Nat} (hd : dib = 40 ∨ dib = 108) (hw : w < 2 ^ 31) (hh : h < 2 ^ 31) (hcol : colors < 2 ^ 29)
    (hfs : fs < 256 ^ 4) (hbad : w = 0 ∨ h = 0 ∨ 65535 < w ∨ 65535 < h) (t : List UInt8) :
    ∃ e, Decoder.new (headerBytes fs dib w h px isz colors ++ t) = .error (.err e) := by
  generalize hfile : headerBytes fs dib w h px isz colors ++ t = file
  unfold headerBytes at hfile
  simp only [List.append_assoc] at hfile
  have hat : At ⟨file, 0⟩ _ := hfile.symm
  obtain ⟨c1, e1, b1, p1, a1⟩ := readFileHeader_ok (c := ⟨file, 0⟩) hfs (by omega) (off := 14 + dib + colors * 4) (by
    rw [At]; exact hat)
  unfold Decoder.new readMetadata
  simp only [Bool.false_eq_true, if_false]
  rw [e1, ok_bind]
  dsimp only
  obtain ⟨e2, a2⟩ := a1.readU (by omega)
  rw [e2, ok_bind]
  dsimp only
  obtain ⟨ht, e3, e4⟩ := headerTypeOf_info hd
  rw [e3, ok_bind]
  have hinfo : ∀ c t, At c (leBytes 4 w ++ (leBytes 4 h ++ t)) → ∃ e, readInfoHeader false c = .error (.err e) := by
    intro c t hat
    unfold readInfoHeader
    obtain ⟨e1, a1⟩ := hat.readU (by omega)
    rw [e1, ok_bind]
    obtain ⟨e2, a2⟩ := a1.readU (by omega)
    dsimp only
    rw [e2, ok_bind]
    dsimp only
    unfold toI32
    rw [if_pos hw, if_pos hh, if_neg (by omega)]
    by_cases hb : 65535 < w ∨ 65535 < h
    · rw [if_pos (by omega)]; exact ⟨_, rfl⟩
    · rw [if_neg (by omega), if_neg (by omega), Int.natAbs_natCast]
      unfold checkForOverflow
      rw [if_pos (by omega)]
      exact ⟨_, rfl⟩
  obtain ⟨e, he⟩ := hinfo _ _ a2
  cases ht <;> first | exact absurd rfl e4 | (dsimp only; rw [he]; exact ⟨_, rfl⟩)

/-- **C41** does not hold for every image the encoder accepts: a file it writes for an image without pixels, or with more than
65535 columns or rows, is refused by the decoder. -/
theorem C41_size_false {img file : List UInt8} {w h : Nat} {c : ExtendedColorType} (hw : w < 2 ^ 31) (hh : h < 2 ^ 31)
    (henc : encode img w h c = .ok file) (hbad : w = 0 ∨ h = 0 ∨ 65535 < w ∨ 65535 < h) :
    ∃ e, decode file = .error (.err e) := by
  have key : ∃ fs dib px isz colors t, (dib = 40 ∨ dib = 108) ∧ colors < 2 ^ 29 ∧ fs < 256 ^ 4 ∧
      file = headerBytes fs dib w h px isz colors ++ t := by
    unfold encode encodeWithPalette at henc
    rw [if_neg (by simp)] at henc
    cases hb : c.bufferSize w h with
    | error e => rw [hb] at henc; cases henc
    | ok n =>
    rw [hb, ok_bind] at henc
    cases ha : assertR (n == img.length) with
    | error e => rw [ha] at henc; cases henc
    | ok u =>
    rw [ha, ok_bind] at henc
    cases hp : pixelInfo c none with
    | error e => rw [hp] at henc; cases henc
    | ok v =>
    obtain ⟨dib, px, colors⟩ := v
    rw [hp, ok_bind] at henc
    have hinfo : (dib = 40 ∨ dib = 108) ∧ colors < 2 ^ 29 := by
      unfold pixelInfo at hp
      cases c <;> cases hp <;> decide
    dsimp only at henc
    cases h1 : mulC 32 w px with
    | error e => rw [h1] at henc; cases henc
    | ok rb =>
    rw [h1, ok_bind] at henc
    cases h2 : (checkedMul 32 w h).bind fun v => checkedMul 32 v px with
    | none => rw [h2] at henc; cases henc
    | some v =>
    rw [h2] at henc
    dsimp only at henc
    cases h3 : mulC 32 h ((4 - rb % 4) % 4) with
    | error e => rw [h3] at henc; cases henc
    | ok padding =>
    rw [h3, ok_bind] at henc
    cases h4 : checkedAdd 32 v padding with
    | none => rw [h4] at henc; cases henc
    | some isz =>
    rw [h4] at henc
    dsimp only at henc
    cases h5 : mulC 32 colors 4 with
    | error e => rw [h5] at henc; cases henc
    | ok ps =>
    rw [h5, ok_bind] at henc
    cases h6 : (checkedAdd 32 14 dib).bind fun v => (checkedAdd 32 v ps).bind fun v => checkedAdd 32 v isz with
    | none => rw [h6] at henc; cases henc
    | some fs =>
    rw [h6] at henc
    dsimp only at henc
    cases h7 : encodeData img w h ((4 - rb % 4) % 4) c none with
    | error e => rw [h7] at henc; cases henc
    | ok data =>
    rw [h7, ok_bind] at henc
    refine ⟨fs, dib, px, isz, colors, data, hinfo.1, hinfo.2, ?_, (Except.ok.inj henc).symm⟩
    unfold checkedAdd at h6
    rw [if_pos (by omega), Option.bind_some] at h6
    split at h6
    · rw [Option.bind_some] at h6
      split at h6
      · cases h6; omega
      · cases h6
    · cases h6
  obtain ⟨fs, dib, px, isz, colors, t, k1, k2, k3, rfl⟩ := key
  obtain ⟨e, he⟩ := new_refused (px := px) (isz := isz) k1 hw hh k2 k3 hbad t
  refine ⟨e, ?_⟩
  unfold decode
  rw [he]
  rfl

/-! ## Examples -/

/-- An image without pixels is encoded. -/
example : ∃ file, encode [] 0 0 .Rgb8 = .ok file ∧ ∃ e, decode file = .error (.err e) := by
  have h : ∃ file, encode [] 0 0 .Rgb8 = .ok file := ⟨_, rfl⟩
  obtain ⟨file, hf⟩ := h
  exact ⟨file, hf, C41_size_false (by decide) (by decide) hf (.inl rfl)⟩

/-- Two rows of three RGB pixels, with three bytes of padding each. -/
example : ∃ file, encode [1, 2, 3, 4, 5, 6, 7, 8, 9, 10, 11, 12, 13, 14, 15, 16, 17, 18] 3 2 .Rgb8 = .ok file ∧ file.length = 78 ∧
    decode file = .ok (3, 2, .Rgb8, [1, 2, 3, 4, 5, 6, 7, 8, 9, 10, 11, 12, 13, 14, 15, 16, 17, 18]) := by
  obtain ⟨f, h1, h2, -, -, h4⟩ := C41_rgb8_roundtrip 3 2 (by decide) (by decide)
    [1, 2, 3, 4, 5, 6, 7, 8, 9, 10, 11, 12, 13, 14, 15, 16, 17, 18] rfl (by decide)
  exact ⟨f, h1, h2, h4⟩

example : ∃ file, encode [1, 2, 3, 4, 5, 6, 7, 8] 2 1 .Rgba8 = .ok file ∧ decode file = .ok (2, 1, .Rgba8, [1, 2, 3, 4, 5, 6, 7, 8]) := by
  obtain ⟨f, h1, -, -, -, h4⟩ := C41_rgba8_roundtrip 2 1 (by decide) (by decide) [1, 2, 3, 4, 5, 6, 7, 8] rfl (by decide)
  exact ⟨f, h1, h4⟩

example : ∃ file, encode [7, 9] 2 1 .L8 = .ok file ∧ decode file = .ok (2, 1, .Rgb8, [7, 7, 7, 9, 9, 9]) := by
  obtain ⟨f, h1, -, -, -, h4⟩ := C41_l8_roundtrip 2 1 (by decide) (by decide) [7, 9] rfl (by decide)
  exact ⟨f, h1, h4⟩

example : ∃ file, encode [7, 255, 9, 0] 2 1 .La8 = .ok file ∧ decode file = .ok (2, 1, .Rgb8, [7, 7, 7, 9, 9, 9]) := by
  obtain ⟨f, h1, -, -, -, h4⟩ := C41_la8_roundtrip 2 1 (by decide) (by decide) [(7, 255), (9, 0)] rfl (by decide)
  exact ⟨f, h1, h4⟩

example : ∃ file, encodeWithPalette [1, 0, 2] 3 1 .L8 (some [(1, 2, 3), (4, 5, 6)]) = .ok file ∧
    decode file = .ok (3, 1, .Rgb8, [4, 5, 6, 1, 2, 3, 0, 0, 0]) := by
  obtain ⟨f, h1, -, -, -, h4⟩ := C41_palette_roundtrip 3 1 (by decide) (by decide) [1, 0, 2] rfl [(1, 2, 3), (4, 5, 6)]
    (by decide) (by decide) (by decide)
  exact ⟨f, h1, h4⟩

end Bmp
end Verif
