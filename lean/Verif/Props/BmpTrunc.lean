import Verif.Proofs.Prefix
import Verif.Props.BmpRoundtrip

/-!
# BMP: truncated files (C54)
-/

namespace Verif
namespace Bmp

/-! ## A file and a longer file -/

theorem readU_sim {n : Nat} {c c' : Cursor} (h : CLe c c') : Sim CLonger (readU n c) (readU n c') := by
  unfold readU
  refine (cursorReadExact_sim h).bind ?_
  rintro ⟨b, c1⟩ ⟨_, c1'⟩ ⟨rfl, h1⟩
  exact .ok ⟨rfl, h1⟩

theorem readCoreHeader_sim {al : Bool} {c c' : Cursor} (h : CLe c c') : Sim CLonger (readCoreHeader al c) (readCoreHeader al c') := by
  unfold readCoreHeader
  refine (readU_sim h).bind ?_
  rintro ⟨w, c1⟩ ⟨_, c1'⟩ ⟨rfl, h1⟩
  refine (readU_sim h1).bind ?_
  rintro ⟨ht, c2⟩ ⟨_, c2'⟩ ⟨rfl, h2⟩
  refine Sim.same fun _ => ?_
  refine (readU_sim h2).bind ?_
  rintro ⟨p, c3⟩ ⟨_, c3'⟩ ⟨rfl, h3⟩
  dsimp only
  split
  · exact .errR
  · refine (readU_sim h3).bind ?_
    rintro ⟨bc, c4⟩ ⟨_, c4'⟩ ⟨rfl, h4⟩
    refine Sim.same fun _ => ?_
    exact .ok ⟨rfl, h4⟩

theorem readInfoHeader_sim {al : Bool} {c c' : Cursor} (h : CLe c c') : Sim CLonger (readInfoHeader al c) (readInfoHeader al c') := by
  unfold readInfoHeader
  refine (readU_sim h).bind ?_
  rintro ⟨w, c1⟩ ⟨_, c1'⟩ ⟨rfl, h1⟩
  refine (readU_sim h1).bind ?_
  rintro ⟨ht, c2⟩ ⟨_, c2'⟩ ⟨rfl, h2⟩
  dsimp only
  split
  · exact .errR
  split
  · exact .errR
  split
  · exact .errR
  refine Sim.same fun _ => ?_
  refine (readU_sim h2).bind ?_
  rintro ⟨p, c3⟩ ⟨_, c3'⟩ ⟨rfl, h3⟩
  dsimp only
  split
  · exact .errR
  refine (readU_sim h3).bind ?_
  rintro ⟨bc, c4⟩ ⟨_, c4'⟩ ⟨rfl, h4⟩
  refine (readU_sim h4).bind ?_
  rintro ⟨comp, c5⟩ ⟨_, c5'⟩ ⟨rfl, h5⟩
  dsimp only
  split
  · exact .errR
  refine Sim.same fun _ => ?_
  refine (readU_sim h5).bind ?_
  rintro ⟨_, c6⟩ ⟨_, c6'⟩ ⟨rfl, h6⟩
  refine (readU_sim h6).bind ?_
  rintro ⟨_, c7⟩ ⟨_, c7'⟩ ⟨rfl, h7⟩
  refine (readU_sim h7).bind ?_
  rintro ⟨_, c8⟩ ⟨_, c8'⟩ ⟨rfl, h8⟩
  refine (readU_sim h8).bind ?_
  rintro ⟨_, c9⟩ ⟨_, c9'⟩ ⟨rfl, h9⟩
  refine (readU_sim h9).bind ?_
  rintro ⟨_, c10⟩ ⟨_, c10'⟩ ⟨rfl, h10⟩
  exact .ok ⟨rfl, h10⟩

theorem readBitmasks_sim {ht : HeaderType} {ty : ImageType} {c c' : Cursor} (h : CLe c c') :
    Sim (fun a b => a.1 = b.1 ∧ a.2.1 = b.2.1 ∧ CLe a.2.2 b.2.2) (readBitmasks ht ty c) (readBitmasks ht ty c') := by
  unfold readBitmasks
  refine (readU_sim h).bind ?_
  rintro ⟨r, c1⟩ ⟨_, c1'⟩ ⟨rfl, h1⟩
  refine (readU_sim h1).bind ?_
  rintro ⟨g, c2⟩ ⟨_, c2'⟩ ⟨rfl, h2⟩
  refine (readU_sim h2).bind ?_
  rintro ⟨b, c3⟩ ⟨_, c3'⟩ ⟨rfl, h3⟩
  refine Sim.bind (Q := CLonger) ?_ ?_
  · cases ht <;> first | exact readU_sim h3 | exact .ok ⟨rfl, h3⟩
  rintro ⟨a, c4⟩ ⟨_, c4'⟩ ⟨rfl, h4⟩
  cases ty <;> first | exact .ok ⟨rfl, rfl, h4⟩ | exact Sim.same fun _ => .ok ⟨rfl, rfl, h4⟩

theorem readPalette_sim {ht : HeaderType} {cu bc : Nat} {c c' : Cursor} (h : CLe c c') :
    Sim CLonger (readPalette ht cu bc c) (readPalette ht cu bc c') := by
  unfold readPalette
  dsimp only
  refine Sim.same fun size => ?_
  refine (cursorReadExact_sim h).bind ?_
  rintro ⟨b, c1⟩ ⟨_, c1'⟩ ⟨rfl, h1⟩
  dsimp only
  refine Sim.bind (Q := CLe) ?_ ?_
  · split
    · refine (seekCurrent_sim h1).bind ?_
      rintro ⟨_, c2⟩ ⟨_, c2'⟩ ⟨rfl, h2⟩
      exact .ok h2
    · exact .ok h1
  intro c2 c2' h2
  exact Sim.same fun _ => .ok ⟨rfl, h2⟩

theorem readFileHeader_sim {c c' : Cursor} (h : CLe c c') : Sim CLonger (readFileHeader c) (readFileHeader c') := by
  unfold readFileHeader
  refine (cursorReadExact_sim h).bind ?_
  rintro ⟨b, c1⟩ ⟨_, c1'⟩ ⟨rfl, h1⟩
  dsimp only
  split
  · exact .errR
  refine (readU_sim h1).bind ?_
  rintro ⟨_, c2⟩ ⟨_, c2'⟩ ⟨rfl, h2⟩
  refine (readU_sim h2).bind ?_
  rintro ⟨_, c3⟩ ⟨_, c3'⟩ ⟨rfl, h3⟩
  exact readU_sim h3

/-- The same decoder on a longer file. -/
def DLe (d d' : Decoder) : Prop := d' = { d with reader := d'.reader } ∧ CLe d.reader d'.reader

theorem readMetadata_sim {nf al : Bool} {c c' : Cursor} (h : CLe c c') : Sim DLe (readMetadata nf al c) (readMetadata nf al c') := by
  unfold readMetadata
  refine Sim.bind (Q := CLonger) ?_ ?_
  · split
    · exact .ok ⟨rfl, h⟩
    · exact readFileHeader_sim h
  rintro ⟨off, c1⟩ ⟨_, c1'⟩ ⟨rfl, h1⟩
  dsimp only
  refine (readU_sim h1).bind ?_
  rintro ⟨size, c2⟩ ⟨_, c2'⟩ ⟨rfl, h2⟩
  dsimp only
  rw [h1.2]
  refine Sim.same fun ht => ?_
  refine Sim.bind (Q := CLonger) ?_ ?_
  · cases ht <;> first | exact readCoreHeader_sim h2 | exact readInfoHeader_sim h2
  rintro ⟨info, c3⟩ ⟨_, c3'⟩ ⟨rfl, h3⟩
  dsimp only
  refine Sim.bind (Q := fun a b => a.1 = b.1 ∧ a.2.1 = b.2.1 ∧ CLe a.2.2 b.2.2) ?_ ?_
  · cases info.imageType <;> first | exact .ok ⟨rfl, rfl, h3⟩ | exact readBitmasks_sim h3
  rintro ⟨f, a, c4⟩ ⟨_, _, c4'⟩ ⟨rfl, rfl, h4⟩
  dsimp only at h4 ⊢
  refine (seekStart_sim h4).bind ?_
  rintro ⟨_, c5⟩ ⟨_, c5'⟩ ⟨rfl, h5⟩
  dsimp only at h5 ⊢
  refine Sim.bind (Q := CLonger) ?_ ?_
  · have hp := readPalette_sim (ht := ht) (cu := info.colorsUsed) (bc := info.bitCount) h5
    have hp' : Sim CLonger (do
        let (p, c) ← readPalette ht info.colorsUsed info.bitCount c5
        Except.ok (some p, c)) (do
        let (p, c) ← readPalette ht info.colorsUsed info.bitCount c5'
        Except.ok (some p, c)) := by
      refine hp.bind ?_
      rintro ⟨p, c6⟩ ⟨_, c6'⟩ ⟨rfl, h6⟩
      exact .ok ⟨rfl, h6⟩
    cases info.imageType <;> first | exact hp' | exact .ok ⟨rfl, h5⟩
  rintro ⟨p, c6⟩ ⟨_, c6'⟩ ⟨rfl, h6⟩
  dsimp only at h6 ⊢
  rw [h6.2]
  exact .ok ⟨rfl, h6⟩

theorem rowLoop_sim {f : List UInt8 → List UInt8 → R (List UInt8 × List UInt8)} (hf : ∀ row s s', s <+: s' → Sim Longer (f row s) (f row s'))
    (rows : List (List UInt8)) {s s' : List UInt8} (h : s <+: s') : Sim Longer (rowLoop rows f s) (rowLoop rows f s') := by
  unfold rowLoop
  refine forList_sim (Q := Longer) rows _ _ ⟨rfl, h⟩ ?_
  rintro row ⟨a, s⟩ ⟨_, s'⟩ ⟨rfl, h⟩
  refine (hf row s s' h).bind ?_
  rintro ⟨r, s1⟩ ⟨_, s1'⟩ ⟨rfl, h1⟩
  exact .ok ⟨rfl, h1⟩

theorem withRows_sim {f : List UInt8 → List UInt8 → R (List UInt8 × List UInt8)} (hf : ∀ row s s', s <+: s' → Sim Longer (f row s) (f row s'))
    {buf : List UInt8} {w h c : Nat} {td : Bool} {s s' : List UInt8} (hs : s <+: s') :
    Sim Longer (withRows buf w h c td f s) (withRows buf w h c td f s') := by
  unfold withRows
  refine Sim.same fun _ => Sim.same fun _ => Sim.same fun _ => Sim.same fun _ => ?_
  dsimp only
  split
  · refine (rowLoop_sim hf _ hs).bind ?_
    rintro ⟨r, s1⟩ ⟨_, s1'⟩ ⟨rfl, h1⟩
    exact .ok ⟨rfl, h1⟩
  · refine (rowLoop_sim hf _ hs).bind ?_
    rintro ⟨r, s1⟩ ⟨_, s1'⟩ ⟨rfl, h1⟩
    exact .ok ⟨rfl, h1⟩

theorem pixelLoop_sim {n : Nat} {f : List UInt8 → List UInt8 → R (List UInt8)} (ps : List (List UInt8)) {s s' : List UInt8} (h : s <+: s') :
    Sim Longer (pixelLoop n f ps s) (pixelLoop n f ps s') := by
  unfold pixelLoop
  refine forList_sim (Q := Longer) ps _ _ ⟨rfl, h⟩ ?_
  rintro row ⟨a, s⟩ ⟨_, s'⟩ ⟨rfl, h⟩
  refine (readExact_sim h).bind ?_
  rintro ⟨r, s1⟩ ⟨_, s1'⟩ ⟨rfl, h1⟩
  exact Sim.same fun _ => .ok ⟨rfl, h1⟩

theorem drop_prefix {s s' : List UInt8} (h : s <+: s') (n : Nat) : s.drop n <+: s'.drop n := by
  obtain ⟨t, rfl⟩ := h
  rw [List.drop_append]
  exact List.prefix_append _ _

theorem readInsn_sim {r4 : Bool} {s s' : List UInt8} (h : s <+: s') : Sim Longer (readInsn r4 s) (readInsn r4 s') := by
  unfold readInsn
  refine (readU8_sim h).bind ?_
  rintro ⟨ctl, s1⟩ ⟨_, s1'⟩ ⟨rfl, h1⟩
  dsimp only
  split
  · refine (readU8_sim h1).bind ?_
    rintro ⟨op, s2⟩ ⟨_, s2'⟩ ⟨rfl, h2⟩
    dsimp only
    split
    · exact .ok ⟨rfl, h2⟩
    split
    · exact .ok ⟨rfl, h2⟩
    split
    · refine (readU8_sim h2).bind ?_
      rintro ⟨x, s3⟩ ⟨_, s3'⟩ ⟨rfl, h3⟩
      refine (readU8_sim h3).bind ?_
      rintro ⟨y, s4⟩ ⟨_, s4'⟩ ⟨rfl, h4⟩
      exact .ok ⟨rfl, h4⟩
    · refine (readExact_sim h2).bind ?_
      rintro ⟨x, s3⟩ ⟨_, s3'⟩ ⟨rfl, h3⟩
      exact .ok ⟨rfl, h3⟩
  · refine (readExact_sim h1).bind ?_
    rintro ⟨x, s3⟩ ⟨_, s3'⟩ ⟨rfl, h3⟩
    exact .ok ⟨rfl, h3⟩

theorem rleLoop_sim {r4 : Bool} {pal : List Rgb} {ch : Nat} : ∀ (fuel fuel' : Nat) (st : Rle) {s s' : List UInt8}, fuel ≤ fuel' → s <+: s' →
    Sim Eq (rleLoop r4 pal ch fuel st s) (rleLoop r4 pal ch fuel' st s') := by
  intro fuel
  induction fuel with
  | zero => intro fuel' st s s' _ _; exact .panicR
  | succ fuel ih =>
    intro fuel' st s s' hf h
    obtain ⟨fuel', rfl⟩ : ∃ k, fuel' = k + 1 := ⟨fuel' - 1, by omega⟩
    rw [rleLoop, rleLoop]
    refine (readInsn_sim h).bind ?_
    rintro ⟨insn, s1⟩ ⟨_, s1'⟩ ⟨rfl, h1⟩
    dsimp only at h1 ⊢
    cases insn with
    | endOfFile => exact .ok rfl
    | endOfRow =>
      dsimp only
      split
      · exact .ok rfl
      · exact Sim.same fun _ => ih _ _ (by omega) h1
    | delta dx dy => exact Sim.same fun _ => ih _ _ (by omega) h1
    | absolute n b =>
      refine Sim.same fun r => ?_
      split
      · exact ih _ _ (by omega) h1
      · exact .errR
    | run n b =>
      refine Sim.same fun r => ?_
      split
      · exact ih _ _ (by omega) h1
      · exact .errR

theorem readImageData_sim {d : Decoder} {r : Cursor} (h : CLe d.reader r) (buf : List UInt8) :
    Sim Eq (readImageData d buf) (readImageData { d with reader := r } buf) := by
  have hs := drop_prefix h.1 d.dataOffset
  have fin : ∀ {x y : R (List UInt8 × List UInt8)}, Sim Longer x y →
      Sim Eq (do let (b, _) ← x; Except.ok b) (do let (b, _) ← y; Except.ok b) := by
    intro x y h
    refine h.bind ?_
    rintro ⟨b, _⟩ ⟨_, _⟩ ⟨rfl, _⟩
    exact .ok rfl
  have hfull : ∀ fmt, Sim Eq (readFull d fmt buf) (readFull { d with reader := r } fmt buf) := by
    intro fmt
    unfold readFull
    refine fin (withRows_sim (fun row s s' hs => ?_) hs)
    refine Sim.same fun it => ?_
    refine (pixelLoop_sim _ hs).bind ?_
    rintro ⟨r, s1⟩ ⟨_, s1'⟩ ⟨rfl, h1⟩
    refine (readExact_sim h1).bind ?_
    rintro ⟨p, s2⟩ ⟨_, s2'⟩ ⟨rfl, h2⟩
    exact .ok ⟨rfl, h2⟩
  have h16 : ∀ f, Sim Eq (read16 d f buf) (read16 { d with reader := r } f buf) := by
    intro f
    unfold read16
    refine fin (withRows_sim (fun row s s' hs => ?_) hs)
    refine Sim.same fun it => ?_
    refine (pixelLoop_sim _ hs).bind ?_
    rintro ⟨r, s1⟩ ⟨_, s1'⟩ ⟨rfl, h1⟩
    refine (readExact_sim h1).bind ?_
    rintro ⟨p, s2⟩ ⟨_, s2'⟩ ⟨rfl, h2⟩
    exact .ok ⟨rfl, h2⟩
  have h32 : ∀ f, Sim Eq (read32 d f buf) (read32 { d with reader := r } f buf) := by
    intro f
    unfold read32
    refine fin (withRows_sim (fun row s s' hs => ?_) hs)
    exact Sim.same fun it => pixelLoop_sim _ hs
  have hpal : Sim Eq (readPalettized d buf) (readPalettized { d with reader := r } buf) := by
    unfold readPalettized
    refine Sim.same fun pal => ?_
    refine fin (withRows_sim (fun row s s' hs => ?_) hs)
    unfold paletteRow
    refine (readExact_sim hs).bind ?_
    rintro ⟨p, s2⟩ ⟨_, s2'⟩ ⟨rfl, h2⟩
    dsimp only
    split
    · exact Sim.same fun _ => Sim.same fun _ => .ok ⟨rfl, h2⟩
    · exact Sim.same fun _ => Sim.same fun _ => .ok ⟨rfl, h2⟩
  have hrle : ∀ r4, Sim Eq (readRle d r4 buf) (readRle { d with reader := r } r4 buf) := by
    intro r4
    unfold readRle
    refine Sim.same fun pal => Sim.same fun _ => ?_
    dsimp only
    change Sim Eq (match (if d.topDown = true then chunksOf (d.width * d.channels) buf else (chunksOf (d.width * d.channels) buf).reverse) with
      | [] => _ | row :: left => _) (match (if d.topDown = true then chunksOf (d.width * d.channels) buf else (chunksOf (d.width * d.channels) buf).reverse) with
      | [] => _ | row :: left => _)
    split
    · exact .ok rfl
    · refine Sim.same fun it => ?_
      refine (rleLoop_sim _ _ _ (by have := hs.length_le; omega) hs).bind ?_
      rintro o _ rfl
      exact .ok rfl
  unfold readImageData
  dsimp only
  cases d.imageType with
  | Palette => exact hpal
  | RGB16 => exact h16 _
  | RGB24 => exact hfull _
  | RGB32 => exact hfull _
  | RGBA32 => exact hfull _
  | RLE8 => exact hrle _
  | RLE4 => exact hrle _
  | Bitfields16 =>
    dsimp only
    split
    · exact h16 _
    · exact .errR
  | Bitfields32 =>
    dsimp only
    split
    · split
      · exact hfull _
      · split
        · exact hfull _
        · exact h32 _
    · exact .errR

/-- **C54** (BMP): when the beginning of a file decodes, the whole file decodes to the same image; so a file cut short either
fails or gives the image of the whole file, never another one. -/
theorem C54_bmp_prefix {file : List UInt8} (k : Nat) {r : Nat × Nat × ColorType × List UInt8}
    (h : decode (file.take k) = .ok r) : decode file = .ok r := by
  have hs : Sim Eq (decode (file.take k)) (decode file) := by
    unfold decode Decoder.new
    have h0 : CLe ⟨file.take k, 0⟩ ⟨file, 0⟩ := ⟨List.take_prefix _ _, rfl⟩
    refine (readMetadata_sim h0).bind ?_
    rintro d d' ⟨e, hr⟩
    rw [e]
    refine Sim.bind (Q := Eq) ?_ ?_
    · unfold Decoder.readImage
      exact Sim.same fun _ => readImageData_sim hr _
    · rintro b _ rfl
      exact .ok rfl
  obtain ⟨b, hb, rfl⟩ := hs r h
  exact hb

/-! ## How many bytes an image takes -/

/-- The number of bits of a pixel for an image type. -/
def Bits (ty : ImageType) (bc : Nat) : Prop :=
  (ty = .RGB16 ∨ ty = .Bitfields16 → bc = 16) ∧ (ty = .RGB24 → bc = 24) ∧ (ty = .RGB32 ∨ ty = .RGBA32 ∨ ty = .Bitfields32 → bc = 32)

theorem imageTypeOf_bits (al : Bool) (comp bc : Nat) : Post (fun t => Bits t bc) (imageTypeOf al comp bc) := by
  unfold imageTypeOf
  repeat' split
  all_goals first
    | exact .errR
    | (refine .ok ?_; unfold Bits; refine ⟨fun h => ?_, fun h => ?_, fun h => ?_⟩ <;> first | assumption | simp at h)

theorem readMetadata_bits (nf al : Bool) (c : Cursor) : Post (fun d => Bits d.imageType d.bitCount) (readMetadata nf al c) := by
  unfold readMetadata
  refine Post.any fun ⟨off, c1⟩ => ?_
  dsimp only
  refine Post.any fun ⟨size, c2⟩ => ?_
  dsimp only
  refine Post.any fun ht => ?_
  refine Post.bind (Q := fun r => Bits r.1.imageType r.1.bitCount) ?_ ?_
  · have h1 : Post (fun r => Bits r.1.imageType r.1.bitCount) (readInfoHeader al c2) := by
      unfold readInfoHeader
      refine Post.any fun ⟨w, _⟩ => Post.any fun ⟨h, _⟩ => ?_
      dsimp only
      split
      · exact .errR
      split
      · exact .errR
      split
      · exact .errR
      refine Post.any fun _ => Post.any fun ⟨_, _⟩ => ?_
      dsimp only
      split
      · exact .errR
      refine Post.any fun ⟨bc, _⟩ => Post.any fun ⟨comp, _⟩ => ?_
      dsimp only
      split
      · exact .errR
      refine (imageTypeOf_bits al comp bc).bind fun ty hty => ?_
      exact Post.any fun ⟨_, _⟩ => Post.any fun ⟨_, _⟩ => Post.any fun ⟨_, _⟩ => Post.any fun ⟨_, _⟩ => Post.any fun ⟨_, _⟩ => .ok hty
    have h2 : Post (fun r => Bits r.1.imageType r.1.bitCount) (readCoreHeader al c2) := by
      unfold readCoreHeader
      refine Post.any fun ⟨w, _⟩ => Post.any fun ⟨h, _⟩ => Post.any fun _ => Post.any fun ⟨_, _⟩ => ?_
      dsimp only
      split
      · exact .errR
      refine Post.any fun ⟨bc, _⟩ => ?_
      refine Post.bind (Q := fun t => Bits t bc) ?_ fun ty hty => .ok hty
      dsimp only
      split
      · refine .ok ?_; simp [Bits]
      · split
        · refine .ok ?_; simpa [Bits]
        · exact .errR
    cases ht <;> first | exact h2 | exact h1
  · rintro ⟨info, c3⟩ hb
    dsimp only at hb ⊢
    exact Post.any fun ⟨_, _, _⟩ => Post.any fun ⟨_, _⟩ => Post.any fun ⟨_, _⟩ => .ok hb

theorem rowLoop_post {f : List UInt8 → List UInt8 → R (List UInt8 × List UInt8)} {n k : Nat}
    (hf : ∀ row s, row.length = n → Post (fun r => r.2.length + k = s.length) (f row s)) (rows : List (List UInt8))
    (hrows : ∀ r ∈ rows, r.length = n) (s : List UInt8) :
    Post (fun r => r.2.length + rows.length * k = s.length) (rowLoop rows f s) := by
  unfold rowLoop
  have H := forList_post (f := fun row (st : List (List UInt8) × List UInt8) => do
      let (row, s) ← f row st.2
      Except.ok (st.1 ++ [row], s))
    (fun (left : List (List UInt8)) (st : List (List UInt8) × List UInt8) =>
      st.2.length + rows.length * k = s.length + left.length * k ∧ ∀ r ∈ left, r.length = n) rows ([], s)
    ⟨rfl, hrows⟩ (by
      rintro row left ⟨acc, t⟩ ⟨h1, h2⟩
      refine (hf row t (h2 row (by simp))).bind ?_
      rintro ⟨o, t'⟩ h3
      refine .ok ⟨?_, fun r hr => h2 r (by simp [hr])⟩
      dsimp only at h1 h3 ⊢
      rw [List.length_cons, Nat.add_mul, Nat.one_mul] at h1
      omega)
  intro r hr
  have h3 := (H r hr).1
  simpa using h3

theorem withRows_post {f : List UInt8 → List UInt8 → R (List UInt8 × List UInt8)} {w h c k : Nat}
    (hf : ∀ row s, row.length = w * c → Post (fun r => r.2.length + k = s.length) (f row s)) (buf : List UInt8) (td : Bool) (s : List UInt8) :
    Post (fun r => r.2.length + h * k = s.length) (withRows buf w h c td f s) := by
  have as : ∀ {b : Bool} {u : Unit}, assertR b = .ok u → b = true := by
    intro b u h
    unfold assertR at h
    split at h
    · assumption
    · cases h
  have cm : ∀ {a b n : Nat}, unwrapR (checkedMul 64 a b) = .ok n → n = a * b := by
    intro a b n h
    unfold checkedMul unwrapR at h
    split at h
    · rename_i h'
      split at h'
      · cases h'; cases h; rfl
      · cases h'
    · cases h
  intro r hr
  unfold withRows at hr
  rw [bind_eq_ok] at hr
  obtain ⟨rw', e1, hr⟩ := hr
  rw [bind_eq_ok] at hr
  obtain ⟨fl, e2, hr⟩ := hr
  cases cm e1
  cases cm e2
  rw [bind_eq_ok] at hr
  obtain ⟨_, h1, hr⟩ := hr
  rw [bind_eq_ok] at hr
  obtain ⟨_, h2, hr⟩ := hr
  have h1 : buf.length = c * w * h := of_decide_eq_true (as h1)
  have h2 : c * w ≠ 0 := of_decide_eq_true (as h2)
  obtain ⟨r1, r2⟩ := rows_lengths (n := c * w) (k := h) (by omega) (by rw [h1, Nat.mul_comm])
  split at hr
  · rw [bind_eq_ok] at hr
    obtain ⟨⟨rows, t⟩, h3, hr⟩ := hr
    have h4 := rowLoop_post (fun row s hl => hf row s (by rw [hl, Nat.mul_comm])) _ r1 s _ h3
    cases hr
    rw [r2] at h4
    exact h4
  · rw [bind_eq_ok] at hr
    obtain ⟨⟨rows, t⟩, h3, hr⟩ := hr
    have h4 := rowLoop_post (fun row s hl => hf row s (by rw [hl, Nat.mul_comm])) _ (by simpa using r1) s _ h3
    cases hr
    rw [List.length_reverse, r2] at h4
    exact h4

theorem pixelLoop_post {n : Nat} {f : List UInt8 → List UInt8 → R (List UInt8)} (ps : List (List UInt8)) (s : List UInt8) :
    Post (fun r => r.2.length + ps.length * n = s.length) (pixelLoop n f ps s) := by
  unfold pixelLoop
  have H := forList_post (f := fun p (st : List UInt8 × List UInt8) => do
      let (b, s) ← readExact n st.2
      let p ← f b p
      Except.ok (st.1 ++ p, s))
    (fun (left : List (List UInt8)) (st : List UInt8 × List UInt8) =>
      st.2.length + ps.length * n = s.length + left.length * n) ps ([], s)
    rfl (by
      rintro p left ⟨acc, t⟩ h1
      refine (readExact_post n t).bind ?_
      rintro ⟨o, t'⟩ ⟨-, h3⟩
      refine Post.any fun p' => .ok ?_
      dsimp only at h1 h3 ⊢
      rw [List.length_cons, Nat.add_mul, Nat.one_mul] at h1
      omega)
  intro r hr
  have h3 := H r hr
  simpa using h3

/-- Reading the pixels of a file that is not run-length encoded, into any buffer, succeeds only when all rows are there. -/
theorem rows_present_of_data {file : List UInt8} {d : Decoder} (hd : Decoder.new file = .ok d) (hty : d.imageType ≠ .RLE4 ∧ d.imageType ≠ .RLE8)
    {buf0 buf : List UInt8} (h : readImageData d buf0 = .ok buf) :
    d.dataOffset + d.height * ((d.bitCount * d.width + 31) / 32 * 4) ≤ file.length := by
  have ht := readMetadata_total false false ⟨file, 0⟩
  have hb := readMetadata_bits false false ⟨file, 0⟩ d hd
  unfold Decoder.new at hd
  rw [hd] at ht
  obtain ⟨hg, hh, hbytes, -, -⟩ := ht
  dsimp only at hbytes
  have hch := channels_eq hg.indexed
  have hcp : 0 < d.channels := by rcases hch.2.1 with h | h <;> omega
  generalize hk : (d.bitCount * d.width + 31) / 32 * 4 = k
  have pix : ∀ row : List UInt8, row.length = d.width * d.channels → ∀ it, pixels d.channels row = .ok it → it.rest.length = d.width := by
    intro row hr it hit
    obtain ⟨it', e, h1, -, h3⟩ := pixels_ok hcp hr
    rw [e] at hit
    cases hit
    rw [h3]
    exact (rows_lengths hcp hr).2
  have fin : ∀ {x : R (List UInt8 × List UInt8)} {b : List UInt8}, (do let (b, _) ← x; Except.ok b) = .ok b →
      Post (fun r => r.2.length + d.height * k = (d.reader.bytes.drop d.dataOffset).length) x →
      d.dataOffset + d.height * k ≤ file.length := by
    intro x b hx hp
    rw [bind_eq_ok] at hx
    obtain ⟨a, ha, -⟩ := hx
    have := hp a ha
    rw [List.length_drop, hbytes] at this
    have hk4 : 0 < k := by
      rw [← hk]
      have : 1 ≤ d.bitCount * d.width := Nat.mul_pos (by
        obtain ⟨b1, b2, b3⟩ := hb
        cases hi : d.imageType with
        | Palette => have := hg.bits hi; omega
        | RGB16 => have := b1 (.inl hi); omega
        | RGB24 => have := b2 hi; omega
        | RGB32 => have := b3 (.inl hi); omega
        | RGBA32 => have := b3 (.inr (.inl hi)); omega
        | RLE8 => exact absurd hi hty.2
        | RLE4 => exact absurd hi hty.1
        | Bitfields16 => have := b1 (.inr hi); omega
        | Bitfields32 => have := b3 (.inr (.inr hi)); omega) hg.width.1
      omega
    have : 0 < d.height * k := Nat.mul_pos hh hk4
    omega
  have full : ∀ fmt buf', (fmt = .RGB24 → d.bitCount = 24) → (fmt ≠ .RGB24 → d.bitCount = 32) → readFull d fmt buf' = .ok buf →
      d.dataOffset + d.height * k ≤ file.length := by
    intro fmt buf' f1 f2 hx
    unfold readFull at hx
    refine fin hx (withRows_post (fun row s hr => ?_) _ _ _)
    intro o ho
    rw [bind_eq_ok] at ho
    obtain ⟨it, hit, ho⟩ := ho
    have hlen := pix row hr it hit
    refine Post.bind (P := fun o => o.2.length + k = s.length) (pixelLoop_post (n := fmt.size) _ s) ?_ o ho
    rintro ⟨row', s1⟩ h1
    refine Post.bind (readExact_post _ s1) ?_
    rintro ⟨_, s2⟩ ⟨-, h2⟩
    refine .ok ?_
    dsimp only at h1 h2 ⊢
    rw [hlen] at h1
    by_cases hfmt : fmt = .RGB24
    · rw [if_pos hfmt] at h2
      rw [f1 hfmt] at hk
      rw [hfmt] at h1
      simp only [FullFormat.size] at h1
      omega
    · rw [if_neg hfmt] at h2
      rw [f2 hfmt] at hk
      have : fmt.size = 4 := by cases fmt <;> first | rfl | exact absurd rfl hfmt
      rw [this] at h1
      omega
  have r16 : ∀ f buf', d.bitCount = 16 → read16 d f buf' = .ok buf → d.dataOffset + d.height * k ≤ file.length := by
    intro f buf' f1 hx
    unfold read16 at hx
    refine fin hx (withRows_post (fun row s hr => ?_) _ _ _)
    intro o ho
    rw [bind_eq_ok] at ho
    obtain ⟨it, hit, ho⟩ := ho
    have hlen := pix row hr it hit
    refine Post.bind (P := fun o => o.2.length + k = s.length) (pixelLoop_post (n := 2) _ s) ?_ o ho
    rintro ⟨row', s1⟩ h1
    refine Post.bind (readExact_post _ s1) ?_
    rintro ⟨_, s2⟩ ⟨-, h2⟩
    refine .ok ?_
    dsimp only at h1 h2 ⊢
    rw [hlen] at h1
    rw [f1] at hk
    omega
  have r32 : ∀ f buf', d.bitCount = 32 → read32 d f buf' = .ok buf → d.dataOffset + d.height * k ≤ file.length := by
    intro f buf' f1 hx
    unfold read32 at hx
    refine fin hx (withRows_post (fun row s hr => ?_) _ _ _)
    intro o ho
    rw [bind_eq_ok] at ho
    obtain ⟨it, hit, ho⟩ := ho
    have hlen := pix row hr it hit
    have h1 := pixelLoop_post (n := 4) _ s o ho
    rw [hlen] at h1
    rw [f1] at hk
    omega
  obtain ⟨b1, b2, b3⟩ := hb
  unfold readImageData at h
  cases hi : d.imageType with
  | Palette =>
    rw [hi] at h
    dsimp only at h
    unfold readPalettized at h
    rw [bind_eq_ok] at h
    obtain ⟨pal, -, h⟩ := h
    refine fin h (withRows_post (fun row s hr => ?_) _ _ _)
    unfold paletteRow
    refine Post.bind (readExact_post _ s) ?_
    rintro ⟨idx, s1⟩ ⟨-, h2⟩
    dsimp only at h2 ⊢
    rw [hk] at h2
    split
    · exact Post.any fun _ => Post.any fun _ => .ok h2
    · exact Post.any fun _ => Post.any fun _ => .ok h2
  | RGB16 => rw [hi] at h; exact r16 _ _ (b1 (.inl hi)) h
  | RGB24 => rw [hi] at h; exact full _ _ (fun _ => b2 hi) (fun hne => absurd rfl hne) h
  | RGB32 => rw [hi] at h; exact full _ _ (by intro hc; cases hc) (fun _ => b3 (.inl hi)) h
  | RGBA32 => rw [hi] at h; exact full _ _ (by intro hc; cases hc) (fun _ => b3 (.inr (.inl hi))) h
  | RLE8 => exact absurd hi hty.2
  | RLE4 => exact absurd hi hty.1
  | Bitfields16 =>
    rw [hi] at h
    dsimp only at h
    split at h
    · exact r16 _ _ (b1 (.inr hi)) h
    · cases h
  | Bitfields32 =>
    rw [hi] at h
    dsimp only at h
    have hb := b3 (.inr (.inr hi))
    split at h
    · split at h
      · exact full _ _ (by intro hc; cases hc) (fun _ => hb) h
      · split at h
        · exact full _ _ (by intro hc; cases hc) (fun _ => hb) h
        · exact r32 _ _ hb h
    · cases h

/-- **C54** (BMP): a file whose pixels are not run-length encoded decodes only when it has the data of all its rows, each
padded to a multiple of four bytes. -/
theorem C54_bmp_rows_present {file : List UInt8} {d : Decoder} (hd : Decoder.new file = .ok d) (hty : d.imageType ≠ .RLE4 ∧ d.imageType ≠ .RLE8)
    {r : Nat × Nat × ColorType × List UInt8} (h : decode file = .ok r) :
    d.dataOffset + d.height * ((d.bitCount * d.width + 31) / 32 * 4) ≤ file.length := by
  unfold decode at h
  rw [hd, ok_bind, bind_eq_ok] at h
  obtain ⟨buf, h, -⟩ := h
  unfold Decoder.readImage at h
  rw [bind_eq_ok] at h
  obtain ⟨_, -, h⟩ := h
  exact rows_present_of_data hd hty h

/-- A file that ends with its rows does not decode when its end is cut off. -/
theorem tight_prefix {file : List UInt8} (ht : Tight file) {k : Nat} (hk : k < file.length) : ∃ e, decode (file.take k) = .error (.err e) := by
  have htot := C62_decode_total (file.take k)
  cases h : decode (file.take k) with
  | error e =>
    cases e with
    | err e => exact ⟨e, rfl⟩
    | panic => exact absurd h htot.1
  | ok r =>
    exfalso
    cases hd : Decoder.new (file.take k) with
    | error e => unfold decode at h; rw [hd] at h; cases h
    | ok d =>
      have h0 : CLe ⟨file.take k, 0⟩ ⟨file, 0⟩ := ⟨List.take_prefix _ _, rfl⟩
      obtain ⟨d', e1, e2, -⟩ := readMetadata_sim h0 d hd
      obtain ⟨d'', e3, e4, e5, e6⟩ := ht
      unfold Decoder.new at e3
      rw [e1] at e3
      cases e3
      rw [e2] at e4 e5 e6
      have := C54_bmp_rows_present hd ⟨e4, e5⟩ h
      dsimp only at e6
      rw [List.length_take] at this
      omega

/-- **C54** (BMP): no proper prefix of a file that the encoder wrote decodes. -/
theorem C54_bmp_rgb8 (w h : Nat) (hw : 1 ≤ w ∧ w ≤ 65535) (hh : 1 ≤ h ∧ h ≤ 65535) (img : List UInt8)
    (hl : img.length = w * h * 3) (hsize : 54 + h * ((w * 3 + 3) / 4 * 4) < 2 ^ 32) {file : List UInt8}
    (henc : encode img w h .Rgb8 = .ok file) {k : Nat} (hk : k < file.length) : ∃ e, decode (file.take k) = .error (.err e) := by
  obtain ⟨f, h1, -, -, h4, -⟩ := C41_rgb8_roundtrip w h hw hh img hl hsize
  cases henc.symm.trans h1
  exact tight_prefix h4 hk

/-- **C54** (BMP) for RGBA. -/
theorem C54_bmp_rgba8 (w h : Nat) (hw : 1 ≤ w ∧ w ≤ 65535) (hh : 1 ≤ h ∧ h ≤ 65535) (img : List UInt8)
    (hl : img.length = w * h * 4) (hsize : 122 + h * (w * 4) < 2 ^ 32) {file : List UInt8}
    (henc : encode img w h .Rgba8 = .ok file) {k : Nat} (hk : k < file.length) : ∃ e, decode (file.take k) = .error (.err e) := by
  obtain ⟨f, h1, -, -, h4, -⟩ := C41_rgba8_roundtrip w h hw hh img hl hsize
  cases henc.symm.trans h1
  exact tight_prefix h4 hk

/-- **C54** (BMP) for grey images. -/
theorem C54_bmp_l8 (w h : Nat) (hw : 1 ≤ w ∧ w ≤ 65535) (hh : 1 ≤ h ∧ h ≤ 65535) (img : List UInt8)
    (hl : img.length = w * h) (hsize : 1078 + h * ((w + 3) / 4 * 4) < 2 ^ 32) {file : List UInt8}
    (henc : encode img w h .L8 = .ok file) {k : Nat} (hk : k < file.length) : ∃ e, decode (file.take k) = .error (.err e) := by
  obtain ⟨f, h1, -, -, h4, -⟩ := C41_l8_roundtrip w h hw hh img hl hsize
  cases henc.symm.trans h1
  exact tight_prefix h4 hk

/-- **C54** (BMP) for images with a palette. -/
theorem C54_bmp_palette (w h : Nat) (hw : 1 ≤ w ∧ w ≤ 65535) (hh : 1 ≤ h ∧ h ≤ 65535) (img : List UInt8)
    (hl : img.length = w * h) (p : List Rgb) (hp1 : 1 ≤ p.length) (hp2 : p.length ≤ 256)
    (hsize : 54 + p.length * 4 + h * ((w + 3) / 4 * 4) < 2 ^ 32) {file : List UInt8}
    (henc : encodeWithPalette img w h .L8 (some p) = .ok file) {k : Nat} (hk : k < file.length) :
    ∃ e, decode (file.take k) = .error (.err e) := by
  obtain ⟨f, h1, -, -, h4, -⟩ := C41_palette_roundtrip w h hw hh img hl p hp1 hp2 hsize
  cases henc.symm.trans h1
  exact tight_prefix h4 hk

/-- A one-pixel image: the file has 58 bytes, of which the last is padding; without it the file does not decode. -/
example : ∃ file, encode [1, 2, 3] 1 1 .Rgb8 = .ok file ∧ file.length = 58 ∧ ∃ e, decode (file.take 57) = .error (.err e) := by
  obtain ⟨f, h1, h2, -, -, -⟩ := C41_rgb8_roundtrip 1 1 (by decide) (by decide) [1, 2, 3] rfl (by decide)
  exact ⟨f, h1, h2, C54_bmp_rgb8 1 1 (by decide) (by decide) [1, 2, 3] rfl (by decide) h1 (by rw [h2]; decide)⟩

end Bmp
end Verif
