import Verif.Props.Ico
import Verif.Proofs.JpegScan

/-!
# ICO: the encoder (C74); examples
-/

namespace Verif
namespace Ico

/-! ## A small PNG stand-in, to show that the hypotheses about the PNG codec can be met -/

/-- A "PNG" with the signature, the size as two 16-bit numbers, and raw RGBA pixels. -/
def toy : Png where
  State := Nat × Nat × List UInt8
  new c := do
    let (_, c) ← c.readExact 8
    let (w, c) ← Bmp.readU 2 c
    let (h, c) ← Bmp.readU 2 c
    .ok (w, h, c.rest)
  dimensions s := (s.1, s.2.1)
  colorType _ := .Rgba8
  readImage s buf := if buf.length ≤ s.2.2.length then .ok (s.2.2.take buf.length) else errR .io

/-- Its encoder. -/
def toyEncode (buf : List UInt8) (width height : Nat) (color : ExtendedColorType) : R (List UInt8) :=
  if color = .Rgba8 then .ok (pngSignature ++ leBytes 2 width ++ leBytes 2 height ++ buf) else errR .unsupported

theorem toy_total : toy.Total := by
  refine ⟨fun c => ?_, fun p buf _ => ?_, fun p buf out h => ?_⟩
  · have H : OkOr Bmp.AnyE (fun _ => True) (toy.new c) := by
      refine (Bmp.cursor_readExact_total 8 c).bind fun ⟨_, c1⟩ _ => ?_
      refine (Bmp.readU_total 2 c1).bind fun ⟨_, c2⟩ _ => ?_
      refine (Bmp.readU_total 2 c2).bind fun ⟨_, c3⟩ _ => ?_
      trivial
    exact H.ne_panic
  · show (if _ then _ else _) ≠ _
    split
    · exact fun h => by cases h
    · exact fun h => by cases h
  · change (if _ then _ else _) = _ at h
    split at h
    · cases h
      rw [List.length_take]
      omega
    · cases h

theorem toy_prefix : toy.Prefix := by
  intro c c' hc p hp
  have S : Sim (fun (a b : Nat × Nat × List UInt8) => a.1 = b.1 ∧ a.2.1 = b.2.1 ∧ a.2.2 <+: b.2.2) (toy.new c) (toy.new c') := by
    refine (cursorReadExact_sim hc).bind ?_
    rintro ⟨_, c1⟩ ⟨_, c1'⟩ ⟨rfl, h1⟩
    refine (Bmp.readU_sim h1).bind ?_
    rintro ⟨_, c2⟩ ⟨_, c2'⟩ ⟨rfl, h2⟩
    refine (Bmp.readU_sim h2).bind ?_
    rintro ⟨_, c3⟩ ⟨_, c3'⟩ ⟨rfl, h3⟩
    refine .ok ⟨rfl, rfl, ?_⟩
    dsimp only [Cursor.rest]
    rw [← h3.2]
    exact Bmp.drop_prefix h3.1 _
  obtain ⟨p', h1, h2, h3, h4⟩ := S p hp
  refine ⟨p', h1, by show (_, _) = (_, _); rw [h2, h3], rfl, fun buf out ho => ?_⟩
  change (if _ then _ else _) = _ at ho
  split at ho
  · rename_i hl
    have := h4.length_le
    show (if _ then _ else _) = _
    rw [if_pos (by omega)]
    cases ho
    congr 1
    obtain ⟨t, ht⟩ := h4
    rw [← ht, List.take_append_of_le_length hl]
  · cases ho

/-- The directory and the entry of an icon with one image. -/
def exDir (w h bpp len : Nat) : List UInt8 :=
  [0, 0, 1, 0, 1, 0] ++ [UInt8.ofNat w, UInt8.ofNat h, 0, 0, 1, 0, UInt8.ofNat bpp, 0] ++ leBytes 4 len ++ leBytes 4 22

/-- A BMP header of 40 bytes: the height is twice that of the image. -/
def exBmp (w h bpp : Nat) : List UInt8 :=
  leBytes 4 40 ++ leBytes 4 w ++ leBytes 4 (2 * h) ++ leBytes 2 1 ++ leBytes 2 bpp ++ leBytes 4 0 ++ leBytes 4 0 ++ leBytes 4 0 ++
    leBytes 4 0 ++ leBytes 4 0 ++ leBytes 4 0

/-- An icon of 2x2 pixels, 32 bits, with a mask. -/
def exIcon : List UInt8 :=
  exDir 2 2 32 (40 + 16 + 8) ++ exBmp 2 2 32 ++ [1, 2, 3, 4, 5, 6, 7, 8, 9, 10, 11, 12, 13, 14, 15, 16] ++ [0x40, 0, 0, 0, 0x80, 0, 0, 0]

/-- The same without a mask. -/
def exIconNoMask : List UInt8 := exDir 2 2 32 (40 + 16) ++ exBmp 2 2 32 ++ [1, 2, 3, 4, 5, 6, 7, 8, 9, 10, 11, 12, 13, 14, 15, 16]

set_option maxRecDepth 100000 in
example : decode toy exIcon = .ok (2, 2, .Rgba8, [11, 10, 9, 0, 15, 14, 13, 16, 3, 2, 1, 4, 7, 6, 5, 0]) := by decide +kernel
set_option maxRecDepth 100000 in
example : decode toy exIconNoMask = .ok (2, 2, .Rgba8, [11, 10, 9, 12, 15, 14, 13, 16, 3, 2, 1, 4, 7, 6, 5, 8]) := by decide +kernel
set_option maxRecDepth 100000 in
example : decode toy (exIcon.take 80) = errR .io ∧ decode toy (exIcon ++ [1, 2, 3]) = decode toy exIcon := by decide +kernel
set_option maxRecDepth 100000 in
example : (match Decoder.new toy exIcon with | .ok ⟨_, .bmp d⟩ => decide (d.width = 2 ∧ d.height = 2) | _ => false) = true := by decide +kernel
example : entryCount exIcon = 1 ∧ entryAt exIcon 0 = ⟨2, 2, 32, 64, 22⟩ := by decide +kernel

/-! ## The encoder -/

/-- The directory entries written by `encode_images`. -/
def entriesBytes : List Frame → Nat → List UInt8
  | [], _ => []
  | f :: fs, off => dirEntry f.width f.height f.color off f.encoded.length ++ entriesBytes fs (off + f.encoded.length)

/-- The number of bytes of the images. -/
def dataSize (fs : List Frame) : Nat := (fs.map fun f => f.encoded.length).sum

theorem dataSize_cons (f : Frame) (fs : List Frame) : dataSize (f :: fs) = f.encoded.length + dataSize fs := by
  unfold dataSize; simp

theorem dirLoop (fs : List Frame) : ∀ (out : List UInt8) (off : Nat), off + dataSize fs < 2 ^ 32 →
    forList fs (fun f (st : List UInt8 × Nat) => do
      let offset ← addC 32 st.2 (f.encoded.length % 2 ^ 32)
      Except.ok (st.1 ++ dirEntry f.width f.height f.color st.2 (f.encoded.length % 2 ^ 32), offset)) (out, off) =
    .ok (out ++ entriesBytes fs off, off + dataSize fs) := by
  induction fs with
  | nil => intro out off _; simp [forList, entriesBytes, dataSize]
  | cons f fs ih =>
    intro out off h
    rw [dataSize_cons] at h
    rw [forList]
    dsimp only
    have e : f.encoded.length % 2 ^ 32 = f.encoded.length := Nat.mod_eq_of_lt (by omega)
    rw [e]
    have e1 : addC 32 off f.encoded.length = .ok (off + f.encoded.length) := if_pos (by omega)
    rw [e1, ok_bind, ok_bind, ih _ _ (by omega), entriesBytes, dataSize_cons, List.append_assoc, Nat.add_assoc]

theorem encodeImages_ok {fs : List Frame} (hn : 1 ≤ fs.length ∧ fs.length ≤ 65535) (hs : 6 + 16 * fs.length + dataSize fs < 2 ^ 32) :
    encodeImages fs = .ok (iconDir fs.length ++ entriesBytes fs (6 + 16 * fs.length) ++ (fs.map Frame.encoded).flatten) := by
  unfold encodeImages
  rw [if_neg (by omega)]
  dsimp only
  rw [dirLoop fs _ _ hs, ok_bind]

theorem length_dirEntry (w h : Nat) (c : ExtendedColorType) (s z : Nat) : (dirEntry w h c s z).length = 16 := by simp [dirEntry]

theorem length_entriesBytes : ∀ (fs : List Frame) (off : Nat), (entriesBytes fs off).length = 16 * fs.length := by
  intro fs
  induction fs with
  | nil => intro _; rfl
  | cons f fs ih => intro off; rw [entriesBytes, List.length_append, length_dirEntry, ih, List.length_cons]; omega

theorem entriesBytes_drop : ∀ (fs : List Frame) (off i : Nat) (hi : i < fs.length),
    (entriesBytes fs off).drop (16 * i) = dirEntry fs[i].width fs[i].height fs[i].color (off + dataSize (fs.take i)) fs[i].encoded.length ++
      entriesBytes (fs.drop (i + 1)) (off + dataSize (fs.take (i + 1))) := by
  intro fs
  induction fs with
  | nil => intro off i hi; simp at hi
  | cons f fs ih =>
    intro off i hi
    cases i with
    | zero => simp [entriesBytes, dataSize]
    | succ i =>
      rw [entriesBytes, List.drop_append, List.drop_eq_nil_of_le (by rw [length_dirEntry]; omega), List.nil_append, length_dirEntry,
        show 16 * (i + 1) - 16 = 16 * i by omega, ih _ i (by simpa using hi)]
      simp only [List.getElem_cons_succ, List.take_succ_cons, dataSize_cons, List.drop_succ_cons, Nat.add_assoc]

theorem flatten_drop : ∀ (fs : List Frame) (i : Nat) (hi : i < fs.length),
    (((fs.map Frame.encoded).flatten).drop (dataSize (fs.take i))).take fs[i].encoded.length = fs[i].encoded := by
  intro fs
  induction fs with
  | nil => intro i hi; simp at hi
  | cons f fs ih =>
    intro i hi
    cases i with
    | zero => simp [dataSize]
    | succ i =>
      rw [List.take_succ_cons, dataSize_cons, List.map_cons, List.flatten_cons, ← List.drop_drop, List.drop_left]
      exact ih i (by simpa using hi)

theorem field_at (pre post : List UInt8) (n v : Nat) {pos : Nat} (h : pos = pre.length) :
    field (pre ++ leBytes n v ++ post) pos n = v % 256 ^ n := by
  unfold field
  rw [h, List.append_assoc, List.drop_left, List.take_left' (length_leBytes n v), leNat_leBytes]

/-- The directory entry found in a file that has `dirEntry ..` at its place. -/
theorem entryAt_dirEntry {file pre post : List UInt8} {w h s z i : Nat} {c : ExtendedColorType}
    (hf : file = pre ++ dirEntry w h c s z ++ post) (hp : pre.length = 6 + 16 * i) :
    entryAt file i = ⟨w % 256, h % 256, c.bitsPerPixel % 65536, z % 2 ^ 32, s % 2 ^ 32⟩ := by
  subst hf
  unfold entryAt dirEntry
  have e1 : field (pre ++ (leBytes 1 w ++ leBytes 1 h ++ leBytes 1 0 ++ leBytes 1 0 ++ leBytes 2 0 ++ leBytes 2 c.bitsPerPixel ++
      leBytes 4 z ++ leBytes 4 s) ++ post) (6 + 16 * i) 1 = w % 256 ^ 1 := by
    rw [← field_at pre (leBytes 1 h ++ leBytes 1 0 ++ leBytes 1 0 ++ leBytes 2 0 ++ leBytes 2 c.bitsPerPixel ++ leBytes 4 z ++ leBytes 4 s ++ post)
      1 w hp.symm]
    simp only [List.append_assoc]
  have e2 : field (pre ++ (leBytes 1 w ++ leBytes 1 h ++ leBytes 1 0 ++ leBytes 1 0 ++ leBytes 2 0 ++ leBytes 2 c.bitsPerPixel ++
      leBytes 4 z ++ leBytes 4 s) ++ post) (6 + 16 * i + 1) 1 = h % 256 ^ 1 := by
    rw [← field_at (pre ++ leBytes 1 w) (leBytes 1 0 ++ leBytes 1 0 ++ leBytes 2 0 ++ leBytes 2 c.bitsPerPixel ++ leBytes 4 z ++ leBytes 4 s ++ post)
      1 h (pos := 6 + 16 * i + 1) (by simp; omega)]
    simp only [List.append_assoc]
  have e3 : field (pre ++ (leBytes 1 w ++ leBytes 1 h ++ leBytes 1 0 ++ leBytes 1 0 ++ leBytes 2 0 ++ leBytes 2 c.bitsPerPixel ++
      leBytes 4 z ++ leBytes 4 s) ++ post) (6 + 16 * i + 6) 2 = c.bitsPerPixel % 256 ^ 2 := by
    rw [← field_at (pre ++ leBytes 1 w ++ leBytes 1 h ++ leBytes 1 0 ++ leBytes 1 0 ++ leBytes 2 0) (leBytes 4 z ++ leBytes 4 s ++ post)
      2 c.bitsPerPixel (pos := 6 + 16 * i + 6) (by simp; omega)]
    simp only [List.append_assoc]
  have e4 : field (pre ++ (leBytes 1 w ++ leBytes 1 h ++ leBytes 1 0 ++ leBytes 1 0 ++ leBytes 2 0 ++ leBytes 2 c.bitsPerPixel ++
      leBytes 4 z ++ leBytes 4 s) ++ post) (6 + 16 * i + 8) 4 = z % 256 ^ 4 := by
    rw [← field_at (pre ++ leBytes 1 w ++ leBytes 1 h ++ leBytes 1 0 ++ leBytes 1 0 ++ leBytes 2 0 ++ leBytes 2 c.bitsPerPixel) (leBytes 4 s ++ post)
      4 z (pos := 6 + 16 * i + 8) (by simp; omega)]
    simp only [List.append_assoc]
  have e5 : field (pre ++ (leBytes 1 w ++ leBytes 1 h ++ leBytes 1 0 ++ leBytes 1 0 ++ leBytes 2 0 ++ leBytes 2 c.bitsPerPixel ++
      leBytes 4 z ++ leBytes 4 s) ++ post) (6 + 16 * i + 12) 4 = s % 256 ^ 4 := by
    rw [← field_at (pre ++ leBytes 1 w ++ leBytes 1 h ++ leBytes 1 0 ++ leBytes 1 0 ++ leBytes 2 0 ++ leBytes 2 c.bitsPerPixel ++ leBytes 4 z) post
      4 s (pos := 6 + 16 * i + 12) (by simp; omega)]
    simp only [List.append_assoc]
  rw [e1, e2, e3, e4, e5]
  rfl

theorem bitsPerPixel_le (c : ExtendedColorType) : c.bitsPerPixel ≤ 128 ∨ ∃ b, c = .Unknown b := by
  cases c <;> first | exact .inl (by decide) | exact .inr ⟨_, rfl⟩

/-- An image to be put into an icon: its encoded form, its size and its colour type. -/
abbrev Image := List UInt8 × Nat × Nat × ExtendedColorType

/-- `IcoFrame::with_encoded` for each image, then `encode_images`. -/
def encodeAll (xs : List Image) : R (List UInt8) := do
  let fs ← xs.mapM fun x => Frame.withEncoded x.1 x.2.1 x.2.2.1 x.2.2.2
  encodeImages fs

theorem withEncoded_ok {x : Image} (h : (1 ≤ x.2.1 ∧ x.2.1 ≤ 256) ∧ 1 ≤ x.2.2.1 ∧ x.2.2.1 ≤ 256) :
    Frame.withEncoded x.1 x.2.1 x.2.2.1 x.2.2.2 = .ok ⟨x.1, x.2.1 % 256, x.2.2.1 % 256, x.2.2.2⟩ := by
  unfold Frame.withEncoded
  rw [if_neg (by omega), if_neg (by omega)]

theorem withEncoded_mapM : ∀ {xs : List Image}, (∀ x ∈ xs, (1 ≤ x.2.1 ∧ x.2.1 ≤ 256) ∧ 1 ≤ x.2.2.1 ∧ x.2.2.1 ≤ 256) →
    xs.mapM (fun x => Frame.withEncoded x.1 x.2.1 x.2.2.1 x.2.2.2) =
      .ok (xs.map fun x => ⟨x.1, x.2.1 % 256, x.2.2.1 % 256, x.2.2.2⟩) := by
  intro xs h
  induction xs with
  | nil => rfl
  | cons x xs ih =>
    rw [List.mapM_cons, withEncoded_ok (h x (by simp)), ok_bind, ih fun y hy => h y (by simp [hy]), ok_bind]
    rfl

/-- The number of bytes of the encoded images. -/
def Image.total (xs : List Image) : Nat := (xs.map fun x => x.1.length).sum

/-- **C74**: an icon file written from one to 65535 encoded images of 1 to 256 pixels a side, of fewer than 2^32 bytes in all, has a
directory with an entry for each image, in order, which gives its size, its number of bits per pixel, and the place in the file where exactly
the bytes of the image are found. -/
theorem C74_layout (xs : List Image) (hn : 1 ≤ xs.length ∧ xs.length ≤ 65535)
    (hx : ∀ x ∈ xs, (1 ≤ x.2.1 ∧ x.2.1 ≤ 256) ∧ 1 ≤ x.2.2.1 ∧ x.2.2.1 ≤ 256)
    (hs : 6 + 16 * xs.length + Image.total xs < 2 ^ 32) :
    ∃ file, encodeAll xs = .ok file ∧ file.length = 6 + 16 * xs.length + Image.total xs ∧
      file.take 4 = [0, 0, 1, 0] ∧ entryCount file = xs.length ∧
      ∀ i, (hi : i < xs.length) → sizeByte (entryAt file i).width = xs[i].2.1 ∧ sizeByte (entryAt file i).height = xs[i].2.2.1 ∧
        (entryAt file i).bitsPerPixel = xs[i].2.2.2.bitsPerPixel % 65536 ∧
        6 + 16 * xs.length ≤ (entryAt file i).imageOffset ∧
        (entryAt file i).imageLength = xs[i].1.length ∧
        (file.drop (entryAt file i).imageOffset).take (entryAt file i).imageLength = xs[i].1 := by
  have hfs := withEncoded_mapM hx
  generalize hfr : (xs.map fun x : Image => (⟨x.1, x.2.1 % 256, x.2.2.1 % 256, x.2.2.2⟩ : Frame)) = fs at hfs
  have hl : fs.length = xs.length := by rw [← hfr, List.length_map]
  have hd : dataSize fs = Image.total xs := by
    unfold dataSize Image.total
    rw [← hfr, List.map_map]
    rfl
  have hi' : ∀ i, (hi : i < xs.length) → fs[i]'(by omega) = ⟨xs[i].1, xs[i].2.1 % 256, xs[i].2.2.1 % 256, xs[i].2.2.2⟩ := by
    intro i hi
    subst hfr
    rw [List.getElem_map]
  have henc := encodeImages_ok (fs := fs) (by omega) (by omega)
  refine ⟨iconDir fs.length ++ entriesBytes fs (6 + 16 * fs.length) ++ (fs.map Frame.encoded).flatten, ?_, ?_, ?_, ?_, ?_⟩
  · unfold encodeAll
    rw [hfs, ok_bind, henc]
  · rw [List.length_append, List.length_append, length_entriesBytes, List.length_flatten, List.map_map, hl, ← hd]
    have : (iconDir xs.length).length = 6 := by simp [iconDir]
    rw [this]
    rfl
  · unfold iconDir
    rw [List.append_assoc, List.append_assoc, List.take_left' (by simp)]
    decide
  · unfold entryCount iconDir
    have := field_at (leBytes 2 0 ++ leBytes 2 1) (entriesBytes fs (6 + 16 * fs.length) ++ (fs.map Frame.encoded).flatten) 2 fs.length
      (pos := 4) (by simp)
    simp only [List.append_assoc] at this ⊢
    rw [this, hl]
    exact Nat.mod_eq_of_lt (by omega)
  · intro i hi
    have hif : i < fs.length := by omega
    have hdr : (iconDir fs.length).length = 6 := by simp [iconDir]
    have hle := length_entriesBytes fs (6 + 16 * fs.length)
    have split : iconDir fs.length ++ entriesBytes fs (6 + 16 * fs.length) ++ (fs.map Frame.encoded).flatten =
        (iconDir fs.length ++ (entriesBytes fs (6 + 16 * fs.length)).take (16 * i)) ++
          dirEntry fs[i].width fs[i].height fs[i].color (6 + 16 * fs.length + dataSize (fs.take i)) fs[i].encoded.length ++
          (entriesBytes (fs.drop (i + 1)) (6 + 16 * fs.length + dataSize (fs.take (i + 1))) ++ (fs.map Frame.encoded).flatten) := by
      have := entriesBytes_drop fs (6 + 16 * fs.length) i hif
      rw [← List.take_append_drop (16 * i) (entriesBytes fs (6 + 16 * fs.length)), this]
      simp only [List.append_assoc]
      rw [List.take_append_of_le_length (by rw [List.length_take]; omega), List.take_take, Nat.min_self]
    have he := entryAt_dirEntry (i := i) split (by rw [List.length_append, hdr, List.length_take]; omega)
    have hsum : dataSize (fs.take i) + fs[i].encoded.length ≤ dataSize fs := by
      conv => rhs; rw [← List.take_append_drop i fs]
      unfold dataSize
      rw [List.map_append, List.sum_append, List.drop_eq_getElem_cons hif, List.map_cons, List.sum_cons]
      omega
    have hfi := hi' i hi
    have hm := hx xs[i] (List.getElem_mem hi)
    rw [he]
    dsimp only
    have z1 : fs[i].encoded.length % 2 ^ 32 = fs[i].encoded.length := Nat.mod_eq_of_lt (by omega)
    have z2 : (6 + 16 * fs.length + dataSize (fs.take i)) % 2 ^ 32 = 6 + 16 * fs.length + dataSize (fs.take i) := Nat.mod_eq_of_lt (by omega)
    rw [z1, z2]
    refine ⟨?_, ?_, ?_, by omega, ?_, ?_⟩
    · rw [hfi]; dsimp only; unfold sizeByte; split <;> omega
    · rw [hfi]; dsimp only; unfold sizeByte; split <;> omega
    · rw [hfi]
    · rw [hfi]
    · rw [List.drop_append, List.drop_eq_nil_of_le (by rw [List.length_append]; omega), List.nil_append, List.length_append, hdr, hle,
        show 6 + 16 * fs.length + dataSize (fs.take i) - (6 + 16 * fs.length) = dataSize (fs.take i) by omega, flatten_drop fs i hif, hfi]

example : encodeAll [([1, 2, 3], 16, 256, .Rgba8), ([4, 5], 32, 32, .Rgb8)] = .ok ([0, 0, 1, 0, 2, 0,
    16, 0, 0, 0, 0, 0, 32, 0, 3, 0, 0, 0, 38, 0, 0, 0, 32, 32, 0, 0, 0, 0, 24, 0, 2, 0, 0, 0, 41, 0, 0, 0] ++ [1, 2, 3, 4, 5]) := by decide +kernel

theorem dirLoop_panic (fs : List Frame) (hl : ∀ f ∈ fs, f.encoded.length < 2 ^ 32) : ∀ (out : List UInt8) (off : Nat), off < 2 ^ 32 →
    2 ^ 32 ≤ off + dataSize fs →
    forList fs (fun f (st : List UInt8 × Nat) => do
      let offset ← addC 32 st.2 (f.encoded.length % 2 ^ 32)
      Except.ok (st.1 ++ dirEntry f.width f.height f.color st.2 (f.encoded.length % 2 ^ 32), offset)) (out, off) = panicR := by
  induction fs with
  | nil => intro out off h1 h2; simp [dataSize] at h2; omega
  | cons f fs ih =>
    intro out off h1 h2
    rw [dataSize_cons] at h2
    rw [forList]
    dsimp only
    have e : f.encoded.length % 2 ^ 32 = f.encoded.length := Nat.mod_eq_of_lt (hl f (by simp))
    rw [e]
    by_cases h3 : off + f.encoded.length < 2 ^ 32
    · have e1 : addC 32 off f.encoded.length = .ok (off + f.encoded.length) := if_pos h3
      rw [e1, ok_bind, ok_bind]
      exact ih (fun g hg => hl g (by simp [hg])) _ _ h3 (by omega)
    · have e1 : addC 32 off f.encoded.length = panicR := if_neg h3
      rw [e1]
      rfl

/-- **C74**: writing an icon file fails with an error when there is no image, more than 65535 images, or an image with a side of 0 or of
more than 256 pixels; and it does not fail with an error but panics (integer overflow) when the file would have 2^32 bytes or more. -/
theorem C74_limits (xs : List Image) :
    ((xs.length = 0 ∨ 65535 < xs.length) → ∃ e, encodeAll xs = errR e) ∧
    ((∃ x ∈ xs, ¬ ((1 ≤ x.2.1 ∧ x.2.1 ≤ 256) ∧ 1 ≤ x.2.2.1 ∧ x.2.2.1 ≤ 256)) → encodeAll xs = errR .parameter) ∧
    ((1 ≤ xs.length ∧ xs.length ≤ 65535) → (∀ x ∈ xs, ((1 ≤ x.2.1 ∧ x.2.1 ≤ 256) ∧ 1 ≤ x.2.2.1 ∧ x.2.2.1 ≤ 256) ∧ x.1.length < 2 ^ 32) →
      2 ^ 32 ≤ 6 + 16 * xs.length + Image.total xs → encodeAll xs = panicR) := by
  have bad : ∀ xs : List Image, (∃ x ∈ xs, ¬ ((1 ≤ x.2.1 ∧ x.2.1 ≤ 256) ∧ 1 ≤ x.2.2.1 ∧ x.2.2.1 ≤ 256)) →
      xs.mapM (fun x => Frame.withEncoded x.1 x.2.1 x.2.2.1 x.2.2.2) = errR .parameter := by
    intro xs
    induction xs with
    | nil => rintro ⟨x, hx, -⟩; simp at hx
    | cons x xs ih =>
      rintro ⟨y, hy, hb⟩
      rw [List.mapM_cons]
      by_cases hx : (1 ≤ x.2.1 ∧ x.2.1 ≤ 256) ∧ 1 ≤ x.2.2.1 ∧ x.2.2.1 ≤ 256
      · rw [withEncoded_ok hx, ok_bind]
        rcases List.mem_cons.1 hy with rfl | hy
        · exact absurd hx hb
        · rw [ih ⟨y, hy, hb⟩]; rfl
      · have : Frame.withEncoded x.1 x.2.1 x.2.2.1 x.2.2.2 = errR .parameter := by
          unfold Frame.withEncoded
          split
          · rfl
          · rw [if_pos (by omega)]
        rw [this]; rfl
  refine ⟨fun h => ?_, fun h => ?_, fun h1 h2 h3 => ?_⟩
  · by_cases hb : ∃ x ∈ xs, ¬ ((1 ≤ x.2.1 ∧ x.2.1 ≤ 256) ∧ 1 ≤ x.2.2.1 ∧ x.2.2.1 ≤ 256)
    · exact ⟨.parameter, by unfold encodeAll; rw [bad xs hb]; rfl⟩
    · have hx : ∀ x ∈ xs, (1 ≤ x.2.1 ∧ x.2.1 ≤ 256) ∧ 1 ≤ x.2.2.1 ∧ x.2.2.1 ≤ 256 := fun x hm =>
        Classical.not_not.1 fun hn => hb ⟨x, hm, hn⟩
      refine ⟨.parameter, ?_⟩
      unfold encodeAll
      rw [withEncoded_mapM hx, ok_bind]
      unfold encodeImages
      rw [if_pos (by rw [List.length_map]; omega)]
  · unfold encodeAll; rw [bad xs h]; rfl
  · unfold encodeAll
    rw [withEncoded_mapM fun x hx => (h2 x hx).1, ok_bind]
    unfold encodeImages
    rw [if_neg (by rw [List.length_map]; omega)]
    dsimp only
    rw [dirLoop_panic _ (by
      intro f hf
      obtain ⟨x, hx, rfl⟩ := List.mem_map.1 hf
      exact (h2 x hx).2) _ _ (by rw [List.length_map]; omega) (by
      rw [List.length_map]
      unfold dataSize
      rw [List.map_map]
      exact h3)]
    rfl

/-! ## Writing an image and reading it back -/

theorem readU_ok {f : List UInt8} {p n : Nat} (h : p + n ≤ f.length) : Bmp.readU n ⟨f, p⟩ = .ok (field f p n, ⟨f, p + n⟩) := by
  unfold Bmp.readU
  rw [Cursor.readExact_ok (by exact h), ok_bind]
  rfl

theorem readEntry_ok {f : List UInt8} {p : Nat} (h : p + 16 ≤ f.length) (h1 : field f (p + 4) 2 ≤ 256) (h2 : field f (p + 6) 2 ≤ 256) :
    readEntry ⟨f, p⟩ = .ok (⟨field f p 1, field f (p + 1) 1, field f (p + 6) 2, field f (p + 8) 4, field f (p + 12) 4⟩, ⟨f, p + 16⟩) := by
  unfold readEntry
  rw [readU_ok (by omega), ok_bind]
  dsimp only
  rw [readU_ok (by omega), ok_bind]
  dsimp only
  rw [readU_ok (by omega), ok_bind]
  dsimp only
  rw [readU_ok (by omega), ok_bind]
  dsimp only
  rw [readU_ok (by omega), ok_bind]
  dsimp only
  rw [if_neg (by show ¬ field f (p + 4) 2 > 256; omega), readU_ok (by omega), ok_bind]
  dsimp only
  rw [if_neg (by show ¬ field f (p + 6) 2 > 256; omega), readU_ok (by omega), ok_bind]
  dsimp only
  rw [readU_ok (by omega), ok_bind]

/-- What this model assumes of the PNG encoder and decoder: an RGBA image that is encoded is decoded again to the same image, wherever in a
file it stands; the encoded form begins with the PNG signature, and it is not larger than 2^32 - 23 bytes. -/
def PngRoundtrip (P : Png) (png : List UInt8 → Nat → Nat → ExtendedColorType → R (List UInt8)) : Prop :=
  ∀ buf w h, 1 ≤ w → w ≤ 256 → 1 ≤ h → h ≤ 256 → buf.length = w * h * 4 →
    ∃ data, png buf w h .Rgba8 = .ok data ∧ data.take 8 = pngSignature ∧ 22 + data.length < 2 ^ 32 ∧
      ∀ pre : List UInt8, ∃ p, P.new ⟨pre ++ data, pre.length⟩ = .ok p ∧ P.dimensions p = (w, h) ∧ P.colorType p = .Rgba8 ∧
        ∀ zero, zero.length = buf.length → P.readImage p zero = .ok buf

theorem toy_roundtrip : PngRoundtrip toy toyEncode := by
  intro buf w h w1 w2 h1 h2 hb
  have hlen : buf.length ≤ 256 * 256 * 4 := by
    rw [hb]; exact Nat.mul_le_mul_right _ (Nat.mul_le_mul w2 h2)
  refine ⟨pngSignature ++ leBytes 2 w ++ leBytes 2 h ++ buf, if_pos rfl, ?_, ?_, fun pre => ?_⟩
  · rw [List.append_assoc, List.append_assoc]; exact List.take_left' (l₁ := pngSignature) rfl
  · simp [pngSignature]; omega
  · have hl : (pre ++ (pngSignature ++ leBytes 2 w ++ leBytes 2 h ++ buf)).length = pre.length + 12 + buf.length := by
      simp [pngSignature]; omega
    have f1 := field_at (pre ++ pngSignature) (leBytes 2 h ++ buf) 2 w (pos := pre.length + 8) (by simp [pngSignature])
    have f2 := field_at (pre ++ pngSignature ++ leBytes 2 w) buf 2 h (pos := pre.length + 8 + 2) (by simp [pngSignature])
    refine ⟨(w, h, buf), ?_, rfl, rfl, fun zero hz => ?_⟩
    · show (do
        let (_, c) ← Cursor.readExact ⟨pre ++ (pngSignature ++ leBytes 2 w ++ leBytes 2 h ++ buf), pre.length⟩ 8
        let (w, c) ← Bmp.readU 2 c
        let (h, c) ← Bmp.readU 2 c
        Except.ok (w, h, c.rest) : R _) = _
      rw [Cursor.readExact_ok (by dsimp only; omega), ok_bind]
      dsimp only
      rw [readU_ok (by omega), ok_bind]
      dsimp only
      rw [readU_ok (by omega), ok_bind]
      simp only [List.append_assoc] at f1 f2 ⊢
      rw [f1, f2]
      rw [Nat.mod_eq_of_lt (by omega), Nat.mod_eq_of_lt (by omega)]
      unfold Cursor.rest
      dsimp only
      have : pre ++ (pngSignature ++ (leBytes 2 w ++ (leBytes 2 h ++ buf))) = (pre ++ pngSignature ++ leBytes 2 w ++ leBytes 2 h) ++ buf := by
        simp only [List.append_assoc]
      rw [this, List.drop_left' (by simp [pngSignature])]
      rfl
    · show (if _ then _ else _) = _
      rw [if_pos (by dsimp only; omega), hz, List.take_length]

/-- **C74**: an RGBA image of 1 to 256 pixels a side written as ICO is read back as the same image (given a PNG codec that does so). -/
theorem C74_roundtrip {P : Png} {png : List UInt8 → Nat → Nat → ExtendedColorType → R (List UInt8)} (hP : PngRoundtrip P png)
    (buf : List UInt8) (w h : Nat) (hw : 1 ≤ w ∧ w ≤ 256) (hh : 1 ≤ h ∧ h ≤ 256) (hb : buf.length = w * h * 4) :
    ∃ file, writeImage png buf w h .Rgba8 = .ok file ∧ decode P file = .ok (w, h, .Rgba8, buf) := by
  obtain ⟨data, e1, e2, e3, e4⟩ := hP buf w h hw.1 hw.2 hh.1 hh.2 hb
  have hlen : w * h ≤ 256 * 256 := Nat.mul_le_mul hw.2 hh.2
  have hd8 : 8 ≤ data.length := by
    have : (data.take 8).length = 8 := by rw [e2]; rfl
    rw [List.length_take] at this
    omega
  obtain ⟨file, f1, f2, f3, f4, f5⟩ := C74_layout [(data, w, h, .Rgba8)] (by simp) (by simp; omega) (by simp [Image.total]; omega)
  have f6 := f5 0 (by simp)
  simp only [List.getElem_cons_zero] at f6
  have hfile : file = iconDir 1 ++ dirEntry (w % 256) (h % 256) .Rgba8 22 data.length ++ data := by
    have henc := encodeImages_ok (fs := [⟨data, w % 256, h % 256, .Rgba8⟩]) (by simp) (by simp [dataSize]; omega)
    have : encodeAll [(data, w, h, .Rgba8)] = encodeImages [⟨data, w % 256, h % 256, .Rgba8⟩] := by
      unfold encodeAll
      rw [withEncoded_mapM (by simp; omega), ok_bind]
      rfl
    rw [this, henc] at f1
    cases f1
    simp [entriesBytes]
  have hwi : writeImage png buf w h .Rgba8 = .ok file := by
    unfold writeImage
    have hbs : ExtendedColorType.bufferSize .Rgba8 w h = .ok buf.length := by
      unfold ExtendedColorType.bufferSize
      have a1 : mulC 64 w (ExtendedColorType.bitsPerPixel .Rgba8) = .ok (w * 32) := if_pos (by show w * 32 < _; omega)
      have a2 : addC 64 (w * 32) 7 = .ok (w * 32 + 7) := if_pos (by omega)
      have a3 : (w * 32 + 7) / 8 = w * 4 := by omega
      rw [a1, ok_bind, a2, ok_bind, a3]
      have a4 : w * 4 * h = w * h * 4 := by rw [Nat.mul_right_comm]
      unfold satMul
      dsimp only
      rw [a4, hb, Nat.min_eq_left (by omega)]
    rw [hbs, ok_bind, decide_eq_true rfl, assertR_true, ok_bind]
    unfold Frame.asPng
    rw [e1, ok_bind, withEncoded_ok (x := (data, w, h, .Rgba8)) (by dsimp only; omega), ok_bind]
    rw [← f1]
    unfold encodeAll
    rw [withEncoded_mapM (by simp; omega), ok_bind]
    rfl
  refine ⟨file, hwi, ?_⟩
  have hpre : (iconDir 1 ++ dirEntry (w % 256) (h % 256) .Rgba8 22 data.length).length = 22 := by
    rw [List.length_append, length_dirEntry]; simp [iconDir]
  have hfl : file.length = 22 + data.length := by rw [hfile, List.length_append, hpre]
  have he := entryAt_dirEntry (i := 0) (pre := iconDir 1) hfile (by simp [iconDir])
  rw [Nat.mod_mod, Nat.mod_mod, Nat.mod_eq_of_lt (show data.length < 2 ^ 32 by omega)] at he
  obtain ⟨p, p1, p2, p3, p4⟩ := e4 (iconDir 1 ++ dirEntry (w % 256) (h % 256) .Rgba8 22 data.length)
  rw [← hfile, hpre] at p1
  have hnew : Decoder.new P file = .ok ⟨entryAt file 0, .png p⟩ := by
    have c1 : field file 10 2 = 0 := by
      rw [hfile]
      have := field_at (iconDir 1 ++ leBytes 1 (w % 256) ++ leBytes 1 (h % 256) ++ leBytes 1 0 ++ leBytes 1 0)
        (leBytes 2 (ExtendedColorType.bitsPerPixel .Rgba8) ++ leBytes 4 data.length ++ leBytes 4 22 ++ data) 2 0 (pos := 10) (by simp [iconDir])
      simp only [dirEntry, List.append_assoc] at this ⊢
      exact this
    have c2 : field file 12 2 = 32 := congrArg DirEntry.bitsPerPixel he
    have hent : readEntries ⟨file, 0⟩ = .ok ([entryAt file 0], ⟨file, 22⟩) := by
      unfold readEntries
      rw [readU_ok (by omega), ok_bind]
      dsimp only
      rw [readU_ok (by omega), ok_bind]
      dsimp only
      rw [readU_ok (by omega), ok_bind]
      dsimp only
      have c3 : field file (0 + 2 + 2) 2 = 1 := f4
      rw [c3]
      have hr := readEntry_ok (f := file) (p := 6) (by omega) (by rw [c1]; omega) (by rw [c2]; omega)
      unfold forRange forRange
      simp only [Nat.reduceAdd, ok_bind, hr]
      rfl
    unfold Decoder.new
    rw [hent, ok_bind]
    dsimp only
    have hb1 : bestEntry [entryAt file 0] = .ok (entryAt file 0) := rfl
    rw [hb1, ok_bind]
    unfold DirEntry.decoder DirEntry.isPng
    have ho : (entryAt file 0).imageOffset = 22 := congrArg DirEntry.imageOffset he
    rw [ho]
    have hs1 : Cursor.seekStart ⟨file, 22⟩ 22 = .ok (22, ⟨file, 22⟩) := rfl
    have hsig : (file.drop 22).take 8 = pngSignature := by
      rw [hfile, List.drop_left' hpre, e2]
    have hre : Cursor.readExact ⟨file, 22⟩ 8 = .ok (pngSignature, ⟨file, 30⟩) := by
      rw [Cursor.readExact_ok (by dsimp only; omega)]
      dsimp only
      rw [hsig]
    rw [hs1, ok_bind]
    dsimp only
    rw [hre, ok_bind]
    dsimp only
    rw [ok_bind]
    dsimp only
    have hs2 : Cursor.seekStart ⟨file, 30⟩ 22 = .ok (22, ⟨file, 22⟩) := rfl
    rw [hs2, ok_bind, if_pos (decide_eq_true rfl), p1]
    rfl
  unfold decode
  rw [hnew, ok_bind]
  have hcol : Decoder.colorType (P := P) ⟨entryAt file 0, .png p⟩ = .Rgba8 := p3
  have hdim : Decoder.dimensions (P := P) ⟨entryAt file 0, .png p⟩ = (w, h) := p2
  rw [hcol, hdim]
  have htb : totalBytes w h ColorType.Rgba8.bytesPerPixel = buf.length := by
    rw [hb]
    unfold totalBytes satMul
    show min (w * h * 4) _ = _
    rw [Nat.min_eq_left]
    omega
  dsimp only
  rw [htb]
  have hr := readImage_png (P := P) (e := entryAt file 0) (p := p) (buf := List.replicate buf.length 0) (out := buf)
  rw [hr.2, ok_bind]
  rw [p2, p3, he]
  dsimp only
  rw [htb, List.length_replicate]
  refine ⟨rfl, hd8, ?_, rfl, p4 _ (List.length_replicate ..)⟩
  rw [matches_iff]
  dsimp only
  unfold sizeByte
  constructor <;> split <;> omega

/-- The hypotheses are met by the toy PNG codec and an image of 256 × 1 pixels, whose width is stored as 0. -/
example : ∃ file, writeImage toyEncode (List.replicate 1024 7) 256 1 .Rgba8 = .ok file ∧
    decode toy file = .ok (256, 1, .Rgba8, List.replicate 1024 7) :=
  C74_roundtrip toy_roundtrip _ _ _ (by omega) (by omega) (List.length_replicate ..)

end Ico
end Verif
